import Verif.Props.Machine
import Mathlib.Analysis.SpecialFunctions.Trigonometric.Deriv

/-!
# Properties of the physics formulas (C49, C50)
-/

set_option linter.unusedSectionVars false

namespace Verif.Props
open Verif.Spec Verif.Asrt Verif.Mch

/-- the library uses the real sine, cosine and square root -/
structure RealFuns (L : MathLib ℝ) : Prop where
  sin : L.sin = Real.sin
  cos : L.cos = Real.cos
  sqrt : L.sqrt = Real.sqrt

theorem realLib_funs : RealFuns realLib := ⟨rfl, rfl, rfl⟩

/-! ## C49 -/

/-- C49: `drfvolt_rf1` is the derivative of `rfvolt_rf1` in the phase. -/
theorem C49_rf1 (L : MathLib ℝ) (hL : RealFuns L) (v1 bdot radius rho q φ : ℝ) :
    HasDerivAt (fun x => rfvoltRf1 L x v1 bdot radius rho q) (drfvoltRf1 L φ v1) φ := by
  unfold rfvoltRf1 drfvoltRf1
  rw [hL.sin, hL.cos]
  exact ((Real.hasDerivAt_sin φ).const_mul v1).sub_const _

/-- C49: `drf_voltage` is the derivative of `rf_voltage` in the phase. -/
theorem C49_both_harmonics (L : MathLib ℝ) (hL : RealFuns L) (v1 v2 bdot h phi12 radius rho q φ : ℝ) :
    HasDerivAt (fun x => rfVoltage L x v1 v2 bdot h phi12 radius rho q) (drfVoltage L φ v1 v2 h phi12) φ := by
  unfold rfVoltage drfVoltage
  rw [hL.sin, hL.cos]
  have h1 : HasDerivAt (fun x : ℝ => h * (x - phi12)) (h * 1) φ := ((hasDerivAt_id φ).sub_const phi12).const_mul h
  have h2 := h1.sin.const_mul v2
  have h3 := (((Real.hasDerivAt_sin φ).const_mul v1).add h2).sub_const (L.pi * 2 * radius * rho * bdot * npSign q)
  refine h3.congr_deriv ?_
  ring

/-- C49: the functions handed to Newton in `values_at_turns` and `find_synch_phase_mch` are function and derivative. -/
theorem C49_machine (L : MathLib ℝ) (hL : RealFuns L) (p : MachinePars ℝ) (t φ : ℝ) :
    HasDerivAt (rfvoltRf1Mch L p t) (drfvoltRf1Mch L p t φ) φ ∧ HasDerivAt (rfVoltageMch L p t) (drfVoltageMch L p t φ) φ :=
  ⟨C49_rf1 L hL _ _ _ _ _ _, C49_both_harmonics L hL _ _ _ _ _ _ _ _ _⟩

/-- value of `phase_low` on arrays given as functions of the turn -/
theorem phaseLow_eq (L : MathLib ℝ) (φ len : ℝ) (N : ℕ) (v1 v2 p0 : ℕ → ℝ) (h phi12 : ℝ) (hh : h ≠ 0) (turn ref : ℕ)
    (h1 : turn < N) (h2 : ref < N) :
    phaseLow L φ len (tab N v1) (tab N v2) (tab N p0) h phi12 turn ref = .ok
      (v1 ref * (L.cos (φ + len) - L.cos φ)
        + v2 ref * (L.cos (h * (φ + len - phi12)) - L.cos (h * (φ - phi12))) / h
        + len * rfVoltageAtPhase L (p0 turn) (v1 turn) (v2 turn) h phi12) := by
  unfold phaseLow
  rw [rd_tab _ h2, bind_ok, rd_tab _ h2, bind_ok, fdiv_ok hh, bind_ok, rd_tab _ h1, bind_ok, rd_tab _ h1, bind_ok,
    rd_tab _ h1, bind_ok]; rfl

theorem dphaseLow_eq (L : MathLib ℝ) (φ len : ℝ) (N : ℕ) (v1 v2 : ℕ → ℝ) (h phi12 : ℝ) (turn : ℕ) (h1 : turn < N) :
    dphaseLow L φ len (tab N v1) (tab N v2) h phi12 turn = .ok
      (-1 * v2 turn * (L.sin (h * (φ + len - phi12)) - L.sin (h * (φ - phi12)))
        - v1 turn * (L.sin (φ + len) - L.sin φ)) := by
  unfold dphaseLow
  rw [rd_tab _ h1, bind_ok, rd_tab _ h1, bind_ok]; rfl

/-- C49, `_partial`: `dphase_low` is the derivative of `phase_low` when the voltages at the turn and at the reference index
are equal (in particular when they are the same turn, or the voltages are constant).  Missing: differing voltages
(`C49_violated_phase_low`). -/
theorem C49_phase_low_partial (L : MathLib ℝ) (hL : RealFuns L) (len : ℝ) (N : ℕ) (v1 v2 p0 : ℕ → ℝ) (h phi12 : ℝ)
    (hh : h ≠ 0) (turn ref : ℕ) (h1 : turn < N) (h2 : ref < N) (e1 : v1 ref = v1 turn) (e2 : v2 ref = v2 turn) :
    ∃ f f' : ℝ → ℝ,
      (∀ φ, phaseLow L φ len (tab N v1) (tab N v2) (tab N p0) h phi12 turn ref = .ok (f φ)) ∧
      (∀ φ, dphaseLow L φ len (tab N v1) (tab N v2) h phi12 turn = .ok (f' φ)) ∧ ∀ φ, HasDerivAt f (f' φ) φ := by
  refine ⟨_, _, fun φ => phaseLow_eq L φ len N v1 v2 p0 h phi12 hh turn ref h1 h2,
    fun φ => dphaseLow_eq L φ len N v1 v2 h phi12 turn h1, fun φ => ?_⟩
  rw [hL.cos, hL.sin, e1, e2]
  have a1 : HasDerivAt (fun x : ℝ => x + len) 1 φ := (hasDerivAt_id φ).add_const len
  have a2 : HasDerivAt (fun x : ℝ => h * (x + len - phi12)) (h * 1) φ := (a1.sub_const phi12).const_mul h
  have a3 : HasDerivAt (fun x : ℝ => h * (x - phi12)) (h * 1) φ := ((hasDerivAt_id φ).sub_const phi12).const_mul h
  have b1 := ((a1.cos).sub (Real.hasDerivAt_cos φ)).const_mul (v1 turn)
  have b2 := (((a2.cos).sub a3.cos).const_mul (v2 turn)).div_const h
  have b3 := (b1.add b2).add_const (len * rfVoltageAtPhase L (p0 turn) (v1 turn) (v2 turn) h phi12)
  refine b3.congr_deriv ?_
  field_simp
  ring

/-- C49 fails for `phase_low`/`dphase_low` when the voltage changes between the turn of the fit and the reference index:
with voltage 0 at index 0 and 1 at index 1 the function is constant, the claimed derivative is not zero. -/
theorem C49_violated_phase_low (L : MathLib ℝ) (hL : RealFuns L) :
    ∃ f f' : ℝ → ℝ,
      (∀ φ, phaseLow L φ Real.pi [0, 1] [0, 0] [0, 0] 1 0 1 0 = .ok (f φ)) ∧
      (∀ φ, dphaseLow L φ Real.pi [0, 1] [0, 0] 1 0 1 = .ok (f' φ)) ∧ ¬ HasDerivAt f (f' (Real.pi / 2)) (Real.pi / 2) := by
  have t1 : ([0, 1] : List ℝ) = tab 2 fun i => (i : ℝ) := by simp [tab, List.range_succ]
  have t2 : ([0, 0] : List ℝ) = tab 2 fun _ => 0 := by simp [tab, List.range_succ]
  rw [t1, t2]
  refine ⟨_, _, fun φ => phaseLow_eq L φ Real.pi 2 _ _ _ 1 0 one_ne_zero 1 0 (by omega) (by omega),
    fun φ => dphaseLow_eq L φ Real.pi 2 _ _ 1 0 1 (by omega), fun hd => ?_⟩
  have hc : HasDerivAt (fun φ : ℝ => ((0 : ℕ) : ℝ) * (L.cos (φ + Real.pi) - L.cos φ)
        + 0 * (L.cos (1 * (φ + Real.pi - 0)) - L.cos (1 * (φ - 0))) / 1
        + Real.pi * rfVoltageAtPhase L 0 ((1 : ℕ) : ℝ) 0 1 0) 0 (Real.pi / 2) := by
    have : (fun φ : ℝ => ((0 : ℕ) : ℝ) * (L.cos (φ + Real.pi) - L.cos φ)
        + 0 * (L.cos (1 * (φ + Real.pi - 0)) - L.cos (1 * (φ - 0))) / 1
        + Real.pi * rfVoltageAtPhase L 0 ((1 : ℕ) : ℝ) 0 1 0) = fun _ => Real.pi * rfVoltageAtPhase L 0 ((1 : ℕ) : ℝ) 0 1 0 := by
      funext φ; simp
    rw [this]
    exact hasDerivAt_const _ _
  have := hd.unique hc
  rw [hL.sin] at this
  simp [Real.sin_add_pi] at this

example (φ : ℝ) : HasDerivAt (rfVoltageMch realLib realPars 3) (drfVoltageMch realLib realPars 3 φ) φ :=
  (C49_machine realLib realLib_funs realPars 3 φ).2

/-! ## C50 -/

/-- C50: energy, momentum and rest mass: `E² = p² + m²` with `p = q B ρ c`; the velocity exists, lies strictly between 0
and 1 and is `|p| / E`. -/
theorem C50_energy_momentum (L : MathLib ℝ) (hL : RealFuns L) (q b0 rho m : ℝ) (hp : q * b0 * rho * L.c ≠ 0) (hm : 0 < m) :
    bToE L q b0 rho m ^ 2 = (q * b0 * rho * L.c) ^ 2 + m ^ 2 ∧ m < bToE L q b0 rho m ∧
    ∃ β, lorentzBeta L m (bToE L q b0 rho m) = .ok β ∧ 0 < β ∧ β < 1 ∧ β = |q * b0 * rho * L.c| / bToE L q b0 rho m := by
  set P := q * b0 * rho * L.c with hP
  have hE2 : bToE L q b0 rho m ^ 2 = P ^ 2 + m ^ 2 := by
    unfold bToE
    rw [hL.sqrt, Real.sq_sqrt (by positivity)]
  have hP2 : 0 < P ^ 2 := by positivity
  have hE0 : 0 ≤ bToE L q b0 rho m := by unfold bToE; rw [hL.sqrt]; exact Real.sqrt_nonneg _
  have hEm : m < bToE L q b0 rho m := by
    by_contra hn
    push Not at hn
    nlinarith
  have hEpos : 0 < bToE L q b0 rho m := hm.trans hEm
  have hβ : L.sqrt (1 - (m / bToE L q b0 rho m) ^ 2) = |P| / bToE L q b0 rho m := by
    rw [hL.sqrt]
    have : 1 - (m / bToE L q b0 rho m) ^ 2 = (|P| / bToE L q b0 rho m) ^ 2 := by
      rw [div_pow, div_pow, sq_abs]
      field_simp
      linarith
    rw [this, Real.sqrt_sq (by positivity)]
  refine ⟨hE2, hEm, _, lorentzBeta_ok L m hEpos.ne', ?_, ?_, hβ⟩
  · rw [hβ]; have := abs_pos.mpr hp; positivity
  · rw [hβ, div_lt_one hEpos]
    have : |P| ^ 2 < bToE L q b0 rho m ^ 2 := by rw [sq_abs, hE2]; nlinarith
    exact lt_of_pow_lt_pow_left₀ 2 hE0 this

/-- C50: the velocity increases with the energy. -/
theorem C50_beta_monotone (L : MathLib ℝ) (hL : RealFuns L) (m e₁ e₂ : ℝ) (hm : 0 < m) (h1 : m ≤ e₁) (h2 : e₁ < e₂) :
    ∃ β₁ β₂, lorentzBeta L m e₁ = .ok β₁ ∧ lorentzBeta L m e₂ = .ok β₂ ∧ β₁ < β₂ := by
  have p1 : 0 < e₁ := by linarith
  have p2 : 0 < e₂ := by linarith
  refine ⟨_, _, lorentzBeta_ok L m p1.ne', lorentzBeta_ok L m p2.ne', ?_⟩
  rw [hL.sqrt]
  have a1 : m / e₂ < m / e₁ := div_lt_div_of_pos_left hm p1 h2
  have a0 : 0 < m / e₂ := div_pos hm p2
  have a2 : m / e₁ ≤ 1 := (div_le_one p1).mpr h1
  apply Real.sqrt_lt_sqrt
  · nlinarith
  · nlinarith

/-- C50: the momentum-program machine uses the same relations: its velocity is the Lorentz velocity of its energy, its
gamma is energy over rest energy, and its magnetic field gives back the energy through `b_to_e`. -/
theorem C50_programs_machine (L : MathLib ℝ) (hL : RealFuns L) (P m rho q : ℝ) (hP : 0 < P) (hm : 0 < m) (hrho : rho ≠ 0)
    (hq : q ≠ 0) (hc : L.c ≠ 0) :
    ∃ β γ B, pmBeta L P m = .ok β ∧ lorentzBeta L m (pmEnergy L P m) = .ok β ∧ β = P / pmEnergy L P m ∧
      pmGamma L P m = .ok γ ∧ γ = pmEnergy L P m / m ∧ pmBfield L P rho q = .ok B ∧
      bToE L q B rho m = pmEnergy L P m := by
  have hs : 0 < P ^ 2 + m ^ 2 := by positivity
  have hE : 0 < pmEnergy L P m := by unfold pmEnergy; rw [hL.sqrt]; exact Real.sqrt_pos.mpr hs
  have hE2 : pmEnergy L P m ^ 2 = P ^ 2 + m ^ 2 := by unfold pmEnergy; rw [hL.sqrt, Real.sq_sqrt hs.le]
  have hb : L.sqrt (1 - (m / pmEnergy L P m) ^ 2) = P / pmEnergy L P m := by
    rw [hL.sqrt]
    have : 1 - (m / pmEnergy L P m) ^ 2 = (P / pmEnergy L P m) ^ 2 := by
      rw [div_pow, div_pow]
      field_simp
      linarith
    rw [this, Real.sqrt_sq (by positivity)]
  have hb' : L.sqrt (1 / (1 + (m / P) ^ 2)) = P / pmEnergy L P m := by
    rw [hL.sqrt]
    have : 1 / (1 + (m / P) ^ 2) = (P / pmEnergy L P m) ^ 2 := by
      rw [div_pow, div_pow, hE2]
      field_simp
    rw [this, Real.sqrt_sq (by positivity)]
  refine ⟨P / pmEnergy L P m, pmEnergy L P m / m, P / (rho * q) / L.c, ?_, ?_, rfl, ?_, rfl, ?_, ?_⟩
  · unfold pmBeta
    rw [fdiv_ok hP.ne', bind_ok, fdiv_ok (by positivity), bind_ok, hb']; rfl
  · rw [lorentzBeta_ok L m hE.ne', hb]
  · unfold pmGamma
    rw [fdiv_ok hm.ne', bind_ok]
    have : L.sqrt (1 + (P / m) ^ 2) = pmEnergy L P m / m := by
      rw [hL.sqrt]
      have : 1 + (P / m) ^ 2 = (pmEnergy L P m / m) ^ 2 := by
        rw [div_pow, div_pow, hE2]
        field_simp
        ring
      rw [this, Real.sqrt_sq (by positivity)]
    rw [this]; rfl
  · unfold pmBfield
    rw [fdiv_ok (mul_ne_zero hrho hq), bind_ok, fdiv_ok hc]
  · unfold bToE pmEnergy
    congr 2
    field_simp

example : ∃ β, lorentzBeta realLib 1 (bToE realLib 1 1 1 1) = .ok β ∧ 0 < β ∧ β < 1 := by
  obtain ⟨_, _, β, h1, h2, h3, _⟩ := C50_energy_momentum realLib realLib_funs 1 1 1 1 (by unfold realLib; norm_num) one_pos
  exact ⟨β, h1, h2, h3⟩

end Verif.Props

import Verif.Props.Newton
import Verif.Lemmas.NewtonResidual
import Verif.Props.Programs

/-!
# The synchronous phases and energies for arbitrary voltages (C85, C86)

One or two rf systems, constant or ramped voltages.  Nothing is assumed but that the turn arrays could be computed.
-/

namespace Verif.Props
open Verif.Spec Verif.Asrt Verif.Mch Set

/-- how strongly the voltages bend: amplitude of the first system, and of the second times the square of the harmonic ratio -/
noncomputable def bend (p : MachinePars ℝ) (t : ℝ) : ℝ := |p.vrf1 + p.vrf1dot * t| + p.hRatio ^ 2 * |p.vrf2 + p.vrf2dot * t|

theorem bend_nonneg (p : MachinePars ℝ) (t : ℝ) : 0 ≤ bend p t := by unfold bend; positivity

/-- what a search of the code leaves -/
theorem synch_residual {L : MathLib ℝ} (hL : CodeLib L) {p : MachinePars ℝ} {t x y : ℝ} (h : SynchPhaseFrom L p t x y) :
    |volt L p t y - rampVolt L p| ≤ bend p t / 2 * (1 / 10000) ^ 2 := by
  unfold SynchPhaseFrom volt at h
  rw [hL.newton, hL.sin, hL.cos] at h
  have := newton_residual (bend_nonneg p t) (fun x => volt_deriv _ _ _ _ _ x) (fun x y => volt_deriv_lipschitz _ _ _ _ x y) _ _ h
  unfold volt
  rw [hL.sin]
  exact this

/-- every phase comes from a search -/
theorem all_synch {L : MathLib ℝ} {p : MachinePars ℝ} {i0 A : ℕ} {t ph e b : ℕ → ℝ} (h : TurnLaws L p i0 0 A t ph e b) {i : ℕ} (hi : i ≤ A) :
    ∃ x, SynchPhaseFrom L p (t i) x (ph i) := by
  obtain ⟨x0, _, hx0⟩ := h.phase0
  rcases Nat.lt_trichotomy i i0 with hlt | rfl | hgt
  · exact ⟨_, h.phaseDown i (Nat.zero_le _) hlt⟩
  · exact ⟨_, hx0⟩
  · have := h.phaseUp (i - 1) (by omega) (by omega)
    rw [show i - 1 + 1 = i by omega] at this
    exact ⟨_, this⟩

/-- C85: at every turn the voltage at the synchronous phase is the voltage the field ramp needs, up to 5e-9 of the amplitudes (that of the
second system times the square of the harmonic ratio); for one or two systems, constant or ramped. -/
theorem C85_balance (L : MathLib ℝ) (hL : CodeLib L) (a : MachineArgs ℝ) (o : MachineOut ℝ) (h : valuesAtTurns L a = .ok o) :
    ∃ (p : MachinePars ℝ) (A : ℕ) (t ph : ℕ → ℝ), assertMachineInput a = .ok p ∧ (A : Int) = (p.nprofiles - 1) * p.dturns ∧
      o.time = tab (A + 1) t ∧ o.phi0 = tab (A + 1) ph ∧
      ∀ i, i ≤ A → |volt L p (t i) (ph i) - rampVolt L p| ≤
        (|p.vrf1 + p.vrf1dot * t i| + p.hRatio ^ 2 * |p.vrf2 + p.vrf2dot * t i|) * (5 / 10 ^ 9) := by
  obtain ⟨p, hp, h⟩ := bind_inv h
  obtain ⟨_, _, _, _, _, _, _, _, hd, hr, _⟩ := accepted_pars hp
  obtain ⟨i0, A, t, ph, e, b, d, eta, coef, om, h1, h2, h3, h4, h5⟩ := valuesAtTurnsOf_inv hd hr h
  refine ⟨p, A, t, ph, hp, h2, h4.time, h4.phi0, fun i hi => ?_⟩
  obtain ⟨x, hx⟩ := all_synch h4.laws hi
  have := synch_residual hL hx
  unfold bend at this
  linarith

/-- C85: wherever the slope of the voltage is at least a ten-thousandth of the amplitudes, a phase at which the voltage follows the ramp
exactly is within 0.0001 of the phase found; for one or two systems, constant or ramped.  `_partial`: at smaller slopes, next to an
extremum of the voltage, there may be no such phase near. -/
theorem C85_near_root_partial (L : MathLib ℝ) (hL : CodeLib L) (a : MachineArgs ℝ) (o : MachineOut ℝ) (h : valuesAtTurns L a = .ok o) :
    ∃ (p : MachinePars ℝ) (A : ℕ) (t ph : ℕ → ℝ), assertMachineInput a = .ok p ∧ (A : Int) = (p.nprofiles - 1) * p.dturns ∧
      o.time = tab (A + 1) t ∧ o.phi0 = tab (A + 1) ph ∧
      ∀ i, i ≤ A →
        (|p.vrf1 + p.vrf1dot * t i| + p.hRatio ^ 2 * |p.vrf2 + p.vrf2dot * t i|) / 10000 ≤
          |(p.vrf1 + p.vrf1dot * t i) * Real.cos (ph i)
            + p.hRatio * (p.vrf2 + p.vrf2dot * t i) * Real.cos (p.hRatio * (ph i - p.phi12))| →
        ∃ φ, volt L p (t i) φ = rampVolt L p ∧ |φ - ph i| ≤ 1 / 10000 := by
  obtain ⟨p, hp, h⟩ := bind_inv h
  obtain ⟨_, _, _, _, _, _, _, _, hd, hr, _⟩ := accepted_pars hp
  obtain ⟨i0, A, t, ph, e, b, d, eta, coef, om, h1, h2, h3, h4, h5⟩ := valuesAtTurnsOf_inv hd hr h
  refine ⟨p, A, t, ph, hp, h2, h4.time, h4.phi0, fun i hi hs => ?_⟩
  obtain ⟨x, hx⟩ := all_synch h4.laws hi
  have := synch_residual hL hx
  unfold volt at this ⊢
  rw [hL.sin] at this ⊢
  obtain ⟨z, hz, hn⟩ := root_near (tol := 1 / 10000) (by norm_num) (fun x => volt_deriv _ _ _ _ _ x)
    (fun x y => volt_deriv_lipschitz _ _ _ _ x y) this (by linarith)
  exact ⟨z, sub_eq_zero.mp hz, hn⟩

/-- steps that differ from `w` by at most `B` each, away from `i0` in both directions -/
theorem drift_apart {e : ℕ → ℝ} {i0 A : ℕ} {w B : ℝ} (hst : ∀ i, i < A → |e (i + 1) - e i - w| ≤ B) :
    ∀ i, i ≤ A → i0 ≤ A → |e i - (e i0 + ((i : ℝ) - i0) * w)| ≤ |(i : ℝ) - i0| * B := by
  have up : ∀ j k : ℕ, j + k ≤ A → |e (j + k) - e j - (k : ℝ) * w| ≤ (k : ℝ) * B := by
    intro j k
    induction k with
    | zero => intro _; simp
    | succ k ih =>
      intro hk
      have x := hst (j + k) (by omega)
      have y := ih (by omega)
      have : e (j + (k + 1)) - e j - ((k + 1 : ℕ) : ℝ) * w = (e (j + k + 1) - e (j + k) - w) + (e (j + k) - e j - (k : ℝ) * w) := by
        rw [← add_assoc]; push_cast; ring
      rw [this]
      push_cast
      linarith [abs_add_le (e (j + k + 1) - e (j + k) - w) (e (j + k) - e j - (k : ℝ) * w)]
  intro i hiA hi0
  rcases le_total i0 i with h' | h'
  · obtain ⟨k, rfl⟩ := Nat.exists_eq_add_of_le h'
    have := up i0 k hiA
    push_cast
    rw [show (i0 : ℝ) + k - i0 = k by ring, abs_of_nonneg (Nat.cast_nonneg k : (0 : ℝ) ≤ k),
      show e (i0 + k) - (e i0 + k * w) = e (i0 + k) - e i0 - k * w by ring]
    exact this
  · obtain ⟨k, rfl⟩ := Nat.exists_eq_add_of_le h'
    have := up i k hi0
    push_cast
    rw [show (i : ℝ) - (i + k) = -k by ring, abs_neg, abs_of_nonneg (Nat.cast_nonneg k : (0 : ℝ) ≤ k),
      show e i - (e (i + k) + -k * w) = -(e (i + k) - e i - k * w) by ring, abs_neg]
    exact this

/-- C86: the energies of all turns follow the field ramp.  Every turn between the reference frame and a turn adds at most the charge times
5e-9 times the greatest amplitude (that of the second system times the square of the harmonic ratio) to the difference; for one or two
systems, constant or ramped. -/
theorem C86_energy (L : MathLib ℝ) (hL : CodeLib L) (a : MachineArgs ℝ) (o : MachineOut ℝ) (h : valuesAtTurns L a = .ok o) :
    ∃ (p : MachinePars ℝ) (i0 A : ℕ) (e : ℕ → ℝ), assertMachineInput a = .ok p ∧ (i0 : Int) = p.machineRefFrame * p.dturns ∧
      (A : Int) = (p.nprofiles - 1) * p.dturns ∧ o.e0 = tab (A + 1) e ∧
      ∀ V, (∀ v1 ∈ o.vrf1AtTurn, ∀ v2 ∈ o.vrf2AtTurn, |v1| + p.hRatio ^ 2 * |v2| ≤ V) →
        ∀ i, i ≤ A → |e i - (fieldEnergy L.c p + ((i : ℝ) - i0) * (p.q * rampVolt L p))| ≤
          |(i : ℝ) - i0| * (|p.q| * V * (5 / 10 ^ 9)) := by
  obtain ⟨p, hp, h⟩ := bind_inv h
  obtain ⟨_, _, _, _, _, _, _, _, hd, hr, _⟩ := accepted_pars hp
  obtain ⟨i0, A, t, ph, e, b, d, eta, coef, om, h1, h2, h3, h4, h5⟩ := valuesAtTurnsOf_inv hd hr h
  refine ⟨p, i0, A, e, hp, h1, h2, h4.e0, fun V hV i hi => ?_⟩
  have e0 : e i0 = fieldEnergy L.c p := by rw [h4.laws.energy0, hL.sqrt]; rfl
  rw [← e0]
  refine drift_apart (fun j hj => ?_) i hi h3
  rw [h4.laws.energy j (Nat.zero_le _) hj, add_sub_cancel_left, ← mul_sub, abs_mul, mul_assoc]
  refine mul_le_mul_of_nonneg_left ?_ (abs_nonneg _)
  obtain ⟨x, hx⟩ := all_synch h4.laws (i := j + 1) (by omega)
  have hb : bend p (t (j + 1)) ≤ V := by
    refine hV _ ?_ _ ?_
    · rw [h4.vrf1]; exact List.mem_iff_getElem?.mpr ⟨j + 1, by rw [getElem?_tab, if_pos (by omega)]⟩
    · rw [h4.vrf2]; exact List.mem_iff_getElem?.mpr ⟨j + 1, by rw [getElem?_tab, if_pos (by omega)]⟩
  have := synch_residual hL hx
  linarith

/-- the searches at constant field stay at the first guess if the second system vanishes there -/
theorem flat_stays {L : MathLib ℝ} (hL : CodeLib L) {p : MachinePars ℝ} (hb : p.bdot = 0)
    (h12 : Real.sin (p.hRatio * (firstGuess L p (refEnergy L p) - p.phi12)) = 0) :
    Stays L p (fun x => x = firstGuess L p (refEnergy L p)) 0 := by
  have hw : rampVolt L p = 0 := by unfold rampVolt; rw [hb]; ring
  have hg : Real.sin (firstGuess L p (refEnergy L p)) = 0 := by
    unfold firstGuess; split
    · exact Real.sin_zero
    · rw [hL.pi]; exact Real.sin_pi
  have hv : ∀ t, volt L p t (firstGuess L p (refEnergy L p)) = 0 := by
    intro t; unfold volt; rw [hL.sin, h12, hg]; ring
  have hnow : ∀ (f f' : ℝ → ℝ) x, f x = 0 → newtonOfTheCode f f' x = some x := by
    intro f f' x h
    unfold newtonOfTheCode scipyNewton
    rw [if_pos h]
  refine ⟨fun x hx => ?_, hL.c, ⟨_, ?_, rfl⟩, ?_, ?_⟩
  · rw [hL.sqrt]; exact Real.sqrt_pos.mpr hx
  · unfold FirstSystemFrom
    rw [hL.newton]
    refine hnow _ _ _ ?_
    rw [hL.sin, hg, hw]; ring
  · rintro t x rfl
    refine ⟨_, ?_, rfl⟩
    unfold SynchPhaseFrom
    rw [hL.newton]
    refine hnow _ _ _ ?_
    rw [hv, hw]; ring
  · rintro t y rfl
    rw [hv, mul_zero, abs_zero]

/-- C85, at constant field: with one or two rf systems, constant or ramped, where the second vanishes at the zero crossing of the first at
which the search starts, all arrays are computed. -/
theorem C85_defined_flat_partial (L : MathLib ℝ) (hL : CodeLib L) (a : MachineArgs ℝ) (p : MachinePars ℝ)
    (hp : assertMachineInput a = .ok p) (hb : p.bdot = 0) (hq : p.q ≠ 0)
    (h12 : Real.sin (p.hRatio * ((if 0 < p.q * (p.transGamma - fieldEnergy L.c p / p.eRest) then 0 else Real.pi) - p.phi12)) = 0)
    (href : p.machineRefFrame < p.nprofiles) (hgt : p.transGamma ≠ 0) : ∃ o, valuesAtTurns L a = .ok o := by
  obtain ⟨_, _, _, _, _, _, _, _, hd, hr, hm, hRad, hBend, hB0⟩ := accepted_pars hp
  have h0 : 0 ≤ p.machineRefFrame * p.dturns := Int.mul_nonneg hr hd.le
  have h1 : 0 ≤ (p.nprofiles - 1) * p.dturns := Int.mul_nonneg (by omega) hd.le
  have h2 : p.machineRefFrame * p.dturns ≤ (p.nprofiles - 1) * p.dturns :=
    Int.mul_le_mul_of_nonneg_right (by omega) hd.le
  have e : refEnergy L p = fieldEnergy L.c p := by unfold refEnergy fieldEnergy; rw [hL.sqrt]
  have hS := flat_stays hL (p := p) hb (by unfold firstGuess; rw [e, hL.pi]; exact h12)
  obtain ⟨o, ho⟩ := valuesAtTurnsOf_good hS hm (i0 := (p.machineRefFrame * p.dturns).toNat)
    (A := ((p.nprofiles - 1) * p.dturns).toNat) (by omega) (by omega) (by omega) (by
      rw [e, mul_zero, sub_zero]
      unfold fieldEnergy
      refine Real.lt_sqrt_of_sq_lt ?_
      have : 0 < (p.q * p.b0 * p.bendingRad * L.c) ^ 2 := by
        have := hL.c.ne'
        have := hB0.ne'
        have := hBend.ne'
        positivity
      linarith) hgt hRad.ne'
  refine ⟨o, ?_⟩
  unfold valuesAtTurns
  rw [hp, bind_ok]; exact ho

/-- two systems, both ramped, at constant field: the machine above with other voltages -/
noncomputable def flatArgs : MachineArgs ℝ :=
  { crossArgs 4 with vrf1 := 2, vrf1dot := 7, vrf2 := 1, vrf2dot := -3, bdot := 0 }

noncomputable def flatPars : MachinePars ℝ :=
  { crossPars 4 with vrf1 := 2, vrf1dot := 7, vrf2 := 1, vrf2dot := -3, bdot := 0 }

theorem flat_accepted : assertMachineInput flatArgs = .ok flatPars := by
  have h := cross_accepted 4
  unfold assertMachineInput crossArgs at h
  unfold assertMachineInput flatArgs crossArgs
  dsimp only [notNone, bind_ok] at h ⊢
  have g : ∀ x : ℝ, 0 < x → assertGreater x 0 .machineParameterError = .ok () :=
    fun x hx => (assertGreater_checks _ _ _).1 hx
  have g' : ∀ x : ℝ, 0 ≤ x → assertGreaterOrEqual x 0 .machineParameterError = .ok () :=
    fun x hx => (assertGreaterOrEqual_checks _ _ _).1 hx
  have f : assertFilm (some 0) (some 1) (some 1) = .ok () := by decide
  rw [g 1 one_pos, g' 2 two_pos.le, f, g (4 / 299792458) (by norm_num), g 3 (by norm_num)]
  rfl

/-- the hypotheses of `C85_balance`, `C85_near_root_partial` and `C86_energy` are met by a machine with two ramped systems -/
example : ∃ o, valuesAtTurns codeLib flatArgs = .ok o := by
  refine C85_defined_flat_partial codeLib codeLib_ok _ _ flat_accepted rfl one_ne_zero ?_ (by change (1 : Int) < 3; decide)
    (by unfold flatPars crossPars; norm_num)
  have e : fieldEnergy codeLib.c flatPars = 5 := cross_energy 4
  rw [e, if_pos (by unfold flatPars crossPars; norm_num)]
  unfold flatPars crossPars
  simp

/-- and by an accelerating one -/
example : ∃ o, valuesAtTurns codeLib (crossArgs 4) = .ok o := cross_values 4 (by norm_num)

/-- C58: the search of a machine from programs with the root finder of the code: whenever all phases are found, the voltages at the phase
of every turn balance the change of the field at that turn up to 5e-9 of the amplitudes.  `_partial`: for the phase difference as an array
per turn, that is, from a phase program. -/
theorem C58_search_partial (L : MathLib ℝ) (hL : CodeLib L) (a : Prog.PArgs ℝ) {i0 : ℕ} (hi : a.machineRefFrame * a.dturns = (i0 : ℕ))
    {ratio : ℝ} {e0 v1 v2 bdot p r : List ℝ} (h : Prog.findSynchronousPhase L a ratio e0 v1 v2 bdot (.turns p) = .ok r) :
    r.length = v1.length ∧ ∀ j, j < v1.length → ∃ φ V1 V2 bd φ12, r[j]? = some φ ∧ v1[j]? = some V1 ∧ v2[j]? = some V2 ∧
      bdot[j]? = some bd ∧ p[j]? = some φ12 ∧
      |V1 * Real.sin φ + V2 * Real.sin (ratio * (φ - φ12)) - 2 * Real.pi * a.meanOrbitRad * a.bendingRad * bd * npSign a.q| ≤
        (|V1| + ratio ^ 2 * |V2|) * (5 / 10 ^ 9) := by
  obtain ⟨hlen, start, _, hall⟩ := Prog.findSynchronousPhase_ok hi h
  refine ⟨hlen, fun j hj => ?_⟩
  obtain ⟨x0, φ, hφ, hrun, _⟩ := hall j hj
  have get : ∀ {l : List ℝ} {v : ℝ}, npGet l (j : ℕ) = .ok v → l[j]? = some v := by
    intro l v hv
    unfold npGet at hv
    dsimp only at hv
    have hj0 : ¬ ((j : ℕ) : Int) < 0 := by omega
    have hj1 : 0 ≤ ((j : ℕ) : Int) := by omega
    rw [if_neg hj0, if_pos hj1, Int.toNat_natCast] at hv
    split at hv
    · rename_i w hw; cases hv; exact hw
    · cases hv
  unfold Prog.phaseAt at hrun
  obtain ⟨V1, h1, hrun⟩ := bind_inv hrun
  obtain ⟨V2, h2, hrun⟩ := bind_inv hrun
  obtain ⟨bd, h3, hrun⟩ := bind_inv hrun
  obtain ⟨φ12, h4, hrun⟩ := bind_inv hrun
  refine ⟨φ, V1, V2, bd, φ12, hφ, get h1, get h2, get h3, get h4, ?_⟩
  unfold Mch.newton at hrun
  split at hrun
  · rename_i x hx
    cases hrun
    rw [hL.newton] at hx
    unfold newtonOfTheCode at hx
    have e : Prog.rfPmch L a ratio V1 V2 bd φ12 = fun φ => V1 * Real.sin φ + V2 * Real.sin (ratio * (φ - φ12))
        - 2 * Real.pi * a.meanOrbitRad * a.bendingRad * bd * npSign a.q := by
      funext y
      unfold Prog.rfPmch rfVoltage
      rw [hL.sin, hL.pi]
      ring
    have e' : Prog.drfPmch L ratio V1 V2 φ12 = fun φ => V1 * Real.cos φ + ratio * V2 * Real.cos (ratio * (φ - φ12)) := by
      funext y
      unfold Prog.drfPmch
      rw [hL.cos]
    rw [e, e'] at hx
    have := newton_residual (M := |V1| + ratio ^ 2 * |V2|) (by positivity) (fun x => volt_deriv _ _ _ _ _ x)
      (fun x y => volt_deriv_lipschitz _ _ _ _ x y) _ _ hx
    linarith
  · cases hrun

/-- a machine from programs at constant field, two turns, different voltages: the search ends -/
example : ∃ (a : Prog.PArgs ℝ) (r : List ℝ), a.machineRefFrame * a.dturns = ((1 : ℕ) : Int) ∧
    Prog.findSynchronousPhase codeLib a 2 [5, 5] [2, 3] [1, 4] [0, 0] (.turns [0, 0]) = .ok r := by
  refine ⟨{ dturns := 1, nprofiles := 2, machineRefFrame := 1, meanOrbitRad := 1, bendingRad := 1, transGamma := 4, eRest := 3, hNum := 1,
            q := 1, momTime := [], momVal := [], voltTime := [], volt1 := [], volt2 := [], harmonics := [1, 2], phase := .missing,
            tRef := none }, [0, 0], rfl, ?_⟩
  have g : ∀ (x y : ℝ), npGet [x, y] (0 : Int) = .ok x ∧ npGet [x, y] (1 : Int) = .ok y := fun x y => ⟨rfl, rfl⟩
  have hn : ∀ (f f' : ℝ → ℝ), f 0 = 0 → Mch.newton codeLib f f' 0 = .ok 0 := by
    intro f f' h
    unfold Mch.newton codeLib newtonOfTheCode scipyNewton
    dsimp only
    rw [if_pos h]
  have hs : ∀ (a : Prog.PArgs ℝ) (V1 V2 : ℝ), Prog.rfPmch codeLib a 2 V1 V2 0 0 0 = 0 := by
    intro a V1 V2
    unfold Prog.rfPmch rfVoltage codeLib
    simp
  have hs1 : ∀ (a : Prog.PArgs ℝ) (V1 : ℝ), Prog.rf1Pmch codeLib a V1 0 0 = 0 := by
    intro a V1
    unfold Prog.rf1Pmch rfvoltRf1 codeLib
    simp
  have hp : ∀ (a : Prog.PArgs ℝ) (i : Int), (i = 0 ∨ i = 1) → Prog.phaseAt codeLib a 2 [2, 3] [1, 4] [0, 0] [0, 0] i 0 = .ok 0 := by
    rintro a i (rfl | rfl)
    · unfold Prog.phaseAt
      rw [(g _ _).1, bind_ok, (g _ _).1, bind_ok, (g _ _).1, bind_ok, bind_ok, hn _ _ (hs _ _ _)]
    · unfold Prog.phaseAt
      rw [(g _ _).2, bind_ok, (g _ _).2, bind_ok, (g _ _).2, bind_ok, bind_ok, hn _ _ (hs _ _ _)]
  unfold Prog.findSynchronousPhase Prog.phaseStart
  dsimp only
  rw [show (1 : Int) * 1 = 1 from rfl, (g _ _).2, bind_ok, fdiv_ok (by norm_num), bind_ok, if_pos (by norm_num), (g _ _).2, bind_ok,
    (g _ _).2, bind_ok]
  dsimp only
  rw [show (-codeLib.pi + codeLib.pi) / 2 = (0 : ℝ) by ring, hn _ _ (hs1 _ _), bind_ok, hp _ _ (Or.inr rfl), bind_ok]
  have hu : ∀ i : Int, (i = 0 ∨ i = 1) → upd ([0, 0] : List ℝ) i 0 = .ok [0, 0] := by
    rintro i (rfl | rfl) <;> rfl
  rw [show ([2, 3] : List ℝ).map (fun _ => (0 : ℝ)) = [0, 0] from rfl, hu _ (Or.inr rfl), bind_ok,
    show (((([2, 3] : List ℝ).length : ℕ) : Int) - (1 + 1)).toNat = 0 from rfl, show Int.toNat 1 = 0 + 1 from rfl,
    show ∀ f : ℕ → List ℝ → M (List ℝ), forN 0 f [0, 0] = .ok [0, 0] from fun _ => rfl, bind_ok, forN_succ,
    show ∀ f : ℕ → List ℝ → M (List ℝ), forN 0 f [0, 0] = .ok [0, 0] from fun _ => rfl, bind_ok,
    show rd ([0, 0] : List ℝ) (1 - ((0 : ℕ) : Int)) = .ok 0 from rfl, bind_ok]
  rw [show (1 : Int) - 1 - ((0 : ℕ) : Int) = 0 from rfl, hp _ _ (Or.inl rfl), bind_ok, hu _ (Or.inl rfl)]

end Verif.Props

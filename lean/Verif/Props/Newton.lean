import Verif.Props.Machine
import Verif.Spec.Newton
import Verif.Lemmas.Newton
import Verif.Lemmas.NewtonTotal
import Mathlib.Order.Interval.Set.UnorderedInterval

/-!
# Properties of the synchronous phases found with the root finder of the code (C85, C86)
-/

namespace Verif.Props
open Verif.Spec Verif.Asrt Verif.Mch Set

/-- the search on one of the four arcs between an extremum-free start and the root -/
theorem arc_search {V s c σ ε : ℝ} (hV : 0 < V) (hs : s ≤ Real.pi / 2) (hσ : σ = 1 ∨ σ = -1) (hε : ε = 1 ∨ ε = -1)
    (hsin : ∀ x, Real.sin (c + σ * x) = ε * Real.sin x) (hcos : ∀ x, Real.cos (c + σ * x) = ε * σ * Real.cos x) {x : ℝ}
    (h0 : 0 ≤ x) (h1 : x ≤ s) :
    ∃ y, newtonOfTheCode (fun φ => V * Real.sin φ - ε * (V * Real.sin s)) (fun φ => V * Real.cos φ) (c + σ * x) = some (c + σ * y) ∧
      x ≤ y ∧ y ≤ s ∧ s - y ≤ 1 / 10000 := by
  obtain ⟨y, hy, a, b, d⟩ := newton_sin hV hs (tol := 1 / 10000) (by norm_num) 14 100 x (by norm_num) h0 h1
    (by nlinarith [Real.pi_lt_d2])
  refine ⟨y, ?_, a, b, d⟩
  unfold newtonOfTheCode
  rw [scipyNewton_conj (f := fun φ => V * Real.sin φ - V * Real.sin s) (f' := fun φ => V * Real.cos φ) hσ hε
    (fun x => by rw [hsin]; ring) (fun x => by rw [hcos]; ring), hy]
  rfl

/-- the four arcs of one rf system: `start` and `c` -/
theorem arc_cases {L : MathLib ℝ} {p : MachinePars ℝ} (hL : CodeLib L) (hR : SingleRf L p) :
    ∃ s σ ε, 0 ≤ s ∧ s < Real.pi / 2 ∧ (σ = 1 ∨ σ = -1) ∧ (ε = 1 ∨ ε = -1) ∧
      rampVolt L p = ε * (p.vrf1 * Real.sin s) ∧
      (∀ x, Real.sin (firstGuess L p (refEnergy L p) + σ * x) = ε * Real.sin x) ∧
      (∀ x, Real.cos (firstGuess L p (refEnergy L p) + σ * x) = ε * σ * Real.cos x) ∧
      idealPhase L p = firstGuess L p (refEnergy L p) + σ * s ∧
      (0 < p.q * (p.transGamma - refEnergy L p / p.eRest) → ε * σ = 1) ∧
      (¬ 0 < p.q * (p.transGamma - refEnergy L p / p.eRest) → ε * σ = -1) := by
  have hE : refEnergy L p = fieldEnergy L.c p := by unfold refEnergy fieldEnergy; rw [hL.sqrt]
  have hV := hR.vrf1
  set r := rampVolt L p / p.vrf1 with hr
  have hw : rampVolt L p = p.vrf1 * r := by rw [hr]; field_simp
  have hr1 : |r| < 1 := by
    rw [hr, abs_div, abs_of_pos hV, div_lt_one hV]; exact hR.ramp
  obtain ⟨ha, hb⟩ := abs_lt.mp hr1
  have hsr : Real.sin (Real.arcsin r) = r := Real.sin_arcsin ha.le hb.le
  have h1 : Real.arcsin r < Real.pi / 2 := Real.arcsin_lt_pi_div_two.mpr hb
  have h2 : -(Real.pi / 2) < Real.arcsin r := Real.neg_pi_div_two_lt_arcsin.mpr ha
  unfold firstGuess idealPhase
  rw [hE, hL.pi, ← hr]
  by_cases hc : 0 < p.q * (p.transGamma - fieldEnergy L.c p / p.eRest)
  · simp only [if_pos hc]
    rcases le_total 0 r with h | h
    · refine ⟨Real.arcsin r, 1, 1, Real.arcsin_nonneg.mpr h, h1, Or.inl rfl, Or.inl rfl, ?_, ?_, ?_, ?_, ?_, ?_⟩
      · rw [hsr, hw]; ring
      · intro x; simp
      · intro x; simp
      · simp
      · intro _; norm_num
      · intro h; exact absurd hc h
    · refine ⟨-Real.arcsin r, -1, -1, by linarith [Real.arcsin_nonpos.mpr h], by linarith, Or.inr rfl, Or.inr rfl,
        ?_, ?_, ?_, ?_, ?_, ?_⟩
      · rw [Real.sin_neg, hsr, hw]; ring
      · intro x; simp
      · intro x; simp
      · ring
      · intro _; norm_num
      · intro h; exact absurd hc h
  · simp only [if_neg hc]
    rcases le_total 0 r with h | h
    · refine ⟨Real.arcsin r, -1, 1, Real.arcsin_nonneg.mpr h, h1, Or.inr rfl, Or.inl rfl, ?_, ?_, ?_, ?_, ?_, ?_⟩
      · rw [hsr, hw]; ring
      · intro x; rw [show Real.pi + -1 * x = Real.pi - x by ring, Real.sin_pi_sub]; ring
      · intro x; rw [show Real.pi + -1 * x = Real.pi - x by ring, Real.cos_pi_sub]; ring
      · ring
      · intro h; exact absurd h hc
      · intro _; norm_num
    · refine ⟨-Real.arcsin r, 1, -1, by linarith [Real.arcsin_nonpos.mpr h], by linarith, Or.inl rfl, Or.inr rfl,
        ?_, ?_, ?_, ?_, ?_, ?_⟩
      · rw [Real.sin_neg, hsr, hw]; ring
      · intro x; rw [one_mul, add_comm, Real.sin_add_pi]; ring
      · intro x; rw [one_mul, add_comm, Real.cos_add_pi]; ring
      · ring
      · intro h; exact absurd h hc
      · intro _; norm_num

/-- the phases the searches stay in -/
def Near (L : MathLib ℝ) (p : MachinePars ℝ) (y : ℝ) : Prop :=
  y ∈ uIcc (firstGuess L p (refEnergy L p)) (idealPhase L p) ∧ |y - idealPhase L p| ≤ 1 / 10000

theorem mem_arc {c σ s y : ℝ} (hσ : σ = 1 ∨ σ = -1) : c + σ * y ∈ uIcc c (c + σ * s) ↔ (0 ≤ y ∧ y ≤ s) ∨ (s ≤ y ∧ y ≤ 0) := by
  rw [mem_uIcc]
  rcases hσ with rfl | rfl
  · constructor
    · rintro (⟨a, b⟩ | ⟨a, b⟩)
      · left; constructor <;> linarith
      · right; constructor <;> linarith
    · rintro (⟨a, b⟩ | ⟨a, b⟩)
      · left; constructor <;> linarith
      · right; constructor <;> linarith
  · constructor
    · rintro (⟨a, b⟩ | ⟨a, b⟩)
      · right; constructor <;> linarith
      · left; constructor <;> linarith
    · rintro (⟨a, b⟩ | ⟨a, b⟩)
      · right; constructor <;> linarith
      · left; constructor <;> linarith

section one
variable {L : MathLib ℝ} {p : MachinePars ℝ} (hL : CodeLib L) (hR : SingleRf L p)
include hL hR

/-- a search started on the arc between the start and the ideal phase ends nearer the ideal phase -/
theorem search_near {x : ℝ} (hx : x ∈ uIcc (firstGuess L p (refEnergy L p)) (idealPhase L p)) :
    ∃ y, newtonOfTheCode (fun φ => p.vrf1 * Real.sin φ - rampVolt L p) (fun φ => p.vrf1 * Real.cos φ) x = some y ∧ Near L p y := by
  obtain ⟨s, σ, ε, hs0, hs1, hσ, hε, hw, hsin, hcos, hid, -, -⟩ := arc_cases hL hR
  set c := firstGuess L p (refEnergy L p)
  have hσσ : σ * σ = 1 := by rcases hσ with rfl | rfl <;> norm_num
  have habs : |σ| = 1 := by rcases hσ with rfl | rfl <;> norm_num
  have hxe : x = c + σ * (σ * (x - c)) := by rw [← mul_assoc, hσσ]; ring
  rw [hid, hxe, mem_arc hσ] at hx
  have hx' : 0 ≤ σ * (x - c) ∧ σ * (x - c) ≤ s := by
    rcases hx with h | h
    · exact h
    · exact ⟨by linarith, by linarith⟩
  obtain ⟨y, hy, h1, h2, h3⟩ := arc_search hR.vrf1 hs1.le hσ hε hsin hcos hx'.1 hx'.2
  refine ⟨c + σ * y, ?_, ?_, ?_⟩
  · rw [hw, hxe]; exact hy
  · rw [hid, mem_arc hσ]; exact Or.inl ⟨by linarith, h2⟩
  · rw [hid, show c + σ * y - (c + σ * s) = σ * (y - s) by ring, abs_mul, habs, one_mul, abs_sub_comm, abs_of_nonneg (by linarith)]
    exact h3

theorem synch_iff (t x y : ℝ) : SynchPhaseFrom L p t x y ↔
    newtonOfTheCode (fun φ => p.vrf1 * Real.sin φ - rampVolt L p) (fun φ => p.vrf1 * Real.cos φ) x = some y := by
  unfold SynchPhaseFrom volt
  rw [hL.newton, hR.vrf1dot, hR.vrf2, hR.vrf2dot, hL.sin, hL.cos]
  simp only [zero_mul, add_zero, mul_zero]

theorem first_iff (t x y : ℝ) : FirstSystemFrom L p t x y ↔
    newtonOfTheCode (fun φ => p.vrf1 * Real.sin φ - rampVolt L p) (fun φ => p.vrf1 * Real.cos φ) x = some y := by
  unfold FirstSystemFrom
  rw [hL.newton, hR.vrf1dot, hL.sin, hL.cos]
  simp only [zero_mul, add_zero]

theorem volt_one (t y : ℝ) : volt L p t y = p.vrf1 * Real.sin y := by
  unfold volt
  rw [hR.vrf1dot, hR.vrf2, hR.vrf2dot, hL.sin]
  ring

theorem ideal_root : p.vrf1 * Real.sin (idealPhase L p) = rampVolt L p := by
  obtain ⟨s, σ, ε, hs0, hs1, hσ, hε, hw, hsin, hcos, hid, -, -⟩ := arc_cases hL hR
  rw [hid, hsin, hw]; ring

/-- no turn gains more than the ramp needs -/
theorem gain_le {y : ℝ} (t : ℝ) (hy : Near L p y) : |p.q * volt L p t y| ≤ |p.q * rampVolt L p| := by
  obtain ⟨s, σ, ε, hs0, hs1, hσ, hε, hw, hsin, hcos, hid, -, -⟩ := arc_cases hL hR
  have hx := hy.1
  have hσσ : σ * σ = 1 := by rcases hσ with rfl | rfl <;> norm_num
  have habs : |ε| = 1 := by rcases hε with rfl | rfl <;> norm_num
  set c := firstGuess L p (refEnergy L p)
  have hxe : y = c + σ * (σ * (y - c)) := by rw [← mul_assoc, hσσ]; ring
  rw [hid, hxe, mem_arc hσ] at hx
  have hx' : 0 ≤ σ * (y - c) ∧ σ * (y - c) ≤ s := by
    rcases hx with h | h
    · exact h
    · exact ⟨by linarith, by linarith⟩
  rw [volt_one hL hR, hw, abs_mul, abs_mul, abs_mul, hxe, hsin, abs_mul, habs, abs_mul ε, habs, abs_mul, abs_of_pos hR.vrf1]
  have hpi := Real.pi_pos
  have h1 : 0 ≤ Real.sin (σ * (y - c)) := Real.sin_nonneg_of_nonneg_of_le_pi hx'.1 (by linarith)
  have h2 : Real.sin (σ * (y - c)) ≤ Real.sin s := Real.sin_le_sin_of_le_of_le_pi_div_two (by linarith) hs1.le hx'.2
  rw [abs_of_nonneg h1, abs_of_nonneg (h1.trans h2), one_mul, one_mul]
  exact mul_le_mul_of_nonneg_left (mul_le_mul_of_nonneg_left h2 hR.vrf1.le) (abs_nonneg _)

/-- slope of the sine on the arc -/
theorem cos_near {y : ℝ} (hy : Near L p y) : (0 < p.q * (p.transGamma - refEnergy L p / p.eRest) → 0 < Real.cos y) ∧
    (¬ 0 < p.q * (p.transGamma - refEnergy L p / p.eRest) → Real.cos y < 0) := by
  obtain ⟨s, σ, ε, hs0, hs1, hσ, hε, hw, hsin, hcos, hid, hp, hn⟩ := arc_cases hL hR
  have hx := hy.1
  have hσσ : σ * σ = 1 := by rcases hσ with rfl | rfl <;> norm_num
  set c := firstGuess L p (refEnergy L p)
  have hxe : y = c + σ * (σ * (y - c)) := by rw [← mul_assoc, hσσ]; ring
  rw [hid, hxe, mem_arc hσ] at hx
  have hx' : 0 ≤ σ * (y - c) ∧ σ * (y - c) ≤ s := by
    rcases hx with h | h
    · exact h
    · exact ⟨by linarith, by linarith⟩
  have h1 : 0 < Real.cos (σ * (y - c)) := Real.cos_pos_of_mem_Ioo ⟨by linarith [Real.pi_pos], by linarith⟩
  rw [hxe, hcos]
  constructor
  · intro h; rw [hp h]; linarith
  · intro h; rw [hn h]; linarith

theorem stays : Stays L p (Near L p) |p.q * rampVolt L p| := by
  refine ⟨?_, hL.c, ?_, ?_, ?_⟩
  · intro x hx; rw [hL.sqrt]; exact Real.sqrt_pos.mpr hx
  · obtain ⟨y, h1, h2⟩ := search_near hL hR (x := firstGuess L p (refEnergy L p)) left_mem_uIcc
    exact ⟨y, (first_iff hL hR _ _ _).mpr h1, h2⟩
  · intro t x hx
    obtain ⟨y, h1, h2⟩ := search_near hL hR hx.1
    exact ⟨y, (synch_iff hL hR _ _ _).mpr h1, h2⟩
  · intro t y hy; exact gain_le hL hR t hy

theorem near_of_synch {t x y : ℝ} (hx : x ∈ uIcc (firstGuess L p (refEnergy L p)) (idealPhase L p)) (h : SynchPhaseFrom L p t x y) :
    Near L p y := by
  obtain ⟨z, h1, h2⟩ := search_near hL hR hx
  rw [synch_iff hL hR, h1] at h
  cases h; exact h2

theorem all_near {i0 A : ℕ} {t ph e b : ℕ → ℝ} (h : TurnLaws L p i0 0 A t ph e b) (hi : i0 ≤ A) : ∀ i, i ≤ A → Near L p (ph i) := by
  have h0 : Near L p (ph i0) := by
    obtain ⟨x, hx, hy⟩ := h.phase0
    rw [h.energy0] at hx
    obtain ⟨z, h1, h2⟩ := search_near hL hR (x := firstGuess L p (refEnergy L p)) left_mem_uIcc
    have hx' := (first_iff hL hR _ _ _).mp hx
    unfold refEnergy at h1
    rw [h1] at hx'
    cases hx'
    exact near_of_synch hL hR h2.1 hy
  have up : ∀ k, i0 + k ≤ A → Near L p (ph (i0 + k)) := by
    intro k
    induction k with
    | zero => intro _; exact h0
    | succ k ih => intro hk; exact near_of_synch hL hR (ih (by omega)).1 (h.phaseUp (i0 + k) (by omega) (by omega))
  have dn : ∀ k, k ≤ i0 → Near L p (ph (i0 - k)) := by
    intro k
    induction k with
    | zero => intro _; exact h0
    | succ k ih =>
      intro hk
      have := h.phaseDown (i0 - (k + 1)) (by omega) (by omega)
      rw [show i0 - (k + 1) + 1 = i0 - k by omega] at this
      exact near_of_synch hL hR (ih (by omega)).1 this
  intro i hiA
  rcases le_total i0 i with h' | h'
  · obtain ⟨k, rfl⟩ := Nat.exists_eq_add_of_le h'
    exact up k hiA
  · have := dn (i0 - i) (by omega)
    rwa [show i0 - (i0 - i) = i by omega] at this

end one

/-- C85: for every machine with one rf system of constant voltage above the one the ramp needs, the root finder of the code finds at
every turn a synchronous phase within 0.0001 of the ideal one, never beyond it. -/
theorem C85_phase_partial (L : MathLib ℝ) (hL : CodeLib L) (a : MachineArgs ℝ) (p : MachinePars ℝ) (o : MachineOut ℝ)
    (hp : assertMachineInput a = .ok p) (hR : SingleRf L p) (h : valuesAtTurns L a = .ok o) :
    ∃ (A : ℕ) (ph : ℕ → ℝ), (A : Int) = (p.nprofiles - 1) * p.dturns ∧ o.phi0 = tab (A + 1) ph ∧
      ∀ i, i ≤ A → |ph i - idealPhase L p| ≤ 1 / 10000 ∧
        ph i ∈ uIcc (if 0 < p.q * (p.transGamma - fieldEnergy L.c p / p.eRest) then 0 else Real.pi) (idealPhase L p) := by
  unfold valuesAtTurns at h
  rw [hp, bind_ok] at h
  obtain ⟨_, _, _, _, _, _, _, _, hd, hr, _⟩ := accepted_pars hp
  obtain ⟨i0, A, t, ph, e, b, d, eta, coef, om, h1, h2, h3, h4, h5⟩ := valuesAtTurnsOf_inv hd hr h
  refine ⟨A, ph, h2, h4.phi0, fun i hi => ?_⟩
  have := all_near hL hR h4.laws h3 i hi
  refine ⟨this.2, ?_⟩
  have e : (if 0 < p.q * (p.transGamma - fieldEnergy L.c p / p.eRest) then 0 else Real.pi) = firstGuess L p (refEnergy L p) := by
    unfold firstGuess refEnergy fieldEnergy
    rw [hL.sqrt, hL.pi]
  rw [e]; exact this.1

theorem accepted_hNum {a : MachineArgs ℝ} {p : MachinePars ℝ} (h : assertMachineInput a = .ok p) : 0 < p.hNum := by
  unfold assertMachineInput at h
  simp only [bind_ok_iff, notNone_ok, (assertGreaterOrEqual_checks _ _ _).ok_iff, (assertGreater_checks _ _ _).ok_iff,
    film_ok, spaceCharge_ok, exists_const] at h
  obtain ⟨x1, e1, h1, x2, e2, h2, hf, x3, e3, h3, x4, e4, h4, x5, e5, h5, x6, e6, h6, x7, e7, h7, x8, e8, h8, x9, e9,
      h9, x10, e10, h10, x11, e11, h11, x12, e12, h12, s1, s2, hp⟩ := h
  cases hp
  assumption

/-- all energies stay above the rest energy -/
theorem above_rest {L : MathLib ℝ} {p : MachinePars ℝ} (hL : CodeLib L) (hR : SingleRf L p) (hm : 0 < p.eRest)
    (hg : |p.q * rampVolt L p| ≤ 2 * p.eRest) {i0 A : ℕ} {t ph e b d eta coef om : ℕ → ℝ} {o : MachineOut ℝ}
    (h : TurnArrays L p i0 A t ph e b d eta coef om o) (hi : i0 ≤ A) : ∀ i, i ≤ A → p.eRest < e i := by
  have hab : ∀ i, i ≤ A → p.eRest < |e i| := by
    intro i hi
    have h1 := (h.coefEq i hi).1
    have h2 := h.laws.beta i (Nat.zero_le _) hi
    have hb : b i ≠ 0 := by
      intro h0; rw [h0] at h1; simp at h1
    rw [h2.2, hL.sqrt] at hb
    have hs : 0 < 1 - (p.eRest / e i) ^ 2 := by
      by_contra hc
      exact hb (Real.sqrt_eq_zero_of_nonpos (not_lt.mp hc))
    have h3 : |p.eRest / e i| < 1 := by rw [← sq_lt_one_iff_abs_lt_one]; linarith
    rw [abs_div, abs_of_pos hm, div_lt_one (abs_pos.mpr h2.1)] at h3
    exact h3
  have h0 : p.eRest < e i0 := by
    have := hab i0 hi
    rwa [abs_of_nonneg] at this
    rw [h.laws.energy0, hL.sqrt]
    exact Real.sqrt_nonneg _
  have hst : ∀ i, i < A → |e (i + 1) - e i| ≤ 2 * p.eRest := by
    intro i hi'
    rw [h.laws.energy i (Nat.zero_le _) hi', add_sub_cancel_left]
    exact (gain_le hL hR _ (all_near hL hR h.laws hi _ (by omega))).trans hg
  have key : ∀ i j, j ≤ A → p.eRest < e i → |e j - e i| ≤ 2 * p.eRest → p.eRest < e j := by
    intro i j hj h1 h2
    rcases lt_abs.mp (hab j hj) with h3 | h3
    · exact h3
    · have := (abs_le.mp h2).1
      linarith
  have up : ∀ k, i0 + k ≤ A → p.eRest < e (i0 + k) := by
    intro k
    induction k with
    | zero => intro _; exact h0
    | succ k ih => intro hk; exact key (i0 + k) _ hk (ih (by omega)) (hst (i0 + k) (by omega))
  have dn : ∀ k, k ≤ i0 → p.eRest < e (i0 - k) := by
    intro k
    induction k with
    | zero => intro _; exact h0
    | succ k ih =>
      intro hk
      have := hst (i0 - (k + 1)) (by omega)
      rw [show i0 - (k + 1) + 1 = i0 - k by omega, abs_sub_comm] at this
      exact key (i0 - k) _ (by omega) (ih (by omega)) this
  intro i hiA
  rcases le_total i0 i with h' | h'
  · obtain ⟨k, rfl⟩ := Nat.exists_eq_add_of_le h'
    exact up k hiA
  · have := dn (i0 - i) (by omega)
    rwa [show i0 - (i0 - i) = i by omega] at this

/-- sign of the drift coefficient -/
theorem coef_sign {m e g h : ℝ} (hm : 0 < m) (he : m < e) (hg : 0 < g) (hh : 0 < h) :
    ∃ k, 0 < k ∧ 2 * Real.pi * h * (1 - (Real.sqrt (1 - (m / e) ^ 2)) ^ 2 - 1 / g ^ 2) / (e * (Real.sqrt (1 - (m / e) ^ 2)) ^ 2) =
      k * (g - e / m) := by
  have he0 : 0 < e := hm.trans he
  have h1 : m / e < 1 := (div_lt_one he0).mpr he
  have h0 : 0 < m / e := div_pos hm he0
  have hb : 0 < 1 - (m / e) ^ 2 := by nlinarith
  rw [Real.sq_sqrt hb.le]
  refine ⟨2 * Real.pi * h / (e * (1 - (m / e) ^ 2)) * (m ^ 2 / e ^ 2 / g ^ 2 * (g + e / m)), ?_, ?_⟩
  · have := Real.pi_pos; positivity
  · have hb' : e * (1 - (m / e) ^ 2) ≠ 0 := by positivity
    rw [div_eq_iff hb']
    have : 2 * Real.pi * h / (e * (1 - (m / e) ^ 2)) * (m ^ 2 / e ^ 2 / g ^ 2 * (g + e / m)) * (g - e / m) * (e * (1 - (m / e) ^ 2))
        = 2 * Real.pi * h * (m ^ 2 / e ^ 2 / g ^ 2 * (g + e / m)) * (g - e / m) * ((e * (1 - (m / e) ^ 2)) / (e * (1 - (m / e) ^ 2))) := by
      ring
    rw [this, div_self hb']
    field_simp
    ring

/-- C85: particles near the synchronous one are driven back to it at a turn exactly when the energy at that turn is on the same side of
the transition energy as at the reference frame. -/
theorem C85_stable_iff (L : MathLib ℝ) (hL : CodeLib L) (a : MachineArgs ℝ) (p : MachinePars ℝ) (o : MachineOut ℝ)
    (hp : assertMachineInput a = .ok p) (hR : SingleRf L p) (h : valuesAtTurns L a = .ok o)
    (hq : p.q ≠ 0) (hgt : 0 < p.transGamma) (hgain : |p.q * rampVolt L p| ≤ 2 * p.eRest)
    (hne : fieldEnergy L.c p / p.eRest ≠ p.transGamma) :
    ∃ (A : ℕ) (ph e coef : ℕ → ℝ), (A : Int) = (p.nprofiles - 1) * p.dturns ∧ o.phi0 = tab (A + 1) ph ∧ o.e0 = tab (A + 1) e ∧
      o.driftCoef = tab (A + 1) coef ∧
      ∀ i, i ≤ A → (0 < restoring p (ph i) (coef i) ↔
        0 < (p.transGamma - e i / p.eRest) * (p.transGamma - fieldEnergy L.c p / p.eRest)) ∧
        (restoring p (ph i) (coef i) < 0 ↔
        (p.transGamma - e i / p.eRest) * (p.transGamma - fieldEnergy L.c p / p.eRest) < 0) := by
  unfold valuesAtTurns at h
  rw [hp, bind_ok] at h
  obtain ⟨_, _, _, _, _, _, _, _, hd, hr, hm, _⟩ := accepted_pars hp
  have hh := accepted_hNum hp
  obtain ⟨i0, A, t, ph, e, b, d, eta, coef, om, h1, h2, h3, h4, h5⟩ := valuesAtTurnsOf_inv hd hr h
  refine ⟨A, ph, e, coef, h2, h4.phi0, h4.e0, h4.driftCoef, fun i hi => ?_⟩
  have hn := all_near hL hR h4.laws h3 i hi
  have he := above_rest hL hR hm hgain h4 h3 i hi
  obtain ⟨k, hk, hk'⟩ := coef_sign hm he hgt hh
  have hc : coef i = k * (p.transGamma - e i / p.eRest) := by
    rw [(h4.coefEq i hi).2, h4.etaEq i hi, (h4.laws.beta i (Nat.zero_le _) hi).2, hL.sqrt, hL.pi]
    exact hk'
  have hE : refEnergy L p = fieldEnergy L.c p := by unfold refEnergy fieldEnergy; rw [hL.sqrt]
  have hcos := cos_near hL hR hn
  rw [hE] at hcos
  set G := p.transGamma - fieldEnergy L.c p / p.eRest with hG
  have hG0 : G ≠ 0 := by
    intro h0; apply hne; linarith
  -- `q cos φ` has the sign of `G`
  have hsig : 0 < p.q * Real.cos (ph i) * G := by
    by_cases hpos : 0 < p.q * G
    · have := hcos.1 hpos
      nlinarith
    · have := hcos.2 hpos
      have hlt : p.q * G < 0 := lt_of_le_of_ne (not_lt.mp hpos) (mul_ne_zero hq hG0)
      nlinarith
  have hsq : 0 < G ^ 2 := by positivity
  have hres : restoring p (ph i) (coef i) = (p.vrf1 * k * (p.q * Real.cos (ph i) * G) / G ^ 2) * ((p.transGamma - e i / p.eRest) * G) := by
    unfold restoring
    rw [hc]
    field_simp
  have hpos : 0 < p.vrf1 * k * (p.q * Real.cos (ph i) * G) / G ^ 2 := by
    have := hR.vrf1
    positivity
  rw [hres]
  exact ⟨mul_pos_iff_of_pos_left hpos, ⟨fun hx => by by_contra hc; nlinarith [mul_nonneg hpos.le (not_lt.mp hc)], mul_neg_of_pos_of_neg hpos⟩⟩

/-- C86: the energies of all turns follow the field ramp; every turn between the reference frame and a turn adds at most the charge
times the voltage times 0.0001 to the difference. -/
theorem C86_single_rf (L : MathLib ℝ) (hL : CodeLib L) (a : MachineArgs ℝ) (p : MachinePars ℝ) (o : MachineOut ℝ)
    (hp : assertMachineInput a = .ok p) (hR : SingleRf L p) (h : valuesAtTurns L a = .ok o) :
    ∃ (i0 A : ℕ) (e : ℕ → ℝ), (i0 : Int) = p.machineRefFrame * p.dturns ∧ (A : Int) = (p.nprofiles - 1) * p.dturns ∧
      o.e0 = tab (A + 1) e ∧
      ∀ i, i ≤ A → |e i - (fieldEnergy L.c p + ((i : ℝ) - i0) * (p.q * rampVolt L p))| ≤
        |(i : ℝ) - i0| * (|p.q| * p.vrf1 / 10000) := by
  unfold valuesAtTurns at h
  rw [hp, bind_ok] at h
  obtain ⟨_, _, _, _, _, _, _, _, hd, hr, _⟩ := accepted_pars hp
  obtain ⟨i0, A, t, ph, e, b, d, eta, coef, om, h1, h2, h3, h4, h5⟩ := valuesAtTurnsOf_inv hd hr h
  refine ⟨i0, A, e, h1, h2, h4.e0, ?_⟩
  have e0 : e i0 = fieldEnergy L.c p := by rw [h4.laws.energy0, hL.sqrt]; rfl
  have hst : ∀ i, i < A → |e (i + 1) - e i - p.q * rampVolt L p| ≤ |p.q| * p.vrf1 / 10000 := by
    intro i hi
    have hn := (all_near hL hR h4.laws h3 (i + 1) (by omega)).2
    rw [h4.laws.energy i (Nat.zero_le _) hi, add_sub_cancel_left, volt_one hL hR, ← ideal_root hL hR]
    rw [show p.q * (p.vrf1 * Real.sin (ph (i + 1))) - p.q * (p.vrf1 * Real.sin (idealPhase L p)) =
      p.q * (p.vrf1 * (Real.sin (ph (i + 1)) - Real.sin (idealPhase L p))) by ring, abs_mul, abs_mul, abs_of_pos hR.vrf1]
    have hs : |Real.sin (ph (i + 1)) - Real.sin (idealPhase L p)| ≤ 1 / 10000 := by
      refine le_trans ?_ hn
      have := Real.abs_sin_sub_sin_le (ph (i + 1)) (idealPhase L p)
      exact this
    calc |p.q| * (p.vrf1 * |Real.sin (ph (i + 1)) - Real.sin (idealPhase L p)|) ≤ |p.q| * (p.vrf1 * (1 / 10000)) :=
          mul_le_mul_of_nonneg_left (mul_le_mul_of_nonneg_left hs hR.vrf1.le) (abs_nonneg _)
      _ = _ := by ring
  set B := |p.q| * p.vrf1 / 10000
  set w := p.q * rampVolt L p
  have up : ∀ k : ℕ, i0 + k ≤ A → |e (i0 + k) - (fieldEnergy L.c p + (k : ℝ) * w)| ≤ (k : ℝ) * B := by
    intro k
    induction k with
    | zero => intro _; simp [e0]
    | succ k ih =>
      intro hk
      have x := hst (i0 + k) (by omega)
      have y := ih (by omega)
      have : e (i0 + (k + 1)) - (fieldEnergy L.c p + ((k + 1 : ℕ) : ℝ) * w) =
          (e (i0 + k + 1) - e (i0 + k) - w) + (e (i0 + k) - (fieldEnergy L.c p + (k : ℝ) * w)) := by
        rw [← add_assoc]; push_cast; ring
      rw [this]
      push_cast
      linarith [abs_add_le (e (i0 + k + 1) - e (i0 + k) - w) (e (i0 + k) - (fieldEnergy L.c p + (k : ℝ) * w))]
  have dn : ∀ k : ℕ, k ≤ i0 → |e (i0 - k) - (fieldEnergy L.c p - (k : ℝ) * w)| ≤ (k : ℝ) * B := by
    intro k
    induction k with
    | zero => intro _; simp [e0]
    | succ k ih =>
      intro hk
      have x := hst (i0 - (k + 1)) (by omega)
      have y := ih (by omega)
      rw [show i0 - (k + 1) + 1 = i0 - k by omega] at x
      have : e (i0 - (k + 1)) - (fieldEnergy L.c p - ((k + 1 : ℕ) : ℝ) * w) =
          -(e (i0 - k) - e (i0 - (k + 1)) - w) + (e (i0 - k) - (fieldEnergy L.c p - (k : ℝ) * w)) := by
        push_cast; ring
      rw [this]
      push_cast
      have z := abs_add_le (-(e (i0 - k) - e (i0 - (k + 1)) - w)) (e (i0 - k) - (fieldEnergy L.c p - (k : ℝ) * w))
      rw [abs_neg] at z
      linarith
  intro i hiA
  rcases le_total i0 i with h' | h'
  · obtain ⟨k, rfl⟩ := Nat.exists_eq_add_of_le h'
    have := up k hiA
    push_cast
    rw [show (i0 : ℝ) + k - i0 = k by ring, abs_of_nonneg (Nat.cast_nonneg k : (0 : ℝ) ≤ k)]
    exact this
  · have := dn (i0 - i) (by omega)
    rw [show i0 - (i0 - i) = i by omega, Nat.cast_sub h'] at this
    have hle : (i : ℝ) ≤ i0 := by exact_mod_cast h'
    rw [abs_of_nonpos (by linarith : (i : ℝ) - i0 ≤ 0)]
    rw [show fieldEnergy L.c p + ((i : ℝ) - i0) * w = fieldEnergy L.c p - ((i0 : ℝ) - i) * w by ring,
      show -((i : ℝ) - i0) * B = ((i0 : ℝ) - i) * B by ring]
    exact this

/-- C85: the search never fails: all arrays are computed when the whole cycle stays above the rest energy. -/
theorem C85_defined_partial (L : MathLib ℝ) (hL : CodeLib L) (a : MachineArgs ℝ) (p : MachinePars ℝ)
    (hp : assertMachineInput a = .ok p) (hR : SingleRf L p) (href : p.machineRefFrame < p.nprofiles) (hgt : p.transGamma ≠ 0)
    (hE : p.eRest < fieldEnergy L.c p - (((p.nprofiles - 1) * p.dturns + 1 : Int) : ℝ) * |p.q * rampVolt L p|) :
    ∃ o, valuesAtTurns L a = .ok o := by
  obtain ⟨_, _, _, _, _, _, _, _, hd, hr, hm, hRad, _⟩ := accepted_pars hp
  have h0 : 0 ≤ p.machineRefFrame * p.dturns := Int.mul_nonneg hr hd.le
  have h1 : 0 ≤ (p.nprofiles - 1) * p.dturns := Int.mul_nonneg (by omega) hd.le
  have h2 : p.machineRefFrame * p.dturns ≤ (p.nprofiles - 1) * p.dturns :=
    Int.mul_le_mul_of_nonneg_right (by omega) hd.le
  obtain ⟨o, ho⟩ := valuesAtTurnsOf_good (stays hL hR) hm (i0 := (p.machineRefFrame * p.dturns).toNat)
    (A := ((p.nprofiles - 1) * p.dturns).toNat) (by omega) (by omega) (by omega) (by
      have e : refEnergy L p = fieldEnergy L.c p := by unfold refEnergy fieldEnergy; rw [hL.sqrt]
      have e2 : ((((p.nprofiles - 1) * p.dturns).toNat + 1 : ℕ) : ℝ) = (((p.nprofiles - 1) * p.dturns + 1 : Int) : ℝ) := by
        have : ((((p.nprofiles - 1) * p.dturns).toNat + 1 : ℕ) : Int) = (p.nprofiles - 1) * p.dturns + 1 := by
          push_cast; rw [Int.toNat_of_nonneg h1]
        rw [← this]; push_cast; rfl
      rw [e, e2]; exact hE) hgt hRad.ne'
  refine ⟨o, ?_⟩
  unfold valuesAtTurns
  rw [hp, bind_ok]; exact ho

/-! ## A machine that crosses transition -/

/-- the real functions, the speed of light, and the root finder of the code -/
noncomputable def codeLib : MathLib ℝ :=
  { sin := Real.sin, cos := Real.cos, sqrt := Real.sqrt, pi := Real.pi, c := 299792458, newton := newtonOfTheCode }

theorem codeLib_ok : CodeLib codeLib := ⟨rfl, rfl, rfl, rfl, by unfold codeLib; norm_num, rfl⟩

/-- three profiles one turn apart, rest energy 3, momentum 4, transition at the energy `3 γt` -/
noncomputable def crossArgs (γt : ℝ) : MachineArgs ℝ :=
  { dtbin := some 1, dturns := some 1, filmstart := some 0, filmstop := some 1, filmstep := some 1, niter := some 20,
    snpt := some 4, machineRefFrame := some 1, beamRefFrame := some 0, hNum := some 1, hRatio := some 2, b0 := some (4 / 299792458),
    meanOrbitRad := some 1, bendingRad := some 1, eRest := some 3, pickupSensitivity := none, gCoupling := none,
    vrf1 := 2, vrf1dot := 0, vrf2 := 0, vrf2dot := 0, phi12 := 0, q := 1, bdot := 1 / 10, transGamma := γt, nprofiles := 3 }

noncomputable def crossPars (γt : ℝ) : MachinePars ℝ :=
  { dturns := 1, nprofiles := 3, machineRefFrame := 1, hNum := 1, hRatio := 2, b0 := 4 / 299792458, meanOrbitRad := 1, bendingRad := 1,
    eRest := 3, vrf1 := 2, vrf1dot := 0, vrf2 := 0, vrf2dot := 0, phi12 := 0, q := 1, bdot := 1 / 10, transGamma := γt }

theorem cross_accepted (γt : ℝ) : assertMachineInput (crossArgs γt) = .ok (crossPars γt) := by
  unfold assertMachineInput crossArgs
  dsimp only [notNone, bind_ok]
  have g : ∀ x : ℝ, 0 < x → assertGreater x 0 .machineParameterError = .ok () :=
    fun x hx => (assertGreater_checks _ _ _).1 hx
  have g' : ∀ x : ℝ, 0 ≤ x → assertGreaterOrEqual x 0 .machineParameterError = .ok () :=
    fun x hx => (assertGreaterOrEqual_checks _ _ _).1 hx
  have f : assertFilm (some 0) (some 1) (some 1) = .ok () := by decide
  rw [g 1 one_pos, g' 2 two_pos.le, f, g (4 / 299792458) (by norm_num), g 3 (by norm_num)]
  rfl

theorem cross_ramp (γt : ℝ) : rampVolt codeLib (crossPars γt) = 2 * Real.pi / 10 := by
  unfold rampVolt crossPars npSign codeLib
  simp; ring

theorem cross_energy (γt : ℝ) : fieldEnergy codeLib.c (crossPars γt) = 5 := by
  unfold fieldEnergy crossPars codeLib
  dsimp only
  rw [show ((1 : ℝ) * (4 / 299792458) * 1 * 299792458) ^ 2 + 3 ^ 2 = 5 ^ 2 by norm_num]
  exact Real.sqrt_sq (by norm_num)

theorem cross_single (γt : ℝ) : SingleRf codeLib (crossPars γt) := by
  refine ⟨by unfold crossPars; norm_num, rfl, rfl, rfl, ?_⟩
  rw [cross_ramp, abs_of_pos (by have := Real.pi_pos; positivity)]
  unfold crossPars
  have := Real.pi_lt_d2
  norm_num at this ⊢
  linarith

theorem cross_values (γt : ℝ) (h : γt ≠ 0) : ∃ o, valuesAtTurns codeLib (crossArgs γt) = .ok o := by
  refine C85_defined_partial codeLib codeLib_ok _ _ (cross_accepted γt) (cross_single γt) (by change (1 : Int) < 3; decide) h ?_
  rw [cross_energy, cross_ramp]
  unfold crossPars
  have h1 := Real.pi_lt_d2
  have h2 := Real.pi_pos
  rw [one_mul, abs_of_pos (by positivity)]
  norm_num at h1 ⊢
  linarith

/-- with the transition energy far above, all turns are stable -/
example : ∃ (o : MachineOut ℝ) (ph e coef : ℕ → ℝ), valuesAtTurns codeLib (crossArgs 4) = .ok o ∧ o.phi0 = tab 3 ph ∧ o.e0 = tab 3 e ∧
    o.driftCoef = tab 3 coef ∧ (∀ i, i ≤ 2 → |ph i - Real.arcsin (Real.pi / 10)| ≤ 1 / 10000) ∧
    (0 < restoring (crossPars 4) (ph 1) (coef 1)) := by
  obtain ⟨o, ho⟩ := cross_values 4 (by norm_num)
  obtain ⟨A, ph, h1, h2, h3⟩ := C85_phase_partial codeLib codeLib_ok _ _ o (cross_accepted 4) (cross_single 4) ho
  have hA : A = 2 := by
    have : (A : Int) = (3 - 1) * 1 := h1
    omega
  subst hA
  obtain ⟨A', ph', e, coef, h1', h2', h4, h5, h6⟩ := C85_stable_iff codeLib codeLib_ok _ _ o (cross_accepted 4) (cross_single 4) ho
    (by unfold crossPars; norm_num) (by unfold crossPars; norm_num)
    (by rw [cross_ramp, show (crossPars 4).q = 1 from rfl, one_mul, abs_of_pos (by have := Real.pi_pos; positivity)]
        change 2 * Real.pi / 10 ≤ 2 * 3
        linarith [Real.pi_lt_four])
    (by rw [cross_energy]; unfold crossPars; norm_num)
  have hA' : A' = 2 := by
    have : (A' : Int) = (3 - 1) * 1 := h1'
    omega
  subst hA'
  refine ⟨o, ph', e, coef, ho, h2', h4, h5, ?_, ?_⟩
  · intro i hi
    have hid : idealPhase codeLib (crossPars 4) = Real.arcsin (Real.pi / 10) := by
      unfold idealPhase
      rw [cross_energy, cross_ramp, if_pos (by unfold crossPars; norm_num)]
      congr 1
      unfold crossPars
      ring
    have := (h3 i hi).1
    rw [hid] at this
    have e' : ph i = ph' i := by
      rw [h2] at h2'
      have := congrArg (fun l => l[i]?) h2'
      simpa [tab, show i < 3 by omega] using this
    rw [← e']; exact this
  · have hE : e 1 = 5 := by
      obtain ⟨i0, A, e', g1, g2, g3, g4⟩ := C86_single_rf codeLib codeLib_ok _ _ o (cross_accepted 4) (cross_single 4) ho
      obtain rfl : i0 = 1 := by have : (i0 : Int) = 1 * 1 := g1; omega
      obtain rfl : A = 2 := by have : (A : Int) = (3 - 1) * 1 := g2; omega
      have x := g4 1 (by omega)
      rw [cross_energy] at x
      norm_num at x
      have e2 : e 1 = e' 1 := by
        rw [h4] at g3
        have := congrArg (fun l => l[1]?) g3
        simpa [tab] using this
      rw [e2]; linarith
    rw [(h6 1 (by omega)).1, hE, cross_energy]
    unfold crossPars
    norm_num

/-- C85 fails when transition is crossed: the search starts where the previous turn ended, so the phase stays on the slope chosen at the
reference frame, and one turn after the reference frame, above transition, particles are driven away from the synchronous one. -/
theorem C85_violated_transition : ∃ (o : MachineOut ℝ) (ph e coef : ℕ → ℝ), valuesAtTurns codeLib (crossArgs (17 / 10)) = .ok o ∧
    o.phi0 = tab 3 ph ∧ o.e0 = tab 3 e ∧ o.driftCoef = tab 3 coef ∧ e 1 / 3 < 17 / 10 ∧ 17 / 10 < e 2 / 3 ∧
    0 < restoring (crossPars (17 / 10)) (ph 1) (coef 1) ∧ restoring (crossPars (17 / 10)) (ph 2) (coef 2) < 0 := by
  obtain ⟨o, ho⟩ := cross_values (17 / 10) (by norm_num)
  obtain ⟨A', ph', e, coef, h1', h2', h4, h5, h6⟩ := C85_stable_iff codeLib codeLib_ok _ _ o (cross_accepted (17 / 10))
    (cross_single (17 / 10)) ho
    (by unfold crossPars; norm_num) (by unfold crossPars; norm_num)
    (by rw [cross_ramp, show (crossPars (17 / 10)).q = 1 from rfl, one_mul, abs_of_pos (by have := Real.pi_pos; positivity)]
        change 2 * Real.pi / 10 ≤ 2 * 3
        linarith [Real.pi_lt_four])
    (by rw [cross_energy]; unfold crossPars; norm_num)
  obtain rfl : A' = 2 := by
    have : (A' : Int) = (3 - 1) * 1 := h1'
    omega
  obtain ⟨i0, A, e', g1, g2, g3, g4⟩ := C86_single_rf codeLib codeLib_ok _ _ o (cross_accepted (17 / 10))
    (cross_single (17 / 10)) ho
  obtain rfl : i0 = 1 := by have : (i0 : Int) = 1 * 1 := g1; omega
  obtain rfl : A = 2 := by have : (A : Int) = (3 - 1) * 1 := g2; omega
  have ee : ∀ i, i < 3 → e i = e' i := by
    intro i hi
    rw [h4] at g3
    have := congrArg (fun l => l[i]?) g3
    simpa [tab, hi] using this
  have x1 := g4 1 (by omega)
  have x2 := g4 2 (by omega)
  rw [cross_energy, cross_ramp, ← ee _ (by omega)] at x1 x2
  rw [show (crossPars (17 / 10)).q = 1 from rfl, show (crossPars (17 / 10)).vrf1 = 2 from rfl] at x1 x2
  norm_num at x1 x2
  have hE1 : e 1 = 5 := by linarith
  have hE2 : 5.6 < e 2 := by
    have := (abs_le.mp x2).1
    have := Real.pi_gt_d2
    norm_num at this ⊢
    linarith
  refine ⟨o, ph', e, coef, ho, h2', h4, h5, by rw [hE1]; norm_num, by norm_num at hE2 ⊢; linarith, ?_, ?_⟩
  · rw [(h6 1 (by omega)).1, hE1, cross_energy]
    unfold crossPars
    norm_num
  · rw [(h6 2 (by omega)).2, cross_energy]
    unfold crossPars
    norm_num at hE2 ⊢
    linarith

end Verif.Props

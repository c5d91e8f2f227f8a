import Verif.Lemmas.Machine
import Verif.Props.Assertions
import Mathlib.Analysis.SpecialFunctions.Trigonometric.Inverse
import Mathlib.Analysis.Real.Pi.Bounds

/-!
# Properties of the machine (C25, C38, C39)
-/

set_option linter.unusedSectionVars false

namespace Verif.Props
open Verif.Spec Verif.Asrt Verif.Track Verif.Mch

section generic
variable {K : Type} [Field K] [LinearOrder K] [IsStrictOrderedRing K]

/-- the parameters of an accepted machine are those of the input -/
theorem accepted_pars {a : MachineArgs K} {p : MachinePars K} (h : assertMachineInput a = .ok p) :
    a.dturns = some p.dturns ∧ a.machineRefFrame = some p.machineRefFrame ∧ a.eRest = some p.eRest ∧
    a.meanOrbitRad = some p.meanOrbitRad ∧ a.bendingRad = some p.bendingRad ∧ a.b0 = some p.b0 ∧
    p.nprofiles = a.nprofiles ∧ p.transGamma = a.transGamma ∧
    0 < p.dturns ∧ 0 ≤ p.machineRefFrame ∧ 0 < p.eRest ∧ 0 < p.meanOrbitRad ∧ 0 < p.bendingRad ∧ 0 < p.b0 := by
  unfold assertMachineInput at h
  simp only [bind_ok_iff, notNone_ok, (assertGreaterOrEqual_checks _ _ _).ok_iff, (assertGreater_checks _ _ _).ok_iff,
    film_ok, spaceCharge_ok, exists_const] at h
  obtain ⟨x1, e1, h1, x2, e2, h2, hf, x3, e3, h3, x4, e4, h4, x5, e5, h5, x6, e6, h6, x7, e7, h7, x8, e8, h8, x9, e9,
      h9, x10, e10, h10, x11, e11, h11, x12, e12, h12, s1, s2, hp⟩ := h
  cases hp
  exact ⟨e2, e5, e12, e10, e11, e9, rfl, rfl, h2, h5, h12, h10, h11, h9⟩

/-! ## C39 -/

/-- C39, `_partial`: whenever `values_at_turns` returns, every array has one entry per turn `0..(nprofiles-1)*dturns`; time
is zero at the reference turn `i0` and advances by one revolution period at *every* turn, the energy changes at *every* turn
by charge times voltage at the synchronous phase, velocity, phase slip, drift coefficient, revolution frequency and
voltages are given by their formulas at every turn.  The recorded energy step is right at all turns after `i0`.  Missing:
the recorded energy step at and before `i0`, which is wrong (`C39_violated_energy_step`). -/
theorem C39_turn_arrays_partial (L : MathLib K) (a : MachineArgs K) (o : MachineOut K) (h : valuesAtTurns L a = .ok o) :
    ∃ (p : MachinePars K) (i0 A : ℕ) (t ph e b d eta coef om : ℕ → K), assertMachineInput a = .ok p ∧
      (i0 : Int) = p.machineRefFrame * p.dturns ∧ (A : Int) = (p.nprofiles - 1) * p.dturns ∧ i0 ≤ A ∧
      TurnArrays L p i0 A t ph e b d eta coef om o ∧
      ∀ i, i0 < i → i ≤ A → d i = e i - e (i - 1) := by
  obtain ⟨p, hp, h⟩ := bind_inv h
  obtain ⟨_, _, _, _, _, _, _, _, hd, hr, _⟩ := accepted_pars hp
  obtain ⟨i0, A, t, ph, e, b, d, eta, coef, om, h1, h2, h3, h4, h5⟩ := valuesAtTurnsOf_inv hd hr h
  refine ⟨p, i0, A, t, ph, e, b, d, eta, coef, om, hp, h1, h2, h3, h4, ?_⟩
  intro i hi hA
  have := h5.up (i - 1) (by omega) (by omega)
  rwa [show i - 1 + 1 = i by omega] at this

/-- C39 fails at and before the reference turn, for every machine for which `values_at_turns` returns: the step recorded at
the reference turn is 0 and the one recorded at an earlier turn `i` is the step from `i` to `i + 1`.  So it is wrong at the
reference turn whenever that is not turn 0 and the synchronous particle gains energy there. -/
theorem C39_violated_energy_step (L : MathLib K) (a : MachineArgs K) (o : MachineOut K) (h : valuesAtTurns L a = .ok o) :
    ∃ (p : MachinePars K) (i0 A : ℕ) (t ph e b d eta coef om : ℕ → K), assertMachineInput a = .ok p ∧
      (i0 : Int) = p.machineRefFrame * p.dturns ∧ TurnArrays L p i0 A t ph e b d eta coef om o ∧
      d i0 = 0 ∧ (∀ i, i < i0 → d i = e (i + 1) - e i) ∧
      (0 < i0 → p.q * volt L p (t i0) (ph i0) ≠ 0 → d i0 ≠ e i0 - e (i0 - 1)) := by
  obtain ⟨p, hp, h⟩ := bind_inv h
  obtain ⟨_, _, _, _, _, _, _, _, hd, hr, _⟩ := accepted_pars hp
  obtain ⟨i0, A, t, ph, e, b, d, eta, coef, om, h1, h2, h3, h4, h5⟩ := valuesAtTurnsOf_inv hd hr h
  refine ⟨p, i0, A, t, ph, e, b, d, eta, coef, om, hp, h1, h4, h5.ref, fun i hi => h5.down i (Nat.zero_le _) hi, ?_⟩
  intro hpos hv
  have := h4.laws.energy (i0 - 1) (Nat.zero_le _) (by omega)
  rw [show i0 - 1 + 1 = i0 by omega] at this
  rw [h5.ref, this]
  intro h0
  apply hv
  linear_combination -h0

/-- C39: with a root finder that returns exact roots the energy follows the field ramp: it is linear in the turn number,
over all turns. -/
theorem C39_energy_follows_ramp (L : MathLib K) (a : MachineArgs K) (o : MachineOut K) (h : valuesAtTurns L a = .ok o)
    (hN : ∀ f f' x y, L.newton f f' x = some y → f y = 0) :
    ∃ (p : MachinePars K) (i0 A : ℕ) (e : ℕ → K), assertMachineInput a = .ok p ∧
      (i0 : Int) = p.machineRefFrame * p.dturns ∧ (A : Int) = (p.nprofiles - 1) * p.dturns ∧ o.e0 = tab (A + 1) e ∧
      ∀ i, i ≤ A → e i = L.sqrt ((p.q * p.b0 * p.bendingRad * L.c) ^ 2 + p.eRest ^ 2)
        + ((i : K) - i0) * (p.q * (2 * L.pi * p.meanOrbitRad * p.bendingRad * p.bdot * npSign p.q)) := by
  obtain ⟨p, hp, h⟩ := bind_inv h
  obtain ⟨_, _, _, _, _, _, _, _, hd, hr, _⟩ := accepted_pars hp
  obtain ⟨i0, A, t, ph, e, b, d, eta, coef, om, h1, h2, h3, h4, h5⟩ := valuesAtTurnsOf_inv hd hr h
  refine ⟨p, i0, A, e, hp, h1, h2, h4.e0, ?_⟩
  have hroot : ∀ t x y, SynchPhaseFrom L p t x y → volt L p t y = rampVolt L p := by
    intro t x y hy
    have := hN _ _ _ _ hy
    exact sub_eq_zero.mp this
  obtain ⟨x0, _, hx0⟩ := h4.laws.phase0
  have hv : ∀ i, 0 ≤ i → i ≤ A → volt L p (t i) (ph i) = rampVolt L p := by
    intro i _ hi
    rcases Nat.lt_trichotomy i i0 with hlt | rfl | hgt
    · exact hroot _ _ _ (h4.laws.phaseDown i (Nat.zero_le _) hlt)
    · exact hroot _ _ _ hx0
    · have := h4.laws.phaseUp (i - 1) (by omega) (by omega)
      rw [show i - 1 + 1 = i by omega] at this
      exact hroot _ _ _ this
  intro i hi
  exact energy_ramp h4.laws (Nat.zero_le _) h3 hv i (Nat.zero_le _) hi

/-! ## C38: are the turn computations defined? -/

/-- C38, `_partial`: a machine that passes the validation and moreover has its reference frame among the profiles, a
non-zero transition gamma, a converging root finder and an energy staying above the rest energy gets all its arrays.
Missing: the validation does not check these (`C38_violated_gaps`). -/
theorem C38_turns_defined_partial (L : MathLib K) (a : MachineArgs K) (p : MachinePars K)
    (h : assertMachineInput a = .ok p) (W : Works L p) (href : p.machineRefFrame < p.nprofiles)
    (hg : p.transGamma ≠ 0)
    (hE : ∀ i : ℕ, (i : Int) ≤ (p.nprofiles - 1) * p.dturns → p.eRest <
      L.sqrt ((p.q * p.b0 * p.bendingRad * L.c) ^ 2 + p.eRest ^ 2)
        + ((i : K) - ((p.machineRefFrame * p.dturns).toNat : K)) * (p.q * rampVolt L p)) :
    ∃ o, valuesAtTurns L a = .ok o := by
  obtain ⟨_, _, _, _, _, _, _, _, hd, hr, hm, hR, _⟩ := accepted_pars h
  have h0 : 0 ≤ p.machineRefFrame * p.dturns := Int.mul_nonneg hr hd.le
  have h1 : 0 ≤ (p.nprofiles - 1) * p.dturns := Int.mul_nonneg (by omega) hd.le
  have h2 : p.machineRefFrame * p.dturns ≤ (p.nprofiles - 1) * p.dturns :=
    Int.mul_le_mul_of_nonneg_right (by omega) hd.le
  obtain ⟨o, ho⟩ := valuesAtTurnsOf_total (L := L) (p := p) W hm (i0 := (p.machineRefFrame * p.dturns).toNat)
    (A := ((p.nprofiles - 1) * p.dturns).toNat) (by omega) (by omega) (by omega)
    (fun i hi => hE i (by omega)) hg hR.ne'
  exact ⟨o, by unfold valuesAtTurns; rw [h, bind_ok, ho]⟩

/-- C38 fails: machines that pass the validation but whose turn values cannot be computed: reference frame beyond the last
profile (index error), zero transition gamma, or zero charge (division by zero). -/
theorem C38_violated_gaps (L : MathLib K) (a : MachineArgs K) (p : MachinePars K)
    (h : assertMachineInput a = .ok p)
    (hbad : p.nprofiles ≤ p.machineRefFrame ∨ p.transGamma = 0 ∨
      (p.q = 0 ∧ L.sqrt (p.eRest ^ 2) = p.eRest ∧ L.sqrt 0 = 0)) :
    ∀ o, valuesAtTurns L a ≠ .ok o := by
  intro o ho
  unfold valuesAtTurns at ho
  rw [h, bind_ok] at ho
  obtain ⟨_, _, _, _, _, _, _, _, hd, hr, hm, hR, _⟩ := accepted_pars h
  obtain ⟨i0, A, t, ph, e, b, d, eta, coef, om, h1, h2, h3, h4, h5⟩ := valuesAtTurnsOf_inv hd hr ho
  rcases hbad with hb | hb | ⟨hq, hs1, hs0⟩
  · have : (p.nprofiles - 1) * p.dturns < p.machineRefFrame * p.dturns :=
      Int.mul_lt_mul_of_pos_right (by omega) hd
    omega
  · exact h4.gt hb
  · have he : e i0 = p.eRest := by
      rw [h4.laws.energy0, hq]
      simpa using hs1
    have hb : b i0 = 0 := by
      rw [(h4.laws.beta i0 (Nat.zero_le _) h3).2, he, div_self hm.ne']
      simpa using hs0
    exact (h4.coefEq i0 h3).1 (by rw [hb]; ring)

/-! ## C25 -/

/-- the energy balance of the synchronous particle at turn `i` -/
def Balanced (sin : K → K) (R : Program K) (i : ℕ) : Prop :=
  R.rf1 i * sin (R.phi0 i) + R.rf2 i * sin (R.h * (R.phi0 i - R.phi12 i)) = R.dE i

theorem gain_zero {sin : K → K} {R : Program K} {i : ℕ} (h : Balanced sin R i) : gain sin R i 0 = 0 := by
  unfold gain
  rw [zero_add, h]; ring

/-- C25: if the energy balance holds at every turn after `lo` up to `hi`, the synchronous particle stays synchronous from
any turn `s` to any turn `u` in `lo..hi`, forwards and backwards. -/
theorem C25_fixed_point (sin : K → K) (R : Program K) (lo hi : ℕ) (hB : ∀ i, lo < i → i ≤ hi → Balanced sin R i) (s u : ℕ)
    (hs : lo ≤ s ∧ s ≤ hi) (hu : lo ≤ u ∧ u ≤ hi) : transport sin R s u (0, 0) = (0, 0) := by
  unfold transport
  split
  · have : ∀ k, s + k ≤ hi → up sin R s k (0, 0) = (0, 0) := by
      intro k
      induction k with
      | zero => intro _; rfl
      | succ k ih =>
        intro hk
        unfold up
        rw [ih (by omega)]
        unfold fwd
        simp only [mul_zero, sub_zero, zero_add]
        rw [gain_zero (hB _ (by omega) (by omega))]
    exact this _ (by omega)
  · have : ∀ k, k + lo ≤ s → down sin R s k (0, 0) = (0, 0) := by
      intro k
      induction k with
      | zero => intro _; rfl
      | succ k ih =>
        intro hk
        unfold down
        rw [ih (by omega)]
        unfold bwd
        simp only [zero_sub]
        rw [gain_zero (hB _ (by omega) (by omega))]
        simp
    exact this _ (by omega)

theorem balanced_iff (L : MathLib K) (p : MachinePars K) (t ph d coef : ℕ → K) (i : ℕ) :
    Balanced L.sin (programOf p t ph d coef) i ↔ p.q * volt L p (t i) (ph i) = d i := by
  unfold Balanced programOf volt
  dsimp only
  constructor <;> intro h <;> linear_combination h

/-- The arrays computed by the machine are long enough for the tracking, with one spare entry for none: the tracking
routine reads exactly turns `0..(nprofiles-1)*dturns`. -/
theorem agrees_of_arrays {L : MathLib K} {p : MachinePars K} {o : MachineOut K} {i0 A : ℕ}
    {t ph e b d eta coef om : ℕ → K} (h : TurnArrays L p i0 A t ph e b d eta coef om o) :
    Agrees (trackArrays p o) A (programOf p t ph d coef) := by
  unfold trackArrays programOf
  constructor
  · intro i hi; dsimp only; rw [h.vrf1, map_tab]; exact some_tab _ (by omega)
  · intro i hi; dsimp only; rw [h.vrf2, map_tab]; exact some_tab _ (by omega)
  · intro i hi; dsimp only; rw [h.phi0]; exact some_tab _ (by omega)
  · intro i hi; dsimp only; rw [h.deltaE0]; exact some_tab _ (by omega)
  · intro i hi; dsimp only; rw [h.driftCoef]; exact some_tab _ (by omega)
  · intro i hi; dsimp only; rw [h.phi0, map_tab]; exact some_tab _ (by omega)
  · rfl

/-- C25, `_partial`: particles started with zero offsets at a profile not before the machine reference frame have zero
offsets in the tracked output at every profile not before the reference frame.  Missing: profiles before the reference
frame, where the property fails (`C25_violated_before_reference`). -/
theorem C25_tracked_rows_partial (L : MathLib K) (a : MachineArgs K) (p : MachinePars K) (o : MachineOut K)
    (hp : assertMachineInput a = .ok p) (h : valuesAtTurns L a = .ok o) (P n r : ℕ) (hP : p.nprofiles = P) (hr : r < P)
    (href : p.machineRefFrame ≤ r) (X : ℕ → ℕ → K × K) :
    ∃ st Y, cppTrack L.sin (trackArrays p o) P n p.dturns.toNat r 0 X (fun _ => (0, 0)) = .ok st ∧
      Holds st.xp st.yp P n Y ∧ ∀ q i, q < P → p.machineRefFrame ≤ q → Y q i = (0, 0) := by
  unfold valuesAtTurns at h
  rw [hp, bind_ok] at h
  obtain ⟨_, _, _, _, _, _, _, _, hd, hr0, _⟩ := accepted_pars hp
  obtain ⟨i0, A, t, ph, e, b, d, eta, coef, om, h1, h2, h3, h4, h5⟩ := valuesAtTurnsOf_inv hd hr0 h
  obtain ⟨D, hD⟩ := Int.eq_ofNat_of_zero_le hd.le
  obtain ⟨F, hF⟩ := Int.eq_ofNat_of_zero_le hr0
  have hA : A = (P - 1) * D := by
    have : ((P - 1 : ℕ) : Int) = (P : Int) - 1 := by omega
    have : (A : Int) = ((P - 1 : ℕ) : Int) * D := by rw [this, h2, hP, hD]
    exact_mod_cast this
  have hI : i0 = F * D := by
    have : (i0 : Int) = (F : Int) * D := by rw [h1, hF, hD]
    exact_mod_cast this
  have hDn : p.dturns.toNat = D := by omega
  rw [hDn]
  have hag := agrees_of_arrays h4
  rw [hA] at hag
  obtain ⟨st, hst, hY⟩ := C17_no_offset (n := n) L.sin (d := D) (by omega) hag hr X (fun _ => ((0 : K), (0 : K)))
  refine ⟨st, _, hst, hY, ?_⟩
  intro q i hq hqf
  have hb : ∀ q : ℕ, p.machineRefFrame ≤ q → q < P → i0 ≤ q * D ∧ q * D ≤ A := by
    intro q hq1 hq2
    rw [hI, hA]
    exact ⟨Nat.mul_le_mul_right D (by omega), Nat.mul_le_mul_right D (by omega)⟩
  refine C25_fixed_point L.sin _ i0 A ?_ _ _ (hb r href hr) (hb q hqf hq)
  intro i hi hiA
  rw [balanced_iff]
  have x1 := h5.up (i - 1) (by omega) (by omega)
  have x2 := h4.laws.energy (i - 1) (Nat.zero_le _) (by omega)
  rw [show i - 1 + 1 = i by omega] at x1 x2
  rw [x1, x2]; ring

/-- C25 fails before the reference frame: tracking the synchronous particle one turn back from the reference turn moves
it off its zero offset whenever the machine accelerates there. -/
theorem C25_violated_before_reference (L : MathLib K) (a : MachineArgs K) (p : MachinePars K) (o : MachineOut K)
    (hp : assertMachineInput a = .ok p) (h : valuesAtTurns L a = .ok o) :
    ∃ (i0 A : ℕ) (t ph e b d eta coef om : ℕ → K), (i0 : Int) = p.machineRefFrame * p.dturns ∧
      TurnArrays L p i0 A t ph e b d eta coef om o ∧
      (0 < i0 → p.q * volt L p (t i0) (ph i0) ≠ 0 →
        (transport L.sin (programOf p t ph d coef) i0 (i0 - 1) (0, 0)).2 = -(p.q * volt L p (t i0) (ph i0))
        ∧ (transport L.sin (programOf p t ph d coef) i0 (i0 - 1) (0, 0)) ≠ (0, 0)) := by
  unfold valuesAtTurns at h
  rw [hp, bind_ok] at h
  obtain ⟨_, _, _, _, _, _, _, _, hd, hr0, _⟩ := accepted_pars hp
  obtain ⟨i0, A, t, ph, e, b, d, eta, coef, om, h1, h2, h3, h4, h5⟩ := valuesAtTurnsOf_inv hd hr0 h
  refine ⟨i0, A, t, ph, e, b, d, eta, coef, om, h1, h4, ?_⟩
  intro hpos hv
  have key : (transport L.sin (programOf p t ph d coef) i0 (i0 - 1) (0, 0)).2 = -(p.q * volt L p (t i0) (ph i0)) := by
    unfold transport
    rw [if_neg (by omega), show i0 - (i0 - 1) = 1 by omega]
    unfold down down bwd gain
    dsimp only
    rw [show i0 - (0 + 1) + 1 = i0 by omega]
    unfold programOf
    dsimp only
    rw [h5.ref, zero_add]
    unfold volt
    ring
  refine ⟨key, fun h0 => hv ?_⟩
  rw [h0] at key
  dsimp only at key
  linear_combination key

end generic

/-! ## A concrete accelerating machine -/

open Classical in
/-- the real functions with an ideal root finder -/
noncomputable def realLib : MathLib ℝ :=
  { sin := Real.sin, cos := Real.cos, sqrt := Real.sqrt, pi := Real.pi, c := 1
    newton := fun f _ _ => if h : ∃ y, f y = 0 then some h.choose else none }

theorem realLib_newton_root (f f' : ℝ → ℝ) (x y : ℝ) (h : realLib.newton f f' x = some y) : f y = 0 := by
  unfold realLib at h
  dsimp only at h
  split at h
  · rename_i hy; cases h; exact hy.choose_spec
  · cases h

/-- three profiles two turns apart, reference frame 1, ramping field -/
noncomputable def realArgs : MachineArgs ℝ :=
  { dtbin := some 1, dturns := some 2, filmstart := some 0, filmstop := some 1, filmstep := some 1, niter := some 20,
    snpt := some 4, machineRefFrame := some 1, beamRefFrame := some 0, hNum := some 1, hRatio := some 2, b0 := some 1,
    meanOrbitRad := some 1, bendingRad := some 1, eRest := some 1, pickupSensitivity := none, gCoupling := none,
    vrf1 := 1, vrf1dot := 0, vrf2 := 0, vrf2dot := 0, phi12 := 0, q := 1, bdot := 1 / 100, transGamma := 4, nprofiles := 3 }

noncomputable def realPars : MachinePars ℝ :=
  { dturns := 2, nprofiles := 3, machineRefFrame := 1, hNum := 1, hRatio := 2, b0 := 1, meanOrbitRad := 1, bendingRad := 1,
    eRest := 1, vrf1 := 1, vrf1dot := 0, vrf2 := 0, vrf2dot := 0, phi12 := 0, q := 1, bdot := 1 / 100, transGamma := 4 }

theorem realArgs_ok : assertMachineInput realArgs = .ok realPars := by
  unfold assertMachineInput realArgs
  dsimp only [notNone, bind_ok]
  have g : ∀ x : ℝ, 0 < x → assertGreater x 0 .machineParameterError = .ok () :=
    fun x hx => (assertGreater_checks _ _ _).1 hx
  have g' : ∀ x : ℝ, 0 ≤ x → assertGreaterOrEqual x 0 .machineParameterError = .ok () :=
    fun x hx => (assertGreaterOrEqual_checks _ _ _).1 hx
  have f : assertFilm (some 0) (some 1) (some 1) = .ok () := by decide
  rw [g 1 one_pos, g' 2 two_pos.le, f]
  rfl

theorem real_ramp : rampVolt realLib realPars = 2 * Real.pi / 100 := by
  unfold rampVolt realPars npSign realLib
  simp; ring

theorem real_works : Works realLib realPars := by
  have hpi := Real.pi_lt_four
  have hpi0 := Real.pi_pos
  have hroot : Real.sin (Real.arcsin (2 * Real.pi / 100)) = 2 * Real.pi / 100 :=
    Real.sin_arcsin (by linarith) (by linarith)
  constructor
  · intro x hx; exact Real.sqrt_pos.mpr hx
  · exact one_pos
  · intro x
    have hex : ∃ y, rfvoltRf1Mch realLib realPars 0 y = 0 := by
      refine ⟨Real.arcsin (2 * Real.pi / 100), ?_⟩
      unfold rfvoltRf1Mch rfvoltRf1 vrft realPars npSign realLib
      dsimp only
      rw [hroot]
      simp; ring
    exact ⟨_, dif_pos hex⟩
  · intro t x
    have hex : ∃ y, volt realLib realPars t y - rampVolt realLib realPars = 0 := by
      refine ⟨Real.arcsin (2 * Real.pi / 100), ?_⟩
      rw [real_ramp]
      unfold volt realPars realLib
      dsimp only
      rw [hroot]
      ring
    exact ⟨_, dif_pos hex, sub_eq_zero.mp hex.choose_spec⟩

/-- The hypotheses of C25, C38, C39 are met by an accelerating machine with the reference frame in the middle. -/
theorem real_values : ∃ o, valuesAtTurns realLib realArgs = .ok o := by
  refine C38_turns_defined_partial realLib realArgs realPars realArgs_ok real_works (by decide)
    (by unfold realPars; norm_num) ?_
  intro i hi
  rw [real_ramp]
  have hs : (1.4 : ℝ) < Real.sqrt 2 := by
    rw [Real.lt_sqrt (by norm_num)]; norm_num
  have hpi := Real.pi_lt_four
  have hpi0 := Real.pi_pos
  have e1 : ((realPars.machineRefFrame * realPars.dturns).toNat : ℝ) = 2 := by
    have : (realPars.machineRefFrame * realPars.dturns).toNat = 2 := by decide
    rw [this]; norm_num
  rw [e1]
  have hi0 : (0 : ℝ) ≤ i := Nat.cast_nonneg i
  change (1 : ℝ) < Real.sqrt ((1 * 1 * 1 * 1) ^ 2 + 1 ^ 2) + ((i : ℝ) - 2) * (1 * (2 * Real.pi / 100))
  have e2 : ((1 * 1 * 1 * 1 : ℝ)) ^ 2 + 1 ^ 2 = 2 := by norm_num
  rw [e2]
  nlinarith

/-- At the reference turn of this machine the recorded step is wrong and the synchronous particle, tracked one turn back,
is no longer synchronous. -/
theorem real_violates : ∃ (o : MachineOut ℝ) (A : ℕ) (t ph e b d eta coef om : ℕ → ℝ),
    valuesAtTurns realLib realArgs = .ok o ∧ TurnArrays realLib realPars 2 A t ph e b d eta coef om o ∧
    transport realLib.sin (programOf realPars t ph d coef) 2 1 (0, 0) ≠ (0, 0) := by
  obtain ⟨o, ho⟩ := real_values
  obtain ⟨i0, A, t, ph, e, b, d, eta, coef, om, h1, h4, h5⟩ :=
    C25_violated_before_reference realLib realArgs realPars o realArgs_ok ho
  obtain rfl : i0 = 2 := by
    have : (i0 : Int) = 1 * 2 := h1
    omega
  refine ⟨o, A, t, ph, e, b, d, eta, coef, om, ho, h4, (h5 (by omega) ?_).2⟩
  obtain ⟨x0, _, hx0⟩ := h4.laws.phase0
  unfold SynchPhaseFrom at hx0
  have hv := realLib_newton_root _ _ _ _ hx0
  replace hv := sub_eq_zero.mp hv
  rw [hv, real_ramp]
  change (1 : ℝ) * _ ≠ 0
  have := Real.pi_pos
  positivity

example : ∃ (o : MachineOut ℝ) (e : ℕ → ℝ), o.e0 = tab 5 e ∧
    ∀ i, i ≤ 4 → e i = Real.sqrt 2 + ((i : ℝ) - 2) * (2 * Real.pi / 100) := by
  obtain ⟨o, ho⟩ := real_values
  obtain ⟨p, i0, A, e, hp, h1, h2, h3, h4⟩ := C39_energy_follows_ramp realLib realArgs o ho realLib_newton_root
  rw [realArgs_ok] at hp
  cases hp
  obtain rfl : i0 = 2 := by have : (i0 : Int) = 1 * 2 := h1; omega
  obtain rfl : A = 4 := by have : (A : Int) = (3 - 1) * 2 := h2; omega
  refine ⟨o, e, h3, fun i hi => ?_⟩
  rw [h4 i hi]
  unfold realPars npSign realLib
  norm_num
  ring_nf
  exact Or.inl trivial

end Verif.Props

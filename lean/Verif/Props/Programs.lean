import Verif.Lemmas.ProgramsArrays
import Verif.Props.Area
import Verif.Props.Physics
import Mathlib.Tactic.IntervalCases
import Mathlib.Tactic.NormNum

/-!
# C56, C58, C64: the machine computed from programs

`interpolateMomentum`, `valuesAtTurns`, `construct` and `calcPhi12` model `tracking/programs_machine.py`.  The turns are those
of `Spec.turn`.
-/

set_option linter.unusedSectionVars false

namespace Verif.Props
open Spec Mch Prog
variable {K : Type} [Field K] [LinearOrder K] [IsStrictOrderedRing K]

/-- The momentum program: `n` points with increasing times `τ` and positive momenta `μ`; the machine's numbers are usable. -/
structure MomentumProgram (L : MathLib K) (a : PArgs K) (n : ℕ) (τ μ : ℕ → K) (P : K → K) : Prop where
  time : a.momTime = tab n τ
  value : a.momVal = tab n μ
  points : 0 < n
  increasing : ∀ k, k + 1 < n → τ k < τ (k + 1)
  positive : ∀ k, k < n → 0 < μ k
  follows : Follows n τ μ P
  sound : Sound L a

theorem MomentumProgram.given {L : MathLib K} {a : PArgs K} {n : ℕ} {τ μ : ℕ → K} {P : K → K}
    (h : MomentumProgram L a n τ μ P) : Given L a n τ μ (revPeriod L.sqrt (circumference L a) L.c a.eRest) P :=
  given_of h.sound h.time h.value h.points h.increasing h.positive h.follows

/-- time and momentum of the turns of the machine -/
def machineTurn (L : MathLib K) (a : PArgs K) (τ μ : ℕ → K) (P : K → K) (j : ℕ) : K × K :=
  turn (revPeriod L.sqrt (circumference L a) L.c a.eRest) P (τ 0) (μ 0) j

/-! ## C56: the turns -/

/-- C56, what is returned: consecutive turns of the machine such that entry `i0` is the first turn at or after the reference
time; each turn but the very first has the momentum of the program at its time.  Proved when at least `i0` turns precede the
reference time.  Missing: the number of turns may be one less than asked for (`C56_violated_missing_turn`); the full number is
only proved when a turn falls exactly on the reference time. -/
theorem C56_turns_partial {L : MathLib K} {a : PArgs K} {n : ℕ} {τ μ : ℕ → K} {P : K → K} (hP : MomentumProgram L a n τ μ P)
    {tref : K} (ht : a.tRef = some tref) {i0 nturns : ℕ} (hi : a.machineRefFrame * a.dturns = (i0 : ℕ))
    (hn : a.dturns * a.nprofiles = (nturns : ℕ)) (href : ∀ j, j < i0 → (machineTurn L a τ μ P j).1 < tref)
    {fuel : ℕ} {r : List K × List K} (h : interpolateMomentum L a fuel = .ok r) :
    ∃ f m : ℕ, FirstAt (fun j => (machineTurn L a τ μ P j).1) tref f ∧ i0 ≤ f ∧ (m = nturns ∨ m + 1 = nturns)
      ∧ ((machineTurn L a τ μ P f).1 = tref → m = nturns)
      ∧ r = (tab m fun j => (machineTurn L a τ μ P (f - i0 + j)).1, tab m fun j => (machineTurn L a τ μ P (f - i0 + j)).2)
      ∧ (∀ j, j < m → 0 < (machineTurn L a τ μ P (f - i0 + j)).2)
      ∧ (∀ j, 0 < f - i0 + j →
          (machineTurn L a τ μ P (f - i0 + j)).2 = P (machineTurn L a τ μ P (f - i0 + j)).1) := by
  obtain ⟨N, f, hfN, hF, hpos, _, h1, h2, rfl⟩ := interpolate_ok hP.given ht h
  have hif : i0 ≤ f := by
    by_contra hc
    exact absurd (href f (by omega)) (not_lt.2 hF.1)
  rw [hi, hn] at h1 h2 ⊢
  refine ⟨f, min nturns (N - (f - i0)), hF, hif, by omega, ?_, ?_, ?_, ?_⟩
  · intro he
    have := h2 he
    omega
  · rw [slice_turns _ hif (by omega) hfN, slice_turns _ hif (by omega) hfN]
    rfl
  · intro j hj
    exact hpos _ (by omega)
  · intro j hj
    obtain ⟨q, hq⟩ : ∃ q, f - i0 + j = q + 1 := ⟨f - i0 + j - 1, by omega⟩
    rw [hq]
    rfl

/-- C56, the search for the turns ends and succeeds for every program lasting long enough: here `j` is a turn after the reference
time and the program lasts until `nturns - i0` turns later. -/
theorem C56_long_enough [Archimedean K] {L : MathLib K} {a : PArgs K} {n : ℕ} {τ μ : ℕ → K} {P : K → K}
    (hP : MomentumProgram L a n τ μ P) (hsqrt : ∀ x, 0 < x → x ≤ 1 → L.sqrt x ≤ 1)
    {tref : K} (ht : a.tRef = some tref) {i0 nturns : ℕ} (hi : a.machineRefFrame * a.dturns = (i0 : ℕ))
    (hn : a.dturns * a.nprofiles = (nturns : ℕ)) (htwo : i0 + 2 ≤ nturns) {j : ℕ} (hj : 2 ≤ j)
    (hafter : tref < (machineTurn L a τ μ P j).1)
    (hend : ∀ i, i ≤ j + (nturns - i0) - 2 → (machineTurn L a τ μ P i).1 ≤ τ (n - 1)) :
    ∃ fuel0 r, ∀ fuel, fuel0 ≤ fuel → interpolateMomentum L a fuel = .ok r := by
  have hG := hP.given
  have hS := hP.sound
  have hmin : ∀ p, 0 < p → circumference L a / L.c ≤ revPeriod L.sqrt (circumference L a) L.c a.eRest p := by
    intro p _
    have hb := beta_pos hS p
    have hx : 1 / (1 + (a.eRest / p) ^ 2) ≤ 1 := by
      rw [div_le_one (by positivity)]
      nlinarith [sq_nonneg (a.eRest / p)]
    have hle := hsqrt _ (by positivity) hx
    unfold revPeriod
    apply div_le_div_of_nonneg_left hS.circ.le (mul_pos hb hS.light)
    nlinarith [hS.light]
  have hd : 0 < circumference L a / L.c := div_pos hS.circ hS.light
  obtain ⟨f0, s, hs⟩ := outer_enough (nturns := (nturns : ℕ)) (e := j + (nturns - i0) - 2) hG ht hd hmin hafter (by omega)
    (by rw [hi]; omega) hend
  obtain ⟨hI, hcnt⟩ := outer_inv (tref := tref) hG ht _ _ _ (inv_init hG) (hs f0 (le_refl _))
  have hturn := hI.turn
  rw [hi] at hturn
  -- at least two turns were counted, so one of them is kept
  have hfound : ∃ f, (tab (s.i + 1) fun j => (turn (revPeriod L.sqrt (circumference L a) L.c a.eRest) P (τ 0) (μ 0) j).1).findIdx?
      (fun x => decide (tref ≤ x)) = some f := by
    by_contra hno
    push Not at hno
    have hnone := findIdx_tab_none (Option.eq_none_iff_forall_ne_some.2 hno)
    have hsub : ((Finset.range s.i).filter fun l => tref < (turn (revPeriod L.sqrt (circumference L a) L.c a.eRest) P (τ 0) (μ 0) (l + 2)).1)
        ⊆ {s.i - 1} := by
      intro l hl
      rw [Finset.mem_filter, Finset.mem_range] at hl
      rw [Finset.mem_singleton]
      by_contra hc
      exact absurd (hnone (l + 2) (by omega)) (not_lt.2 hl.2.le)
    have := Finset.card_le_card hsub
    rw [Finset.card_singleton] at this
    omega
  obtain ⟨f, hf⟩ := hfound
  obtain ⟨hfl, hF⟩ := findIdx_tab hf
  have hcount := count_le hF (show f ≤ s.i by omega)
  obtain ⟨r, hr⟩ : ∃ r, cutTurns (nturns : ℕ) ((f : Int) - (i0 : ℕ))
      (tab (s.i + 1) fun j => (turn (revPeriod L.sqrt (circumference L a) L.c a.eRest) P (τ 0) (μ 0) j).1)
      (tab (s.i + 1) fun j => (turn (revPeriod L.sqrt (circumference L a) L.c a.eRest) P (τ 0) (μ 0) j).2) = .ok r := by
    unfold cutTurns
    rw [length_tab, if_neg (by push_cast; omega)]
    exact ⟨_, rfl⟩
  refine ⟨f0, r, fun fuel hfuel => ?_⟩
  rw [interpolate_eq hG, hn, hs fuel hfuel, bind_ok, hI.ti, dropLast_tab, hI.mi]
  have hinit : initialIndex a (tab (s.i + 1) fun j => (turn (revPeriod L.sqrt (circumference L a) L.c a.eRest) P (τ 0) (μ 0) j).1)
      = .ok ((f : Int) - (i0 : ℕ)) := by
    unfold initialIndex
    rw [ht]
    dsimp only
    rw [hf, hi]
  rw [hinit, bind_ok]
  exact hr

/-- C56, all outcomes: for every momentum program the computation ends with turns, with IndexError, or with ValueError because
no turn lies at or after the reference time.  The message "Not enough data in momentum program" is never given: a program that
is too short is an IndexError. -/
theorem C56_violated_not_enough_data [Archimedean K] {L : MathLib K} {a : PArgs K} {n : ℕ} {τ μ : ℕ → K} {P : K → K}
    (hP : MomentumProgram L a n τ μ P) (hsqrt : ∀ x, 0 < x → x ≤ 1 → L.sqrt x ≤ 1) {tref : K} (ht : a.tRef = some tref) :
    ∃ fuel0, (∃ r, ∀ fuel, fuel0 ≤ fuel → interpolateMomentum L a fuel = .ok r)
      ∨ (∀ fuel, fuel0 ≤ fuel → interpolateMomentum L a fuel = .error (.exc .indexError))
      ∨ (∃ N, (∀ j, j ≤ N → (machineTurn L a τ μ P j).1 < tref) ∧
          (a.dturns * a.nprofiles ≤ a.machineRefFrame * a.dturns + 1) ∧
          ∀ fuel, fuel0 ≤ fuel → interpolateMomentum L a fuel = .error (.exc .valueError)) := by
  have hG := hP.given
  have hS := hP.sound
  have hmin : ∀ p, 0 < p → circumference L a / L.c ≤ revPeriod L.sqrt (circumference L a) L.c a.eRest p := by
    intro p _
    have hb := beta_pos hS p
    have hx : 1 / (1 + (a.eRest / p) ^ 2) ≤ 1 := by
      rw [div_le_one (by positivity)]
      nlinarith [sq_nonneg (a.eRest / p)]
    have hle := hsqrt _ (by positivity) hx
    unfold revPeriod
    apply div_le_div_of_nonneg_left hS.circ.le (mul_pos hb hS.light)
    nlinarith [hS.light]
  have hd : 0 < circumference L a / L.c := div_pos hS.circ hS.light
  obtain ⟨f0, ⟨s, hs⟩ | ⟨_, hs⟩⟩ := outer_total (tref := tref) hG ht hd hmin (a.dturns * a.nprofiles) n (inv_init hG) (by simp)
  · obtain ⟨hI, hcnt⟩ := outer_inv (tref := tref) hG ht _ _ _ (inv_init hG) (hs f0 f0 (le_refl _) (le_refl _))
    refine ⟨f0, ?_⟩
    have hrun : ∀ fuel, f0 ≤ fuel → interpolateMomentum L a fuel = (do
        let init ← initialIndex a (tab (s.i + 1) fun j => (machineTurn L a τ μ P j).1)
        cutTurns (a.dturns * a.nprofiles) init (tab (s.i + 1) fun j => (machineTurn L a τ μ P j).1) s.mi) := by
      intro fuel hf
      rw [interpolate_eq hG, hs fuel fuel hf hf, bind_ok, hI.ti, dropLast_tab]
      rfl
    cases hf : (tab (s.i + 1) fun j => (machineTurn L a τ μ P j).1).findIdx? (fun x => decide (tref ≤ x)) with
    | none =>
      have hnone := findIdx_tab_none hf
      refine Or.inr (Or.inr ⟨s.i, fun j hj => hnone j (by omega), ?_, fun fuel hfuel => ?_⟩)
      · have hsub : ((Finset.range s.i).filter fun l =>
            tref < (turn (revPeriod L.sqrt (circumference L a) L.c a.eRest) P (τ 0) (μ 0) (l + 2)).1) ⊆ {s.i - 1} := by
          intro l hl
          rw [Finset.mem_filter, Finset.mem_range] at hl
          rw [Finset.mem_singleton]
          by_contra hc
          exact absurd (hnone (l + 2) (by omega)) (not_lt.2 hl.2.le)
        have h1 := Finset.card_le_card hsub
        rw [Finset.card_singleton] at h1
        have h2 := hI.turn
        omega
      · rw [hrun fuel hfuel]
        unfold initialIndex
        rw [ht]
        dsimp only
        rw [hf]
        rfl
    | some f =>
      obtain ⟨hfl, hF⟩ := findIdx_tab hf
      have hcount := count_le hF (show f ≤ s.i by omega)
      have hturn := hI.turn
      have hc1 : f + ((Finset.range s.i).filter fun j =>
          tref < (turn (revPeriod L.sqrt (circumference L a) L.c a.eRest) P (τ 0) (μ 0) (j + 2)).1).card ≤ s.i + 2 := hcount.1
      obtain ⟨r, hr⟩ : ∃ r, cutTurns (a.dturns * a.nprofiles) ((f : Int) - a.machineRefFrame * a.dturns)
          (tab (s.i + 1) fun j => (machineTurn L a τ μ P j).1) s.mi = .ok r := by
        unfold cutTurns
        rw [length_tab, if_neg (by push_cast; omega)]
        exact ⟨_, rfl⟩
      refine Or.inl ⟨r, fun fuel hfuel => ?_⟩
      rw [hrun fuel hfuel]
      unfold initialIndex
      rw [ht]
      dsimp only
      rw [hf]
      exact hr
  · refine ⟨f0, Or.inr (Or.inl fun fuel hfuel => ?_)⟩
    rw [interpolate_eq hG, hs fuel fuel hfuel hfuel]
    rfl

/-- a machine whose particles have no rest energy: every turn takes one unit of time -/
def evenMach (times : List ℚ) (tref : ℚ) (mref dturns nprof : Int) : PArgs ℚ where
  dturns := dturns
  nprofiles := nprof
  machineRefFrame := mref
  meanOrbitRad := 1 / 6
  bendingRad := 1
  transGamma := 2
  eRest := 0
  hNum := 1
  q := 1
  momTime := times
  momVal := times.map fun t => 1 + t
  voltTime := [0, 10]
  volt1 := [1, 11]
  volt2 := [0, 5]
  harmonics := [1, 2]
  phase := .missing
  tRef := some tref

/-- C56 violated: a program with a point per turn that goes on long after the turns wanted; 4 turns are asked for (2 profiles, 2 turns
apart), 3 are returned. -/
theorem C56_violated_missing_turn :
    interpolateMomentum libQ (evenMach [0, 1, 2, 3, 4, 5, 6, 7, 8, 9, 10, 11, 12] (5 / 2) 0 2 2) 50 = .ok ([3, 4, 5], [4, 5, 6]) := by
  decide +kernel

/-- beside it: a program with a longer last interval gives all four turns -/
example : interpolateMomentum libQ (evenMach [0, 1, 2, 3, 12] (5 / 2) 0 2 2) 50 = .ok ([3, 4, 5, 6], [4, 5, 6, 7]) := by
  decide +kernel

/-- C56 violated: the reference time lies before turn `i0`; no turn is returned and no error raised. -/
theorem C56_violated_early_reference :
    interpolateMomentum libQ (evenMach [0, 12] (1 / 2) 1 2 2) 50 = .ok ([], []) := by
  decide +kernel

/-- C56 violated: the first turn has the momentum of the start of the program, not the one at its time (2 at time 1). -/
theorem C56_violated_first_turn :
    interpolateMomentum libQ (evenMach [0, 12] 1 0 2 2) 50 = .ok ([1, 2, 3, 4], [1, 3, 4, 5]) := by
  decide +kernel

/-- a program too short for the turns wanted -/
example : interpolateMomentum libQ (evenMach [0, 3] (5 / 2) 0 2 2) 50 = .error (.exc .indexError) := by
  decide +kernel

theorem even_sound (times : List ℚ) (tref : ℚ) (mref dturns nprof : Int) : Sound libQ (evenMach times tref mref dturns nprof) where
  circ := by show (0 : ℚ) < 2 * 3 * (1 / 6); norm_num
  light := by show (0 : ℚ) < 1; norm_num
  sqrt := fun x hx => hx
  gamma := by show (2 : ℚ) ≠ 0; norm_num
  rho := by show (1 : ℚ) * 1 ≠ 0; norm_num

theorem even_program (tref : ℚ) (mref dturns nprof : Int) : MomentumProgram libQ (evenMach [0, 12] tref mref dturns nprof) 2
    (fun k => 12 * k) (fun k => 1 + 12 * k) (fun t => 1 + t) where
  time := by simp [evenMach, tab, List.range_succ]
  value := by simp [evenMach, tab, List.range_succ]
  points := by omega
  increasing := by intro k hk; push_cast; linarith
  positive := by intro k _; positivity
  follows := by
    intro k hk t _ _
    have : k = 0 := by omega
    subst this
    push_cast; ring
  sound := even_sound _ _ _ _ _

/-- the hypotheses of `C56_turns_partial` hold for a ramp from 1 to 13 with the reference frame in the middle -/
example : ∃ f m : ℕ, FirstAt (fun j => (machineTurn libQ (evenMach [0, 12] (9 / 2) 1 2 3) (fun k => 12 * k)
      (fun k => 1 + 12 * k) (fun t => 1 + t) j).1) (9 / 2) f ∧ 2 ≤ f ∧ (m = 6 ∨ m + 1 = 6) := by
  have hrun : ∃ r, interpolateMomentum libQ (evenMach [0, 12] (9 / 2) 1 2 3) 50 = .ok r :=
    ⟨([3, 4, 5, 6, 7, 8], [4, 5, 6, 7, 8, 9]), by decide +kernel⟩
  obtain ⟨r, hr⟩ := hrun
  obtain ⟨f, m, h1, h2, h3, _⟩ := C56_turns_partial (i0 := 2) (nturns := 6) (even_program (9 / 2) 1 2 3) rfl rfl rfl (by
    intro j hj
    interval_cases j <;> norm_num [machineTurn, turn, revPeriod, libQ, evenMach, circumference]) hr
  exact ⟨f, m, h1, h2, h3⟩

/-- the hypotheses of `C56_long_enough` hold for the same machine -/
example : ∃ fuel0 r, ∀ fuel, fuel0 ≤ fuel → interpolateMomentum libQ (evenMach [0, 12] (9 / 2) 1 2 3) fuel = .ok r := by
  refine C56_long_enough (i0 := 2) (nturns := 6) (j := 4) (even_program (9 / 2) 1 2 3) (fun x _ h => h) rfl rfl rfl (by omega) (by omega) ?_ ?_
  · norm_num [machineTurn, turn, revPeriod, libQ, evenMach, circumference]
  · intro i hi
    have : i ≤ 6 := by omega
    interval_cases i <;> norm_num [machineTurn, turn, revPeriod, libQ, evenMach, circumference]

/-- C56, the voltages: at every turn the voltage of each system is the one of its program at the time of the turn, linear between
the points and constant outside; a machine with one harmonic has no second voltage. -/
theorem C56_voltages {L : MathLib K} {a : PArgs K} {n : ℕ} (hn : 0 < n) {τ u1 u2 : ℕ → K}
    (hτ : ∀ k, k + 1 < n → τ k < τ (k + 1)) (h0 : a.voltTime = tab n τ) (h1 : a.volt1 = tab n u1) (h2 : a.volt2 = tab n u2) :
    ∃ V1 V2 : K → K, Follows n τ u1 V1 ∧ Follows n τ u2 V2
      ∧ (∀ t, t ≤ τ 0 → V1 t = u1 0 ∧ V2 t = u2 0) ∧ (∀ t, τ (n - 1) ≤ t → V1 t = u1 (n - 1) ∧ V2 t = u2 (n - 1))
      ∧ ∀ fuel o, Prog.valuesAtTurns L a fuel = .ok o → ∃ t p, interpolateMomentum L a fuel = .ok (t, p) ∧ o.momentum = p
        ∧ o.vrf1AtTurn = t.map V1
        ∧ (a.harmonics.length = 2 → o.vrf2AtTurn = t.map V2)
        ∧ (a.harmonics.length ≠ 2 → o.vrf2AtTurn = t.map fun _ => 0) := by
  obtain ⟨V1, f1, l1, g1, r1⟩ := npInterp_ok hn τ u1 hτ
  obtain ⟨V2, f2, l2, g2, r2⟩ := npInterp_ok hn τ u2 hτ
  refine ⟨V1, V2, f1, f2, fun t ht => ⟨l1 t ht, l2 t ht⟩, fun t ht => ⟨g1 t ht, g2 t ht⟩, ?_⟩
  intro fuel o h
  unfold Prog.valuesAtTurns at h
  rw [Asrt.bind_ok_iff] at h
  obtain ⟨⟨t, p⟩, hI, h⟩ := h
  have hK : Inhabited K := ⟨0⟩
  obtain ⟨m, tt, rfl⟩ : ∃ m tt, t = tab m tt := ⟨_, _, eq_tab_of_length t⟩
  dsimp only at h
  rw [h0, h1, r1, bind_ok, Asrt.bind_ok_iff] at h
  obtain ⟨_, _, h⟩ := h
  rw [Asrt.bind_ok_iff] at h
  obtain ⟨⟨v2, ratio⟩, hs, h⟩ := h
  dsimp only at h
  rw [Asrt.bind_ok_iff] at h
  obtain ⟨o', ho', h⟩ := h
  have harr : o'.momentum = p ∧ o'.vrf1AtTurn = (tab m fun i => V1 (tt i)) ∧ o'.vrf2AtTurn = v2 := by
    unfold turnArrays at ho'
    dsimp only at ho'
    simp only [Asrt.bind_ok_iff] at ho'
    obtain ⟨_, _, _, _, _, _, _, _, _, _, _, _, _, _, _, _, ho'⟩ := ho'
    cases ho'
    exact ⟨rfl, rfl, rfl⟩
  have hsec : (a.harmonics.length = 2 → v2 = (tab m tt).map V2) ∧ (a.harmonics.length ≠ 2 → v2 = (tab m tt).map fun _ => 0) := by
    unfold secondHarmonic at hs
    split at hs
    · rename_i x y hxy
      split at hs
      · cases hs
      · rw [h0, h2, r2, bind_ok] at hs
        cases hs
        exact ⟨fun _ => (map_tab V2 m tt).symm, fun hne => absurd (by rw [hxy]; rfl) hne⟩
    · rename_i hne
      cases hs
      refine ⟨fun hl => ?_, fun _ => by rw [map_tab, map_tab]⟩
      obtain ⟨x, y, hxy⟩ := List.length_eq_two.1 hl
      exact absurd hxy (hne x y)
  refine ⟨tab m tt, p, hI, ?_⟩
  rw [Asrt.bind_ok_iff] at h
  obtain ⟨d, _, h⟩ := h
  have hfin : o.momentum = o'.momentum ∧ o.vrf1AtTurn = o'.vrf1AtTurn ∧ o.vrf2AtTurn = o'.vrf2AtTurn := by
    cases d with
    | missing => cases h; exact ⟨rfl, rfl, rfl⟩
    | number v =>
      dsimp only at h
      rw [Asrt.bind_ok_iff] at h
      obtain ⟨_, _, h⟩ := h
      cases h; exact ⟨rfl, rfl, rfl⟩
    | turns v =>
      dsimp only at h
      rw [Asrt.bind_ok_iff] at h
      obtain ⟨_, _, h⟩ := h
      cases h; exact ⟨rfl, rfl, rfl⟩
  rw [hfin.1, hfin.2.1, hfin.2.2, harr.1, harr.2.1, harr.2.2]
  exact ⟨rfl, (map_tab V1 m tt).symm, hsec.1, hsec.2⟩

/-- a machine with two harmonics: the voltages at the turns -/
example : (Prog.valuesAtTurns libQ (evenMach [0, 12] (9 / 2) 1 2 3) 50).map (fun o => (o.vrf1AtTurn, o.vrf2AtTurn, o.hRatio))
    = .ok ([4, 5, 6, 7, 8, 9], [3 / 2, 2, 5 / 2, 3, 7 / 2, 4], 2) := by decide +kernel

/-! ## C64: the arrays per turn -/

/-- C64, the arrays: for the momenta `p` of `m` turns every array has its documented value at every turn: energy, velocity, slip
factor, drift coefficient, angular revolution frequency; the time is zero at the reference turn and grows by one revolution
period per turn; the energy differences are those between neighbouring turns.
Missing: the time is not the time at which the momentum was taken from the program (`C64_violated_time`), the energy difference is
stored one turn early and one is missing (`C64_violated_energy_step`, `C64_violated_too_few_steps`). -/
theorem C64_arrays_partial {L : MathLib K} {a : PArgs K} (hS : Sound L a) {m i0 : ℕ} (hm : 2 ≤ m) {p : ℕ → K}
    (hp : ∀ j, j < m → 0 < p j) (hi : a.machineRefFrame * a.dturns = (i0 : ℕ)) (hi0 : i0 < m) (v1 v2 : List K) (ratio : K) :
    ∃ (o : POut K) (e b eta coef w time field : ℕ → K), turnArrays L a (tab m p) v1 v2 ratio = .ok o
      ∧ o.momentum = tab m p ∧ o.e0 = tab m e ∧ o.beta0 = tab m b ∧ o.eta0 = tab m eta ∧ o.driftCoef = tab m coef
      ∧ o.omegaRev0 = tab m w ∧ o.timeAtTurn = tab m time ∧ o.bdot.length = m
      ∧ o.deltaE0 = tab (m - 1) (fun j => e (j + 1) - e j)
      ∧ (∀ j, e j = L.sqrt (p j ^ 2 + a.eRest ^ 2)) ∧ (∀ j, b j = L.sqrt (1 / (1 + (a.eRest / p j) ^ 2)))
      ∧ (∀ j, eta j = 1 - b j ^ 2 - 1 / a.transGamma ^ 2)
      ∧ (∀ j, j < m → coef j * (e j * b j ^ 2) = 2 * L.pi * a.hNum * eta j)
      ∧ (∀ j, w j * (circumference L a / (b j * L.c)) = 2 * L.pi)
      ∧ time i0 = 0 ∧ (∀ j, time (j + 1) - time j = circumference L a / (b (j + 1) * L.c))
      -- the rate of change of the field is exact for a field linear in that time
      ∧ (∀ j, field j * (a.bendingRad * a.q * L.c) = p j)
      ∧ (∀ c s, (∀ j, field j = c + s * time j) → ∀ j, j < m → o.bdot[j]? = some s) := by
  refine ⟨_, fun j => L.sqrt (p j ^ 2 + a.eRest ^ 2), fun j => L.sqrt (1 / (1 + (a.eRest / p j) ^ 2)),
    fun j => 1 - L.sqrt (1 / (1 + (a.eRest / p j) ^ 2)) ^ 2 - 1 / a.transGamma ^ 2, _, _, _,
    fun j => p j / (a.bendingRad * a.q) / L.c, turnArrays_ok hS hm p hp hi hi0 v1 v2 ratio, rfl, rfl, rfl, rfl, rfl, rfl, rfl, ?_, rfl,
    fun j => rfl, fun j => rfl, fun j => rfl, ?_, ?_, sumTime_ref _ _ _, fun j => ?_, fun j => ?_, ?_⟩
  · simp
  · intro j hj
    have h1 : 0 < L.sqrt (p j ^ 2 + a.eRest ^ 2) := hS.sqrt _ (by have := hp j hj; positivity)
    have h2 := beta_pos hS (p j)
    exact div_mul_cancel₀ _ (mul_pos h1 (pow_pos h2 2)).ne'
  · intro j
    have h1 := period_pos hS (p j)
    show 2 * L.pi * (1 / revPeriod L.sqrt (circumference L a) L.c a.eRest (p j)) * revPeriod L.sqrt (circumference L a) L.c a.eRest (p j) = _
    have := h1.ne'
    field_simp
  · exact sumTime_succ _ _ _ _
  · have h1 := hS.rho
    have h2 := hS.light.ne'
    dsimp only
    have h3 := left_ne_zero_of_mul h1
    have h4 := right_ne_zero_of_mul h1
    field_simp
  · intro c s hf j hj
    show (tab m _)[j]? = _
    rw [some_tab _ hj]
    have : (fun j => p j / (a.bendingRad * a.q) / L.c)
        = fun j => c + s * sumTime (revPeriod L.sqrt (circumference L a) L.c a.eRest) p i0 j := funext hf
    rw [this, gradVal_line hm _ (fun j _ => ?_) c s hj]
    have h1 := sumTime_succ (revPeriod L.sqrt (circumference L a) L.c a.eRest) p i0 j
    have h2 := period_pos hS (p (j + 1))
    linarith

/-- a machine with rest energy 1 (a turn takes `1 + 1 / p^2`), on a ramp -/
def rampProg (dturns nprof : Int) : PArgs ℚ :=
  { evenMach [0, 12] 2 0 dturns nprof with
    eRest := 1, momTime := [0, 7], momVal := [1, 8], phase := .program [0, 25] [0, 25] [1, 1], voltTime := [0, 25],
    volt1 := [1, 26], volt2 := [0, 0] }

/-- the hypotheses of `C64_arrays_partial` on three turns -/
example : ∃ o, turnArrays libQ (rampProg 1 3) (tab 3 fun j => 1 + (j : ℚ)) [1, 1, 1] [0, 0, 0] 2 = .ok o ∧ o.bdot.length = 3 := by
  obtain ⟨o, _, _, _, _, _, _, _, h, h1, _, _, _, _, _, _, h2, _⟩ := C64_arrays_partial (L := libQ) (a := rampProg 1 3) (i0 := 0)
    ⟨by show (0 : ℚ) < 2 * 3 * (1 / 6); norm_num, by show (0 : ℚ) < 1; norm_num, fun x hx => hx,
      by show (2 : ℚ) ≠ 0; norm_num, by show (1 : ℚ) * 1 ≠ 0; norm_num⟩ (m := 3) (by omega) (p := fun j => 1 + (j : ℚ))
    (fun j _ => by positivity) rfl (by omega) [1, 1, 1] [0, 0, 0] 2
  exact ⟨o, h, h2⟩

/-- a run that succeeds with a result satisfying a decidable property -/
theorem exists_ok {α : Type _} {x : M α} {Q : α → Prop} [DecidablePred Q]
    (h : (match x with | .ok o => decide (Q o) | .error _ => false) = true) : ∃ o, x = .ok o ∧ Q o := by
  cases x with
  | error e => cases h
  | ok o => exact ⟨o, rfl, of_decide_eq_true h⟩

/-- C64 violated: on a ramp the time between two turns (first and second of three) is not the time between the moments their momenta
belong to. -/
theorem C64_violated_time : ∃ r, interpolateMomentum libQ (rampProg 1 3) 50 = .ok r
    ∧ ∃ o, Prog.valuesAtTurns libQ (rampProg 1 3) 50 = .ok o
      ∧ o.momentum = r.2 ∧ r.1.length = 3 ∧ o.timeAtTurn.length = 3
      ∧ o.timeAtTurn.getD 1 0 - o.timeAtTurn.getD 0 0 ≠ r.1.getD 1 0 - r.1.getD 0 0 := by
  have h : ∃ q : (List ℚ × List ℚ) × POut ℚ, (do
      let r ← interpolateMomentum libQ (rampProg 1 3) 50
      let o ← Prog.valuesAtTurns libQ (rampProg 1 3) 50
      pure (r, o)) = .ok q ∧ (q.2.momentum = q.1.2 ∧ q.1.1.length = 3 ∧ q.2.timeAtTurn.length = 3
      ∧ q.2.timeAtTurn.getD 1 0 - q.2.timeAtTurn.getD 0 0 ≠ q.1.1.getD 1 0 - q.1.1.getD 0 0) :=
    exists_ok (by decide +kernel)
  obtain ⟨⟨r, o⟩, h1, h2⟩ := h
  rw [Asrt.bind_ok_iff] at h1
  obtain ⟨r', hr, h1⟩ := h1
  rw [Asrt.bind_ok_iff] at h1
  obtain ⟨o', ho, h1⟩ := h1
  cases h1
  exact ⟨r, hr, o, ho, h2⟩

/-- C64 violated: entry `n` of the energy differences is not the difference between turn `n` and turn `n - 1`. -/
theorem C64_violated_energy_step : ∃ o, Prog.valuesAtTurns libQ (rampProg 1 3) 50 = .ok o
    ∧ o.e0.length = 3 ∧ o.deltaE0.length = 2 ∧ o.deltaE0.getD 1 0 ≠ o.e0.getD 1 0 - o.e0.getD 0 0 :=
  exists_ok (by decide +kernel)

/-- C64 violated: with one turn per profile, tracking to the last profile reads past the end of the energy differences. -/
theorem C64_violated_too_few_steps : ∃ o, Prog.valuesAtTurns libQ (rampProg 1 3) 50 = .ok o
    ∧ o.momentum.length = 3 ∧ o.deltaE0.length = 2
    ∧ (Track.kickAndDrift (fun x : ℚ => x) [[0], [0], [0]] [[0], [0], [0]] [1] [0]
        ⟨o.vrf1AtTurn, o.vrf2AtTurn, o.phi0, o.deltaE0, o.driftCoef, o.phi12.getD [], o.hRatio⟩ 1 0 0 2 1).map Track.TS.dphi
      = .error .oob :=
  exists_ok (by decide +kernel)

/-! ## C58: the phases of the two RF systems -/

/-- C58, phase program: with two harmonics `h0`, `h1` the phase difference at every turn is that of the interpolated phases plus
half a turn, in units of the first harmonic, and the phase found at every turn balances the voltages against the change of
the field, provided the root finder returns roots.
Missing: the phase difference given as a number or an array (`C58_violated_number`, `C58_violated_array`). -/
theorem C58_program_partial {L : MathLib K} {a : PArgs K} (hS : Sound L a)
    (hroot : ∀ f f' x0 x, L.newton f f' x0 = some x → f x = 0) {fuel m i0 : ℕ} {t p : ℕ → K}
    (h : interpolateMomentum L a fuel = .ok (tab m t, tab m p)) (hm : 2 ≤ m) (hp : ∀ j, j < m → 0 < p j)
    (hi : a.machineRefFrame * a.dturns = (i0 : ℕ)) (hi0 : i0 < m)
    {nv : ℕ} (hnv : 0 < nv) {τv u1 u2 : ℕ → K} (hτv : ∀ k, k + 1 < nv → τv k < τv (k + 1))
    (hv0 : a.voltTime = tab nv τv) (hv1 : a.volt1 = tab nv u1) (hv2 : a.volt2 = tab nv u2)
    {np : ℕ} (hnp : 0 < np) {τp q1 q2 : ℕ → K} (hτp : ∀ k, k + 1 < np → τp k < τp (k + 1))
    (hph : a.phase = .program (tab np τp) (tab np q1) (tab np q2))
    {h0 h1 : K} (hh : a.harmonics = [h0, h1]) (hh0 : h0 ≠ 0) (hh1 : h1 ≠ 0) {o : POut K}
    (ho : Prog.valuesAtTurns L a fuel = .ok o) :
    ∃ V1 V2 Q1 Q2 : K → K, Follows nv τv u1 V1 ∧ Follows nv τv u2 V2 ∧ Follows np τp q1 Q1 ∧ Follows np τp q2 Q2
      ∧ o.hRatio = h1 / h0 ∧ o.phi12 = some (tab m fun j => (Q1 (t j) - Q2 (t j) + L.pi) / (h1 / h0))
      ∧ o.phi0.length = m ∧ o.bdot.length = m
      ∧ ∀ j, j < m → ∃ φ bd, o.phi0[j]? = some φ ∧ o.bdot[j]? = some bd
        ∧ V1 (t j) * L.sin φ + V2 (t j) * L.sin (h1 / h0 * (φ - (Q1 (t j) - Q2 (t j) + L.pi) / (h1 / h0)))
          = 2 * L.pi * a.meanOrbitRad * a.bendingRad * bd * npSign a.q := by
  obtain ⟨V1, f1, _, _, r1⟩ := npInterp_ok hnv τv u1 hτv
  obtain ⟨V2, f2, _, _, r2⟩ := npInterp_ok hnv τv u2 hτv
  obtain ⟨Q1, f3, _, _, r3⟩ := npInterp_ok hnp τp q1 hτp
  obtain ⟨Q2, f4, _, _, r4⟩ := npInterp_ok hnp τp q2 hτp
  obtain ⟨o', ho', hval⟩ := values_program (V1 := V1) (V2 := V2) (Q1 := Q1) (Q2 := Q2) hS h hm hp hi hi0 (by rw [hv0, hv1, r1])
    (by rw [hv0, hv2, r2]) hh hh0 hh1 hph (r3 m t) (r4 m t)
  rw [hval, Asrt.bind_ok_iff] at ho
  obtain ⟨ph, hph', ho⟩ := ho
  have hto := turnArrays_ok hS hm p hp hi hi0 (tab m fun j => V1 (t j)) (tab m fun j => V2 (t j)) (h1 / h0)
  rw [hto] at ho'
  cases ho'
  cases ho
  obtain ⟨hlen, start, _, hall⟩ := findSynchronousPhase_ok hi hph'
  rw [length_tab] at hlen hall
  refine ⟨V1, V2, Q1, Q2, f1, f2, f3, f4, rfl, rfl, hlen, by simp, ?_⟩
  intro j hj
  obtain ⟨x0, φ, hφ, hrun, _⟩ := hall j hj
  refine ⟨φ, _, hφ, some_tab _ hj, ?_⟩
  unfold phaseAt at hrun
  rw [npGet_tab _ hj, bind_ok, npGet_tab _ hj, bind_ok, npGet_tab _ hj, bind_ok, npGet_tab _ hj, bind_ok] at hrun
  unfold Mch.newton at hrun
  split at hrun
  · rename_i x hx
    cases hrun
    have := hroot _ _ _ _ hx
    unfold rfPmch rfVoltage at this
    linear_combination this
  · cases hrun

/-- C58 violated: a number for the phase difference never gives a machine. -/
theorem C58_violated_number {L : MathLib K} {a : PArgs K} {v : K} (h : a.phase = .number v) (fuel : ℕ) (o : POut K) :
    construct L a fuel ≠ .ok o := by
  intro hc
  unfold construct at hc
  rw [Asrt.bind_ok_iff] at hc
  obtain ⟨_, _, hc⟩ := hc
  rw [h] at hc
  exact values_number h fuel o hc

/-- C58 violated: an array for the phase difference never gives a machine. -/
theorem C58_violated_array {L : MathLib K} {a : PArgs K} {v : List K} (h : a.phase = .array v) (fuel : ℕ) (o : POut K) :
    construct L a fuel ≠ .ok o := by
  intro hc
  unfold construct at hc
  rw [Asrt.bind_ok_iff] at hc
  obtain ⟨_, _, hc⟩ := hc
  rw [h] at hc
  exact values_array h fuel o hc

/-- the same programs with a number and with an array: TypeError; with a phase program the machine is computed -/
example : (construct libQ { rampProg 1 3 with phase := .number 3 } 50).map POut.phi0 = .error (.exc .typeError)
    ∧ (construct libQ { rampProg 1 3 with phase := .array [3, 3, 3] } 50).map POut.phi0 = .error (.exc .typeError)
    ∧ (construct libQ (rampProg 1 3) 50).toOption.isSome := by decide +kernel

/-- C58: the phase difference given twice, or a wrong number of harmonics, is refused. -/
theorem C58_refused (L : MathLib K) (a : PArgs K) (fuel : ℕ) :
    (a.harmonics.length = 0 ∨ 2 < a.harmonics.length → construct L a fuel = .error (.exc .arrayLengthError))
    ∧ (a.harmonics.length = 1 ∨ a.harmonics.length = 2 → a.phase = .both → construct L a fuel = .error (.exc .valueError)) := by
  unfold construct Asrt.assertInrange
  refine ⟨fun h => ?_, fun h hb => ?_⟩
  · rw [if_pos (by omega)]; rfl
  · rw [if_neg (by omega), bind_ok, hb]

/-- C58 violated: `calc_phi12` has three documented modes; bunch shortening (0) and bunch lengthening (1) give the same phases. -/
theorem C58_violated_modes (L : MathLib K) (arcsin : K → K) (a : PArgs K) (o : POut K) :
    calcPhi12 L arcsin a o 0 = calcPhi12 L arcsin a o 1 := rfl

/-- the phases calculated on the ramp, for the first two modes and the third -/
example : ((construct libQ { rampProg 1 3 with phase := .missing } 50).bind fun o => calcPhi12 libQ (fun x => x) (rampProg 1 3) o 0).toOption.isSome
    ∧ ((construct libQ { rampProg 1 3 with phase := .missing } 50).bind fun o => calcPhi12 libQ (fun x => x) (rampProg 1 3) o 0)
      ≠ ((construct libQ { rampProg 1 3 with phase := .missing } 50).bind fun o => calcPhi12 libQ (fun x => x) (rampProg 1 3) o 2) := by
  decide +kernel

/-- C49: the functions handed to Newton for a machine from programs are function and derivative. -/
theorem C49_programs (L : MathLib ℝ) (hL : RealFuns L) (a : PArgs ℝ) (ratio v1 v2 bdot phi12 φ : ℝ) :
    HasDerivAt (rf1Pmch L a v1 bdot) (drfvoltRf1 L φ v1) φ
    ∧ HasDerivAt (rfPmch L a ratio v1 v2 bdot phi12) (drfPmch L ratio v1 v2 phi12 φ) φ :=
  ⟨C49_rf1 L hL _ _ _ _ _ _, C49_both_harmonics L hL _ _ _ _ _ _ _ _ _⟩

end Verif.Props

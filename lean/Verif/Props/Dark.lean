import Verif.Spec.Dark
import Verif.Props.ReconSym
import Mathlib.Tactic.IntervalCases

/-!
# C128 — particles that see no signal
-/

set_option linter.unusedSectionVars false

namespace Verif.Props
open Finset Verif.Spec Verif.Recon Verif.Tomo

variable {K : Type} [Field K] [LinearOrder K] [IsStrictOrderedRing K]
variable {n n' P nb : ℕ} {x : ℕ → ℕ → ℕ} {wf : ℕ → ℕ → K}

theorem dark_split (hn : n ≤ n') (g : ℕ → K) (h0 : ∀ j, n ≤ j → j < n' → g j = 0) : ∑ i ∈ range n', g i = ∑ i ∈ range n, g i := by
  symm
  apply sum_subset
  · intro i hi
    exact mem_range.mpr ((mem_range.mp hi).trans_le hn)
  · intro i hi hi'
    exact h0 i (by simpa using hi') (mem_range.mp hi)

theorem dark_R_nonneg (keep : Bool) (n P nb : ℕ) (x : ℕ → ℕ → ℕ) (wf : ℕ → ℕ → K) (k p b : ℕ) : 0 ≤ R keep n P nb x wf k p b := by
  induction k generalizing p b with
  | zero => exact le_rfl
  | succ k ih =>
    have hacc : ∀ p b, 0 ≤ (if keep then R keep n P nb x wf k p b else 0) + proj n x (W keep n P nb x wf k) p b := by
      intro p b
      apply add_nonneg
      · split
        · exact ih p b
        · exact le_rfl
      · exact proj_nonneg (fun i _ => W_nonneg ..) p b
    rw [R_succ]
    exact div_nonneg (hacc p b) (sum_nonneg fun b _ => hacc p b)

/-- what holds after `k` iterations -/
def DarkAt (keep : Bool) (n n' P nb : ℕ) (x : ℕ → ℕ → ℕ) (wf : ℕ → ℕ → K) (k : ℕ) : Prop :=
  (∀ i, i < n → W keep n' P nb x wf k i = W keep n P nb x wf k i) ∧ (∀ j, n ≤ j → j < n' → W keep n' P nb x wf k j = 0) ∧
  R keep n' P nb x wf k = R keep n P nb x wf k

theorem dark_zero (hd : DarkFrom n n' P x wf) (keep : Bool) : DarkAt keep n n' P nb x wf 0 := by
  refine ⟨fun i _ => rfl, fun j hj hj' => ?_, rfl⟩
  exact max_eq_right (sum_nonpos fun p hp => hd j hj hj' p (mem_range.mp hp))

theorem dark_rec (hn : n ≤ n') {keep : Bool} {k : ℕ} (h : DarkAt keep n n' P nb x wf k) :
    R keep n' P nb x wf (k + 1) = R keep n P nb x wf (k + 1) := by
  obtain ⟨h1, h2, h3⟩ := h
  rw [R_succ, R_succ, h3]
  congr 1
  funext p b
  congr 1
  unfold proj
  rw [dark_split hn _ fun j hj hj' => by rw [h2 j hj hj', ite_self]]
  exact sum_congr rfl fun i hi => by rw [h1 i (mem_range.mp hi)]

theorem dark_count (hn : n ≤ n') (ha : ApartFrom n n' P x) {i p : ℕ} (hi : i < n) (hp : p < P) :
    count n' x p (x i p) = count n x p (x i p) := by
  unfold count
  congr 1
  ext j
  simp only [mem_filter, mem_range]
  constructor
  · rintro ⟨hj, e⟩
    refine ⟨?_, e⟩
    by_contra hno
    exact ha j (by omega) hj i hi p hp e
  · rintro ⟨hj, e⟩
    exact ⟨by omega, e⟩

theorem dark_step (hn : n ≤ n') (hd : DarkFrom n n' P x wf) (ha : ApartFrom n n' P x) (hm : maxCount n' P nb x = maxCount n P nb x)
    {keep : Bool} {k : ℕ} (h : DarkAt keep n n' P nb x wf k) : DarkAt keep n n' P nb x wf (k + 1) := by
  have hR := dark_rec hn h
  obtain ⟨h1, h2, h3⟩ := h
  refine ⟨fun i hi => ?_, fun j hj hj' => ?_, hR⟩
  · show max (W keep n' P nb x wf k i + ∑ p ∈ range P, (wf p (x i p) - R keep n' P nb x wf (k + 1) p (x i p)) *
        recip K n' P nb x p (x i p)) 0 =
      max (W keep n P nb x wf k i + ∑ p ∈ range P, (wf p (x i p) - R keep n P nb x wf (k + 1) p (x i p)) * recip K n P nb x p (x i p)) 0
    rw [h1 i hi, hR]
    congr 2
    apply sum_congr rfl
    intro p hp
    unfold recip
    rw [hm, dark_count hn ha hi (mem_range.mp hp)]
  · show max (W keep n' P nb x wf k j + ∑ p ∈ range P, (wf p (x j p) - R keep n' P nb x wf (k + 1) p (x j p)) *
        recip K n' P nb x p (x j p)) 0 = 0
    rw [h2 j hj hj', zero_add]
    apply max_eq_right
    apply sum_nonpos
    intro p hp
    apply mul_nonpos_of_nonpos_of_nonneg _ (recip_nonneg p _)
    have := hd j hj hj' p (mem_range.mp hp)
    have := dark_R_nonneg keep n' P nb x wf (k + 1) p (x j p)
    linarith

theorem dark_all (hn : n ≤ n') (hd : DarkFrom n n' P x wf) (ha : ApartFrom n n' P x) (hm : maxCount n' P nb x = maxCount n P nb x)
    (keep : Bool) (k : ℕ) : DarkAt keep n n' P nb x wf k := by
  induction k with
  | zero => exact dark_zero hd keep
  | succ k ih => exact dark_step hn hd ha hm ih

theorem dark_total (hn : n ≤ n') {keep : Bool} {k : ℕ} (h : DarkAt keep n n' P nb x wf k) :
    ∑ i ∈ range n', W keep n' P nb x wf k i = ∑ i ∈ range n, W keep n P nb x wf k i := by
  rw [dark_split hn _ h.2.1]
  exact sum_congr rfl fun i hi => h.1 i (mem_range.mp hi)

theorem dark_good (hn : n ≤ n') {keep : Bool} {niter : ℕ} (h : ∀ k, k ≤ niter → DarkAt keep n n' P nb x wf k) :
    Good keep n' P nb x wf niter ↔ Good keep n P nb x wf niter := by
  unfold Good
  refine forall₂_congr fun m hm => ?_
  rw [dark_total hn (h m hm)]

/-- the result with the dark particles: the weights of the others, then zeros -/
theorem dark_out (hn : n ≤ n') {keep : Bool} (sqrt : K → K) {niter : ℕ} (h : ∀ k, k ≤ niter → DarkAt keep n n' P nb x wf k) :
    (⟨tab n' (W keep n' P nb x wf niter), flat P nb (R keep n' P nb x wf (niter + 1)),
      tab (niter + 1) (fun m => sqrt (msq keep n' P nb x wf m))⟩ : RState K) =
    ⟨tab n' fun i => if i < n then W keep n P nb x wf niter i else 0, flat P nb (R keep n P nb x wf (niter + 1)),
      tab (niter + 1) (fun m => sqrt (msq keep n P nb x wf m))⟩ := by
  congr 1
  · apply tab_congr
    intro i hi
    split
    · exact (h niter le_rfl).1 i ‹_›
    · exact (h niter le_rfl).2.1 i (by omega) hi
  · rw [dark_rec hn (h niter le_rfl)]
  · apply tab_congr
    intro k hk
    unfold msq
    rw [dark_rec hn (h k (by omega))]

theorem dark_inRange (hn : n ≤ n') (hx : InRange n' P nb x) : InRange n P nb x := fun i hi p hp => hx i (hi.trans_le hn) p hp

/-- C128 without iterations, both routines: particles that see no signal get no weight and change nothing. -/
theorem C128_start (sqrt : K → K) (h0 : 0 < n) (hn : n ≤ n') (hP : 0 < P) (hb : 0 < nb) (hx : InRange n' P nb x) (hd : DarkFrom n n' P x wf) :
    (∀ st, (run sqrt n P nb x wf 0).2 = .ok st → ∃ w : ℕ → K, st.weights = tab n w ∧
      (run sqrt n' P nb x wf 0).2 = .ok ⟨tab n' fun i => if i < n then w i else 0, st.flatRec, st.discr⟩) ∧
    (∀ st, hybrid sqrt n P nb x wf 0 = .ok st → ∃ w : ℕ → K, st.weights = tab n w ∧
      hybrid sqrt n' P nb x wf 0 = .ok ⟨tab n' fun i => if i < n then w i else 0, st.flatRec, st.discr⟩) := by
  have h : ∀ keep k, k ≤ 0 → DarkAt keep n n' P nb x wf k := by
    intro keep k hk
    obtain rfl : k = 0 := by omega
    exact dark_zero hd keep
  constructor
  · intro st hst
    obtain ⟨hg, rfl⟩ := (run_ok_iff sqrt hP hb (dark_inRange hn hx) 0 st).mp hst
    exact ⟨_, rfl, (run_ok_iff sqrt hP hb hx 0 _).mpr ⟨(dark_good hn (h true)).mpr hg, (dark_out hn sqrt (h true)).symm⟩⟩
  · intro st hst
    obtain ⟨hg, rfl⟩ := (hybrid_ok_iff sqrt h0 hP (dark_inRange hn hx) 0 st).mp hst
    exact ⟨_, rfl, (hybrid_ok_iff sqrt (by omega) hP hx 0 _).mpr ⟨(dark_good hn (h false)).mpr hg, (dark_out hn sqrt (h false)).symm⟩⟩

/-- C128 with iterations, both routines, when the particles without signal are never in the bin of another particle and do not raise the
largest number of particles in a bin.  Missing: otherwise they do change the result, see `C128_violated_crowd` and `C128_violated_shared`. -/
theorem C128_apart_partial (sqrt : K → K) (h0 : 0 < n) (hn : n ≤ n') (hP : 0 < P) (hb : 0 < nb) (hx : InRange n' P nb x)
    (hd : DarkFrom n n' P x wf) (ha : ApartFrom n n' P x) (hm : maxCount n' P nb x = maxCount n P nb x) (niter : ℕ) :
    (∀ st, (run sqrt n P nb x wf niter).2 = .ok st → ∃ w : ℕ → K, st.weights = tab n w ∧
      (run sqrt n' P nb x wf niter).2 = .ok ⟨tab n' fun i => if i < n then w i else 0, st.flatRec, st.discr⟩) ∧
    (∀ st, hybrid sqrt n P nb x wf niter = .ok st → ∃ w : ℕ → K, st.weights = tab n w ∧
      hybrid sqrt n' P nb x wf niter = .ok ⟨tab n' fun i => if i < n then w i else 0, st.flatRec, st.discr⟩) ∧
    (∀ st, (run sqrt n' P nb x wf niter).2 = .ok st → ∃ st, (run sqrt n P nb x wf niter).2 = .ok st) ∧
    ∀ st, hybrid sqrt n' P nb x wf niter = .ok st → ∃ st, hybrid sqrt n P nb x wf niter = .ok st := by
  have h : ∀ keep k, k ≤ niter → DarkAt keep n n' P nb x wf k := fun keep k _ => dark_all hn hd ha hm keep k
  have hx' := dark_inRange hn hx
  refine ⟨?_, ?_, ?_, ?_⟩
  · intro st hst
    obtain ⟨hg, rfl⟩ := (run_ok_iff sqrt hP hb hx' niter st).mp hst
    exact ⟨_, rfl, (run_ok_iff sqrt hP hb hx niter _).mpr ⟨(dark_good hn (h true)).mpr hg, (dark_out hn sqrt (h true)).symm⟩⟩
  · intro st hst
    obtain ⟨hg, rfl⟩ := (hybrid_ok_iff sqrt h0 hP hx' niter st).mp hst
    exact ⟨_, rfl, (hybrid_ok_iff sqrt (by omega) hP hx niter _).mpr ⟨(dark_good hn (h false)).mpr hg, (dark_out hn sqrt (h false)).symm⟩⟩
  · intro st hst
    obtain ⟨hg, _⟩ := (run_ok_iff sqrt hP hb hx niter st).mp hst
    exact ⟨_, (run_ok_iff sqrt hP hb hx' niter _).mpr ⟨(dark_good hn (h true)).mp hg, rfl⟩⟩
  · intro st hst
    obtain ⟨hg, _⟩ := (hybrid_ok_iff sqrt (by omega) hP hx niter st).mp hst
    exact ⟨_, (hybrid_ok_iff sqrt h0 hP hx' niter _).mpr ⟨(dark_good hn (h false)).mp hg, rfl⟩⟩

/-- two profiles with signal in the bins 0 and 1 only -/
def wfDark : ℕ → ℕ → ℚ := fun p b => if b = 0 then (if p = 0 then 1/8 else 1/4) else if b = 1 then (if p = 0 then 7/8 else 3/4) else 0

/-- three particles in the bins 0 and 1; all others always in bin 2 -/
def xCrowd : ℕ → ℕ → ℕ := fun i p => if i < 2 then i else if i = 2 then 1 - p else 2

/-- three particles, the last of which is in bin 2 in the second profile; all others always in bin 2 -/
def xShared : ℕ → ℕ → ℕ := fun i p => if i < 2 then i else if i = 2 then 1 + p else 2

theorem dark_crowd : InRange 7 2 3 xCrowd ∧ DarkFrom 3 7 2 xCrowd wfDark ∧ ApartFrom 3 7 2 xCrowd := by
  refine ⟨?_, ?_, ?_⟩
  · intro i _ p _
    unfold xCrowd
    split
    · omega
    · split <;> omega
  · intro j hj _ p _
    have e : xCrowd j p = 2 := by
      unfold xCrowd
      rw [if_neg (by omega), if_neg (by omega)]
    rw [e]
    exact le_rfl
  · intro j hj _ i hi p hp
    interval_cases i <;> interval_cases p <;> (unfold xCrowd; rw [if_neg (by omega), if_neg (by omega)]; decide)

/-- C128 is violated by many particles in a bin without signal, although none of the others is ever there: one iteration, both routines.  The
four particles get no weight, but with them the first of the three others gets no weight either.  All corrections are multiplied by the largest number of
particles in any bin. -/
theorem C128_violated_crowd :
    DarkFrom 3 7 2 xCrowd wfDark ∧ ApartFrom 3 7 2 xCrowd ∧ maxCount 3 2 3 xCrowd = 2 ∧ maxCount 7 2 3 xCrowd = 4 ∧
    (run id 3 2 3 xCrowd wfDark 1).2.toOption.map (·.weights) = some [31/200, 52/25, 89/100] ∧
    (run id 7 2 3 xCrowd wfDark 1).2.toOption.map (·.weights) = some [0, 507/200, 131/200, 0, 0, 0, 0] ∧
    (hybrid id 3 2 3 xCrowd wfDark 1).toOption.map (·.weights) = some [31/200, 52/25, 89/100] ∧
    (hybrid id 7 2 3 xCrowd wfDark 1).toOption.map (·.weights) = some [0, 507/200, 131/200, 0, 0, 0, 0] := by
  refine ⟨dark_crowd.2.1, dark_crowd.2.2, ?_, ?_, ?_, ?_, ?_, ?_⟩ <;> decide +kernel

/-- C128 is violated by a single particle without signal that meets one of the others, without any change of the largest number of particles in
a bin: one iteration, both routines.  The third weight is more than doubled, since the bin is counted as filled twice. -/
theorem C128_violated_shared :
    DarkFrom 3 4 2 xShared wfDark ∧ maxCount 3 2 3 xShared = 2 ∧ maxCount 4 2 3 xShared = 2 ∧
    (run id 3 2 3 xShared wfDark 1).2.toOption.map (·.weights) = some [111/184, 2, 25/92] ∧
    (run id 4 2 3 xShared wfDark 1).2.toOption.map (·.weights) = some [111/184, 2, 53/92, 0] ∧
    (hybrid id 3 2 3 xShared wfDark 1).toOption.map (·.weights) = some [111/184, 2, 25/92] ∧
    (hybrid id 4 2 3 xShared wfDark 1).toOption.map (·.weights) = some [111/184, 2, 53/92, 0] := by
  refine ⟨?_, ?_, ?_, ?_, ?_, ?_, ?_⟩
  · intro j hj _ p _
    have e : xShared j p = 2 := by
      unfold xShared
      rw [if_neg (by omega), if_neg (by omega)]
    rw [e]
    exact le_rfl
  all_goals decide +kernel

/-- the hypotheses of the C128 theorems: with one or two particles in bin 2 the largest number in a bin stays two -/
example : InRange 5 2 3 xCrowd ∧ DarkFrom 3 5 2 xCrowd wfDark ∧ ApartFrom 3 5 2 xCrowd ∧
    maxCount 5 2 3 xCrowd = maxCount 3 2 3 xCrowd ∧
    (run id 3 2 3 xCrowd wfDark 4).2.toOption.isSome = true ∧ (hybrid id 3 2 3 xCrowd wfDark 4).toOption.isSome = true := by
  refine ⟨fun i hi => dark_crowd.1 i (by omega), fun j hj hj' => dark_crowd.2.1 j hj (by omega),
    fun j hj hj' => dark_crowd.2.2 j hj (by omega), ?_, ?_, ?_⟩ <;> decide +kernel

end Verif.Props

import Verif.Lemmas.Int32
import Verif.Lemmas.PhaseSpace
import Verif.Props.Recon

/-!
# C101: sizes beyond 32-bit integers
-/

namespace Verif.Props

section reconstruct
open Recon
variable {α : Type} [Add α] [Sub α] [Mul α] [Zero α] [One α] [NatCast α]
  [LT α] [LE α] [DecidableLT α] [DecidableLE α] [DecidableEq α] [FDiv α]

/-- C101 (partial: only these sizes, see `C101_violated_reconstruct`). With at most 2³¹-1 pairs of a particle and a profile, at most
2³¹-1 pairs of a profile and a bin, fewer than 2³¹-1 iterations and coordinates inside the image, the reconstruction with 32-bit integers
is the reconstruction: same callbacks, same arrays, same exceptions, in every arithmetic of the numbers. -/
theorem C101_reconstruct_partial {npart nprof nbins niter : ℕ} (hp : npart * nprof ≤ 2147483647) (hb : nprof * nbins ≤ 2147483647)
    (hn : niter < 2147483647) {xp : List ℤ} (hx : ∀ v ∈ xp, 0 ≤ v ∧ v < nbins) (sqrt : α → α) (profiles : List α) :
    reconstruct32 sqrt xp profiles niter nbins npart nprof = reconstruct sqrt xp profiles niter nbins npart nprof :=
  reconstruct32_eq hp hb hn hx sqrt profiles

example : reconstruct32 (α := ℚ) id [0, 1, 1, 0] [1, 2, 3, 4] 1 2 2 2 = reconstruct id [0, 1, 1, 0] [1, 2, 3, 4] 1 2 2 2 ∧
    (reconstruct32 (α := ℚ) id [0, 1, 1, 0] [1, 2, 3, 4] 1 2 2 2).1 = [(1, 1), (1, 1)] := by
  refine ⟨C101_reconstruct_partial (by norm_num) (by norm_num) (by norm_num) (by decide) _ _, by decide +kernel⟩

/-- C101 (partial: as above). Within these sizes and for coordinates inside the image, the reconstruction with 32-bit integers never
leaves a buffer and never overflows: it succeeds or reports that all weights vanished. -/
theorem C101_safe_partial {K : Type} [Field K] [LinearOrder K] [IsStrictOrderedRing K] (sqrt : K → K) {npart nprof nbins : ℕ}
    (hp : 0 < nprof) (hb : 0 < nbins) {x : ℕ → ℕ → ℕ} (hx : Spec.InRange npart nprof nbins x) (wf : ℕ → ℕ → K) {niter : ℕ}
    (h1 : npart * nprof ≤ 2147483647) (h2 : nprof * nbins ≤ 2147483647) (h3 : niter < 2147483647) :
    (∃ st, (reconstruct32 sqrt (Spec.xbuf npart nprof x) (flat nprof nbins wf) niter nbins npart nprof).2 = .ok st) ∨
      (reconstruct32 sqrt (Spec.xbuf npart nprof x) (flat nprof nbins wf) niter nbins npart nprof).2 = .error (.exc .allZero) := by
  rw [C101_reconstruct_partial h1 h2 h3 ?_ sqrt]
  · exact C03_no_division_by_zero sqrt hp hb hx wf niter
  · intro v hv
    unfold Spec.xbuf flat tab at hv
    obtain ⟨k, hk, rfl⟩ := List.mem_map.mp hv
    have hk' := List.mem_range.mp hk
    have := hx (k / nprof) (Nat.div_lt_of_lt_mul (by rwa [Nat.mul_comm] at hk')) (k % nprof) (Nat.mod_lt _ hp)
    dsimp only
    omega

example := C101_safe_partial Real.sqrt (by norm_num) (by norm_num) x3_inRange (fun p b => (wf3 p b : ℝ)) (niter := 20) (by norm_num) (by norm_num)
  (by norm_num)

/-- C101 is violated: beyond these sizes the sizes and indices of `reconstruct` (libtomo.cpp:410-412, reconstruct.cpp:372-377) overflow,
whatever the data; nothing in the python code limits them. -/
theorem C101_violated_reconstruct {npart nprof nbins niter : ℕ}
    (h : 2147483647 < niter + 1 ∨ 2147483647 < nprof * nbins ∨ 2147483647 < npart * nprof) (sqrt : α → α) (xp : List ℤ)
    (profiles : List α) : reconstruct32 sqrt xp profiles niter nbins npart nprof = ([], .error .overflow) :=
  reconstruct32_over h xp sqrt profiles

/-- sixteen particles in each cell of an image of 1000 × 1000 cells, 150 profiles: every single number is far from 2³¹ -/
example (sqrt : α → α) (xp : List ℤ) (profiles : List α) :
    reconstruct32 sqrt xp profiles 20 1000 16000000 150 = ([], .error .overflow) :=
  C101_violated_reconstruct (Or.inr (Or.inr (by norm_num))) sqrt xp profiles

end reconstruct

section track
open Track
variable {α : Type} [Add α] [Sub α] [Mul α]

/-- C101 (partial: only these sizes, see `C101_violated_track`). For every start accepted by `track` (0 ≤ profile, the start turn within
the measured turns, |deltaturn| < dturns), fewer than 2³¹ turns and at most 2³¹-1 pairs of a particle and a profile but the last, tracking
with 32-bit integers is the tracking of the other properties. -/
theorem C101_track_partial (sin : α → α) {xp : List (List α)} (yp : List (List α)) (denergy dphi : List α) (m : Mach α)
    {dturns recProf deltaturn nturns : ℤ} (hd : 1 ≤ dturns) (h0 : 0 ≤ recProf) (h1 : recProf * dturns ≤ nturns) (h2 : |deltaturn| < dturns)
    (h3 : nturns + dturns ≤ 2147483647) {n : ℕ} (hx : (xp.length - 1) * n ≤ 2147483647) :
    wrapperKickAndDrift32 sin xp yp denergy dphi m dturns recProf deltaturn nturns n
      = kickAndDrift sin xp yp denergy dphi m dturns recProf deltaturn nturns n :=
  wrapperKickAndDrift32_eq sin yp denergy dphi m ⟨hd, h0, h1, (abs_lt.mp h2).1, (abs_lt.mp h2).2, h3⟩ hx

example : ∃ s, wrapperKickAndDrift32 (α := ℤ) id [[0], [0], [0]] [[0], [0], [0]] [5] [7]
    ⟨[1, 1, 1], [0, 0, 0], [0, 0, 0], [0, 0, 0], [2, 2, 2], [0, 0, 0], 1⟩ 1 1 0 2 1 = .ok s ∧ s.xp = [[3], [7], [-3]] := by
  refine ⟨⟨[[3], [7], [-3]], [[-2], [5], [2]], [3], [-2], 0, 0, 2, [(1, 2), (2, 2)]⟩, rfl, rfl⟩

/-- C101 is violated: with more than 2³¹-1 pairs of a particle and a profile the row pointers (libtomo.cpp:267, 271) overflow, whatever the
data. -/
theorem C101_violated_track (sin : α → α) {xp : List (List α)} (yp : List (List α)) (denergy dphi : List α) (m : Mach α)
    (dturns recProf deltaturn nturns : ℤ) {n : ℕ} (hx : 2147483647 < (xp.length - 1) * n) :
    wrapperKickAndDrift32 sin xp yp denergy dphi m dturns recProf deltaturn nturns n = .error .overflow := by
  unfold wrapperKickAndDrift32
  rw [rowPointers32_over hx, bind_error]

end track

section image
open Img
variable {α : Type} [Add α] [Zero α]

/-- C101 (partial: only these sizes, see `C101_violated_image`). For positions inside an image of at most 46340 × 46340 cells, the image
with 32-bit integers is the image. -/
theorem C101_image_partial {nbins : ℕ} (hb : nbins ≤ 46340) {xp yp : List ℤ} (hx : ∀ v ∈ xp, 0 ≤ v ∧ v < nbins)
    (hy : ∀ v ∈ yp, 0 ≤ v ∧ v < nbins) (w : List α) : makePhaseSpace32 xp yp w nbins = makePhaseSpace xp yp w nbins :=
  makePhaseSpace32_eq (by unfold maxInt; nlinarith) hx hy w

example : makePhaseSpace32 (α := ℤ) [0, 1, 1] [1, 0, 0] [5, 6, 7] 2 = .ok [0, 5, 13, 0] := by decide +kernel

/-- C101 is violated: a larger image overflows, whatever the positions (data_treatment.cpp:24-25). -/
theorem C101_violated_image {nbins : ℕ} (hb : 46340 < nbins) (xp yp : List ℤ) (w : List α) :
    makePhaseSpace32 xp yp w nbins = .error .overflow := by
  unfold makePhaseSpace32
  rw [mul32_over (by unfold maxInt; nlinarith), bind_error]

/-- C101 is violated: the test that a position lies inside the image (data_treatment.cpp:28-30) is made after a product that can
overflow; a first position beyond 2³¹/nbins is undefined behaviour where the code means to raise `out_of_range`. -/
theorem C101_violated_far {nbins : ℕ} (hb : nbins ≤ 46340) {x y : ℤ} (hx : 2147483647 < x * nbins) (hy : 0 ≤ y) (xs ys : List ℤ)
    (w : List α) : makePhaseSpace (x :: xs) (y :: ys) w nbins = .error (.exc .outOfRange) ∧
      makePhaseSpace32 (x :: xs) (y :: ys) w nbins = .error .overflow := by
  have hm : nbins * nbins ≤ 2147483647 := by nlinarith
  have e1 : cellBody (x :: xs) (y :: ys) w nbins 0 (tab (nbins * nbins) fun _ => 0) = .error (.exc .outOfRange) := by
    show (if y + x * (nbins : ℤ) ≥ ((nbins * nbins : ℕ) : ℤ) then (.error (.exc .outOfRange) : M (List α)) else _) = _
    rw [if_pos (by omega)]
  have e2 : cellBody32 (x :: xs) (y :: ys) w nbins 0 (tab (nbins * nbins) fun _ => 0) = .error .overflow := by
    show (int32 (x * (nbins : ℤ)) >>= _) = _
    rw [int32_over hx, bind_error]
  constructor
  · unfold makePhaseSpace
    exact forN_fail (k := 0) (by simp) rfl e1
  · unfold makePhaseSpace32
    rw [mul32_ok hm, bind_ok]
    exact forN_fail (k := 0) (by simp) rfl e2

example : makePhaseSpace32 (α := ℤ) [3000000] [0] [5] 1000 = .error .overflow :=
  (C101_violated_far (by norm_num) (by norm_num) le_rfl [] [] [5]).2

end image

end Verif.Props

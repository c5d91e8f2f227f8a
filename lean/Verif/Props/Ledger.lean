import Verif.Lemmas.Ledger
import Verif.Lemmas.PhaseSpace

/-!
# C100: the memory of the C++ library
-/

namespace Verif.Props
open Ledger

variable {fails : Fails}

/-- C100. Whatever a python program calls, in whatever order, whichever calls fail and wherever they fail (memory running out
included): no block is deleted twice, no two arrays share a block, and no array held by the program has lost its memory. -/
theorem C100_safe (fails : Fails) (calls : List Call) :
    (run fails calls).broken = false ∧ (run fails calls).held.Nodup ∧
      ∀ a ∈ (run fails calls).held, ∃ size, (a, size) ∈ (run fails calls).heap.live := by
  obtain ⟨lost, h, -⟩ := run_inv (fails := fails) calls
  refine ⟨h.whole, (h.split.nodup_iff.mp h.nodup).of_append_left, fun a ha => ?_⟩
  obtain ⟨b, hb, rfl⟩ := List.mem_map.mp (h.split.mem_iff.mpr (List.mem_append_left _ ha))
  exact ⟨b.2, hb⟩

/-- the failure at the fifth place -/
def fifth : Fails := fun n _ => n == 4

example : (run fifth [.reconstruct 2 3 4 5, .reconstruct 2 3 4 5, .drop 0, .makePhaseSpace 2 [(0, 0)], .drop 0]).held.length = 2 ∧
    (run fifth [.reconstruct 2 3 4 5, .reconstruct 2 3 4 5, .drop 0, .makePhaseSpace 2 [(0, 0)], .drop 0]).broken = false := by
  decide +kernel

/-- C100. After every history, a call that returns has made exactly the arrays documented: new blocks of these sizes, in this order, next to
what was in use before. -/
theorem C100_sizes (fails : Fails) (calls : List Call) {c : Call} {r : List ℕ} {h : Heap}
    (hr : c.act fails (run fails calls).heap = (.ok r, h)) :
    r.length = c.sizes.length ∧ h.live = (r.zip c.sizes).reverse ++ (run fails calls).heap.live ∧
      ∀ a ∈ r, a ∉ (run fails calls).heap.live.map Prod.fst := by
  obtain ⟨lost, hs, -⟩ := run_inv (fails := fails) calls
  have hat : At (run fails calls).heap.live (run fails calls).heap.next [] (run fails calls).heap :=
    ⟨rfl, le_rfl, by simp, by simp, hs.low⟩
  have h1 := owns_call (fails := fails) c _ _ _ hat
  rw [hr] at h1
  obtain ⟨S', ⟨hz, -⟩, g⟩ := h1
  refine ⟨hz.2, ?_, fun a ha hm => ?_⟩
  · rw [g.live, ← hz.1, List.reverse_reverse]
  · obtain ⟨b, hb, rfl⟩ := List.mem_map.mp ((held_perm hz).mem_iff.mp ha)
    obtain ⟨b', hb', he⟩ := List.mem_map.mp hm
    have h2 := (g.fresh b hb).1
    have h3 := hs.low b' hb'
    omega

example : ((Call.reconstructMulti 2 3 4 5 6).act (fun _ _ => false) (run (fun _ _ => false) [.makePhaseSpace 2 []]).heap).2.live =
    [(4, 15), (3, 18), (2, 3), (1, 24), (0, 4)] := by decide +kernel

/-- C100. While memory does not run out, the blocks in use after any history are those of the arrays the program holds and, for each
call of `make_phase_space` with an index behind the image, one image that nobody can delete any more. -/
theorem C100_ledger (hm : NoMem fails) (calls : List Call) : ∃ own lost : List Block,
    (run fails calls).heap.live.Perm (own ++ lost) ∧ (own.map Prod.fst).Perm (run fails calls).held ∧
      (lost.map Prod.snd).Perm (calls.flatMap Call.waste) := by
  obtain ⟨lost, h, hw⟩ := run_inv (fails := fails) calls
  obtain ⟨own, h1, h2⟩ := h.perm
  exact ⟨own, lost, h1, h2, hw hm⟩

/-- C100 (partial: memory does not run out, and no call of `make_phase_space` with an index behind the image; both are needed, see
`C100_violated_image` and `C100_violated_memory`). The library keeps nothing: whatever failed on the way, the blocks in use are exactly
those of the arrays the program still holds. -/
theorem C100_no_leak_partial (hm : NoMem fails) {calls : List Call}
    (hi : ∀ nbins particles, .makePhaseSpace nbins particles ∈ calls → outside nbins particles = false) :
    ((run fails calls).heap.live.map Prod.fst).Perm (run fails calls).held := by
  obtain ⟨own, lost, h1, h2, h3⟩ := C100_ledger hm calls
  have h0 : calls.flatMap Call.waste = [] := by
    rw [List.flatMap_eq_nil_iff]
    intro c hc
    cases c with
    | makePhaseSpace b ps =>
      unfold Call.waste
      dsimp only
      rw [hi b ps hc]
      rfl
    | _ => rfl
  rw [h0, List.perm_nil, List.map_eq_nil_iff] at h3
  rw [h3, List.append_nil] at h1
  exact (h1.map _).trans h2

/-- every test of the routines and every callback fails -/
def stubborn : Fails := fun _ p => p == .work

theorem noMem_stubborn : NoMem stubborn := fun _ => ⟨rfl, rfl⟩

example : (run stubborn [.reconstruct 2 3 4 5, .makePhaseSpace 2 [(0, 0)], .trackScalar 7 2 3 0]).heap.live = [(6, 4)] ∧
    (run stubborn [.reconstruct 2 3 4 5, .makePhaseSpace 2 [(0, 0)], .trackScalar 7 2 3 0]).held = [6] := by decide +kernel

/-- C100 (partial: as above). A call that raises leaves the memory in use as it was, after every history. -/
theorem C100_failed_call_partial (hm : NoMem fails) (calls : List Call) {c : Call} (hw : c.waste = []) {h : Heap}
    (ht : c.act fails (run fails calls).heap = (.thrown, h)) :
    (run fails (calls ++ [c])).heap.live = (run fails calls).heap.live ∧ (run fails (calls ++ [c])).held = (run fails calls).held := by
  obtain ⟨lost, hs, -⟩ := run_inv (fails := fails) calls
  have hd : ∀ k, c ≠ .drop k := by
    rintro k rfl
    cases ht
  have e : run fails (calls ++ [c]) = step fails (run fails calls) c := by
    unfold run
    rw [List.foldl_append]
    rfl
  rw [e, step_other hd, ht]
  exact ⟨act_thrown hs hm hw ht, rfl⟩

example : (Call.act (.trackArray 3 4 5) stubborn (run stubborn [.makePhaseSpace 2 [(0, 0)]]).heap).1 = .thrown := by decide +kernel

/-- C100. An image is kept by `make_phase_space` exactly when it raises "Index out of bounds" (for positions whose index is not
negative; a negative index is outside the memory, see C30). -/
theorem C100_which {K : Type} [AddCommMonoid K] (n nbins : ℕ) (x y : ℕ → ℤ) (w : ℕ → K)
    (h0 : ∀ i, i < n → 0 ≤ y i + x i * nbins) :
    (Call.makePhaseSpace nbins (tab n fun i => (x i, y i))).waste ≠ [] ↔
      Img.makePhaseSpace (tab n x) (tab n y) (tab n w) nbins = .error (.exc .outOfRange) := by
  have ho : outside nbins (tab n fun i => (x i, y i)) = true ↔ ∃ i, i < n ∧ ((nbins * nbins : ℕ) : ℤ) ≤ y i + x i * nbins := by
    unfold outside tab
    rw [List.any_eq_true]
    simp only [List.mem_map, List.mem_range, decide_eq_true_iff]
    constructor
    · rintro ⟨p, ⟨i, hi, rfl⟩, hp⟩
      exact ⟨i, hi, hp⟩
    · rintro ⟨i, hi, hp⟩
      exact ⟨_, ⟨i, hi, rfl⟩, hp⟩
  have hw : (Call.makePhaseSpace nbins (tab n fun i => (x i, y i))).waste ≠ [] ↔ outside nbins (tab n fun i => (x i, y i)) = true := by
    unfold Call.waste
    dsimp only
    by_cases hh : outside nbins (tab n fun i => (x i, y i)) = true
    · rw [if_pos hh]
      simp [hh]
    · rw [if_neg hh]
      simp [hh]
  rw [hw, ho]
  rcases Img.makePhaseSpace_cases n nbins x y w with ⟨h1, h2⟩ | ⟨k, hk, -, ⟨h1, h2⟩ | ⟨h1, -⟩⟩
  · rw [h2]
    refine ⟨fun ⟨i, hi, hb⟩ => ?_, fun h => ?_⟩
    · have := (h1 i hi).2
      unfold Img.idx at this
      omega
    · cases h
  · exact ⟨fun _ => h2, fun _ => ⟨k, hk, h1⟩⟩
  · have := h0 k hk
    unfold Img.idx at h1
    omega

example : Img.makePhaseSpace (α := ℤ) [0, 2] [1, 0] [5, 6] 2 = .error (.exc .outOfRange) := by decide +kernel

/-- C100 is violated by `make_phase_space` (data_treatment.cpp:22-35): the image is allocated with `new[]` and not deleted before the
`throw`, and the wrapper (libtomo.cpp:512-533) has no pointer to it. A program that catches the exception `n` times has lost
`n` images, although it holds no array and memory did not run out: the loss has no bound. -/
theorem C100_violated_image (hm : NoMem fails) (n nbins : ℕ) :
    (run fails (List.replicate n (.makePhaseSpace nbins [((nbins : ℤ), 0)]))).held = [] ∧
      (run fails (List.replicate n (.makePhaseSpace nbins [((nbins : ℤ), 0)]))).heap.used = n * (nbins * nbins) := by
  have hw : (Call.makePhaseSpace nbins [((nbins : ℤ), 0)]).waste = [nbins * nbins] := by
    have : outside nbins [((nbins : ℤ), 0)] = true := by simp [outside]
    unfold Call.waste
    dsimp only
    rw [this]
    rfl
  have hh : (run fails (List.replicate n (.makePhaseSpace nbins [((nbins : ℤ), 0)]))).held = [] := by
    induction n with
    | zero => rfl
    | succ n ih =>
      obtain ⟨lost, hs, -⟩ := run_inv (fails := fails) (List.replicate n (.makePhaseSpace nbins [((nbins : ℤ), 0)]))
      rw [List.replicate_succ', run, List.foldl_append]
      have := step_failing (fails := fails) hs (c := .makePhaseSpace nbins [((nbins : ℤ), 0)]) (by rw [hw]; simp)
      exact this.trans ih
  refine ⟨hh, ?_⟩
  obtain ⟨own, lost, h1, h2, h3⟩ := C100_ledger hm (List.replicate n (.makePhaseSpace nbins [((nbins : ℤ), 0)]))
  rw [hh, List.perm_nil, List.map_eq_nil_iff] at h2
  rw [h2, List.nil_append] at h1
  unfold Heap.used
  rw [((h1.map Prod.snd).trans h3).sum_eq]
  clear h1 h2 h3 hh
  induction n with
  | zero => simp
  | succ n ih =>
    rw [List.replicate_succ, List.flatMap_cons, List.sum_append, ih, hw, List.sum_singleton]
    ring

/-- memory runs out at the `k`-th place, once -/
def outOfMemory (k : Nat) : Fails := fun n p => n == k && p == .alloc

/-- a python object cannot be made at the `k`-th place, once -/
def noObject (k : Nat) : Fails := fun n p => n == k && p == .python

/-- C100 is violated when memory runs out: the arrays of `wrapper_reconstruct` (libtomo.cpp:409-412) and of `reconstruct`
(reconstruct.cpp:373-377) are allocated one after the other outside any `try`; when a later `new` fails the earlier blocks are lost, `k`
of them when the `k`-th of the first three fails. The wrapper's own blocks are deleted when `reconstruct` fails, those of `reconstruct`
are not. -/
theorem C100_violated_memory (niter nbins npart nprof : ℕ) :
    (run (outOfMemory 1) [.reconstruct niter nbins npart nprof]).held = [] ∧
    (run (outOfMemory 1) [.reconstruct niter nbins npart nprof]).heap.used = npart ∧
    (run (outOfMemory 2) [.reconstruct niter nbins npart nprof]).heap.used = niter + 1 + npart ∧
    (run (outOfMemory 4) [.reconstruct niter nbins npart nprof]).heap.used = nprof * nbins := by
  refine ⟨rfl, ?_, ?_, ?_⟩
  · show (List.map Prod.snd [(0, npart)]).sum = _
    simp
  · show (List.map Prod.snd [(1, niter + 1), (0, npart)]).sum = _
    simp
  · show (List.map Prod.snd [(3, nprof * nbins)]).sum = _
    simp

/-- C100 is violated when the capsule of an image cannot be made (libtomo.cpp:530): the image is lost. -/
theorem C100_violated_capsule (nbins : ℕ) :
    (run (noObject 1) [.makePhaseSpace nbins []]).held = [] ∧ (run (noObject 1) [.makePhaseSpace nbins []]).heap.used = nbins * nbins := by
  refine ⟨rfl, ?_⟩
  show (List.map Prod.snd [(0, nbins * nbins)]).sum = _
  simp

end Verif.Props

import Verif.Props.Omp
import Verif.Props.Cuda
import Verif.Lemmas.OmpOne

/-!
# The racy loops with one thread (C15), strided GPU loops (C48), bins of the CuPy histogram (C61)
-/

set_option linter.unusedSectionVars false

namespace Verif.Props
open Verif.Par Verif.Omp Verif.Spec Verif.Recon Verif.Track Finset

section loops
variable {α : Type} [Add α] [Sub α] [Mul α] [Zero α] [One α] [NatCast α] [IntCast α]
  [LT α] [LE α] [DecidableLT α] [DecidableLE α] [DecidableEq α] [FDiv α]
variable {m₀ : Memory α}

theorem one_result {n : ℕ} {body : ℕ → Thread α} {R : Memory α → Prop} (h : R (serialFor n body m₀)) :
    Always ⟨m₀, parallelFor 1 (fun _ => 0) n body⟩ R := by
  have key := parallelFor_one (m₀ := m₀) n body
  refine ⟨key.terminates, key.progress, fun s' hr hf => ?_⟩
  rw [key.result s' hr hf]
  exact h

/-- C15 (partial): `create_mask` with one thread.  Missing: more threads (`C15_violated_mask`). -/
theorem C15_mask_partial {npart nprof ncenter : ℕ} {xp cs cl cr : List Int} {l l' : List Bool}
    (hx : Stores (ints m₀ .coords) xp) (hcs : Stores (ints m₀ .centers) cs) (hcl : Stores (ints m₀ .cutleft) cl)
    (hcr : Stores (ints m₀ .cutright) cr) (hl : Stores (fun i => m₀ (.mask i)) l)
    (h : Multi.createMask xp cs cl cr l npart nprof ncenter = .ok l') :
    Always ⟨m₀, parallelFor 1 (fun _ => 0) (ncenter * (npart * nprof)) (createMaskBody npart nprof)⟩
      (fun m => Stores (fun i => m (.mask i)) l') :=
  one_result (createMask_serial hx hcs hcl hcr hl h).2

/-- C15 (partial): `count_particles_in_bin_multi` with one thread.  Missing: more threads (`C15_violated_count_multi`). -/
theorem C15_count_multi_partial {npart nprof nbins ncenter : ℕ} {xp cs : List Int} {l l' : List α}
    (hx : Stores (ints m₀ .coords) xp) (hcs : Stores (ints m₀ .centers) cs) (hl : Stores (reals m₀ .rparts) l)
    (h : Multi.countMulti l xp cs nprof npart nbins ncenter = .ok l') :
    Always ⟨m₀, parallelFor 1 (fun _ => 0) ncenter (countMultiBody nprof npart nbins)⟩ (fun m => Stores (reals m .rparts) l') :=
  one_result (countMulti_serial hx hcs hl h).2

/-- C15 (partial): `back_project_multi` with one thread.  Missing: more threads (`C15_violated_back_project_multi`). -/
theorem C15_back_project_multi_partial {npart nprof ncenter : ℕ} {ws ws' pf : List α} {fp cs : List Int} {mask : List Bool}
    (hm : Stores (fun i => m₀ (.mask i)) mask) (hp : Stores (ints m₀ .points) fp) (hcs : Stores (ints m₀ .centers) cs)
    (hf : Stores (reals m₀ .profiles) pf) (hw : Stores (reals m₀ .weights) ws)
    (h : Multi.backProjectMulti ws fp pf mask cs npart nprof ncenter = .ok ws') :
    Always ⟨m₀, parallelFor 1 (fun _ => 0) (ncenter * (npart * nprof)) (backProjectMultiBody npart nprof)⟩
      (fun m => Stores (reals m .weights) ws' ∧ OnlyArray .weights m₀ m) :=
  one_result (backProjectMulti_serial hm hp hcs hf hw h).symm

/-- C15 (partial): `project_multi` with one thread, also for overlapping bunches.  Missing: more threads
(`C15_violated_project_multi`). -/
theorem C15_project_multi_one_partial {npart nprof ncenter : ℕ} {rc rc' ws : List α} {fp cs : List Int}
    (hr : Stores (reals m₀ .recon) rc) (hp : Stores (ints m₀ .points) fp) (hcs : Stores (ints m₀ .centers) cs)
    (hw : Stores (reals m₀ .weights) ws) (h : Multi.projectMulti rc fp ws cs npart nprof ncenter = .ok rc') :
    Always ⟨m₀, parallelFor 1 (fun _ => 0) ncenter (projectMultiBody npart nprof)⟩
      (fun m => Stores (reals m .recon) rc' ∧ OnlyArray .recon m₀ m) :=
  one_result (projectMulti_serial hr hp hcs hw h).symm

/-- C15 (partial): `discrepancy_multi` with one thread.  Missing: more threads (`C15_violated_discrepancy_multi`). -/
theorem C15_discrepancy_multi_partial {sqrt : α → α} {iteration nprof nbins ncenter : ℕ} {df ds ds' : List α} {cl cr : List Int}
    (hd : Stores (reals m₀ .diff) df) (hs : Stores (reals m₀ .disc) ds) (hcl : Stores (ints m₀ .cutleft) cl)
    (hcr : Stores (ints m₀ .cutright) cr) (h0 : m₀ (.real .squaredSum 0) = 0)
    (h : Multi.discrepancyMulti sqrt df ds cl cr iteration nprof nbins ncenter = .ok ds') :
    Always ⟨m₀, parallelFor 1 (fun _ => 0) ncenter (discrepancyMultiBody sqrt iteration nprof nbins ncenter)⟩
      (fun m => Stores (reals m .disc) ds') :=
  one_result (discrepancyMulti_serial hd hs hcl hcr h0 h)

end loops

-- the memories of the races, with one thread
example : Always ⟨maskMem, parallelFor 1 (fun _ => 0) 2 (createMaskBody 1 2)⟩ (fun m => Stores (fun i => m (.mask i)) [false]) :=
  C15_mask_partial (npart := 1) (nprof := 2) (ncenter := 1) (xp := [0, 2]) (cs := [0]) (cl := [1]) (cr := [3]) (l := [true])
    (storesInt_memOf _ _ _ _) (storesInt_memOf _ _ _ _) (storesInt_memOf _ _ _ _) (storesInt_memOf _ _ _ _)
    (by
      intro i v h
      rw [rd_some] at h
      have : i.toNat = 0 := by
        by_contra hc
        rw [List.getElem?_eq_none (by simp; omega)] at h
        cases h.2
      obtain rfl : i = 0 := by omega
      obtain rfl : true = v := by simpa using h.2
      decide +kernel) (by decide +kernel)

example : Always ⟨countMem, parallelFor 1 (fun _ => 0) 2 (countMultiBody 1 1 4)⟩
    (fun m => Stores (reals m .rparts) [(1 : ℚ), 0, 0, 1]) :=
  C15_count_multi_partial (xp := [0]) (cs := [0, 3]) (l := [0, 0, 0, 0]) (storesInt_memOf _ _ _ _) (storesInt_memOf _ _ _ _)
    (stores_memOf _ _ _ _) (by decide +kernel)

example : Always ⟨discMem, parallelFor 1 (fun _ => 0) 2 (discrepancyMultiBody id 0 1 5 2)⟩
    (fun m => Stores (reals m .disc) [(1 : ℚ) / 2, 5 / 2]) :=
  C15_discrepancy_multi_partial (df := [0, 1, 0, 2, 0]) (ds := [0, 0]) (cl := [0, 2]) (cr := [2, 4]) (stores_memOf _ _ _ _)
    (stores_memOf _ _ _ _) (storesInt_memOf _ _ _ _) (storesInt_memOf _ _ _ _) (by decide +kernel) (by decide +kernel)

/-! ## The strided loop of the GPU kernels -/

theorem mem_strided {n S fuel tid i : ℕ} (hf : n ≤ tid + fuel * S) :
    i ∈ Cuda.strided n S fuel tid ↔ i < n ∧ ∃ k, i = tid + k * S := by
  induction fuel generalizing tid with
  | zero =>
    simp only [Cuda.strided, List.not_mem_nil, false_iff]
    rintro ⟨h, k, rfl⟩
    omega
  | succ f ih =>
    unfold Cuda.strided
    by_cases h : tid < n
    · rw [if_pos h, List.mem_cons, ih (by rw [Nat.succ_mul] at hf; omega)]
      constructor
      · rintro (rfl | ⟨h1, k, rfl⟩)
        · exact ⟨h, 0, by omega⟩
        · exact ⟨h1, k + 1, by rw [Nat.succ_mul]; omega⟩
      · rintro ⟨h1, k, rfl⟩
        cases k with
        | zero => left; omega
        | succ k => right; exact ⟨h1, k, by rw [Nat.succ_mul]; omega⟩
    · rw [if_neg h]
      simp only [List.not_mem_nil, false_iff]
      rintro ⟨h1, k, rfl⟩
      omega

/-- C48: a kernel that strides over its array with the total number `S` of threads visits every element in exactly one thread,
once — for every number of threads, also fewer than elements. -/
theorem C48_strided (n S : ℕ) (hS : 0 < S) :
    (∀ i tid, tid < S → (i ∈ Cuda.strided n S n tid ↔ i < n ∧ i % S = tid)) ∧ ∀ tid, (Cuda.strided n S n tid).Nodup := by
  constructor
  · intro i tid ht
    rw [mem_strided (by have := Nat.le_mul_of_pos_right n hS; omega)]
    refine and_congr_right fun _ => ?_
    constructor
    · rintro ⟨k, rfl⟩
      rw [Nat.add_mul_mod_self_right, Nat.mod_eq_of_lt ht]
    · intro h
      exact ⟨i / S, by rw [← h, mul_comm]; exact (Nat.mod_add_div i S).symm⟩
  · intro tid
    have gen : ∀ fuel tid, (Cuda.strided n S fuel tid).Nodup ∧ ∀ i ∈ Cuda.strided n S fuel tid, tid ≤ i := by
      intro fuel
      induction fuel with
      | zero => intro tid; simp [Cuda.strided]
      | succ f ih =>
        intro tid
        unfold Cuda.strided
        by_cases h : tid < n
        · rw [if_pos h]
          obtain ⟨h1, h2⟩ := ih (tid + S)
          refine ⟨List.nodup_cons.mpr ⟨fun hc => ?_, h1⟩, ?_⟩
          · have := h2 _ hc
            omega
          · intro i hi
            rcases List.mem_cons.mp hi with rfl | hi
            · exact le_rfl
            · have := h2 _ hi
              omega
        · rw [if_neg h]; simp
    exact (gen n tid).1

-- 5 elements, 2 threads
example : Cuda.strided 5 2 5 0 = [0, 2, 4] ∧ Cuda.strided 5 2 5 1 = [1, 3] := by decide

/-! ## The CuPy histogram -/

/-- C61: bin `b` of profile `p` of the CuPy histogram holds the particles with coordinate `b`; the last bin also those at its right
edge, outside the image. -/
theorem C61_counts {npart nprof nbins : ℕ} (x : ℕ → ℕ → ℕ) :
    Cuda.countCupy (xbuf npart nprof x) nprof npart nbins = .ok (flat nprof nbins fun p b =>
      #{i ∈ range npart | x i p = b ∨ (b + 1 = nbins ∧ x i p = nbins)}) := by
  unfold Cuda.countCupy
  rw [mapM_ok (g := fun k => #{i ∈ range npart | x i (k / nbins) = k % nbins ∨ (k % nbins + 1 = nbins ∧ x i (k / nbins) = nbins)})]
  · rfl
  · intro k hk
    have hk := List.mem_range.mp hk
    have hp : k / nbins < nprof := div_lt_of_lt_mul' hk
    rw [mapM_ok (g := fun i => ((x i (k / nbins) : ℕ) : ℤ)), bind_ok]
    · simp only [pure_eq_ok]
      congr 1
      rw [List.countP_map, ← Cuda.countP_range]
      apply List.countP_congr
      intro i hi
      simp only [Function.comp, decide_eq_true_eq]
      omega
    · intro i hi
      unfold xbuf
      rw [rd_flat _ (List.mem_range.mp hi) hp rfl]

-- one particle at the right edge in both profiles: CuPy keeps it in the last bin, the C++ code writes outside the row
example : Cuda.countCupy (xbuf 1 2 fun _ _ => 2) 2 1 2 = .ok [0, 1, 0, 1] ∧
    countParticlesInBin [(0 : ℚ), 0, 0, 0, 0] (xbuf 1 2 fun _ _ => 2) 2 1 2 = .ok [0, 0, 1, 0, 1] := by
  constructor <;> decide +kernel

end Verif.Props

import Verif.Model.Cuda
import Verif.Core.Arr
import Verif.Lemmas.ParAtomic
import Verif.Lemmas.Omp
import Verif.Lemmas.ReconRun
import Verif.Lemmas.Tomography

/-!
# CUDA kernels: launch geometry, and the serial order against the C++ loops
-/

set_option linter.unusedSectionVars false

namespace Verif.Cuda
open Verif.Par Verif.Omp Verif.Track Verif.Spec

/-! ## Loops -/

section loops
variable {σ : Type}

theorem forN_add (a b : Nat) (f : Nat → σ → M σ) (s : σ) :
    forN (a + b) f s = forN a f s >>= fun s => forN b (fun j s => f (a + j) s) s := by
  induction b with
  | zero => simp only [Nat.add_zero, forN_zero]; cases forN a f s <;> rfl
  | succ b ih =>
    rw [← Nat.add_assoc, forN_succ, ih]
    cases forN a f s with
    | error e => rfl
    | ok s' => simp only [bind_ok, forN_succ]

/-- one loop over all cells is a loop over the rows of loops over the columns -/
theorem forN_nest (n m : Nat) (f : Nat → σ → M σ) (s : σ) :
    forN (n * m) f s = forN n (fun i s => forN m (fun j s => f (i * m + j) s) s) s := by
  induction n with
  | zero => rw [Nat.zero_mul]; rfl
  | succ n ih => rw [Nat.succ_mul, forN_add, ih, forN_succ]

/-- threads with nothing to do change nothing -/
theorem forN_guard {T n : Nat} (h : n ≤ T) (f : Nat → σ → M σ) (s : σ) :
    forN T (fun tid s => if tid < n then f tid s else pure s) s = forN n f s := by
  obtain ⟨d, rfl⟩ := Nat.exists_eq_add_of_le h
  rw [forN_add, forN_congr (g := f) s (fun i s hi => if_pos hi)]
  cases forN n f s with
  | error e => rfl
  | ok s' =>
    rw [bind_ok]
    induction d with
    | zero => rfl
    | succ d ih => rw [forN_succ, ih (by omega), bind_ok, if_neg (by omega)]; rfl

end loops

theorem lt_threads {B : Nat} (hB : 0 < B) (n : Nat) : n < threads n B := by
  unfold threads gridSize
  have := Nat.div_add_mod n B
  have := Nat.mod_lt n hB
  rw [Nat.add_mul, Nat.one_mul, Nat.mul_comm]
  omega

section
variable {α : Type} [Add α] [Sub α] [Mul α] [Zero α] [One α] [NatCast α] [IntCast α]
  [LT α] [LE α] [DecidableLT α] [DecidableLE α] [DecidableEq α] [FDiv α]

/-! ## kernels that are the C++ loops, in any arithmetic -/

theorem project_eq {B : Nat} (hB : 0 < B) (r : List α) (fp : List Int) (w : List α) (npart nprof : Nat) :
    project B r fp w npart nprof = Recon.project r fp w npart nprof := by
  unfold project Recon.project
  rw [forN_guard (lt_threads hB _).le (fun tid rec => do
      let idx ← rd fp (tid : Int)
      let r ← rd rec idx
      let w ← rd w ((tid / nprof : Nat) : Int)
      upd rec idx (r + w)), forN_nest]
  apply forN_congr
  intro i s _
  apply forN_congr
  intro j s hj
  simp only [idx_div hj]

theorem clip_eq {B : Nat} (hB : 0 < B) (a : List α) (n : Nat) (c : α) : clip B a n c = Recon.clip a n c := by
  unfold clip Recon.clip
  rw [forN_guard (lt_threads hB _).le (fun tid a => do
      let v ← rd a (tid : Int)
      if v < c then upd a (tid : Int) c else pure a)]

theorem compensate_eq {B : Nat} (hB : 0 < B) (d r : List α) (nprof nbins : Nat) :
    compensate B d r nprof nbins = Recon.compensate d r nprof nbins := by
  unfold compensate Recon.compensate
  rw [forN_guard (lt_threads hB _).le (fun tid d => do
      let a ← rd d (tid : Int)
      let r ← rd r (tid : Int)
      upd d (tid : Int) (a * r)), forN_nest]

theorem countParticles_eq {B : Nat} (hB : 0 < B) (r : List α) (xp : List Int) (nprof npart nbins : Nat) :
    countParticles B r xp nprof npart nbins = Recon.countParticlesInBin r xp nprof npart nbins := by
  unfold countParticles Recon.countParticlesInBin
  rw [forN_guard (lt_threads hB _).le (fun tid r => do
      let bin ← rd xp (tid : Int)
      let c ← rd r ((tid % nprof * nbins : Nat) + bin)
      upd r ((tid % nprof * nbins : Nat) + bin) (c + 1)), forN_nest]
  apply forN_congr
  intro i s _
  apply forN_congr
  intro j s hj
  simp only [idx_mod hj]

theorem createFlatPoints_eq {B : Nat} (hB : 0 < B) (xp : List Int) (npart nprof nbins : Nat) :
    createFlatPoints B xp npart nprof nbins = Recon.createFlatPoints xp npart nprof nbins := by
  unfold createFlatPoints Recon.createFlatPoints
  rw [forN_guard (lt_threads hB _).le (fun tid (f : List Int) => do
      let v ← rd f (tid : Int)
      upd f (tid : Int) (v + ((nbins * (tid % nprof) : Nat) : Int))), forN_nest]
  apply forN_congr
  intro i s _
  apply forN_congr
  intro j s hj
  simp only [idx_mod hj]

/-! ## the strided loop -/

theorem strided_single {n S fuel tid : Nat} (hS : n ≤ S) (h : tid < n) (hf : 0 < fuel) : strided n S fuel tid = [tid] := by
  obtain ⟨f, rfl⟩ : ∃ f, fuel = f + 1 := ⟨fuel - 1, by omega⟩
  rw [strided, if_pos h]
  cases f with
  | zero => rfl
  | succ f => rw [strided, if_neg (by omega)]

theorem strided_nil {n S fuel tid : Nat} (h : n ≤ tid) : strided n S fuel tid = [] := by
  cases fuel with
  | zero => rfl
  | succ f => rw [strided, if_neg (by omega)]

theorem difference_eq {B : Nat} (hB : 0 < B) (empty : Nat → α) (r f : List α) :
    findDifferenceProfile B empty r f = Recon.findDifferenceProfile (tab r.length empty) r f r.length := by
  unfold findDifferenceProfile Recon.findDifferenceProfile
  dsimp only
  rw [← forN_guard (lt_threads hB r.length).le (fun i d => do
    let p ← rd f (i : Int)
    let r ← rd r (i : Int)
    upd d (i : Int) (p - r))]
  apply forN_congr
  intro tid d _
  by_cases h : tid < r.length
  · rw [strided_single (lt_threads hB _).le h (by omega), if_pos h]
    simp only [List.foldlM_cons, List.foldlM_nil]
    simp only [bind_assoc]
    congr 1; funext p; congr 1; funext q
    exact bind_pure _
  · rw [strided_nil (by omega), if_neg h]; rfl

end

/-! ## the block reduction visits every profile exactly once -/

theorem items_pos {B : Nat} (hB : 0 < B) (h : B ≤ 512) : 0 < 512 / B := Nat.div_pos h hB

/-- `blockIndices` with the sizes as parameters -/
def indices (iters B items : Nat) : List Nat :=
  (List.range iters).flatMap fun i => (List.range B).flatMap fun t => (List.range items).map fun j => i * (B * items) + j * B + t

theorem index_unique {B items i i' j j' t t' : Nat} (hj : j < items) (hj' : j' < items) (ht : t < B) (ht' : t' < B)
    (h : i * (B * items) + j * B + t = i' * (B * items) + j' * B + t') : i = i' ∧ t = t' ∧ j = j' := by
  have e : i * (B * items) + j * B + t = i * (items * B) + (j * B + t) := by ring
  have e' : i' * (B * items) + j' * B + t' = i' * (items * B) + (j' * B + t') := by ring
  rw [e, e'] at h
  have h1 := idx_lt hj ht
  have h2 := idx_lt hj' ht'
  have hi : i = i' := by rw [← idx_div h1 (i := i), h, idx_div h2]
  have hm : j * B + t = j' * B + t' := by rw [← idx_mod h1 (i := i), h, idx_mod h2]
  refine ⟨hi, ?_, ?_⟩
  · rw [← idx_mod ht (i := j), hm, idx_mod ht']
  · rw [← idx_div ht (i := j), hm, idx_div ht']

theorem mem_indices {iters B items : Nat} (k : Nat) : k ∈ indices iters B items ↔ k < iters * (items * B) := by
  unfold indices
  simp only [List.mem_flatMap, List.mem_map, List.mem_range]
  constructor
  · rintro ⟨i, hi, t, ht, j, hj, rfl⟩
    have := idx_lt hi (idx_lt hj ht)
    calc _ = i * (items * B) + (j * B + t) := by ring
      _ < _ := this
  · intro h
    have h1 := mod_lt_of_lt_mul' h
    refine ⟨k / (items * B), div_lt_of_lt_mul' h, k % (items * B) % B, mod_lt_of_lt_mul' h1,
      k % (items * B) / B, div_lt_of_lt_mul' h1, ?_⟩
    have e1 := Nat.div_add_mod k (items * B)
    have e2 := Nat.div_add_mod (k % (items * B)) B
    calc k / (items * B) * (B * items) + k % (items * B) / B * B + k % (items * B) % B
        = items * B * (k / (items * B)) + (B * (k % (items * B) / B) + k % (items * B) % B) := by ring
      _ = k := by rw [e2, e1]

theorem nodup_indices (iters B items : Nat) : (indices iters B items).Nodup := by
  unfold indices
  rw [List.nodup_flatMap]
  constructor
  · intro i _
    rw [List.nodup_flatMap]
    constructor
    · intro t ht
      refine List.Nodup.map_on ?_ List.nodup_range
      intro j hj j' hj' h
      exact (index_unique (List.mem_range.mp hj) (List.mem_range.mp hj') (List.mem_range.mp ht) (List.mem_range.mp ht) h).2.2
    · refine List.nodup_range.pairwise_of_forall_ne ?_
      intro t ht t' ht' hne
      rw [Function.onFun, List.disjoint_left]
      intro k hk hk'
      simp only [List.mem_map, List.mem_range] at hk hk'
      obtain ⟨j, hj, rfl⟩ := hk
      obtain ⟨j', hj', h⟩ := hk'
      exact hne (index_unique hj hj' (List.mem_range.mp ht) (List.mem_range.mp ht') h.symm).2.1
  · refine List.nodup_range.pairwise_of_forall_ne ?_
    intro i hi i' hi' hne
    rw [Function.onFun, List.disjoint_left]
    intro k hk hk'
    simp only [List.mem_flatMap, List.mem_map, List.mem_range] at hk hk'
    obtain ⟨t, ht, j, hj, rfl⟩ := hk
    obtain ⟨t', ht', j', hj', h⟩ := hk'
    exact hne (index_unique hj hj' ht ht' h.symm).1

theorem blockIndices_perm {B nprof : Nat} (hB : 0 < B) (h : B ≤ 512) :
    ((blockIndices B nprof).filter fun k => decide (k < nprof)).Perm (List.range nprof) := by
  have hP : 0 < B * (512 / B) := Nat.mul_pos hB (items_pos hB h)
  have hnd : (blockIndices B nprof).Nodup := nodup_indices _ _ _
  rw [List.perm_ext_iff_of_nodup (hnd.filter _) List.nodup_range]
  intro k
  rw [List.mem_filter, List.mem_range, decide_eq_true_eq]
  refine and_iff_right_of_imp fun hk => ?_
  show k ∈ indices _ _ _
  rw [mem_indices, Nat.mul_comm (512 / B) B]
  have := Nat.div_add_mod (nprof + B * (512 / B) - 1) (B * (512 / B))
  have := Nat.mod_lt (nprof + B * (512 / B) - 1) hP
  rw [Nat.mul_comm]
  omega

/-! ## exact arithmetic -/

section exact
open Finset
variable {K : Type} [Field K] [LinearOrder K] [IsStrictOrderedRing K]

theorem list_sum (n : ℕ) (f : ℕ → K) : ((List.range n).map f).sum = ∑ i ∈ range n, f i := by
  induction n with
  | zero => rfl
  | succ n ih => rw [List.range_succ, List.map_append, List.sum_append, ih, sum_range_succ]; simp

theorem foldlM_gather {nprof : Nat} (g : Nat → M K) (f : Nat → K) (hg : ∀ k, k < nprof → g k = .ok (f k)) (l : List Nat) (s : K) :
    l.foldlM (fun (s : K) (index : Nat) => if index < nprof then do
        let v ← g index
        pure (s + v) else pure (s + 0)) s = .ok (s + ((l.filter fun k => decide (k < nprof)).map f).sum) := by
  induction l generalizing s with
  | nil => simp [List.foldlM_nil]
  | cons k l ih =>
    rw [List.foldlM_cons]
    by_cases h : k < nprof
    · rw [if_pos h, hg k h, bind_ok, pure_eq_ok, bind_ok, ih, List.filter_cons_of_pos (by simpa using h)]
      rw [List.map_cons, List.sum_cons, add_assoc]
    · rw [if_neg h, pure_eq_ok, bind_ok, ih, List.filter_cons_of_neg (by simpa using h), add_zero]

theorem backProject_ok {R npart nprof nbins : ℕ} (hR : 0 < R) (hR' : R ≤ 512) {x : ℕ → ℕ → ℕ}
    (hx : InRange npart nprof nbins x) (w : ℕ → K) (f : ℕ → ℕ → K) :
    backProject R (tab npart w) (fpbuf npart nprof nbins x) (flat nprof nbins f) npart nprof
      = .ok (tab npart (fun i => w i + backProj nprof x f i)) := by
  unfold backProject
  apply pointLoop_eq
  intro b hb g hg
  have hl : ∀ s : K, (blockIndices R nprof).foldlM (fun (s : K) (index : Nat) =>
      if index < nprof then do
        let q ← rd (fpbuf npart nprof nbins x) ((b * nprof + index : Nat) : Int)
        let v ← rd (flat nprof nbins f) q
        pure (s + v)
      else pure (s + 0)) s = .ok (s + backProj nprof x f b) := by
    intro s
    have := foldlM_gather (K := K) (nprof := nprof) (fun index => do
        let q ← rd (fpbuf npart nprof nbins x) ((b * nprof + index : Nat) : Int)
        rd (flat nprof nbins f) q) (fun p => f p (x b p)) (by
          intro p hp
          rw [Recon.rd_fp hb hp, bind_ok, rd_flat f hp (hx b hb p hp) rfl]) (blockIndices R nprof) s
    simp only [bind_assoc] at this
    rw [this]
    congr 2
    rw [((blockIndices_perm hR hR').map _).sum_eq]
    unfold backProj
    exact list_sum _ _
  rw [hl, bind_ok, rd_tab g hb, bind_ok, upd_tab g _ hb, hg, zero_add]

theorem takeReciprocal_ok {B : ℕ} (hB : 0 < B) (m : K) {nprof nbins : ℕ} (c : ℕ → K) :
    takeReciprocal B m (tab (nprof * nbins) c) nprof nbins
      = .ok (tab (nprof * nbins) fun k => m / (if c k = 0 then 1 else c k)) := by
  unfold takeReciprocal
  rw [forN_guard (lt_threads hB _).le (fun tid (r : List K) => do
      let v ← rd r (tid : Int)
      let r ← if v = 0 then upd r (tid : Int) 1 else pure r
      let v ← rd r (tid : Int)
      let q ← FDiv.fdiv m v
      upd r (tid : Int) q)]
  apply pointLoop_eq
  intro k hk g hg
  rw [rd_tab g hk, bind_ok, hg]
  by_cases h : c k = 0
  · rw [if_pos h, upd_tab g _ hk, bind_ok]
    dsimp only
    rw [rd_tab _ hk, bind_ok, if_pos rfl, fdiv_ok one_ne_zero, bind_ok, upd_tab _ _ hk]
    congr 1; apply tab_congr; intro i _
    by_cases e : i = k
    · simp [e, h]
    · simp [e]
  · rw [if_neg h, pure_eq_ok, bind_ok]
    dsimp only
    rw [rd_tab _ hk, bind_ok, hg, fdiv_ok h, bind_ok, upd_tab _ _ hk, if_neg h]

theorem reciprocal_ok {B : ℕ} (hB : 0 < B) {npart nprof nbins : ℕ} (hp : 0 < nprof) (hb : 0 < nbins) {x : ℕ → ℕ → ℕ}
    (hx : InRange npart nprof nbins x) :
    reciprocalParticles B (flat nprof nbins fun _ _ => (0 : K)) (xbuf npart nprof x) nbins nprof npart
      = .ok (flat nprof nbins (recip K npart nprof nbins x)) := by
  unfold reciprocalParticles
  rw [countParticles_eq hB, Recon.countParticles_ok hx, bind_ok]
  have hm : Tomo.npMax (flat nprof nbins (fun p b => (count npart x p b : K))) = .ok (maxCount npart nprof nbins x : K) := by
    unfold flat
    rw [Tomo.npMax_nat _ (fun k => count npart x (k / nbins) (k % nbins)) (Nat.mul_pos hp hb), Recon.sup_flat_range]
    rfl
  rw [hm, bind_ok]
  unfold flat
  rw [takeReciprocal_ok hB]
  congr 1; apply tab_congr; intro k _
  unfold recip
  congr 1
  by_cases h : count npart x (k / nbins) (k % nbins) = 0
  · simp [h]
  · have : ((count npart x (k / nbins) (k % nbins) : ℕ) : K) ≠ 0 := by exact_mod_cast h
    rw [if_neg this, max_eq_right (by omega)]

theorem mapM_rowSums (nprof nbins : ℕ) (r : ℕ → ℕ → K) :
    ((List.range nprof).mapM fun (p : ℕ) => forN nbins (fun j (s : K) => do
      let v ← rd (flat nprof nbins r) ((p * nbins + j : Nat) : Int)
      pure (s + v)) 0) = .ok (tab nprof (rowSum nbins r)) := by
  unfold tab
  apply mapM_ok
  intro p hp
  rw [forN_eq (g := fun j => ∑ b ∈ range j, r p b)]
  · rfl
  · simp
  · intro j hj
    rw [rd_flat r (List.mem_range.mp hp) hj rfl, bind_ok, sum_range_succ]; rfl

theorem normalize_ok {nprof nbins : ℕ} (hp : 0 < nprof) (r : ℕ → ℕ → K) (hr : ∀ p, p < nprof → 0 < rowSum nbins r p) :
    normalize (flat nprof nbins r) nprof nbins = .ok (flat nprof nbins (normRows nbins r)) := by
  unfold normalize
  rw [mapM_rowSums, bind_ok]
  have h1 : forN (nprof * nbins) (fun k (rec : List K) => do
      let v ← rd rec (k : Int)
      let s ← rd (tab nprof (rowSum nbins r)) ((k / nbins : Nat) : Int)
      let q ← FDiv.fdiv v s
      upd rec (k : Int) q) (flat nprof nbins r) = .ok (flat nprof nbins (normRows nbins r)) := by
    apply pointLoop_eq
    intro k hk g hg
    have hk' := div_lt_of_lt_mul' hk
    rw [rd_tab g hk, bind_ok, rd_tab _ hk', bind_ok, fdiv_ok (hr _ hk').ne', bind_ok, upd_tab _ _ hk, hg]
    rfl
  rw [h1, bind_ok, if_neg]
  · rfl
  · rw [Tomo.foldl_tab (acc := fun i => ∑ p ∈ range i, rowSum nbins r p) _ _ _ _ (by simp)
      (fun i _ => (sum_range_succ _ _).symm)]
    exact not_le.mpr (sum_pos (fun p h => hr p (mem_range.mp h)) ⟨0, mem_range.mpr hp⟩)

theorem discrepancy_ok (sqrt : K → K) {nprof nbins : ℕ} (hp : 0 < nprof) (hb : 0 < nbins) (d : ℕ → ℕ → K) :
    discrepancy sqrt (flat nprof nbins d) nprof nbins = .ok (sqrt (meanSquare nprof nbins d)) := by
  unfold discrepancy flat
  rw [Tomo.foldl_tab (acc := fun i => ∑ k ∈ range i, d (k / nbins) (k % nbins) ^ 2) _ _ _ _ (by simp)
    (fun i _ => by rw [sum_range_succ, pow_two (d (i / nbins) (i % nbins))])]
  have hN : ((nprof * nbins : ℕ) : K) ≠ 0 := by
    have : 0 < nprof * nbins := Nat.mul_pos hp hb
    exact_mod_cast this.ne'
  rw [fdiv_ok hN, bind_ok, Recon.sum_flat_range nprof nbins (fun p b => d p b ^ 2)]
  rfl

theorem checkWeights_tab (n : ℕ) (w : ℕ → K) :
    checkWeights (tab n w) = if (∑ i ∈ range n, w i) ≤ 0 then .error (.exc .allZero) else .ok () := by
  unfold checkWeights
  rw [Tomo.foldl_tab (acc := fun i => ∑ p ∈ range i, w p) _ _ _ _ (by simp) (fun i _ => (sum_range_succ _ _).symm)]

section run
variable {B Q npart nprof nbins : ℕ} {x : ℕ → ℕ → ℕ}
open Recon

theorem difference_ok (hB : 0 < B) (empty : ℕ → K) (r f : ℕ → ℕ → K) :
    Cuda.findDifferenceProfile B empty (flat nprof nbins r) (flat nprof nbins f)
      = .ok (flat nprof nbins (fun p b => f p b - r p b)) := by
  rw [difference_eq hB, length_flat]
  unfold Recon.findDifferenceProfile flat
  apply pointLoop_eq
  intro i hi g _
  rw [rd_tab _ hi, bind_ok, rd_tab _ hi, bind_ok, upd_tab _ _ hi]

theorem iteration_ok (hB : 0 < B) (hR : 0 < Q) (hR' : Q ≤ 512) (sqrt : K → K) (empty : ℕ → K) (hp : 0 < nprof) (hb : 0 < nbins)
    (hx : InRange npart nprof nbins x) (wf : ℕ → ℕ → K) {niter k : ℕ} (hk : k < niter)
    (hg : Good true npart nprof nbins x wf k) :
    Cuda.iteration B Q sqrt empty (fpbuf npart nprof nbins x) (flat nprof nbins wf)
      (flat nprof nbins (recip K npart nprof nbins x)) nbins npart nprof k (stN sqrt npart nprof nbins x wf niter k)
      = iterBody sqrt (fpbuf npart nprof nbins x) (flat nprof nbins wf)
        (flat nprof nbins (recip K npart nprof nbins x)) nbins npart nprof k (stN sqrt npart nprof nbins x wf niter k) := by
  rw [iterBody_ok sqrt hp hb hx wf hk hg]
  unfold Cuda.iteration stN
  have hrow := fun p hp => acc_rowSum_pos (keep := true) (wf := wf) hx hg (p := p) hp
  simp only [if_true] at hrow
  have hR2 : normRows nbins (fun p b => R true npart nprof nbins x wf k p b
      + proj npart x (W true npart nprof nbins x wf k) p b) = R true npart nprof nbins x wf (k + 1) := by
    rw [R_succ]; rfl
  dsimp only
  rw [project_eq hB, project_ok hx, bind_ok, Cuda.normalize_ok hp _ hrow, bind_ok, hR2, difference_ok hB, bind_ok,
    Cuda.discrepancy_ok sqrt hp hb, bind_ok]
  have := upd_discr (npart := npart) (nprof := nprof) (nbins := nbins) (x := x) sqrt wf hk.le
  unfold msq at this
  rw [this, bind_ok, compensate_eq hB, compensate_ok, bind_ok, Cuda.backProject_ok hR hR' hx, bind_ok, clip_eq hB, clip_ok, bind_ok]
  have h1 : (tab npart fun i => max (W true npart nprof nbins x wf k i + backProj nprof x
      (fun p b => (wf p b - R true npart nprof nbins x wf (k + 1) p b) * recip K npart nprof nbins x p b) i) 0)
      = tab npart (W true npart nprof nbins x wf (k + 1)) := by
    apply tab_congr; intro i _; rfl
  rw [h1, checkWeights_tab]
  split <;> rfl

theorem iterLoop_snd {α : Type} (body : Nat → RState α → M (RState α)) (niter k : Nat) (st : RState α) :
    (iterLoop body niter k st).2 = forN k body st := by
  induction k with
  | zero => rfl
  | succ k ih =>
    rw [forN_succ, ← ih, iterLoop]
    rcases iterLoop body niter k st with ⟨log, e | st'⟩
    · rfl
    · dsimp only
      rw [bind_ok]
      cases body k st' <;> rfl

theorem loop_eq (hB : 0 < B) (hR : 0 < Q) (hR' : Q ≤ 512) (sqrt : K → K) (empty : ℕ → K) (hp : 0 < nprof) (hb : 0 < nbins)
    (hx : InRange npart nprof nbins x) (wf : ℕ → ℕ → K) {niter : ℕ} (h0 : Good true npart nprof nbins x wf 0)
    (k : ℕ) (hk : k ≤ niter) :
    forN k (Cuda.iteration B Q sqrt empty (fpbuf npart nprof nbins x) (flat nprof nbins wf)
      (flat nprof nbins (recip K npart nprof nbins x)) nbins npart nprof) (stN sqrt npart nprof nbins x wf niter 0)
      = (iterLoop (iterBody sqrt (fpbuf npart nprof nbins x) (flat nprof nbins wf)
        (flat nprof nbins (recip K npart nprof nbins x)) nbins npart nprof) niter k
        (stN sqrt npart nprof nbins x wf niter 0)).2 := by
  induction k with
  | zero => rfl
  | succ k ih =>
    rw [iterLoop_snd, forN_succ, forN_succ, ih (by omega), iterLoop_snd]
    have := iterLoop_ok sqrt hp hb hx wf (niter := niter) h0 k (by omega)
    rcases this with ⟨hg, he⟩ | ⟨f, _, _, _, he⟩
    · have he := congrArg Prod.snd he
      rw [iterLoop_snd] at he
      rw [he, bind_ok, bind_ok, iteration_ok hB hR hR' sqrt empty hp hb hx wf (by omega) hg]
    · have he := congrArg Prod.snd he
      rw [iterLoop_snd] at he
      rw [he]; rfl

/-- `reconstruct_cuda` returns what the C++ `reconstruct` returns. -/
theorem reconstruct_eq (hB : 0 < B) (hR : 0 < Q) (hR' : Q ≤ 512) (sqrt : K → K) (empty : ℕ → K) (hp : 0 < nprof) (hb : 0 < nbins)
    (hx : InRange npart nprof nbins x) (wf : ℕ → ℕ → K) (niter : ℕ) :
    (Cuda.reconstruct B Q sqrt empty (xbuf npart nprof x) (flat nprof nbins wf) niter nbins npart nprof).2
      = (Recon.reconstruct sqrt (xbuf npart nprof x) (flat nprof nbins wf) niter nbins npart nprof).2 := by
  unfold Cuda.reconstruct Recon.reconstruct reconstructOn
  rw [prepare_ok hx]
  dsimp only
  rw [firstStep_ok hx]
  have hz : (tab (nprof * nbins) fun _ => (0 : K)) = flat nprof nbins fun _ _ => (0 : K) := rfl
  rw [hz, Cuda.reciprocal_ok hB hp hb hx, bind_ok, createFlatPoints_eq hB, createFlatPoints_ok, bind_ok,
    Cuda.backProject_ok hR hR' hx, bind_ok, clip_eq hB, clip_ok, bind_ok]
  have h1 : (tab npart fun i => max ((0 : K) + backProj nprof x wf i) 0)
      = tab npart (W true npart nprof nbins x wf 0) := by
    apply tab_congr; intro i _; simp [W, seq, pos]
  rw [h1, checkWeights_tab]
  by_cases hs : (∑ i ∈ range npart, W true npart nprof nbins x wf 0 i) ≤ 0
  · rw [if_pos hs, if_pos hs]; rfl
  · rw [if_neg hs, if_neg hs, bind_ok]
    dsimp only
    have h0 : Good true npart nprof nbins x wf 0 := by
      intro m hm
      have : m = 0 := by omega
      subst this; exact not_le.mp hs
    have hst : (⟨tab npart (W true npart nprof nbins x wf 0), flat nprof nbins fun _ _ => 0,
        tab (niter + 1) fun _ => 0⟩ : RState K) = stN sqrt npart nprof nbins x wf niter 0 := by
      simp only [stN, discrBuf]
      congr 1
    rw [hst, loop_eq hB hR hR' sqrt empty hp hb hx wf h0 niter le_rfl]
    rcases iterLoop_ok sqrt hp hb hx wf h0 niter le_rfl with ⟨hg, he⟩ | ⟨f, hf, hg, hng, he⟩
    · rw [he]
      dsimp only
      rw [bind_ok, finalStep_ok sqrt hp hb hx wf hg]
      dsimp only [stN]
      have hrow := fun p hp => acc_rowSum_pos (keep := true) (wf := wf) hx hg (p := p) hp
      simp only [if_true] at hrow
      have hR2 : normRows nbins (fun p b => R true npart nprof nbins x wf niter p b
          + proj npart x (W true npart nprof nbins x wf niter) p b) = R true npart nprof nbins x wf (niter + 1) := by
        rw [R_succ]; rfl
      rw [project_eq hB, project_ok hx, bind_ok, Cuda.normalize_ok hp _ hrow, bind_ok, hR2, difference_ok hB, bind_ok,
        Cuda.discrepancy_ok sqrt hp hb, bind_ok]
      have := upd_discr (npart := npart) (nprof := nprof) (nbins := nbins) (x := x) sqrt wf (le_refl niter)
      unfold msq at this
      rw [this, bind_ok]
      simp only [pure_eq_ok, discrBuf]
      congr 2
      apply tab_congr; intro m hm; simp [hm]
    · rw [he]; rfl

end run
end exact
end Verif.Cuda

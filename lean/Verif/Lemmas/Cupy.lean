import Verif.Lemmas.Cuda
import Verif.Lemmas.PhaseSpace

/-!
# The CuPy reconstruction against the C++ one
-/

set_option linter.unusedSectionVars false

namespace Verif.Cuda
open Verif.Recon Verif.Spec Finset

variable {K : Type} [Field K] [LinearOrder K] [IsStrictOrderedRing K]
variable {npart nprof nbins : ℕ} {x : ℕ → ℕ → ℕ}

theorem zip2_tab (f : K → K → K) (n : ℕ) (a b : ℕ → K) :
    Tomo.zip2 f (tab n a) (tab n b) = .ok (tab n fun i => f (a i) (b i)) := by
  have h := Tomo.zip2_flat f 1 n (fun _ => a) (fun _ => b)
  have e : ∀ g : ℕ → K, flat 1 n (fun _ => g) = tab n g := by
    intro g
    unfold flat
    rw [Nat.one_mul]
    apply tab_congr
    intro k hk
    rw [Nat.mod_eq_of_lt hk]
  rw [e, e] at h
  rw [h]
  congr 1
  exact e fun q => f (a q) (b q)

theorem backProjectCupy_ok (hx : InRange npart nprof nbins x) (w : ℕ → K) (f : ℕ → ℕ → K) :
    backProjectCupy (tab npart w) (fpbuf npart nprof nbins x) (flat nprof nbins f) npart nprof
      = .ok (tab npart fun i => w i + backProj nprof x f i) := by
  unfold backProjectCupy
  rw [mapM_ok (g := backProj nprof x f), bind_ok]
  · show Tomo.zip2 (· + ·) (tab npart (backProj nprof x f)) (tab npart w) = _
    rw [zip2_tab]
    congr 1
    apply tab_congr; intro i _; exact add_comm _ _
  · intro i hi
    have hi := List.mem_range.mp hi
    rw [forN_eq (g := fun j => ∑ p ∈ range j, f p (x i p))]
    · rfl
    · simp
    · intro j hj
      rw [rd_fp hi hj, bind_ok, rd_flat f hj (hx i hi j hj) rfl, bind_ok, sum_range_succ]; rfl

theorem projectCupy_ok (hx : InRange npart nprof nbins x) (w : ℕ → K) (r : ℕ → ℕ → K) :
    projectCupy (flat nprof nbins r) (fpbuf npart nprof nbins x) (tab npart w) npart nprof nbins
      = .ok (flat nprof nbins (fun p b => r p b + proj npart x w p b)) := by
  unfold projectCupy
  have h := project_ok hx w (fun _ _ => (0 : K))
  unfold Recon.project at h
  have hz : (tab (nprof * nbins) fun _ => (0 : K)) = flat nprof nbins fun _ _ => (0 : K) := rfl
  have e : forN (npart * nprof) (fun k (c : List K) => do
      let idx ← rd (fpbuf npart nprof nbins x) (k : Int)
      let r ← rd c idx
      let w ← rd (tab npart w) ((k / nprof : Nat) : Int)
      upd c idx (r + w)) (flat nprof nbins fun _ _ => (0 : K))
      = .ok (flat nprof nbins (fun p b => 0 + proj npart x w p b)) := by
    rw [forN_nest, ← h]
    apply forN_congr
    intro i s hi
    apply forN_congr
    intro j s hj
    rw [idx_div hj]
  rw [hz, e, bind_ok, Tomo.zip2_flat]
  congr 1
  apply flat_congr; intro p b _ _; rw [zero_add, add_comm]

theorem clipCupy_ok (n : ℕ) (w : ℕ → K) : clipCupy (tab n w) 0 = tab n (fun i => max (w i) 0) := Tomo.npClip0_tab n w

theorem countP_range (n : ℕ) (p : ℕ → Prop) [DecidablePred p] :
    (List.range n).countP (fun i => decide (p i)) = ((range n).filter p).card := by
  induction n with
  | zero => rfl
  | succ n ih =>
    rw [List.range_succ, List.countP_append, ih, range_add_one, filter_insert]
    by_cases h : p n
    · rw [if_pos h, card_insert_of_notMem (by simp)]; simp [h]
    · rw [if_neg h]; simp [h]

theorem countCupy_ok (hx : InRange npart nprof nbins x) :
    countCupy (xbuf npart nprof x) nprof npart nbins = .ok (flat nprof nbins (count npart x)) := by
  unfold countCupy
  rw [mapM_ok (g := fun k => count npart x (k / nbins) (k % nbins))]
  · rfl
  · intro k hk
    have hk := List.mem_range.mp hk
    have hp : k / nbins < nprof := div_lt_of_lt_mul' hk
    rw [mapM_ok (g := fun i => ((x i (k / nbins) : ℕ) : ℤ)), bind_ok]
    · simp only [pure_eq_ok]
      congr 1
      rw [List.countP_map]
      unfold count
      rw [← countP_range]
      apply List.countP_congr
      intro i hi
      have := hx i (List.mem_range.mp hi) _ hp
      simp only [Function.comp, decide_eq_true_eq]
      omega
    · intro i hi
      unfold xbuf
      rw [rd_flat _ (List.mem_range.mp hi) hp rfl]

theorem zipIdx_tab {α : Type} (n : ℕ) (g : ℕ → α) : (tab n g).zipIdx = tab n fun i => (g i, i) := by
  apply List.ext_getElem?
  intro i
  rw [List.getElem?_zipIdx, getElem?_tab, getElem?_tab]
  by_cases h : i < n <;> simp [h]

theorem npMax_nat' (n : ℕ) (c : ℕ → ℕ) (hn : 0 < n) : Tomo.npMax (α := Nat) (tab n c) = .ok ((range n).sup c) := by
  obtain ⟨m, rfl⟩ : ∃ m, n = m + 1 := ⟨n - 1, by omega⟩
  have h : tab (m + 1) c = c 0 :: tab m (fun i => c (i + 1)) := by
    simp [tab, List.range_succ_eq_map]
  rw [h]
  simp only [Tomo.npMax]
  congr 1
  clear h hn
  induction m with
  | zero => simp [tab]
  | succ m ih =>
    rw [Tomo.tab_succ, List.foldl_append, ih, range_add_one (n := m + 1), sup_insert]
    simp only [List.foldl_cons, List.foldl_nil]
    split
    · rename_i h; rw [sup_eq_left.mpr h.le]
    · rename_i h; rw [sup_eq_right.mpr (not_lt.mp h)]

theorem max2d_ok (hp : 0 < nprof) (hb : 0 < nbins) (hn : nbins ≤ npart) (c : ℕ → ℕ → ℕ) :
    max2d (flat nprof nbins c) nbins npart = .ok ((range nprof).sup fun p => (range nbins).sup (c p)) := by
  unfold max2d flat
  rw [zipIdx_tab, List.filter_eq_self.mpr]
  · have : ((tab (nprof * nbins) fun i => (c (i / nbins) (i % nbins), i)).map Prod.fst)
        = tab (nprof * nbins) fun i => c (i / nbins) (i % nbins) := by
      unfold tab; rw [List.map_map]; rfl
    rw [this, npMax_nat' _ _ (Nat.mul_pos hp hb), sup_flat_range]
  · intro e he
    simp only [tab, List.mem_map, List.mem_range] at he
    obtain ⟨k, hk, rfl⟩ := he
    have := Nat.mod_lt k hb
    simp only [decide_eq_true_eq]
    omega

theorem reciprocalCupy_ok (hp : 0 < nprof) (hb : 0 < nbins) (hn : nbins ≤ npart) (hx : InRange npart nprof nbins x) :
    reciprocalParticlesCupy (α := K) (xbuf npart nprof x) nbins nprof npart
      = .ok (flat nprof nbins (recip K npart nprof nbins x)) := by
  unfold reciprocalParticlesCupy
  rw [countCupy_ok hx, bind_ok, max2d_ok hp hb hn, bind_ok, Tomo.divInto_ok]
  · congr 1
    unfold flat tab
    rw [List.map_map, List.map_map]
    apply List.map_congr_left
    intro k _
    simp only [Function.comp]
    unfold recip maxCount
    congr 2
    split <;> omega
  · intro a ha
    simp only [List.mem_map] at ha
    obtain ⟨c, _, rfl⟩ := ha
    have : (if c = 0 then 1 else c) ≠ 0 := by split <;> omega
    exact_mod_cast this

theorem createFlatPointsCupy_ok :
    createFlatPointsCupy (xbuf npart nprof x) nprof nbins = fpbuf npart nprof nbins x := by
  unfold createFlatPointsCupy xbuf fpbuf flat
  rw [zipIdx_tab]
  unfold tab
  rw [List.map_map]
  apply List.map_congr_left
  intro k _
  simp only [Function.comp]
  rw [Nat.mul_comm]

theorem iterationCupy_ok (sqrt : K → K) (hp : 0 < nprof) (hb : 0 < nbins)
    (hx : InRange npart nprof nbins x) (wf : ℕ → ℕ → K) {niter k : ℕ} (hk : k < niter)
    (hg : Good true npart nprof nbins x wf k) :
    iterationCupy sqrt (fpbuf npart nprof nbins x) (flat nprof nbins wf)
      (flat nprof nbins (recip K npart nprof nbins x)) nbins npart nprof k (stN sqrt npart nprof nbins x wf niter k)
      = iterBody sqrt (fpbuf npart nprof nbins x) (flat nprof nbins wf)
        (flat nprof nbins (recip K npart nprof nbins x)) nbins npart nprof k (stN sqrt npart nprof nbins x wf niter k) := by
  rw [iterBody_ok sqrt hp hb hx wf hk hg]
  unfold iterationCupy stN
  have hrow := fun p hp => acc_rowSum_pos (keep := true) (wf := wf) hx hg (p := p) hp
  simp only [if_true] at hrow
  have hR2 : normRows nbins (fun p b => R true npart nprof nbins x wf k p b
      + proj npart x (W true npart nprof nbins x wf k) p b) = R true npart nprof nbins x wf (k + 1) := by
    rw [R_succ]; rfl
  dsimp only
  rw [projectCupy_ok hx, bind_ok, Cuda.normalize_ok hp _ hrow, bind_ok, hR2, Tomo.zip2_flat, bind_ok,
    Cuda.discrepancy_ok sqrt hp hb, bind_ok]
  have := upd_discr (npart := npart) (nprof := nprof) (nbins := nbins) (x := x) sqrt wf hk.le
  unfold msq at this
  rw [this, bind_ok, Tomo.zip2_flat, bind_ok, backProjectCupy_ok hx, bind_ok, clipCupy_ok]
  have h1 : (tab npart fun i => max (W true npart nprof nbins x wf k i + backProj nprof x
      (fun p b => (wf p b - R true npart nprof nbins x wf (k + 1) p b) * recip K npart nprof nbins x p b) i) 0)
      = tab npart (W true npart nprof nbins x wf (k + 1)) := by
    apply tab_congr; intro i _; rfl
  rw [h1, checkWeights_tab]
  split <;> rfl

theorem loopCupy_eq (sqrt : K → K) (hp : 0 < nprof) (hb : 0 < nbins)
    (hx : InRange npart nprof nbins x) (wf : ℕ → ℕ → K) {niter : ℕ} (h0 : Good true npart nprof nbins x wf 0)
    (k : ℕ) (hk : k ≤ niter) :
    forN k (iterationCupy sqrt (fpbuf npart nprof nbins x) (flat nprof nbins wf)
      (flat nprof nbins (recip K npart nprof nbins x)) nbins npart nprof) (stN sqrt npart nprof nbins x wf niter 0)
      = (iterLoop (iterBody sqrt (fpbuf npart nprof nbins x) (flat nprof nbins wf)
        (flat nprof nbins (recip K npart nprof nbins x)) nbins npart nprof) niter k
        (stN sqrt npart nprof nbins x wf niter 0)).2 := by
  induction k with
  | zero => rfl
  | succ k ih =>
    rw [iterLoop_snd, forN_succ, forN_succ, ih (by omega), iterLoop_snd]
    have := iterLoop_ok sqrt hp hb hx wf (niter := niter) h0 k (by omega)
    rcases this with ⟨hg, he⟩ | ⟨f, _, _, _, he⟩
    · have he := congrArg Prod.snd he
      rw [iterLoop_snd] at he
      rw [he, bind_ok, bind_ok, iterationCupy_ok sqrt hp hb hx wf (by omega) hg]
    · have he := congrArg Prod.snd he
      rw [iterLoop_snd] at he
      rw [he]; rfl

/-- `reconstruct_cupy` returns what the C++ `reconstruct` returns, if there are at least as many particles as bins. -/
theorem reconstructCupy_eq (sqrt : K → K) (hp : 0 < nprof) (hb : 0 < nbins) (hn : nbins ≤ npart)
    (hx : InRange npart nprof nbins x) (wf : ℕ → ℕ → K) (niter : ℕ) :
    reconstructCupy sqrt (xbuf npart nprof x) (flat nprof nbins wf) niter nbins npart nprof
      = (Recon.reconstruct sqrt (xbuf npart nprof x) (flat nprof nbins wf) niter nbins npart nprof).2 := by
  unfold reconstructCupy Recon.reconstruct reconstructOn
  rw [prepare_ok hx]
  dsimp only
  rw [firstStep_ok hx]
  rw [reciprocalCupy_ok hp hb hn hx, bind_ok, createFlatPointsCupy_ok, backProjectCupy_ok hx, bind_ok, clipCupy_ok]
  have h1 : (tab npart fun i => max ((0 : K) + backProj nprof x wf i) 0)
      = tab npart (W true npart nprof nbins x wf 0) := by
    apply tab_congr; intro i _; simp [W, seq, pos]
  rw [h1, checkWeights_tab]
  by_cases hs : (∑ i ∈ range npart, W true npart nprof nbins x wf 0 i) ≤ 0
  · rw [if_pos hs, if_pos hs]; rfl
  · rw [if_neg hs, if_neg hs, bind_ok]
    dsimp only
    have h0 : Good true npart nprof nbins x wf 0 := by
      intro m hm
      have : m = 0 := by omega
      subst this; exact not_le.mp hs
    have hst : (⟨tab npart (W true npart nprof nbins x wf 0), tab (nprof * nbins) fun _ => 0,
        tab (niter + 1) fun _ => 0⟩ : RState K) = stN sqrt npart nprof nbins x wf niter 0 := by
      simp only [stN, discrBuf]
      congr 1
    rw [hst, loopCupy_eq sqrt hp hb hx wf h0 niter le_rfl]
    rcases iterLoop_ok sqrt hp hb hx wf h0 niter le_rfl with ⟨hg, he⟩ | ⟨f, hf, hg, hng, he⟩
    · rw [he]
      dsimp only
      rw [bind_ok, finalStep_ok sqrt hp hb hx wf hg]
      dsimp only [stN]
      have hrow := fun p hp => acc_rowSum_pos (keep := true) (wf := wf) hx hg (p := p) hp
      simp only [if_true] at hrow
      have hR2 : normRows nbins (fun p b => R true npart nprof nbins x wf niter p b
          + proj npart x (W true npart nprof nbins x wf niter) p b) = R true npart nprof nbins x wf (niter + 1) := by
        rw [R_succ]; rfl
      rw [projectCupy_ok hx, bind_ok, Cuda.normalize_ok hp _ hrow, bind_ok, hR2, Tomo.zip2_flat, bind_ok,
        Cuda.discrepancy_ok sqrt hp hb, bind_ok]
      have := upd_discr (npart := npart) (nprof := nprof) (nbins := nbins) (x := x) sqrt wf (le_refl niter)
      unfold msq at this
      rw [this, bind_ok]
      simp only [pure_eq_ok, discrBuf]
      congr 2
      apply tab_congr; intro m hm; simp [hm]
    · rw [he]; rfl

end Verif.Cuda

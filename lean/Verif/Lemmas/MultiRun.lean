import Verif.Lemmas.Multi

/-!
# The whole of `reconstruct_multi` (helper lemmas)
-/

set_option linter.unusedSectionVars false

namespace Verif.Multi
open Finset Verif.Spec Verif.Recon

variable {K : Type} [Field K] [LinearOrder K] [IsStrictOrderedRing K]

variable (S : Setup) (wf : ℕ → ℕ → K)

/-- recreated waterfall from the previous one and the weights -/
def recM (s : (ℕ → ℕ → K) × (ℕ → ℕ → K)) : ℕ → ℕ → K :=
  normRows S.nbins fun p b => s.2 p b + projAll S.nc S.npart S.x S.ctr s.1 p b

/-- one iteration on (weights, recreated) -/
def stepM (s : (ℕ → ℕ → K) × (ℕ → ℕ → K)) : (ℕ → ℕ → K) × (ℕ → ℕ → K) :=
  (fun c i => max (s.1 c i + backAll S.nprof S.x S.ctr S.cl S.cr
      (fun p b => (wf p b - recM S s p b) * recipAll K S.nc S.npart S.nprof S.nbins S.x S.ctr p b) c i) 0, recM S s)

/-- weights and recreated waterfall after `k` iterations -/
def seqM : ℕ → (ℕ → ℕ → K) × (ℕ → ℕ → K)
  | 0 => (backAll S.nprof S.x S.ctr S.cl S.cr wf, fun _ _ => 0)
  | k + 1 => stepM S wf (seqM k)

abbrev WM (k : ℕ) : ℕ → ℕ → K := (seqM S wf k).1
abbrev RM (k : ℕ) : ℕ → ℕ → K := (seqM S wf k).2

/-- difference of waterfall and recreated waterfall recorded at iteration `k` -/
def diffM (k : ℕ) (p b : ℕ) : K := wf p b - RM S wf (k + 1) p b

/-- the weights of the first bunch did not vanish up to iteration `k` -/
def GoodM (k : ℕ) : Prop := ∀ m, m ≤ k → 0 < ∑ i ∈ range S.npart, WM S wf m 0 i

theorem RM_succ (k : ℕ) : RM S wf (k + 1) = normRows S.nbins fun p b => RM S wf k p b + projAll S.nc S.npart S.x S.ctr (WM S wf k) p b :=
  rfl

variable {S wf}

theorem WM_nonneg (hpos : ∀ p b, 0 ≤ wf p b) (k c i : ℕ) : 0 ≤ WM S wf k c i := by
  cases k with
  | zero =>
    show 0 ≤ backAll S.nprof S.x S.ctr S.cl S.cr wf c i
    unfold backAll
    split
    · exact sum_nonneg fun p _ => hpos _ _
    · exact le_rfl
  | succ k => exact le_max_right _ _

theorem WM_masked {c i : ℕ} (h : ¬ Inside S.nprof S.x S.ctr S.cl S.cr c i) (k : ℕ) : WM S wf k c i = 0 := by
  induction k with
  | zero => show backAll S.nprof S.x S.ctr S.cl S.cr wf c i = 0; rw [backAll, if_neg h]
  | succ k ih =>
    show max (WM S wf k c i + backAll S.nprof S.x S.ctr S.cl S.cr _ c i) 0 = 0
    rw [ih, backAll, if_neg h, add_zero, max_self]

theorem projAll_nonneg {w : ℕ → ℕ → K} (hw : ∀ c i, 0 ≤ w c i) (p b : ℕ) : 0 ≤ projAll S.nc S.npart S.x S.ctr w p b :=
  sum_nonneg fun c _ => proj_nonneg (fun i _ => hw c i) p b

theorem rowSum_projAll (h : S.Ok) (w : ℕ → ℕ → K) {p : ℕ} (hp : p < S.nprof) :
    rowSum S.nbins (projAll S.nc S.npart S.x S.ctr w) p = ∑ c ∈ range S.nc, ∑ i ∈ range S.npart, w c i := by
  have : rowSum S.nbins (projAll S.nc S.npart S.x S.ctr w) p
      = ∑ c ∈ range S.nc, rowSum S.nbins (proj S.npart (moved S.x (S.ctr c)) (w c)) p := by
    unfold rowSum projAll
    rw [sum_comm]
  rw [this]
  apply Finset.sum_congr rfl
  intro c hc
  exact rowSum_proj (inImage_range h.image (mem_range.mp hc)) (w c) hp

theorem first_le_all (h : S.Ok) {w : ℕ → ℕ → K} (hw : ∀ c i, 0 ≤ w c i) :
    ∑ i ∈ range S.npart, w 0 i ≤ ∑ c ∈ range S.nc, ∑ i ∈ range S.npart, w c i :=
  single_le_sum (f := fun c => ∑ i ∈ range S.npart, w c i) (fun c _ => sum_nonneg fun i _ => hw c i) (mem_range.mpr h.nc)

theorem RM_nonneg (hpos : ∀ p b, 0 ≤ wf p b) (k p b : ℕ) : 0 ≤ RM S wf k p b := by
  induction k generalizing p b with
  | zero => exact le_rfl
  | succ k ih =>
    rw [RM_succ]
    exact div_nonneg (add_nonneg (ih p b) (projAll_nonneg (WM_nonneg hpos k) p b))
      (sum_nonneg fun b _ => add_nonneg (ih p b) (projAll_nonneg (WM_nonneg hpos k) p b))

theorem accM_pos (h : S.Ok) (hpos : ∀ p b, 0 ≤ wf p b) {k : ℕ} (hg : GoodM S wf k) {p : ℕ} (hp : p < S.nprof) :
    0 < rowSum S.nbins (fun p b => RM S wf k p b + projAll S.nc S.npart S.x S.ctr (WM S wf k) p b) p := by
  rw [rowSum_add, rowSum_projAll h _ hp]
  exact add_pos_of_nonneg_of_pos (sum_nonneg fun b _ => RM_nonneg hpos k p b)
    ((hg k le_rfl).trans_le (first_le_all h (WM_nonneg hpos k)))

theorem rowSum_RM (h : S.Ok) (hpos : ∀ p b, 0 ≤ wf p b) {k : ℕ} (hg : GoodM S wf k) {p : ℕ} (hp : p < S.nprof) :
    rowSum S.nbins (RM S wf (k + 1)) p = 1 := by
  rw [RM_succ, rowSum_normRows (accM_pos h hpos hg hp).ne']

/-! ## the run -/

/-- prepared arrays -/
def prepM (K : Type) [Field K] (S : Setup) : Prep K :=
  ⟨flat S.nc S.npart fun c i => decide (Inside S.nprof S.x S.ctr S.cl S.cr c i),
   flat S.nprof S.nbins (recipAll K S.nc S.npart S.nprof S.nbins S.x S.ctr), fpbuf S.npart S.nprof S.nbins S.x⟩

theorem prepareMulti_ok (h : S.Ok) :
    prepareMulti (α := K) (xbuf S.npart S.nprof S.x) (tab S.nc S.ctr) (tab S.nc S.cl) (tab S.nc S.cr) S.nbins S.npart S.nprof S.nc
      = .ok (prepM K S) := by
  unfold prepareMulti
  have h1 : (tab (S.npart * S.nc) fun _ => true) = flat S.nc S.npart fun _ _ => true := by rw [Nat.mul_comm]; rfl
  have h2 : (tab (S.nprof * S.nbins) fun _ => (0 : K)) = flat S.nprof S.nbins fun _ _ => (0 : K) := rfl
  rw [h1, createMask_ok, bind_ok, h2, reciprocalMulti_ok h.image, bind_ok, createFlatPoints_ok, bind_ok]; rfl

theorem firstMulti_ok (h : S.Ok) (hpos : ∀ p b, 0 ≤ wf p b) :
    firstMulti (tab (S.npart * S.nc) fun _ => (0 : K)) (prepM K S) (flat S.nprof S.nbins wf) (tab S.nc S.ctr) S.npart S.nprof S.nc
      = if (∑ i ∈ range S.npart, WM S wf 0 0 i) ≤ 0 then .error (.exc .allZero) else .ok (flat S.nc S.npart (WM S wf 0)) := by
  unfold firstMulti prepM
  have h1 : (tab (S.npart * S.nc) fun _ => (0 : K)) = flat S.nc S.npart fun _ _ => (0 : K) := by rw [Nat.mul_comm]; rfl
  rw [h1]
  dsimp only
  rw [backProjectMulti_ok h.image, bind_ok]
  have h2 : (fun c i => (0 : K) + backAll S.nprof S.x S.ctr S.cl S.cr wf c i) = WM S wf 0 := by
    funext c i; rw [zero_add]; rfl
  rw [h2]
  have h3 : clip (flat S.nc S.npart (WM S wf 0)) S.npart 0 = .ok (flat S.nc S.npart (WM S wf 0)) := by
    unfold flat
    exact clip_prefix_nonneg (by have := h.nc; nlinarith) _ fun i _ => WM_nonneg hpos 0 _ _
  rw [h3, bind_ok, sum_first h.nc, bind_ok]; rfl

/-- arrays after `k` iterations -/
def stM (sqrt : K → K) (junk : K) (S : Setup) (wf : ℕ → ℕ → K) (niter k : ℕ) : MState K :=
  ⟨flat S.nc S.npart (WM S wf k), flat S.nprof S.nbins (RM S wf k),
   tab (niter + 1) (fun m => if m < k then sqrt (meanSquare S.nprof S.nbins (diffM S wf m)) else 0),
   flat (niter + 1) S.nc (fun m c => if m < k then sqrt (splitMsq S.nprof S.nbins S.cl S.cr (diffM S wf m) c) else junk)⟩

theorem upd_discrM (v : ℕ → K) (z : K) {niter k : ℕ} (hk : k ≤ niter) :
    upd (tab (niter + 1) fun m => if m < k then v m else z) (k : Int) (v k)
      = .ok (tab (niter + 1) fun m => if m < k + 1 then v m else z) := by
  rw [upd_tab _ _ (by omega)]
  congr 1; apply tab_congr; intro m _
  by_cases h : m = k
  · subst h; simp
  · have : m < k + 1 ↔ m < k := by omega
    simp only [h, if_false]
    exact if_congr this.symm rfl rfl

theorem cuts_ne (h : S.Ok) : ∀ c, c < S.nc → ((S.nprof : ℤ) * (S.cr c - S.cl c)) ≠ 0 := by
  intro c hc
  have h1 := h.cuts c hc
  have h2 := h.nprof
  have : 0 < (S.nprof : ℤ) * (S.cr c - S.cl c) := mul_pos (by exact_mod_cast h2) (by linarith)
  exact this.ne'

theorem split_step (sqrt : K → K) (junk : K) (h : S.Ok) {niter k : ℕ} (hk : k ≤ niter) :
    discrepancyMulti sqrt (flat S.nprof S.nbins (diffM S wf k)) (stM sqrt junk S wf niter k).split (tab S.nc S.cl) (tab S.nc S.cr) k
      S.nprof S.nbins S.nc = .ok (stM sqrt junk S wf niter (k + 1)).split := by
  unfold stM
  dsimp only
  rw [discrepancyMulti_ok sqrt (by omega) S.cl S.cr (cuts_ne h)]
  congr 1; apply flat_congr; intro m c _ _
  by_cases h : m = k
  · subst h; simp
  · have : m < k + 1 ↔ m < k := by omega
    simp only [h, if_false]
    exact if_congr this.symm rfl rfl

theorem iterMulti_ok (sqrt : K → K) (junk : K) (h : S.Ok) (hpos : ∀ p b, 0 ≤ wf p b) {niter k : ℕ} (hk : k < niter)
    (hg : GoodM S wf k) :
    iterMulti sqrt (prepM K S) (flat S.nprof S.nbins wf) (tab S.nc S.ctr) (tab S.nc S.cl) (tab S.nc S.cr) S.nbins S.npart S.nprof S.nc k
      (stM sqrt junk S wf niter k)
      = if (∑ i ∈ range S.npart, WM S wf (k + 1) 0 i) ≤ 0 then .error (.exc .allZero) else .ok (stM sqrt junk S wf niter (k + 1)) := by
  unfold iterMulti
  have hz : (tab (S.nprof * S.nbins) fun _ => (0 : K)) = flat S.nprof S.nbins fun _ _ => (0 : K) := rfl
  have hsp := split_step (wf := wf) sqrt junk h hk.le
  have hdis := upd_discrM (fun m => sqrt (meanSquare S.nprof S.nbins (diffM S wf m))) 0 hk.le
  simp only [hz]
  have e1 : projectMulti (stM sqrt junk S wf niter k).flatRec (prepM K S).fp (stM sqrt junk S wf niter k).weights (tab S.nc S.ctr)
      S.npart S.nprof S.nc = _ := projectMulti_ok h.image (WM S wf k) (RM S wf k)
  rw [e1, bind_ok, normalize_ok h.nprof _ (fun p hp => accM_pos h hpos hg hp), bind_ok, ← RM_succ, findDifference_ok, bind_ok]
  have e2 : (fun p b => wf p b - RM S wf (k + 1) p b) = diffM S wf k := rfl
  rw [e2, discrepancy_ok sqrt h.nprof h.nbins, bind_ok]
  have e3 : upd (stM sqrt junk S wf niter k).discr (k : Int) (sqrt (meanSquare S.nprof S.nbins (diffM S wf k))) = _ := hdis
  rw [e3, bind_ok, hsp, bind_ok]
  have e4 : compensate (flat S.nprof S.nbins (diffM S wf k)) (prepM K S).rparts S.nprof S.nbins = _ := compensate_ok _ _ _ _
  rw [e4, bind_ok]
  have e5 : backProjectMulti (stM sqrt junk S wf niter k).weights (prepM K S).fp (flat S.nprof S.nbins fun p b => diffM S wf k p b *
      recipAll K S.nc S.npart S.nprof S.nbins S.x S.ctr p b) (prepM K S).mask (tab S.nc S.ctr) S.npart S.nprof S.nc = _ :=
    backProjectMulti_ok h.image S.cl S.cr (WM S wf k) _
  rw [e5, bind_ok]
  have e6 : ∀ w : ℕ → ℕ → K, clip (flat S.nc S.npart w) (S.npart * S.nc) 0 = .ok (flat S.nc S.npart fun c i => max (w c i) 0) := by
    intro w
    rw [Nat.mul_comm]
    unfold flat
    rw [clip_ok]
  rw [e6, bind_ok, sum_first h.nc, bind_ok]
  rfl

theorem loopMulti_ok (sqrt : K → K) (junk : K) (h : S.Ok) (hpos : ∀ p b, 0 ≤ wf p b) {niter : ℕ} (h0 : GoodM S wf 0) (k : ℕ)
    (hk : k ≤ niter) :
    (GoodM S wf k ∧
      loopMulti (iterMulti sqrt (prepM K S) (flat S.nprof S.nbins wf) (tab S.nc S.ctr) (tab S.nc S.cl) (tab S.nc S.cr) S.nbins S.npart
        S.nprof S.nc) niter k (stM sqrt junk S wf niter 0) = (logN niter k, .ok (stM sqrt junk S wf niter k))) ∨
    (∃ f, f < k ∧ GoodM S wf f ∧ ¬ GoodM S wf (f + 1) ∧
      loopMulti (iterMulti sqrt (prepM K S) (flat S.nprof S.nbins wf) (tab S.nc S.ctr) (tab S.nc S.cl) (tab S.nc S.cr) S.nbins S.npart
        S.nprof S.nc) niter k (stM sqrt junk S wf niter 0) = (logN niter f, .error (.exc .allZero))) := by
  induction k with
  | zero => exact Or.inl ⟨h0, rfl⟩
  | succ k ih =>
    rcases ih (by omega) with ⟨hg, he⟩ | ⟨f, hf, hg, hng, he⟩
    · have hb' := iterMulti_ok sqrt junk h hpos (niter := niter) (by omega) hg
      by_cases hs : (∑ i ∈ range S.npart, WM S wf (k + 1) 0 i) ≤ 0
      · right
        refine ⟨k, by omega, hg, fun h => absurd (h (k + 1) le_rfl) (not_lt.mpr hs), ?_⟩
        rw [if_pos hs] at hb'
        simp only [loopMulti, he, hb']
      · left
        rw [if_neg hs] at hb'
        refine ⟨?_, ?_⟩
        · intro m hm
          rcases Nat.lt_or_ge m (k + 1) with h | h
          · exact hg m (by omega)
          · have : m = k + 1 := by omega
            subst this; exact not_le.mp hs
        · simp only [loopMulti, he, hb', logN_succ]
    · right
      refine ⟨f, by omega, hg, hng, ?_⟩
      simp only [loopMulti, he]

/-- arrays returned -/
def outM (sqrt : K → K) (S : Setup) (wf : ℕ → ℕ → K) (niter : ℕ) : MState K :=
  ⟨flat S.nc S.npart (WM S wf niter), flat S.nprof S.nbins (RM S wf (niter + 1)),
   tab (niter + 1) (fun m => sqrt (meanSquare S.nprof S.nbins (diffM S wf m))),
   flat (niter + 1) S.nc (fun m c => sqrt (splitMsq S.nprof S.nbins S.cl S.cr (diffM S wf m) c))⟩

theorem finalMulti_ok (sqrt : K → K) (junk : K) (h : S.Ok) (hpos : ∀ p b, 0 ≤ wf p b) {niter : ℕ} (hg : GoodM S wf niter) :
    finalMulti sqrt (prepM K S) (flat S.nprof S.nbins wf) (tab S.nc S.ctr) (tab S.nc S.cl) (tab S.nc S.cr) S.nbins S.npart S.nprof S.nc
      niter (stM sqrt junk S wf niter niter) = .ok (outM sqrt S wf niter) := by
  unfold finalMulti
  have hz : (tab (S.nprof * S.nbins) fun _ => (0 : K)) = flat S.nprof S.nbins fun _ _ => (0 : K) := rfl
  have hsp := split_step (wf := wf) sqrt junk h (le_refl niter)
  have hdis := upd_discrM (fun m => sqrt (meanSquare S.nprof S.nbins (diffM S wf m))) 0 (le_refl niter)
  simp only [hz]
  have e1 : projectMulti (stM sqrt junk S wf niter niter).flatRec (prepM K S).fp (stM sqrt junk S wf niter niter).weights (tab S.nc S.ctr)
      S.npart S.nprof S.nc = _ := projectMulti_ok h.image (WM S wf niter) (RM S wf niter)
  rw [e1, bind_ok, normalize_ok h.nprof _ (fun p hp => accM_pos h hpos hg hp), bind_ok, ← RM_succ, findDifference_ok, bind_ok]
  have e2 : (fun p b => wf p b - RM S wf (niter + 1) p b) = diffM S wf niter := rfl
  rw [e2, discrepancy_ok sqrt h.nprof h.nbins, bind_ok]
  have e3 : upd (stM sqrt junk S wf niter niter).discr (niter : Int) (sqrt (meanSquare S.nprof S.nbins (diffM S wf niter))) = _ := hdis
  rw [e3, bind_ok, hsp, bind_ok]
  unfold outM stM
  simp only [pure_eq_ok]
  congr 2
  · apply tab_congr; intro m hm; simp [hm]
  · apply flat_congr; intro m c hm _; simp [hm]

theorem multi_run (sqrt : K → K) (junk : K) (h : S.Ok) (hpos : ∀ p b, 0 ≤ wf p b) (niter : ℕ) :
    (GoodM S wf niter ∧
      reconstructMulti sqrt junk (xbuf S.npart S.nprof S.x) (flat S.nprof S.nbins wf) (tab S.nc S.cl) (tab S.nc S.cr) (tab S.nc S.ctr)
        niter S.nbins S.npart S.nprof S.nc = (logN niter niter ++ [(niter, niter)], .ok (outM sqrt S wf niter))) ∨
    (¬ GoodM S wf 0 ∧
      reconstructMulti sqrt junk (xbuf S.npart S.nprof S.x) (flat S.nprof S.nbins wf) (tab S.nc S.cl) (tab S.nc S.cr) (tab S.nc S.ctr)
        niter S.nbins S.npart S.nprof S.nc = ([], .error (.exc .allZero))) ∨
    (∃ f, f < niter ∧ GoodM S wf f ∧ ¬ GoodM S wf (f + 1) ∧
      reconstructMulti sqrt junk (xbuf S.npart S.nprof S.x) (flat S.nprof S.nbins wf) (tab S.nc S.cl) (tab S.nc S.cr) (tab S.nc S.ctr)
        niter S.nbins S.npart S.nprof S.nc = (logN niter f, .error (.exc .allZero))) := by
  unfold reconstructMulti
  rw [prepareMulti_ok h]
  dsimp only
  rw [firstMulti_ok h hpos]
  by_cases hs : (∑ i ∈ range S.npart, WM S wf 0 0 i) ≤ 0
  · right; left
    rw [if_pos hs]
    exact ⟨fun h => absurd (h 0 le_rfl) (not_lt.mpr hs), rfl⟩
  · rw [if_neg hs]
    dsimp only
    have h0 : GoodM S wf 0 := by
      intro m hm
      have : m = 0 := by omega
      subst this; exact not_le.mp hs
    have hst : (⟨flat S.nc S.npart (WM S wf 0), tab (S.nprof * S.nbins) fun _ => 0, tab (niter + 1) fun _ => 0,
        tab (S.nc * (niter + 1)) fun _ => junk⟩ : MState K) = stM sqrt junk S wf niter 0 := by
      simp only [stM]
      rw [Nat.mul_comm S.nc]
      congr 1
    rw [hst]
    rcases loopMulti_ok sqrt junk h hpos h0 niter le_rfl with ⟨hg, he⟩ | ⟨f, hf, hg, hng, he⟩
    · left
      refine ⟨hg, ?_⟩
      rw [he]
      dsimp only
      rw [finalMulti_ok sqrt junk h hpos hg]
    · right; right
      refine ⟨f, hf, hg, hng, ?_⟩
      rw [he]

end Verif.Multi

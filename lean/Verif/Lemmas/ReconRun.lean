import Verif.Lemmas.Recon
import Mathlib.Algebra.BigOperators.Field

/-!
# The whole of `reconstruct` as a sequence of (weights, recreated) pairs (helper lemmas)
-/

set_option linter.unusedSectionVars false

namespace Verif.Recon
open Finset Verif.Spec

variable {K : Type} [Field K] [LinearOrder K] [IsStrictOrderedRing K]

theorem rowSum_add (nbins : ℕ) (f g : ℕ → ℕ → K) (p : ℕ) :
    rowSum nbins (fun p b => f p b + g p b) p = rowSum nbins f p + rowSum nbins g p := by
  simp [rowSum, sum_add_distrib]

theorem rowSum_proj {npart nprof nbins : ℕ} {x : ℕ → ℕ → ℕ} (hx : InRange npart nprof nbins x)
    (w : ℕ → K) {p : ℕ} (hp : p < nprof) :
    rowSum nbins (proj npart x w) p = ∑ i ∈ range npart, w i := by
  unfold rowSum proj
  rw [sum_comm]
  apply sum_congr rfl
  intro i hi
  rw [sum_ite_eq, if_pos (mem_range.mpr (hx i (mem_range.mp hi) p hp))]

theorem rowSum_normRows {nbins : ℕ} {f : ℕ → ℕ → K} {p : ℕ} (h : rowSum nbins f p ≠ 0) :
    rowSum nbins (normRows nbins f) p = 1 := by
  unfold normRows
  have : rowSum nbins (fun p b => f p b / rowSum nbins f p) p = rowSum nbins f p / rowSum nbins f p := by
    conv_lhs => unfold rowSum
    rw [← sum_div]; rfl
  rw [this, div_self h]

theorem proj_nonneg {npart : ℕ} {x : ℕ → ℕ → ℕ} {w : ℕ → K} (hw : ∀ i, i < npart → 0 ≤ w i) (p b : ℕ) :
    0 ≤ proj npart x w p b := by
  unfold proj
  apply sum_nonneg
  intro i hi
  split
  · exact hw i (mem_range.mp hi)
  · exact le_rfl

/-- One iteration on functions.  `keep = true`: the recreated waterfall is accumulated on the previous one
(reconstruct.cpp); `keep = false`: it starts from zeros (run_hybrid). -/
def seqStep (keep : Bool) (npart nprof nbins : ℕ) (x : ℕ → ℕ → ℕ) (wf : ℕ → ℕ → K)
    (s : (ℕ → K) × (ℕ → ℕ → K)) : (ℕ → K) × (ℕ → ℕ → K) :=
  let r' := normRows nbins (fun p b => (if keep then s.2 p b else 0) + proj npart x s.1 p b)
  (pos (fun i => s.1 i + backProj nprof x (fun p b => (wf p b - r' p b) * recip K npart nprof nbins x p b) i),
    r')

/-- weights and recreated waterfall after `k` iterations -/
def seq (keep : Bool) (npart nprof nbins : ℕ) (x : ℕ → ℕ → ℕ) (wf : ℕ → ℕ → K) :
    ℕ → (ℕ → K) × (ℕ → ℕ → K)
  | 0 => (pos (backProj nprof x wf), fun _ _ => 0)
  | k + 1 => seqStep keep npart nprof nbins x wf (seq keep npart nprof nbins x wf k)

section
variable (keep : Bool) (npart nprof nbins : ℕ) (x : ℕ → ℕ → ℕ) (wf : ℕ → ℕ → K)

/-- weights after `k` iterations -/
abbrev W (k : ℕ) : ℕ → K := (seq keep npart nprof nbins x wf k).1
/-- recreated waterfall after `k` projections -/
abbrev R (k : ℕ) : ℕ → ℕ → K := (seq keep npart nprof nbins x wf k).2

/-- mean square difference recorded at iteration `k` -/
def msq (k : ℕ) : K := meanSquare nprof nbins (fun p b => wf p b - R keep npart nprof nbins x wf (k + 1) p b)

/-- the weights did not vanish up to iteration `k` -/
def Good (k : ℕ) : Prop := ∀ m, m ≤ k → 0 < ∑ i ∈ range npart, W keep npart nprof nbins x wf m i

theorem W_nonneg (k i : ℕ) : 0 ≤ W keep npart nprof nbins x wf k i := by
  cases k with
  | zero => exact le_max_right _ _
  | succ k => exact le_max_right _ _

theorem R_succ (k : ℕ) : R keep npart nprof nbins x wf (k + 1) =
    normRows nbins (fun p b => (if keep then R keep npart nprof nbins x wf k p b else 0)
      + proj npart x (W keep npart nprof nbins x wf k) p b) := rfl

end

section
variable {keep : Bool} {npart nprof nbins : ℕ} {x : ℕ → ℕ → ℕ} {wf : ℕ → ℕ → K}

theorem R_nonneg_rowSum (hx : InRange npart nprof nbins x) {k : ℕ}
    (hg : k = 0 ∨ Good keep npart nprof nbins x wf (k - 1)) :
    (∀ p b, 0 ≤ R keep npart nprof nbins x wf k p b) ∧
    ∀ p, p < nprof → rowSum nbins (R keep npart nprof nbins x wf k) p = if k = 0 then 0 else 1 := by
  induction k with
  | zero =>
    constructor
    · intro p b; exact le_rfl
    · intro p _; simp [rowSum, R, seq]
  | succ k ih =>
    have hg' : Good keep npart nprof nbins x wf k := by simpa using hg
    have ih := ih (by
      rcases Nat.eq_zero_or_pos k with h | h
      · exact Or.inl h
      · right; intro m hm; exact hg' m (by omega))
    have hacc : ∀ p b, 0 ≤ (if keep then R keep npart nprof nbins x wf k p b else 0)
      + proj npart x (W keep npart nprof nbins x wf k) p b := by
      intro p b
      apply add_nonneg
      · split
        · exact ih.1 p b
        · exact le_rfl
      · exact proj_nonneg (fun i _ => W_nonneg ..) p b
    have hrow : ∀ p, 0 ≤ rowSum nbins (fun p b => (if keep then R keep npart nprof nbins x wf k p b else 0)
      + proj npart x (W keep npart nprof nbins x wf k) p b) p := by
      intro p
      exact sum_nonneg (fun b _ => hacc p b)
    have hpos : ∀ p, p < nprof → 0 < rowSum nbins (fun p b => (if keep then R keep npart nprof nbins x wf k p b else 0)
      + proj npart x (W keep npart nprof nbins x wf k) p b) p := by
      intro p hp
      rw [rowSum_add, rowSum_proj hx _ hp]
      apply add_pos_of_nonneg_of_pos
      · apply sum_nonneg; intro b _
        dsimp only
        split
        · exact ih.1 p b
        · exact le_rfl
      · exact hg' k le_rfl
    constructor
    · intro p b
      rw [R_succ]
      exact div_nonneg (hacc p b) (hrow p)
    · intro p hp
      rw [R_succ, rowSum_normRows (hpos p hp).ne']
      simp

theorem acc_rowSum_pos (hx : InRange npart nprof nbins x) {k : ℕ}
    (hg : Good keep npart nprof nbins x wf k) {p : ℕ} (hp : p < nprof) :
    0 < rowSum nbins (fun p b => (if keep then R keep npart nprof nbins x wf k p b else 0)
      + proj npart x (W keep npart nprof nbins x wf k) p b) p := by
  have ih := (R_nonneg_rowSum (keep := keep) (wf := wf) hx (k := k) (by
      rcases Nat.eq_zero_or_pos k with h | h
      · exact Or.inl h
      · right; intro m hm; exact hg m (by omega))).1
  rw [rowSum_add, rowSum_proj hx _ hp]
  apply add_pos_of_nonneg_of_pos
  · apply sum_nonneg; intro b _
    dsimp only
    split
    · exact ih p b
    · exact le_rfl
  · exact hg k le_rfl

theorem good_pred {k : ℕ} (h : Good keep npart nprof nbins x wf (k + 1)) :
    Good keep npart nprof nbins x wf k := fun m hm => h m (by omega)

end

/-- Callbacks of the first `k` iterations. -/
def logN (niter k : ℕ) : List (ℕ × ℕ) := tab k (fun m => (m + 1, niter))

theorem logN_succ (niter k : ℕ) : logN niter (k + 1) = logN niter k ++ [(k + 1, niter)] := by
  simp [logN, tab, List.range_succ]

section run
variable {npart nprof nbins : ℕ} {x : ℕ → ℕ → ℕ}

/-- discr buffer with the first `k` entries written -/
def discrBuf (sqrt : K → K) (npart nprof nbins : ℕ) (x : ℕ → ℕ → ℕ) (wf : ℕ → ℕ → K) (niter k : ℕ) : List K :=
  tab (niter + 1) (fun m => if m < k then sqrt (msq true npart nprof nbins x wf m) else 0)

/-- arrays after `k` iterations -/
def stN (sqrt : K → K) (npart nprof nbins : ℕ) (x : ℕ → ℕ → ℕ) (wf : ℕ → ℕ → K) (niter k : ℕ) : RState K :=
  ⟨tab npart (W true npart nprof nbins x wf k), flat nprof nbins (R true npart nprof nbins x wf k),
   discrBuf sqrt npart nprof nbins x wf niter k⟩

theorem upd_discr (sqrt : K → K) (wf : ℕ → ℕ → K) {niter k : ℕ} (hk : k ≤ niter) :
    upd (discrBuf sqrt npart nprof nbins x wf niter k) (k : Int) (sqrt (msq true npart nprof nbins x wf k))
      = .ok (discrBuf sqrt npart nprof nbins x wf niter (k + 1)) := by
  unfold discrBuf
  rw [upd_tab _ _ (by omega)]
  congr 1; apply tab_congr; intro m _
  by_cases h : m = k
  · subst h; simp
  · have : m < k + 1 ↔ m < k := by omega
    simp only [h, if_false]
    exact if_congr this.symm rfl rfl

theorem firstStep_ok (hx : InRange npart nprof nbins x) (wf : ℕ → ℕ → K) :
    firstStep (tab npart fun _ => (0 : K)) (fpbuf npart nprof nbins x) (flat nprof nbins wf) npart nprof
      = if (∑ i ∈ range npart, W true npart nprof nbins x wf 0 i) ≤ 0 then .error (.exc .allZero)
        else .ok (tab npart (W true npart nprof nbins x wf 0)) := by
  unfold firstStep
  have h0 : (tab npart fun i => max ((0 : K) + backProj nprof x wf i) 0)
      = tab npart (W true npart nprof nbins x wf 0) := by
    apply tab_congr; intro i _; simp [W, seq, pos]
  rw [backProject_ok hx, bind_ok, clip_ok, bind_ok, h0, sum_ok, bind_ok]; rfl

theorem iterBody_ok (sqrt : K → K) (hp : 0 < nprof) (hb : 0 < nbins) (hx : InRange npart nprof nbins x)
    (wf : ℕ → ℕ → K) {niter k : ℕ} (hk : k < niter) (hg : Good true npart nprof nbins x wf k) :
    iterBody sqrt (fpbuf npart nprof nbins x) (flat nprof nbins wf)
      (flat nprof nbins (recip K npart nprof nbins x)) nbins npart nprof k
      (stN sqrt npart nprof nbins x wf niter k)
      = if (∑ i ∈ range npart, W true npart nprof nbins x wf (k + 1) i) ≤ 0 then .error (.exc .allZero)
        else .ok (stN sqrt npart nprof nbins x wf niter (k + 1)) := by
  unfold iterBody stN
  have hrow := fun p hp => acc_rowSum_pos (keep := true) (wf := wf) hx hg (p := p) hp
  simp only [if_true] at hrow
  have hz : (tab (nprof * nbins) fun _ => (0 : K)) = flat nprof nbins fun _ _ => (0 : K) := rfl
  have hR : normRows nbins (fun p b => R true npart nprof nbins x wf k p b
      + proj npart x (W true npart nprof nbins x wf k) p b) = R true npart nprof nbins x wf (k + 1) := by
    rw [R_succ]; rfl
  simp only [hz]
  rw [project_ok hx, bind_ok, normalize_ok hp _ hrow, bind_ok, hR, findDifference_ok, bind_ok,
    discrepancy_ok sqrt hp hb, bind_ok]
  have := upd_discr (npart := npart) (nprof := nprof) (nbins := nbins) (x := x) sqrt wf hk.le
  unfold msq at this
  rw [this, bind_ok, compensate_ok, bind_ok, backProject_ok hx, bind_ok, clip_ok, bind_ok]
  have h1 : (tab npart fun i => max (W true npart nprof nbins x wf k i + backProj nprof x
      (fun p b => (wf p b - R true npart nprof nbins x wf (k + 1) p b) * recip K npart nprof nbins x p b) i) 0)
      = tab npart (W true npart nprof nbins x wf (k + 1)) := by
    apply tab_congr; intro i _; rfl
  rw [h1, sum_ok, bind_ok]; rfl

theorem iterLoop_ok (sqrt : K → K) (hp : 0 < nprof) (hb : 0 < nbins) (hx : InRange npart nprof nbins x)
    (wf : ℕ → ℕ → K) {niter : ℕ} (h0 : Good true npart nprof nbins x wf 0) (k : ℕ) (hk : k ≤ niter) :
    (Good true npart nprof nbins x wf k ∧
      iterLoop (iterBody sqrt (fpbuf npart nprof nbins x) (flat nprof nbins wf)
        (flat nprof nbins (recip K npart nprof nbins x)) nbins npart nprof) niter k
        (stN sqrt npart nprof nbins x wf niter 0)
        = (logN niter k, .ok (stN sqrt npart nprof nbins x wf niter k))) ∨
    (∃ f, f < k ∧ Good true npart nprof nbins x wf f ∧ ¬ Good true npart nprof nbins x wf (f + 1) ∧
      iterLoop (iterBody sqrt (fpbuf npart nprof nbins x) (flat nprof nbins wf)
        (flat nprof nbins (recip K npart nprof nbins x)) nbins npart nprof) niter k
        (stN sqrt npart nprof nbins x wf niter 0)
        = (logN niter f, .error (.exc .allZero))) := by
  induction k with
  | zero => exact Or.inl ⟨h0, rfl⟩
  | succ k ih =>
    rcases ih (by omega) with ⟨hg, he⟩ | ⟨f, hf, hg, hng, he⟩
    · have hb' := iterBody_ok sqrt hp hb hx wf (niter := niter) (by omega) hg
      by_cases hs : (∑ i ∈ range npart, W true npart nprof nbins x wf (k + 1) i) ≤ 0
      · right
        refine ⟨k, by omega, hg, fun h => absurd (h (k + 1) le_rfl) (not_lt.mpr hs), ?_⟩
        rw [if_pos hs] at hb'
        simp only [iterLoop, he, hb']
      · left
        rw [if_neg hs] at hb'
        refine ⟨?_, ?_⟩
        · intro m hm
          rcases Nat.lt_or_ge m (k + 1) with h | h
          · exact hg m (by omega)
          · have : m = k + 1 := by omega
            subst this; exact not_le.mp hs
        · simp only [iterLoop, he, hb', logN_succ]
    · right
      refine ⟨f, by omega, hg, hng, ?_⟩
      simp only [iterLoop, he]

theorem finalStep_ok (sqrt : K → K) (hp : 0 < nprof) (hb : 0 < nbins) (hx : InRange npart nprof nbins x)
    (wf : ℕ → ℕ → K) {niter : ℕ} (hg : Good true npart nprof nbins x wf niter) :
    finalStep sqrt (fpbuf npart nprof nbins x) (flat nprof nbins wf) nbins npart nprof niter
      (stN sqrt npart nprof nbins x wf niter niter)
      = .ok ⟨tab npart (W true npart nprof nbins x wf niter),
          flat nprof nbins (R true npart nprof nbins x wf (niter + 1)),
          tab (niter + 1) (fun m => sqrt (msq true npart nprof nbins x wf m))⟩ := by
  unfold finalStep stN
  have hrow := fun p hp => acc_rowSum_pos (keep := true) (wf := wf) hx hg (p := p) hp
  simp only [if_true] at hrow
  have hz : (tab (nprof * nbins) fun _ => (0 : K)) = flat nprof nbins fun _ _ => (0 : K) := rfl
  have hR : normRows nbins (fun p b => R true npart nprof nbins x wf niter p b
      + proj npart x (W true npart nprof nbins x wf niter) p b) = R true npart nprof nbins x wf (niter + 1) := by
    rw [R_succ]; rfl
  simp only [hz]
  rw [project_ok hx, bind_ok, normalize_ok hp _ hrow, bind_ok, hR, findDifference_ok, bind_ok,
    discrepancy_ok sqrt hp hb, bind_ok]
  have := upd_discr (npart := npart) (nprof := nprof) (nbins := nbins) (x := x) sqrt wf (le_refl niter)
  unfold msq at this
  rw [this, bind_ok]
  simp only [pure_eq_ok, discrBuf]
  congr 2
  apply tab_congr; intro m hm; simp [hm]

/-- The complete behaviour of `reconstruct` on in-range coordinates. -/
theorem reconstruct_run (sqrt : K → K) (hp : 0 < nprof) (hb : 0 < nbins)
    (hx : InRange npart nprof nbins x) (wf : ℕ → ℕ → K) (niter : ℕ) :
    (Good true npart nprof nbins x wf niter ∧
      reconstruct sqrt (xbuf npart nprof x) (flat nprof nbins wf) niter nbins npart nprof
        = (logN niter niter ++ [(niter, niter)],
          .ok ⟨tab npart (W true npart nprof nbins x wf niter),
            flat nprof nbins (R true npart nprof nbins x wf (niter + 1)),
            tab (niter + 1) (fun m => sqrt (msq true npart nprof nbins x wf m))⟩)) ∨
    (¬ Good true npart nprof nbins x wf 0 ∧
      reconstruct sqrt (xbuf npart nprof x) (flat nprof nbins wf) niter nbins npart nprof
        = ([], .error (.exc .allZero))) ∨
    (∃ f, f < niter ∧ Good true npart nprof nbins x wf f ∧ ¬ Good true npart nprof nbins x wf (f + 1) ∧
      reconstruct sqrt (xbuf npart nprof x) (flat nprof nbins wf) niter nbins npart nprof
        = (logN niter f, .error (.exc .allZero))) := by
  unfold reconstruct reconstructOn
  rw [prepare_ok hx]
  dsimp only
  rw [firstStep_ok hx]
  by_cases hs : (∑ i ∈ range npart, W true npart nprof nbins x wf 0 i) ≤ 0
  · right; left
    rw [if_pos hs]
    exact ⟨fun h => absurd (h 0 le_rfl) (not_lt.mpr hs), rfl⟩
  · rw [if_neg hs]
    dsimp only
    have h0 : Good true npart nprof nbins x wf 0 := by
      intro m hm
      have : m = 0 := by omega
      subst this; exact not_le.mp hs
    have hst : (⟨tab npart (W true npart nprof nbins x wf 0), tab (nprof * nbins) fun _ => 0,
        tab (niter + 1) fun _ => 0⟩ : RState K) = stN sqrt npart nprof nbins x wf niter 0 := by
      simp only [stN, discrBuf]
      congr 1
    rw [hst]
    rcases iterLoop_ok sqrt hp hb hx wf h0 niter le_rfl with ⟨hg, he⟩ | ⟨f, hf, hg, hng, he⟩
    · left
      refine ⟨hg, ?_⟩
      rw [he]
      dsimp only
      rw [finalStep_ok sqrt hp hb hx wf hg]
    · right; right
      refine ⟨f, hf, hg, hng, ?_⟩
      rw [he]

end run

end Verif.Recon

import Verif.Spec.Converge
import Verif.Lemmas.ReconSym
import Verif.Lemmas.Manual
import Mathlib.Algebra.Order.Chebyshev
import Mathlib.Tactic.Linarith
import Mathlib.Tactic.FieldSimp

/-!
# What a round of the reconstruction does to sums and squares (helper lemmas)
-/

set_option linter.unusedSectionVars false

namespace Verif.Recon
open Finset Verif.Spec

variable {K : Type} [Field K] [LinearOrder K] [IsStrictOrderedRing K]
variable {npart nprof nbins : ℕ} {x : ℕ → ℕ → ℕ} {wf : ℕ → ℕ → K}

/-- a sum over the particles is a sum over the bins -/
theorem sum_bins (hx : InRange npart nprof nbins x) {p : ℕ} (hp : p < nprof) (g w : ℕ → K) :
    ∑ i ∈ range npart, g (x i p) * w i = ∑ b ∈ range nbins, g b * proj npart x w p b := by
  unfold proj
  simp only [mul_sum]
  rw [sum_comm]
  apply sum_congr rfl
  intro i hi
  have : ∀ b ∈ range nbins, (g b * if x i p = b then w i else 0) = if x i p = b then g b * w i else 0 := by
    intro b _; split <;> simp
  rw [sum_congr rfl this, sum_ite_eq, if_pos (mem_range.mpr (hx i (mem_range.mp hi) p hp))]

theorem proj_one (p b : ℕ) : proj npart x (fun _ => (1 : K)) p b = (count npart x p b : K) := by
  unfold proj count
  rw [sum_ite, sum_const_zero, add_zero, sum_const, nsmul_eq_mul, mul_one]

theorem sum_count (hx : InRange npart nprof nbins x) {p : ℕ} (hp : p < nprof) (g : ℕ → K) :
    ∑ i ∈ range npart, g (x i p) = ∑ b ∈ range nbins, g b * (count npart x p b : K) := by
  have := sum_bins hx hp g (fun _ => (1 : K))
  simpa only [mul_one, proj_one] using this

theorem count_le_max {p b : ℕ} (hp : p < nprof) (hb : b < nbins) : count npart x p b ≤ maxCount npart nprof nbins x :=
  le_trans (le_sup (f := fun c => count npart x p c) (mem_range.mpr hb))
    (le_sup (f := fun q => (range nbins).sup fun c => count npart x q c) (mem_range.mpr hp))

/-- factor times count is the largest count, in a bin with particles -/
theorem recip_count {p b : ℕ} (h : count npart x p b ≠ 0) :
    recip K npart nprof nbins x p b * (count npart x p b : K) = (maxCount npart nprof nbins x : K) := by
  unfold recip
  have h1 : max 1 (count npart x p b) = count npart x p b := max_eq_right (Nat.one_le_iff_ne_zero.mpr h)
  rw [h1]
  have : (count npart x p b : K) ≠ 0 := by exact_mod_cast h
  field_simp

theorem recip_count_le (p b : ℕ) :
    recip K npart nprof nbins x p b * (count npart x p b : K) ≤ (maxCount npart nprof nbins x : K) := by
  by_cases h : count npart x p b = 0
  · rw [h]; simp
  · exact (recip_count h).le

theorem count_zero_proj {p b : ℕ} (h : count npart x p b = 0) (w : ℕ → K) : proj npart x w p b = 0 := by
  unfold proj
  apply sum_eq_zero
  intro i hi
  rw [if_neg]
  intro hb
  have := card_eq_zero.mp h
  have hm : i ∈ (range npart).filter (fun i => x i p = b) := mem_filter.mpr ⟨hi, hb⟩
  rw [this] at hm
  exact absurd hm (notMem_empty i)

theorem covered_zero (hc : Covered npart nprof nbins x wf) {p b : ℕ} (hp : p < nprof) (hb : b < nbins)
    (h : count npart x p b = 0) : wf p b = 0 := by
  by_contra hne
  obtain ⟨i, hi, hib⟩ := hc p hp b hb hne
  have := card_eq_zero.mp h
  have hm : i ∈ (range npart).filter (fun i => x i p = b) := mem_filter.mpr ⟨mem_range.mpr hi, hib⟩
  rw [this] at hm
  exact absurd hm (notMem_empty i)

theorem covered_pos (hp : 0 < nprof) (hw : Profiled nprof nbins wf)
    (hc : Covered npart nprof nbins x wf) : 0 < npart ∧ 0 < nbins := by
  have h1 := hw.2 0 hp
  have : ∃ b, b < nbins ∧ wf 0 b ≠ 0 := by
    by_contra hn
    have h2 : rowSum nbins wf 0 = 0 := sum_eq_zero fun b hb => by
      by_contra h
      exact hn ⟨b, mem_range.mp hb, h⟩
    rw [h2] at h1
    exact zero_ne_one h1
  obtain ⟨b, hb, hne⟩ := this
  obtain ⟨i, hi, _⟩ := hc 0 hp b hb hne
  omega

/-- what the particles collect together from compensated differences -/
theorem sum_back (hx : InRange npart nprof nbins x) {d : ℕ → ℕ → K}
    (hd : ∀ p, p < nprof → ∀ b, b < nbins → count npart x p b = 0 → d p b = 0) :
    ∑ i ∈ range npart, backProj nprof x (fun p b => d p b * recip K npart nprof nbins x p b) i =
      (maxCount npart nprof nbins x : K) * ∑ p ∈ range nprof, rowSum nbins d p := by
  unfold backProj
  rw [sum_comm, mul_sum]
  apply sum_congr rfl
  intro p hp
  rw [sum_count hx (mem_range.mp hp) (fun b => d p b * recip K npart nprof nbins x p b)]
  unfold rowSum
  rw [mul_sum]
  apply sum_congr rfl
  intro b hb
  by_cases h : count npart x p b = 0
  · rw [hd p (mem_range.mp hp) b (mem_range.mp hb) h]; simp
  · rw [mul_assoc, recip_count h, mul_comm]

/-- the squares of what the particles collect -/
theorem sq_back (hx : InRange npart nprof nbins x) (d : ℕ → ℕ → K) :
    ∑ i ∈ range npart, backProj nprof x (fun p b => d p b * recip K npart nprof nbins x p b) i ^ 2 ≤
      (nprof : K) * (maxCount npart nprof nbins x : K) * sparseSquares npart nprof nbins x d := by
  have h1 : ∀ i ∈ range npart, backProj nprof x (fun p b => d p b * recip K npart nprof nbins x p b) i ^ 2 ≤
      (nprof : K) * ∑ p ∈ range nprof, (d p (x i p) * recip K npart nprof nbins x p (x i p)) ^ 2 := by
    intro i _
    have := sq_sum_le_card_mul_sum_sq (s := range nprof) (f := fun p => d p (x i p) * recip K npart nprof nbins x p (x i p))
    rwa [card_range] at this
  refine (sum_le_sum h1).trans ?_
  rw [← mul_sum, sum_comm, mul_assoc]
  apply mul_le_mul_of_nonneg_left _ (Nat.cast_nonneg _)
  unfold sparseSquares
  rw [mul_sum]
  apply sum_le_sum
  intro p hp
  rw [sum_count hx (mem_range.mp hp) (fun b => (d p b * recip K npart nprof nbins x p b) ^ 2), mul_sum]
  apply sum_le_sum
  intro b _
  have h2 := recip_count_le (K := K) (npart := npart) (nprof := nprof) (nbins := nbins) (x := x) p b
  have h3 : 0 ≤ recip K npart nprof nbins x p b * d p b ^ 2 := mul_nonneg (recip_nonneg p b) (sq_nonneg _)
  calc (d p b * recip K npart nprof nbins x p b) ^ 2 * (count npart x p b : K)
      = (recip K npart nprof nbins x p b * (count npart x p b : K)) * (recip K npart nprof nbins x p b * d p b ^ 2) := by ring
    _ ≤ _ := mul_le_mul_of_nonneg_right h2 h3

/-- the compensated squares of a projection -/
theorem sq_proj (hx : InRange npart nprof nbins x) (v : ℕ → K) :
    sparseSquares npart nprof nbins x (proj npart x v) ≤
      (nprof : K) * (maxCount npart nprof nbins x : K) * ∑ i ∈ range npart, v i ^ 2 := by
  unfold sparseSquares
  have : (nprof : K) * (maxCount npart nprof nbins x : K) * ∑ i ∈ range npart, v i ^ 2 =
      ∑ p ∈ range nprof, (maxCount npart nprof nbins x : K) * ∑ i ∈ range npart, v i ^ 2 := by
    rw [sum_const, card_range, nsmul_eq_mul, mul_assoc]
  rw [this]
  apply sum_le_sum
  intro p hp
  have h1 := sum_bins hx (mem_range.mp hp) (fun _ => (1 : K)) (fun i => v i ^ 2)
  simp only [one_mul] at h1
  rw [h1, mul_sum]
  apply sum_le_sum
  intro b _
  have h2 : proj npart x v p b ^ 2 ≤ (count npart x p b : K) * proj npart x (fun i => v i ^ 2) p b := by
    unfold proj count
    rw [← sum_filter, ← sum_filter]
    exact sq_sum_le_card_mul_sum_sq
  calc recip K npart nprof nbins x p b * proj npart x v p b ^ 2
      ≤ recip K npart nprof nbins x p b * ((count npart x p b : K) * proj npart x (fun i => v i ^ 2) p b) :=
        mul_le_mul_of_nonneg_left h2 (recip_nonneg p b)
    _ = (recip K npart nprof nbins x p b * (count npart x p b : K)) * proj npart x (fun i => v i ^ 2) p b := by ring
    _ ≤ _ := mul_le_mul_of_nonneg_right (recip_count_le p b) (proj_nonneg (fun i _ => sq_nonneg _) p b)

/-- collecting from differences is adjoint to projecting -/
theorem back_adj (hx : InRange npart nprof nbins x) (e : ℕ → K) (d : ℕ → ℕ → K) :
    ∑ i ∈ range npart, e i * backProj nprof x (fun p b => d p b * recip K npart nprof nbins x p b) i =
      ∑ p ∈ range nprof, ∑ b ∈ range nbins, recip K npart nprof nbins x p b * d p b * proj npart x e p b := by
  unfold backProj
  simp only [mul_sum]
  rw [sum_comm]
  apply sum_congr rfl
  intro p hp
  rw [← sum_bins hx (mem_range.mp hp) (fun b => recip K npart nprof nbins x p b * d p b)]
  apply sum_congr rfl
  intro i _
  ring

section total
variable {keep : Bool}

theorem R_zero {p b : ℕ} (h : count npart x p b = 0) (k : ℕ) : R keep npart nprof nbins x wf k p b = 0 := by
  induction k with
  | zero => rfl
  | succ k ih =>
    rw [R_succ]
    unfold normRows
    have : (if keep then R keep npart nprof nbins x wf k p b else 0) + proj npart x (W keep npart nprof nbins x wf k) p b = 0 := by
      rw [count_zero_proj h, ih]; simp
    show (_ : K) / _ = 0
    exact (congrArg (· / _) this).trans (zero_div _)

/-- the weights before negative ones are set to zero -/
def raw (keep : Bool) (npart nprof nbins : ℕ) (x : ℕ → ℕ → ℕ) (wf : ℕ → ℕ → K) (k i : ℕ) : K :=
  W keep npart nprof nbins x wf k i +
    backProj nprof x (fun p b => (wf p b - R keep npart nprof nbins x wf (k + 1) p b) * recip K npart nprof nbins x p b) i

theorem W_succ (k i : ℕ) : W keep npart nprof nbins x wf (k + 1) i = max (raw keep npart nprof nbins x wf k i) 0 := rfl

theorem sum_raw (hx : InRange npart nprof nbins x) (hw : Profiled nprof nbins wf) (hc : Covered npart nprof nbins x wf) {k : ℕ}
    (hg : Good keep npart nprof nbins x wf k) :
    ∑ i ∈ range npart, raw keep npart nprof nbins x wf k i = ∑ i ∈ range npart, W keep npart nprof nbins x wf k i := by
  unfold raw
  rw [sum_add_distrib, sum_back hx (d := fun p b => wf p b - R keep npart nprof nbins x wf (k + 1) p b)]
  · have : ∑ p ∈ range nprof, rowSum nbins (fun p b => wf p b - R keep npart nprof nbins x wf (k + 1) p b) p = 0 := by
      apply sum_eq_zero
      intro p hp
      have h1 := hw.2 p (mem_range.mp hp)
      have h2 := (R_nonneg_rowSum (keep := keep) (wf := wf) hx (k := k + 1) (Or.inr (by simpa using hg))).2 p (mem_range.mp hp)
      rw [if_neg (by omega)] at h2
      unfold rowSum at h1 h2 ⊢
      rw [sum_sub_distrib, h1, h2, sub_self]
    rw [this, mul_zero, add_zero]
  · intro p hp b hb h
    rw [covered_zero hc hp hb h, R_zero h, sub_zero]

theorem total_le (hx : InRange npart nprof nbins x) (hw : Profiled nprof nbins wf) (hc : Covered npart nprof nbins x wf) {k : ℕ}
    (hg : Good keep npart nprof nbins x wf k) :
    ∑ i ∈ range npart, W keep npart nprof nbins x wf k i ≤ ∑ i ∈ range npart, W keep npart nprof nbins x wf (k + 1) i := by
  rw [← sum_raw hx hw hc hg]
  exact sum_le_sum fun i _ => by rw [W_succ]; exact le_max_left _ _

/-- the total stays exactly if no weight was cut -/
theorem total_eq_iff (hx : InRange npart nprof nbins x) (hw : Profiled nprof nbins wf) (hc : Covered npart nprof nbins x wf) {k : ℕ}
    (hg : Good keep npart nprof nbins x wf k) :
    ∑ i ∈ range npart, W keep npart nprof nbins x wf k i = ∑ i ∈ range npart, W keep npart nprof nbins x wf (k + 1) i ↔
      ∀ i, i < npart → 0 ≤ raw keep npart nprof nbins x wf k i := by
  rw [← sum_raw hx hw hc hg, sum_eq_sum_iff_of_le (fun i _ => by rw [W_succ]; exact le_max_left _ _)]
  constructor
  · intro h i hi
    rw [h i (mem_range.mpr hi)]
    exact W_nonneg ..
  · intro h i hi
    rw [W_succ, max_eq_left (h i (mem_range.mp hi))]

theorem W_zero (hx : InRange npart nprof nbins x) (hw : Profiled nprof nbins wf) {i : ℕ} (hi : i < npart) :
    W keep npart nprof nbins x wf 0 i = backProj nprof x wf i := by
  show max _ _ = _
  apply max_eq_left
  exact sum_nonneg fun p hp => hw.1 p (mem_range.mp hp) _ (hx i hi p (mem_range.mp hp))

/-- the total at the start: every sample counts as often as there are particles in its bin -/
theorem total_zero (hx : InRange npart nprof nbins x) (hw : Profiled nprof nbins wf) :
    ∑ i ∈ range npart, W keep npart nprof nbins x wf 0 i =
      ∑ p ∈ range nprof, ∑ b ∈ range nbins, wf p b * (count npart x p b : K) := by
  rw [sum_congr rfl fun i hi => W_zero hx hw (mem_range.mp hi)]
  unfold backProj
  rw [sum_comm]
  exact sum_congr rfl fun p hp => sum_count hx (mem_range.mp hp) (wf p)

theorem total_zero_ge (hx : InRange npart nprof nbins x) (hw : Profiled nprof nbins wf) (hc : Covered npart nprof nbins x wf) :
    (nprof : K) ≤ ∑ i ∈ range npart, W keep npart nprof nbins x wf 0 i := by
  rw [total_zero hx hw]
  have : (nprof : K) = ∑ p ∈ range nprof, rowSum nbins wf p := by
    rw [sum_congr rfl fun p hp => hw.2 p (mem_range.mp hp)]; simp
  rw [this]
  apply sum_le_sum
  intro p hp
  apply sum_le_sum
  intro b hb
  by_cases h : count npart x p b = 0
  · rw [covered_zero hc (mem_range.mp hp) (mem_range.mp hb) h]; simp
  · have h1 : (1 : K) ≤ (count npart x p b : K) := by exact_mod_cast Nat.one_le_iff_ne_zero.mpr h
    exact le_mul_of_one_le_right (hw.1 p (mem_range.mp hp) b (mem_range.mp hb)) h1

theorem good_all (hp : 0 < nprof) (hx : InRange npart nprof nbins x) (hw : Profiled nprof nbins wf)
    (hc : Covered npart nprof nbins x wf) (k : ℕ) : Good keep npart nprof nbins x wf k := by
  have h0 : (0 : K) < (nprof : K) := by exact_mod_cast hp
  induction k with
  | zero =>
    intro m hm
    have : m = 0 := by omega
    subst this
    exact h0.trans_le (total_zero_ge hx hw hc)
  | succ k ih =>
    intro m hm
    rcases Nat.lt_or_ge m (k + 1) with h | h
    · exact ih m (by omega)
    · have : m = k + 1 := by omega
      subst this
      exact (ih k le_rfl).trans_le (total_le hx hw hc ih)

theorem total_mono (hp : 0 < nprof) (hx : InRange npart nprof nbins x) (hw : Profiled nprof nbins wf)
    (hc : Covered npart nprof nbins x wf) (k n : ℕ) :
    ∑ i ∈ range npart, W keep npart nprof nbins x wf k i ≤ ∑ i ∈ range npart, W keep npart nprof nbins x wf (k + n) i := by
  induction n with
  | zero => exact le_rfl
  | succ n ih => exact ih.trans (total_le hx hw hc (good_all hp hx hw hc _))

end total

/-! ## `run_hybrid` -/

section squares

/-- differences between the data and the profiles of the weights of round `k` -/
def resid (npart nprof nbins : ℕ) (x : ℕ → ℕ → ℕ) (wf : ℕ → ℕ → K) (k p b : ℕ) : K :=
  wf p b - R false npart nprof nbins x wf (k + 1) p b

theorem resid_eq (hx : InRange npart nprof nbins x) {k p b : ℕ} (hp : p < nprof) :
    resid npart nprof nbins x wf k p b =
      wf p b - proj npart x (W false npart nprof nbins x wf k) p b / ∑ i ∈ range npart, W false npart nprof nbins x wf k i := by
  unfold resid
  rw [Tomo.R_false_succ]
  unfold normRows
  rw [rowSum_proj hx _ hp]

theorem proj_sub (v w : ℕ → K) (p b : ℕ) : proj npart x (fun i => v i - w i) p b = proj npart x v p b - proj npart x w p b := by
  unfold proj
  rw [← sum_sub_distrib]
  exact sum_congr rfl fun i _ => by split <;> simp

theorem proj_add (v w : ℕ → K) (p b : ℕ) : proj npart x (fun i => v i + w i) p b = proj npart x v p b + proj npart x w p b := by
  unfold proj
  rw [← sum_add_distrib]
  exact sum_congr rfl fun i _ => by split <;> simp

/-- distance of the raw weights to an explanation with the same total -/
theorem raw_dist (hx : InRange npart nprof nbins x) {k : ℕ} (hg : Good false npart nprof nbins x wf k) {v : ℕ → K}
    (hv : Explains npart nprof nbins x wf v)
    (ht : ∑ i ∈ range npart, v i = ∑ i ∈ range npart, W false npart nprof nbins x wf k i) :
    sqDist npart (raw false npart nprof nbins x wf k) v ≤ sqDist npart (W false npart nprof nbins x wf k) v -
      (2 * ∑ i ∈ range npart, W false npart nprof nbins x wf k i - (nprof : K) * (maxCount npart nprof nbins x : K)) *
        sparseSquares npart nprof nbins x (resid npart nprof nbins x wf k) := by
  set S := ∑ i ∈ range npart, W false npart nprof nbins x wf k i with hS
  have hS0 : S ≠ 0 := (hg k le_rfl).ne'
  set B : ℕ → K := fun i => backProj nprof x (fun p b => resid npart nprof nbins x wf k p b * recip K npart nprof nbins x p b) i with hB
  have h1 : sqDist npart (raw false npart nprof nbins x wf k) v = sqDist npart (W false npart nprof nbins x wf k) v +
      2 * ∑ i ∈ range npart, (W false npart nprof nbins x wf k i - v i) * B i + ∑ i ∈ range npart, B i ^ 2 := by
    unfold sqDist
    rw [mul_sum, ← sum_add_distrib, ← sum_add_distrib]
    apply sum_congr rfl
    intro i _
    show (W false npart nprof nbins x wf k i + B i - v i) ^ 2 = _
    ring
  have h2 : ∑ i ∈ range npart, (W false npart nprof nbins x wf k i - v i) * B i =
      -(S * sparseSquares npart nprof nbins x (resid npart nprof nbins x wf k)) := by
    rw [hB, back_adj hx (fun i => W false npart nprof nbins x wf k i - v i)]
    unfold sparseSquares
    rw [mul_sum, ← sum_neg_distrib]
    apply sum_congr rfl
    intro p hp
    rw [mul_sum, ← sum_neg_distrib]
    apply sum_congr rfl
    intro b hb
    have h3 : proj npart x (W false npart nprof nbins x wf k) p b = S * (wf p b - resid npart nprof nbins x wf k p b) := by
      rw [resid_eq hx (mem_range.mp hp), ← hS]
      field_simp
      ring
    rw [proj_sub, hv p (mem_range.mp hp) b (mem_range.mp hb), ht, h3]
    ring
  have h3 := sq_back hx (resid npart nprof nbins x wf k)
  rw [h1, h2]
  have h4 : ∑ i ∈ range npart, B i ^ 2 ≤ _ := h3
  linarith

theorem clip_sq {a v : K} (h : 0 ≤ v) : (max a 0 - v) ^ 2 ≤ (a - v) ^ 2 := by
  rcases le_total a 0 with ha | ha
  · rw [max_eq_right ha]; nlinarith
  · rw [max_eq_left ha]

theorem clip_dist {k : ℕ} {v : ℕ → K} (hv : ∀ i, i < npart → 0 ≤ v i) :
    sqDist npart (W false npart nprof nbins x wf (k + 1)) v ≤ sqDist npart (raw false npart nprof nbins x wf k) v :=
  sum_le_sum fun i hi => by rw [W_succ]; exact clip_sq (hv i (mem_range.mp hi))

theorem unclipped_W {k : ℕ} (h : ∀ i, i < npart → 0 ≤ raw false npart nprof nbins x wf k i) {i : ℕ} (hi : i < npart) :
    W false npart nprof nbins x wf (k + 1) i = raw false npart nprof nbins x wf k i := by
  rw [W_succ, max_eq_left (h i hi)]

theorem sparse_nonneg (d : ℕ → ℕ → K) : 0 ≤ sparseSquares npart nprof nbins x d :=
  sum_nonneg fun p _ => sum_nonneg fun b _ => mul_nonneg (recip_nonneg p b) (sq_nonneg _)

/-- a round without cutting does not make the compensated squares larger -/
theorem squares_step (hx : InRange npart nprof nbins x) (hw : Profiled nprof nbins wf) (hc : Covered npart nprof nbins x wf) {k : ℕ}
    (hg : Good false npart nprof nbins x wf k) (hu : ∀ i, i < npart → 0 ≤ raw false npart nprof nbins x wf k i)
    (hs : (nprof : K) * (maxCount npart nprof nbins x : K) ≤ 2 * ∑ i ∈ range npart, W false npart nprof nbins x wf k i) :
    sparseSquares npart nprof nbins x (resid npart nprof nbins x wf (k + 1)) ≤
      sparseSquares npart nprof nbins x (resid npart nprof nbins x wf k) := by
  have ht := (total_eq_iff hx hw hc hg).mpr hu
  set S := ∑ i ∈ range npart, W false npart nprof nbins x wf k i with hS
  have hS0 : 0 < S := hg k le_rfl
  set r := resid npart nprof nbins x wf k with hr
  set B : ℕ → K := fun i => backProj nprof x (fun p b => r p b * recip K npart nprof nbins x p b) i with hB
  have hW : ∀ p b, proj npart x (W false npart nprof nbins x wf (k + 1)) p b =
      proj npart x (W false npart nprof nbins x wf k) p b + proj npart x B p b := by
    intro p b
    rw [← proj_add]
    unfold proj
    apply sum_congr rfl
    intro i hi
    rw [unclipped_W hu (mem_range.mp hi)]
    rfl
  have h1 : sparseSquares npart nprof nbins x (resid npart nprof nbins x wf (k + 1)) = sparseSquares npart nprof nbins x r -
      2 / S * (∑ p ∈ range nprof, ∑ b ∈ range nbins, recip K npart nprof nbins x p b * r p b * proj npart x B p b) +
        1 / S ^ 2 * sparseSquares npart nprof nbins x (proj npart x B) := by
    unfold sparseSquares
    rw [mul_sum, mul_sum, ← sum_sub_distrib, ← sum_add_distrib]
    apply sum_congr rfl
    intro p hp
    rw [mul_sum, mul_sum, ← sum_sub_distrib, ← sum_add_distrib]
    apply sum_congr rfl
    intro b _
    have hq : r p b = wf p b - proj npart x (W false npart nprof nbins x wf k) p b / S := resid_eq hx (mem_range.mp hp)
    rw [resid_eq hx (mem_range.mp hp), ← ht, hW, hq]
    field_simp
    ring
  have h2 : ∑ p ∈ range nprof, ∑ b ∈ range nbins, recip K npart nprof nbins x p b * r p b * proj npart x B p b =
      ∑ i ∈ range npart, B i ^ 2 := by
    rw [← back_adj hx B r]
    exact sum_congr rfl fun i _ => (sq (B i)).symm
  have h3 := sq_proj hx B
  have h4 : 0 ≤ ∑ i ∈ range npart, B i ^ 2 := sum_nonneg fun i _ => sq_nonneg _
  rw [h1, h2]
  have h5 : 1 / S ^ 2 * sparseSquares npart nprof nbins x (proj npart x B) ≤ 2 / S * ∑ i ∈ range npart, B i ^ 2 := by
    have h6 : sparseSquares npart nprof nbins x (proj npart x B) ≤ 2 * S * ∑ i ∈ range npart, B i ^ 2 :=
      h3.trans (mul_le_mul_of_nonneg_right hs h4)
    calc 1 / S ^ 2 * sparseSquares npart nprof nbins x (proj npart x B)
        ≤ 1 / S ^ 2 * (2 * S * ∑ i ∈ range npart, B i ^ 2) := mul_le_mul_of_nonneg_left h6 (by positivity)
      _ = _ := by field_simp
  linarith

/-- evenly filled bins: largest count and start total -/
theorem even_max (hp : 0 < nprof) (hb : 0 < nbins) {c : ℕ} (h : ∀ p, p < nprof → ∀ b, b < nbins → count npart x p b = c) :
    maxCount npart nprof nbins x = c := by
  apply le_antisymm
  · exact Finset.sup_le fun p hp => Finset.sup_le fun b hb => (h p (mem_range.mp hp) b (mem_range.mp hb)).le
  · rw [← h 0 hp 0 hb]; exact count_le_max hp hb

theorem even_total (hx : InRange npart nprof nbins x) (hw : Profiled nprof nbins wf) {c : ℕ} {keep : Bool}
    (h : ∀ p, p < nprof → ∀ b, b < nbins → count npart x p b = c) :
    ∑ i ∈ range npart, W keep npart nprof nbins x wf 0 i = (nprof : K) * (c : K) := by
  rw [total_zero hx hw]
  have : ∀ p ∈ range nprof, ∑ b ∈ range nbins, wf p b * (count npart x p b : K) = (c : K) := by
    intro p hp
    rw [sum_congr rfl fun b hb => by rw [h p (mem_range.mp hp) b (mem_range.mp hb)], ← sum_mul]
    have := hw.2 p (mem_range.mp hp)
    unfold rowSum at this
    rw [this, one_mul]
  rw [sum_congr rfl this]
  simp

theorem even_covered {c : ℕ} (hc : 0 < c) (h : ∀ p, p < nprof → ∀ b, b < nbins → count npart x p b = c) :
    Covered npart nprof nbins x wf := by
  intro p hp b hb _
  have h1 := h p hp b hb
  have : 0 < ((range npart).filter (fun i => x i p = b)).card := by
    show 0 < count npart x p b
    omega
  obtain ⟨i, hi⟩ := card_pos.mp this
  exact ⟨i, mem_range.mp (mem_filter.mp hi).1, (mem_filter.mp hi).2⟩

theorem even_squares {c : ℕ} (hc : 0 < c) (hp : 0 < nprof) (hb : 0 < nbins)
    (h : ∀ p, p < nprof → ∀ b, b < nbins → count npart x p b = c) (k : ℕ) :
    sparseSquares npart nprof nbins x (resid npart nprof nbins x wf k) =
      ((nprof * nbins : ℕ) : K) * msq false npart nprof nbins x wf k := by
  have hN : ((nprof * nbins : ℕ) : K) ≠ 0 := by exact_mod_cast (Nat.mul_pos hp hb).ne'
  unfold sparseSquares msq meanSquare
  rw [mul_div_cancel₀ _ hN]
  apply sum_congr rfl; intro p hp
  apply sum_congr rfl; intro b hb
  rw [Manual.recip_even hc h (mem_range.mp hp) (mem_range.mp hb), one_mul]
  rfl

end squares

/-! ## `reconstruct` -/

section cpp

/-- differences between the data and the profiles the C++ routine recreates in iteration `k` (none before the first) -/
def residC (npart nprof nbins : ℕ) (x : ℕ → ℕ → ℕ) (wf : ℕ → ℕ → K) (k p b : ℕ) : K :=
  wf p b - R true npart nprof nbins x wf k p b

theorem residC_one : residC npart nprof nbins x wf 1 = resid npart nprof nbins x wf 0 := by
  funext p b
  unfold residC resid
  simp [R, seq, seqStep]

theorem raw_zero (i : ℕ) : raw true npart nprof nbins x wf 0 i = raw false npart nprof nbins x wf 0 i := by
  unfold raw
  simp [R, W, seq, seqStep]

theorem W_zero_eq : W true npart nprof nbins x wf 0 = W false npart nprof nbins x wf 0 := rfl

/-- twice a product is at most the sum of the squares, with the factors of the compensation -/
theorem two_sparse (f g : ℕ → ℕ → K) :
    2 * ∑ p ∈ range nprof, ∑ b ∈ range nbins, recip K npart nprof nbins x p b * f p b * g p b ≤
      sparseSquares npart nprof nbins x f + sparseSquares npart nprof nbins x g := by
  unfold sparseSquares
  rw [mul_sum, ← sum_add_distrib]
  apply sum_le_sum
  intro p _
  rw [mul_sum, ← sum_add_distrib]
  apply sum_le_sum
  intro b _
  nlinarith [mul_nonneg (recip_nonneg (K := K) (npart := npart) (nprof := nprof) (nbins := nbins) (x := x) p b)
    (sq_nonneg (f p b - g p b))]

/-- distance of the raw weights of the C++ routine, from the second iteration on -/
theorem raw_distC (hx : InRange npart nprof nbins x) {k : ℕ} (hk : 0 < k) (hg : Good true npart nprof nbins x wf k) {v : ℕ → K}
    (hv : Explains npart nprof nbins x wf v)
    (ht : ∑ i ∈ range npart, v i = ∑ i ∈ range npart, W true npart nprof nbins x wf k i) :
    sqDist npart (raw true npart nprof nbins x wf k) v + sparseSquares npart nprof nbins x (residC npart nprof nbins x wf (k + 1)) ≤
      sqDist npart (W true npart nprof nbins x wf k) v + sparseSquares npart nprof nbins x (residC npart nprof nbins x wf k) -
      (2 * ∑ i ∈ range npart, W true npart nprof nbins x wf k i - (nprof : K) * (maxCount npart nprof nbins x : K)) *
        sparseSquares npart nprof nbins x (residC npart nprof nbins x wf (k + 1)) := by
  set S := ∑ i ∈ range npart, W true npart nprof nbins x wf k i with hS
  have hS0 : 0 < S := hg k le_rfl
  set r := residC npart nprof nbins x wf (k + 1) with hr
  set q := residC npart nprof nbins x wf k with hq
  set B : ℕ → K := fun i => backProj nprof x (fun p b => r p b * recip K npart nprof nbins x p b) i with hB
  have h1 : sqDist npart (raw true npart nprof nbins x wf k) v = sqDist npart (W true npart nprof nbins x wf k) v +
      2 * ∑ i ∈ range npart, (W true npart nprof nbins x wf k i - v i) * B i + ∑ i ∈ range npart, B i ^ 2 := by
    unfold sqDist
    rw [mul_sum, ← sum_add_distrib, ← sum_add_distrib]
    apply sum_congr rfl
    intro i _
    show (W true npart nprof nbins x wf k i + B i - v i) ^ 2 = _
    ring
  have h2 : ∑ i ∈ range npart, (W true npart nprof nbins x wf k i - v i) * B i =
      (∑ p ∈ range nprof, ∑ b ∈ range nbins, recip K npart nprof nbins x p b * r p b * q p b) -
        (1 + S) * sparseSquares npart nprof nbins x r := by
    rw [hB, back_adj hx (fun i => W true npart nprof nbins x wf k i - v i)]
    unfold sparseSquares
    rw [mul_sum, ← sum_sub_distrib]
    apply sum_congr rfl
    intro p hp
    rw [mul_sum, ← sum_sub_distrib]
    apply sum_congr rfl
    intro b hb
    have a := (R_nonneg_rowSum (keep := true) (wf := wf) hx (k := k) (Or.inr fun m hm => hg m (by omega))).2 p (mem_range.mp hp)
    rw [if_neg (by omega)] at a
    have h3 : R true npart nprof nbins x wf (k + 1) p b =
        (R true npart nprof nbins x wf k p b + proj npart x (W true npart nprof nbins x wf k) p b) / (1 + S) := by
      rw [R_succ]
      simp only [if_true]
      unfold normRows
      rw [rowSum_add, rowSum_proj hx _ (mem_range.mp hp), a]
    have h4 : proj npart x (W true npart nprof nbins x wf k) p b =
        (1 + S) * R true npart nprof nbins x wf (k + 1) p b - R true npart nprof nbins x wf k p b := by
      rw [h3, mul_div_cancel₀ _ (by linarith : (1 + S) ≠ 0)]
      ring
    rw [proj_sub, hv p (mem_range.mp hp) b (mem_range.mp hb), ht, h4, hr, hq]
    unfold residC
    ring
  have h3 := sq_back hx r
  have h4 := two_sparse (npart := npart) (nprof := nprof) (nbins := nbins) (x := x) r q
  have h5 : ∑ i ∈ range npart, B i ^ 2 ≤ _ := h3
  rw [h1, h2]
  linarith

end cpp

theorem clip_distAny {keep : Bool} {k : ℕ} {v : ℕ → K} (hv : ∀ i, i < npart → 0 ≤ v i) :
    sqDist npart (W keep npart nprof nbins x wf (k + 1)) v ≤ sqDist npart (raw keep npart nprof nbins x wf k) v :=
  sum_le_sum fun i hi => by rw [W_succ]; exact clip_sq (hv i (mem_range.mp hi))

theorem unclipped_dist {keep : Bool} {k : ℕ} {v : ℕ → K} (h : ∀ i, i < npart → 0 ≤ raw keep npart nprof nbins x wf k i) :
    sqDist npart (W keep npart nprof nbins x wf (k + 1)) v = sqDist npart (raw keep npart nprof nbins x wf k) v :=
  sum_congr rfl fun i hi => by rw [W_succ, max_eq_left (h i (mem_range.mp hi))]

/-- rounds without cutting keep the total -/
theorem total_const {keep : Bool} (hp : 0 < nprof) (hx : InRange npart nprof nbins x) (hw : Profiled nprof nbins wf)
    (hc : Covered npart nprof nbins x wf) {n : ℕ}
    (ht : ∑ i ∈ range npart, W keep npart nprof nbins x wf 0 i = ∑ i ∈ range npart, W keep npart nprof nbins x wf n i) {k : ℕ} (hk : k ≤ n) :
    ∑ i ∈ range npart, W keep npart nprof nbins x wf k i = ∑ i ∈ range npart, W keep npart nprof nbins x wf 0 i := by
  have a := total_mono (keep := keep) hp hx hw hc 0 k
  have b := total_mono (keep := keep) hp hx hw hc k (n - k)
  rw [zero_add] at a
  rw [show k + (n - k) = n by omega, ← ht] at b
  exact le_antisymm b a

/-- the compensation counts no difference less than once -/
theorem squares_le_sparse (hn : 0 < npart) (hp : 0 < nprof) (hx : InRange npart nprof nbins x) (d : ℕ → ℕ → K) :
    ∑ p ∈ range nprof, ∑ b ∈ range nbins, d p b ^ 2 ≤ sparseSquares npart nprof nbins x d := by
  have hm : 0 < maxCount npart nprof nbins x := by
    have h1 : 0 < count npart x 0 (x 0 0) := card_pos.mpr ⟨0, mem_filter.mpr ⟨mem_range.mpr hn, rfl⟩⟩
    exact h1.trans_le (count_le_max hp (hx 0 hn 0 hp))
  apply sum_le_sum; intro p hp'
  apply sum_le_sum; intro b hb'
  apply le_mul_of_one_le_left (sq_nonneg _)
  unfold recip
  rw [one_le_div (by exact_mod_cast (Nat.lt_of_lt_of_le Nat.zero_lt_one (le_max_left 1 (count npart x p b))))]
  exact_mod_cast max_le hm (count_le_max (mem_range.mp hp') (mem_range.mp hb'))

end Verif.Recon

import Verif.Lemmas.PostProcess
import Verif.Props.Physics
import Mathlib.Algebra.Order.BigOperators.Group.List

/-!
# C41, C42, C59 — beam quantities
-/

set_option linter.unusedSectionVars false

namespace Verif.Props
open Verif.Asrt Verif.Mch Verif.Post Verif.Spec Verif.Pre Finset

variable {K : Type} [Field K] [LinearOrder K] [IsStrictOrderedRing K]

/-! ## C41 fractional emittance -/

/-- C41, the exact result for a fraction above 0: with `k` the smallest number of cells holding the fraction, `k - 1` cell
areas are returned. -/
theorem C41_cells_partial {n m : ℕ} (hn : 2 ≤ n) (hm : 2 ≤ m) (t e : ℕ → K) (cells : List K) (hpos : ∀ v ∈ cells, 0 ≤ v)
    (hS : 0 < cells.sum) (f : K) (hf0 : 0 < f) (hf : f ≤ 100) :
    ∃ k, 1 ≤ k ∧ CellsNeeded cells (f / 100) k ∧
      emittanceFractional cells (tab n t) (tab m e) f = .ok (((k - 1 : ℕ) : K) * ((t 1 - t 0) * (e 1 - e 0))) := by
  have hne : cells ≠ [] := by rintro rfl; simp at hS
  have hsum : (sortDesc (cells.map fun v => v / cells.sum)).sum = 1 := by
    rw [(sortDesc_perm _).sum_eq, sum_div_list, div_self hS.ne']
  have hne' : sortDesc (cells.map fun v => v / cells.sum) ≠ [] := by
    intro h
    rw [h] at hsum
    simp at hsum
  obtain ⟨i, hi, hlt, hle, hmin⟩ := argmax_cumsum (sortDesc (cells.map fun v => v / cells.sum))
    (f / 100 * (sortDesc (cells.map fun v => v / cells.sum)).sum) hne' (by
      rw [hsum, mul_one]
      rw [div_le_one (by norm_num)]
      exact hf)
  have hlen : (sortDesc (cells.map fun v => v / cells.sum)).length = cells.length := by
    rw [(sortDesc_perm _).length_eq, List.length_map]
  rw [hlen] at hlt
  have hconv : ∀ j, f / 100 * (sortDesc (cells.map fun v => v / cells.sum)).sum ≤ ((sortDesc (cells.map fun v => v / cells.sum)).take j).sum
      ↔ f / 100 * cells.sum ≤ ((sortDesc cells).take j).sum := by
    intro j
    rw [hsum, mul_one, sortDesc_div cells hS, ← List.map_take, sum_div_list, le_div_iff₀ hS]
  refine ⟨i + 1, by omega, ⟨?_, ?_⟩, ?_⟩
  · show Spec.Holds cells (f / 100) (i + 1)
    rw [holds_iff_take cells _ _ (by omega)]
    exact (hconv _).mp hle
  · intro k hk
    have hk' : Spec.Holds cells (f / 100) k := hk
    by_contra hc
    push Not at hc
    have hkl := holds_le hk'
    rw [holds_iff_take cells _ _ hkl] at hk'
    cases k with
    | zero =>
      rw [List.take_zero, List.sum_nil] at hk'
      have : 0 < f / 100 * cells.sum := by positivity
      exact absurd hk' (not_le.mpr this)
    | succ j =>
      have := hmin j (by omega)
      exact absurd ((hconv (j + 1)).mpr hk') (not_le.mpr this)
  · unfold emittanceFractional
    have a1 : assertLessOrEqual f 100 .valueError = .ok () := by
      unfold assertLessOrEqual; rw [if_neg (not_lt.mpr hf)]
    have a2 : assertGreaterOrEqual f 0 .valueError = .ok () := by
      unfold assertGreaterOrEqual; rw [if_neg (not_lt.mpr hf0.le)]
    rw [a1, bind_ok, a2, bind_ok, mapM_fdiv cells hS.ne', bind_ok]
    dsimp only
    rw [hi, bind_ok, npGet_one t hn, bind_ok, npGet_zero t hn, bind_ok, npGet_one e hm, bind_ok, npGet_zero e hm, bind_ok]
    rfl

/-- C41 is violated: the returned area is always one cell short of the area that holds the fraction. A phase space whose whole
content is in one cell has 90 % emittance zero. -/
theorem C41_violated {n m : ℕ} (hn : 2 ≤ n) (hm : 2 ≤ m) (t e : ℕ → K) (ht : 0 < t 1 - t 0) (he : 0 < e 1 - e 0)
    (cells : List K) (hpos : ∀ v ∈ cells, 0 ≤ v) (hS : 0 < cells.sum) (f : K) (hf0 : 0 < f) (hf : f ≤ 100) (k : ℕ)
    (hk : CellsNeeded cells (f / 100) k) :
    ∃ r, emittanceFractional cells (tab n t) (tab m e) f = .ok r ∧ r + (t 1 - t 0) * (e 1 - e 0) = (k : K) * ((t 1 - t 0) * (e 1 - e 0)) ∧
      r < (k : K) * ((t 1 - t 0) * (e 1 - e 0)) := by
  obtain ⟨k', h1, hk', hr⟩ := C41_cells_partial hn hm t e cells hpos hS f hf0 hf
  have : k = k' := hk.unique hk'
  subst this
  refine ⟨_, hr, ?_, ?_⟩
  · rw [Nat.cast_sub h1]; push_cast; ring
  · apply mul_lt_mul_of_pos_right _ (mul_pos ht he)
    exact_mod_cast (by omega : k - 1 < k)

/-- C41: the emittance does not decrease with the fraction -/
theorem C41_monotone {n m : ℕ} (hn : 2 ≤ n) (hm : 2 ≤ m) (t e : ℕ → K) (ht : 0 < t 1 - t 0) (he : 0 < e 1 - e 0)
    (cells : List K) (hpos : ∀ v ∈ cells, 0 ≤ v) (hS : 0 < cells.sum) (f g : K) (hf0 : 0 < f) (hfg : f ≤ g) (hg : g ≤ 100) :
    ∃ r s, emittanceFractional cells (tab n t) (tab m e) f = .ok r ∧ emittanceFractional cells (tab n t) (tab m e) g = .ok s ∧
      r ≤ s := by
  obtain ⟨k, h1, hk, hr⟩ := C41_cells_partial hn hm t e cells hpos hS f hf0 (hfg.trans hg)
  obtain ⟨l, h2, hl, hs⟩ := C41_cells_partial hn hm t e cells hpos hS g (hf0.trans_le hfg) hg
  refine ⟨_, _, hr, hs, ?_⟩
  apply mul_le_mul_of_nonneg_right _ (mul_pos ht he).le
  have hkl : k ≤ l := by
    apply hk.2
    obtain ⟨tt, hs, hlen, hle⟩ := hl.1
    refine ⟨tt, hs, hlen, le_trans ?_ hle⟩
    apply mul_le_mul_of_nonneg_right _ hS.le
    exact div_le_div_of_nonneg_right hfg (by norm_num)
  exact_mod_cast (by omega : k - 1 ≤ l - 1)

/-- C41: rearranging the cells does not matter -/
theorem C41_rearranged {n m : ℕ} (hn : 2 ≤ n) (hm : 2 ≤ m) (t e : ℕ → K) (cells cells' : List K) (hp : cells'.Perm cells)
    (hpos : ∀ v ∈ cells, 0 ≤ v) (hS : 0 < cells.sum) (f : K) (hf0 : 0 < f) (hf : f ≤ 100) :
    emittanceFractional cells' (tab n t) (tab m e) f = emittanceFractional cells (tab n t) (tab m e) f := by
  obtain ⟨k, h1, hk, hr⟩ := C41_cells_partial hn hm t e cells hpos hS f hf0 hf
  obtain ⟨l, h2, hl, hs⟩ := C41_cells_partial hn hm t e cells' (fun v hv => hpos v (hp.mem_iff.mp hv)) (by rw [hp.sum_eq]; exact hS) f hf0 hf
  have hH : ∀ j, Spec.Holds cells' (f / 100) j ↔ Spec.Holds cells (f / 100) j := by
    intro j
    unfold Spec.Holds
    simp only [hp.sum_eq, hp.subperm_left]
  have : k = l := by
    refine hk.unique ⟨(hH l).mp hl.1, ?_⟩
    intro j hj
    exact hl.2 ((hH j).mpr hj)
  rw [hr, hs, this]

/-- C41: rescaling the density does not matter -/
theorem C41_rescaled (tBins eBins cells : List K) (c : K) (hc : c ≠ 0) (hS : cells.sum ≠ 0) (f : K) :
    emittanceFractional (cells.map fun v => c * v) tBins eBins f = emittanceFractional cells tBins eBins f := by
  unfold emittanceFractional
  rw [sum_mul_list, mapM_fdiv _ (mul_ne_zero hc hS), mapM_fdiv _ hS]
  have : ((cells.map fun v => c * v).map fun v => v / (c * cells.sum)) = cells.map fun v => v / cells.sum := by
    rw [List.map_map]
    apply List.map_congr_left
    intro v _
    exact mul_div_mul_left v cells.sum hc
  rw [this]

/-- C41: fractions outside `[0, 100]` are rejected -/
theorem C41_rejects (cells tBins eBins : List K) (f : K) (h : f < 0 ∨ 100 < f) :
    emittanceFractional cells tBins eBins f = .error (.exc .valueError) := by
  unfold emittanceFractional assertLessOrEqual assertGreaterOrEqual
  by_cases h1 : 100 < f
  · rw [if_pos h1]; rfl
  · have h2 : f < 0 := h.resolve_right h1
    rw [if_neg h1, bind_ok, if_pos h2]; rfl

/-- two by two cells: 3/4 of the content needs two cells, one is returned; the 50 % emittance of a single filled cell is 0 -/
example : emittanceFractional [1, 2, 0, (1 : ℚ)] [0, 2] [0, 3] 75 = .ok 6 ∧ emittanceFractional [0, 0, 5, (0 : ℚ)] [0, 2] [0, 3] 90 = .ok 0 :=
  ⟨by decide +kernel, by decide +kernel⟩

example : CellsNeeded [1, 2, 0, (1 : ℚ)] (75 / 100) 2 := by
  obtain ⟨k, h1, hk, hr⟩ := C41_cells_partial (n := 2) (m := 2) le_rfl le_rfl (fun i => (2 * i : ℚ)) (fun i => (3 * i : ℚ)) [1, 2, 0, 1]
    (by decide +kernel) (by decide +kernel) 75 (by norm_num) (by norm_num)
  have h0 : emittanceFractional [1, 2, 0, (1 : ℚ)] (tab 2 fun i => (2 * i : ℚ)) (tab 2 fun i => (3 * i : ℚ)) 75 = .ok 6 := by
    decide +kernel
  rw [h0] at hr
  injection hr with hr
  push_cast at hr
  have : ((k - 1 : ℕ) : ℚ) = 1 := by linarith
  have : k - 1 = 1 := by exact_mod_cast this
  have : k = 2 := by omega
  rw [← this]; exact hk

/-! ## C42 standard deviation -/

/-- bin centres as the code takes them -/
def centres (b : ℕ → K) (i : ℕ) : K := b i + (b 1 - b 0) / 2

/-- C42, a histogram with everything in one bin: the radicand is the variance, zero -/
theorem C42_concentrated_partial (L : MathLib K) {n k : ℕ} (hn : 2 ≤ n) (hk : k < n) (b : ℕ → K) (h : ℕ → K) (hpos : 0 < h k)
    (h0 : ∀ i, i ≠ k → h i = 0) :
    stdFromHistogram L (tab n h) (tab n b) = .ok (L.sqrt (variance n h (centres b))) ∧ variance n h (centres b) = 0 := by
  have hsum : ∑ i ∈ range n, h i = h k := by
    rw [Finset.sum_eq_single k (fun i _ hi => h0 i hi) (fun hc => absurd (by simpa using hk) hc)]
  have hmean : mean n h (centres b) = centres b k := by
    unfold mean
    rw [hsum, Finset.sum_eq_single k (fun i _ hi => by rw [h0 i hi, zero_mul]) (fun hc => absurd (by simpa using hk) hc)]
    field_simp
  have hvar : variance n h (centres b) = 0 := by
    unfold variance
    rw [hmean, Finset.sum_eq_zero, zero_div]
    intro i _
    by_cases hi : i = k
    · rw [hi, sub_self]; ring
    · rw [h0 i hi, zero_mul]
  refine ⟨?_, hvar⟩
  rw [std_eq L hn h b (by rw [hsum]; exact hpos) (by
    intro i _
    by_cases hi : i = k
    · rw [hi]; exact hpos.le
    · rw [h0 i hi])]
  rw [hvar, hsum, Finset.sum_eq_zero, zero_div]
  intro i _
  by_cases hi : i = k
  · rw [hi, div_self hpos.ne']; ring
  · rw [h0 i hi, zero_mul]

/-- C42, the part that holds in general: rescaling the histogram changes nothing, stretching the axis by `a` multiplies the
radicand by `a²`. -/
theorem C42_scaling_partial (L : MathLib K) {n : ℕ} (hn : 2 ≤ n) (h b : ℕ → K) (hS : 0 < ∑ i ∈ range n, h i)
    (hh : ∀ i, i < n → 0 ≤ h i) (c a : K) (hc : 0 < c) :
    ∃ v, stdFromHistogram L (tab n h) (tab n b) = .ok (L.sqrt v) ∧
      stdFromHistogram L (tab n fun i => c * h i) (tab n b) = .ok (L.sqrt v) ∧
      stdFromHistogram L (tab n h) (tab n fun i => a * b i) = .ok (L.sqrt (a ^ 2 * v)) := by
  refine ⟨_, std_eq L hn h b hS hh, ?_, ?_⟩
  · have hS' : 0 < ∑ i ∈ range n, c * h i := by rw [← Finset.mul_sum]; exact mul_pos hc hS
    rw [std_eq L hn (fun i => c * h i) b hS' (fun i hi => mul_nonneg hc.le (hh i hi))]
    congr 2
    rw [← Finset.mul_sum]
    have : ∀ i, c * h i * ((b i + (b 1 - b 0) / 2) * (1 - c * h i / (c * ∑ i ∈ range n, h i))) ^ 2
        = c * (h i * ((b i + (b 1 - b 0) / 2) * (1 - h i / ∑ i ∈ range n, h i)) ^ 2) := by
      intro i
      rw [mul_div_mul_left _ _ hc.ne']; ring
    simp only [this]
    rw [← Finset.mul_sum, mul_div_mul_left _ _ hc.ne']
  · rw [std_eq L hn h (fun i => a * b i) hS hh]
    congr 2
    rw [← mul_div_assoc, Finset.mul_sum]
    congr 1
    apply Finset.sum_congr rfl
    intro i _
    ring

/-- C42 is violated: two equally filled bins `[0,1]`, `[1,2]` have variance 1/4, the code takes the root of 5/16; moving the axis
by 10 changes the result to the root of 485/16, although the variance stays 1/4. -/
theorem C42_violated (L : MathLib K) (hsq : ∀ x, 0 ≤ x → L.sqrt x ^ 2 = x) :
    stdFromHistogram L (tab 2 fun _ => 1) (tab 2 fun i => (i : K)) = .ok (L.sqrt (5 / 16)) ∧
    stdFromHistogram L (tab 2 fun _ => 1) (tab 2 fun i => (i : K) + 10) = .ok (L.sqrt (485 / 16)) ∧
    variance 2 (fun _ => (1 : K)) (centres fun i => (i : K)) = 1 / 4 ∧
    variance 2 (fun _ => (1 : K)) (centres fun i => (i : K) + 10) = 1 / 4 ∧
    L.sqrt (5 / 16) ≠ L.sqrt (1 / 4) ∧ L.sqrt (485 / 16) ≠ L.sqrt (1 / 4) := by
  have h2 : (∑ _i ∈ range 2, (1 : K)) = 2 := by simp
  refine ⟨?_, ?_, ?_, ?_, ?_, ?_⟩
  · rw [std_eq L le_rfl _ _ (by rw [h2]; norm_num) (by intros; norm_num), h2]
    simp only [Finset.sum_range_succ, Finset.sum_range_zero]
    congr 2
    push_cast
    norm_num
  · rw [std_eq L le_rfl _ _ (by rw [h2]; norm_num) (by intros; norm_num), h2]
    simp only [Finset.sum_range_succ, Finset.sum_range_zero]
    congr 2
    push_cast
    norm_num
  · unfold variance mean centres
    simp only [Finset.sum_range_succ, Finset.sum_range_zero]
    push_cast
    norm_num
  · unfold variance mean centres
    simp only [Finset.sum_range_succ, Finset.sum_range_zero]
    push_cast
    norm_num
  · intro h
    have h1 := hsq (5 / 16) (by norm_num)
    have h2 := hsq (1 / 4) (by norm_num)
    rw [h, h2] at h1
    norm_num at h1
  · intro h
    have h1 := hsq (485 / 16) (by norm_num)
    have h2 := hsq (1 / 4) (by norm_num)
    rw [h, h2] at h1
    norm_num at h1

/-! ## C59 relative momentum spread -/

/-- C59: for a beam of energy above its rest mass and an energy spread `σ ≥ 0`, `r = rms_dpp` is the relative change of the
momentum `p` when the energy changes by `σ`. -/
theorem C59_momentum_spread (L : MathLib K) (hsq : ∀ x, 0 ≤ x → 0 ≤ L.sqrt x ∧ L.sqrt x ^ 2 = x) (σ E m : K) (hσ : 0 ≤ σ)
    (hm : 0 ≤ m) (hE : m < E) :
    ∃ p r, 0 < p ∧ p ^ 2 + m ^ 2 = E ^ 2 ∧ rmsDpp L σ E m = .ok r ∧ 0 ≤ r ∧ (p + r * p) ^ 2 + m ^ 2 = (E + σ) ^ 2 := by
  have hp2 : 0 < E ^ 2 - m ^ 2 := by nlinarith
  have hq2 : E ^ 2 - m ^ 2 ≤ (E + σ) ^ 2 - m ^ 2 := by nlinarith
  obtain ⟨h1, h2⟩ := hsq _ hp2.le
  obtain ⟨h3, h4⟩ := hsq _ (hp2.le.trans hq2)
  have hp : 0 < L.sqrt (E ^ 2 - m ^ 2) := by
    rcases h1.lt_or_eq with h | h
    · exact h
    · rw [← h] at h2; nlinarith
  have hle : L.sqrt (E ^ 2 - m ^ 2) ≤ L.sqrt ((E + σ) ^ 2 - m ^ 2) := by
    by_contra hc
    push Not at hc
    nlinarith
  refine ⟨L.sqrt (E ^ 2 - m ^ 2), (L.sqrt ((E + σ) ^ 2 - m ^ 2) - L.sqrt (E ^ 2 - m ^ 2)) / L.sqrt (E ^ 2 - m ^ 2), hp, by linarith, ?_,
    div_nonneg (by linarith) hp.le, ?_⟩
  · unfold rmsDpp npSqrt
    rw [if_neg (not_lt.mpr hp2.le), bind_ok, if_neg (not_lt.mpr (hp2.le.trans hq2)), bind_ok, fdiv_ok hp.ne']
  · rw [div_mul_cancel₀ _ hp.ne']
    have : L.sqrt (E ^ 2 - m ^ 2) + (L.sqrt ((E + σ) ^ 2 - m ^ 2) - L.sqrt (E ^ 2 - m ^ 2)) = L.sqrt ((E + σ) ^ 2 - m ^ 2) := by ring
    rw [this, h4]; ring

/-- C59: no spread of energy, no spread of momentum -/
theorem C59_zero (L : MathLib K) (hsq : ∀ x, 0 ≤ x → 0 ≤ L.sqrt x ∧ L.sqrt x ^ 2 = x) (E m : K) (hm : 0 ≤ m) (hE : m < E) :
    rmsDpp L 0 E m = .ok 0 := by
  have hp2 : 0 < E ^ 2 - m ^ 2 := by nlinarith
  obtain ⟨h1, h2⟩ := hsq _ hp2.le
  have hp : L.sqrt (E ^ 2 - m ^ 2) ≠ 0 := by
    intro h; rw [h] at h2; nlinarith
  unfold rmsDpp npSqrt
  rw [add_zero, if_neg (not_lt.mpr hp2.le), bind_ok, bind_ok, fdiv_ok hp, sub_self, zero_div]

/-- a case: p = 4, m = 3, E = 5; an energy spread of 3 leads to E = 8 and p = √55, here rounded to 7 -/
example (L : MathLib ℚ) (h16 : L.sqrt 16 = 4) (h55 : L.sqrt 55 = 7) : rmsDpp L 3 5 3 = .ok (3 / 4) := by
  unfold rmsDpp npSqrt
  norm_num [bind_ok, h16, h55, fdiv_ok]

end Verif.Props

import Verif.Lemmas.Tomographics
import Verif.Lemmas.PhaseSpace
import Verif.Spec.Tomographics
import Mathlib.Algebra.Order.BigOperators.Ring.Finset
import Mathlib.Algebra.BigOperators.Field

/-!
# C74, C75 — emittance and moments of a phase space image by `utils/tomographics.py`
-/

set_option linter.unusedSectionVars false

namespace Verif.Props
open Verif.Asrt Verif.Mch Verif.Pre Verif.Post Verif.Spec Verif.Graph Finset

variable {K : Type} [Field K] [LinearOrder K] [IsStrictOrderedRing K]

/-! ## C74 `emittance_density_calc` -/

/-- C74, what is computed: the smallest area that holds the wanted content, less one cell (and at least 0). -/
theorem C74_area_partial (image : Arr2 K) (dt dE c : K) (hpos : ∀ v ∈ image.flatten, 0 ≤ v) (h0 : 0 < c) (h1 : c < 1)
    (hc : c < image.flatten.sum) :
    ∃ A, SmallestArea image.flatten c A ∧ emittanceDensity image dt dE c = .ok (max 0 (A - 1) * dt * dE) := by
  obtain ⟨j, hj, hlo, hhi, h⟩ := emittanceDensity_eq image dt dE c hpos h0 h1 hc
  exact ⟨_, (smallestArea_perm (sortDesc_perm _) _ _).mp (smallestArea_of (sortDesc_pairwise _) hj hlo hhi), h⟩

/-- C74 is violated by every image: the result is never the smallest area. -/
theorem C74_violated_short (image : Arr2 K) {dt dE c A : K} (hpos : ∀ v ∈ image.flatten, 0 ≤ v) (h0 : 0 < c) (h1 : c < 1)
    (hc : c < image.flatten.sum) (ht : 0 < dt) (hE : 0 < dE) (hA : SmallestArea image.flatten c A) :
    emittanceDensity image dt dE c ≠ .ok (A * dt * dE) := by
  obtain ⟨B, hB, h⟩ := C74_area_partial image dt dE c hpos h0 h1 hc
  have hBA : B = A := hB.unique hA
  subst hBA
  rw [h]
  intro e
  rw [Except.ok.injEq] at e
  have e1 : max 0 (B - 1) = B := mul_right_cancel₀ ht.ne' (mul_right_cancel₀ hE.ne' e)
  have hB0 : 0 < B := by
    obtain ⟨l, hp, hw, hcc, hs⟩ := hB.1
    have hl0 : ∀ q ∈ l, 0 ≤ q.1 * q.2 := fun q hq =>
      mul_nonneg (hw q hq).1 (hpos _ (hp.mem_iff.mp (List.mem_map_of_mem hq)))
    by_contra hn
    have hz : ∀ q ∈ l, q.1 = 0 := by
      have hsum0 : (l.map Prod.fst).sum = 0 := le_antisymm (by rw [← hs]; exact not_lt.mp hn)
        (List.sum_nonneg fun x hx => by
          obtain ⟨q, hq, rfl⟩ := List.mem_map.mp hx
          exact (hw q hq).1)
      intro q hq
      have := List.single_le_sum (l := l.map Prod.fst) (fun x hx => by
          obtain ⟨q, hq, rfl⟩ := List.mem_map.mp hx
          exact (hw q hq).1) q.1 (List.mem_map_of_mem hq)
      exact le_antisymm (by rw [← hsum0]; exact this) (hw q hq).1
    have : (l.map fun q => q.1 * q.2).sum = 0 := by
      apply List.sum_eq_zero
      intro x hx
      obtain ⟨q, hq, rfl⟩ := List.mem_map.mp hx
      rw [hz q hq, zero_mul]
    linarith
  rcases le_total 0 (B - 1) with hle | hle
  · rw [max_eq_right hle] at e1; linarith
  · rw [max_eq_left hle] at e1; linarith

/-- four equal cells: half of the content needs two cells, one is reported -/
example : emittanceDensity (⟨2, [[1 / 4, 1 / 4], [1 / 4, 1 / 4]]⟩ : Arr2 ℚ) 3 5 (1 / 2) = .ok (1 * 3 * 5) := by decide +kernel

/-- C74: a larger share never has a smaller emittance. -/
theorem C74_monotone (image : Arr2 K) {dt dE c d : K} (hpos : ∀ v ∈ image.flatten, 0 ≤ v) (h0 : 0 < c) (h1 : d < 1)
    (hcd : c ≤ d) (hd : d < image.flatten.sum) (ht : 0 ≤ dt) (hE : 0 ≤ dE) :
    ∃ a b, emittanceDensity image dt dE c = .ok a ∧ emittanceDensity image dt dE d = .ok b ∧ 0 ≤ a ∧ a ≤ b := by
  obtain ⟨A, hA, ha⟩ := C74_area_partial image dt dE c hpos h0 (lt_of_le_of_lt hcd h1) (lt_of_le_of_lt hcd hd)
  obtain ⟨B, hB, hb⟩ := C74_area_partial image dt dE d hpos (lt_of_lt_of_le h0 hcd) h1 hd
  have hAB : A ≤ B := by
    apply hA.2
    obtain ⟨l, hp, hw, hc, hs⟩ := hB.1
    exact ⟨l, hp, hw, le_trans hcd hc, hs⟩
  refine ⟨_, _, ha, hb, mul_nonneg (mul_nonneg (le_max_left _ _) ht) hE, ?_⟩
  exact mul_le_mul_of_nonneg_right (mul_le_mul_of_nonneg_right (max_le_max_left 0 (by linarith)) ht) hE

/-- C74: only the contents of the cells count, not where they are. -/
theorem C74_order (image image' : Arr2 K) (dt dE c : K) (h : image.flatten.Perm image'.flatten) :
    emittanceDensity image dt dE c = emittanceDensity image' dt dE c := by
  have : sortDesc image.flatten = sortDesc image'.flatten := by
    refine List.Perm.eq_of_pairwise (fun a b _ _ h1 h2 => le_antisymm h2 h1) (sortDesc_pairwise _) (sortDesc_pairwise _) ?_
    exact ((sortDesc_perm _).trans h).trans (sortDesc_perm _).symm
  unfold emittanceDensity cumulativeDensity
  rw [this]

/-- C74: shares outside the open interval from 0 to 1 are rejected. -/
theorem C74_rejects (image : Arr2 K) (dt dE c : K) (h : c ≤ 0 ∨ 1 ≤ c) :
    emittanceDensity image dt dE c = .error (.exc .valueError) := by
  unfold emittanceDensity
  rw [if_neg]
  rintro ⟨h1, h2⟩
  rcases h with h | h
  · exact absurd h1 (not_lt.mpr h)
  · exact absurd h2 (not_lt.mpr h)

/-- C74 is violated for images that are not normalised: the "share" is compared with the absolute content, so the same
distribution in other units has another emittance. -/
theorem C74_violated_scale :
    ∃ image : Arr2 ℚ, ∃ a b, a ≠ b ∧ emittanceDensity image 1 1 (1 / 2) = .ok a ∧
      emittanceDensity (image.map fun v => 4 * v) 1 1 (1 / 2) = .ok b :=
  ⟨⟨2, [[1 / 4, 1 / 4], [1 / 4, 1 / 4]]⟩, 1, 0, by norm_num, by decide +kernel, by decide +kernel⟩

/-- Not normalised with too little content: every share has the same emittance, the whole image less one cell. -/
theorem C74_violated_faint (image : Arr2 K) (dt dE : K) {c : K} (h0 : 0 < c) (h1 : c < 1) (hc : image.flatten.sum < c)
    (hne : image.flatten ≠ []) :
    emittanceDensity image dt dE c = .ok (((image.flatten.length : K) - 1) * dt * dE) := by
  have hperm := sortDesc_perm image.flatten
  set v := sortDesc image.flatten with hv
  have hlen : v.length = image.flatten.length := hperm.length_eq
  obtain ⟨N, hN⟩ : ∃ N, v.length = N + 1 :=
    Nat.exists_eq_succ_of_ne_zero (by rw [hlen]; exact fun h => hne (List.length_eq_zero_iff.mp h))
  have hcs : cumsum 0 v = tab v.length fun k => (v.take (k + 1)).sum := by
    apply List.ext_getElem
    · rw [length_cumsum, length_tab]
    · intro k h1 h2
      rw [length_cumsum] at h1
      rw [getElem_tab]
      have := cumsum_get 0 v k h1
      rw [zero_add] at this
      exact this
  unfold emittanceDensity cumulativeDensity
  rw [if_pos ⟨h0, h1⟩]
  dsimp only
  rw [← hv, hcs, length_tab, hN, interpAt_tab, if_pos]
  · rw [← hlen, hN]; push_cast; congr 3; ring
  · rw [← hN, List.take_length, hperm.sum_eq]; exact hc

/-! ## C75 `rms_params` -/

theorem timesGrid_arr (n : ℕ) (f g : ℕ → ℕ → K) : timesGrid (arr n n f) g = .ok (flat n n fun i j => f i j * g i j) := by
  unfold timesGrid
  have h1 : (arr n n f).rows.length = n := by simp [arr]
  have h2 : (arr n n f).cols = n := rfl
  simp only [h1, h2, max_self]
  rw [if_pos (Or.inl trivial)]
  have hn : (if n = 0 ∨ n = 0 then 0 else n) = n := by split_ifs <;> omega
  rw [hn]
  have := mapM_tab (f := fun k : ℕ => (do
      let row ← npGet (arr n n f).rows ((if n = 1 then 0 else k / n : ℕ) : Int)
      let v ← npGet row ((if n = 1 then 0 else k % n : ℕ) : Int)
      pure (v * g (if n = 1 then 0 else k / n) (if n = 1 then 0 else k % n)) : M K))
    (g := fun k => f (k / n) (k % n) * g (k / n) (k % n)) (n * n) (fun k => k) (fun k hk => by
      have hn0 : 0 < n := by rcases Nat.eq_zero_or_pos n with rfl | h; · simp at hk
                             · exact h
      have e1 : (if n = 1 then 0 else k / n) = k / n := by
        split_ifs with h
        · subst h; simp at hk; subst hk; rfl
        · rfl
      have e2 : (if n = 1 then 0 else k % n) = k % n := by
        split_ifs with h
        · subst h; simp [Nat.mod_one]
        · rfl
      rw [e1, e2]
      unfold arr
      dsimp only
      rw [npGet_tab _ (Nat.div_lt_of_lt_mul hk), bind_ok, npGet_tab _ (Nat.mod_lt _ hn0), bind_ok]
      rfl)
  unfold tab at this
  rw [List.map_id'] at this
  exact this

theorem timesGrid_sum (n : ℕ) (f g : ℕ → ℕ → K) :
    (flat n n fun i j => f i j * g i j).sum = ∑ i ∈ range n, ∑ j ∈ range n, f i j * g i j := sum_flat n n _

theorem cov_expand {n : ℕ} {f : ℕ → ℕ → K} (h1 : contentOf n f = 1) (g h : ℕ → ℕ → K) :
    covOf n f g h = (∑ i ∈ range n, ∑ j ∈ range n, f i j * (g i j * h i j))
      - (∑ i ∈ range n, ∑ j ∈ range n, f i j * g i j) * (∑ i ∈ range n, ∑ j ∈ range n, f i j * h i j) := by
  have hm : ∀ g, meanOf n f g = ∑ i ∈ range n, ∑ j ∈ range n, f i j * g i j := by
    intro g; unfold meanOf; rw [h1, div_one]
  unfold covOf
  rw [hm]
  set a := meanOf n f g with ha
  set b := meanOf n f h with hb
  have e : ∀ i j, f i j * ((g i j - a) * (h i j - b)) = f i j * (g i j * h i j) - b * (f i j * g i j) - a * (f i j * h i j) + a * b * f i j := by
    intro i j; ring
  simp only [e, Finset.sum_add_distrib, Finset.sum_sub_distrib, ← Finset.mul_sum]
  have hc : ∑ i ∈ range n, ∑ j ∈ range n, f i j = 1 := h1
  rw [hc, ← hm g, ← hm h, ← ha, ← hb]
  ring

/-- the square of a covariance is at most the product of the variances -/
theorem cov_sq_le {n : ℕ} {f : ℕ → ℕ → K} (hf : ∀ i j, 0 ≤ f i j) (h1 : contentOf n f = 1) (g h : ℕ → ℕ → K) :
    covOf n f g h ^ 2 ≤ covOf n f g g * covOf n f h h := by
  have hm : ∀ g, meanOf n f g = ∑ q ∈ range n ×ˢ range n, f q.1 q.2 * g q.1 q.2 := by
    intro g; unfold meanOf; rw [h1, div_one, Finset.sum_product]
  unfold covOf
  rw [hm, hm fun i j => (g i j - meanOf n f g) * (g i j - meanOf n f g), hm fun i j => (h i j - meanOf n f h) * (h i j - meanOf n f h)]
  apply Finset.sum_sq_le_sum_mul_sum_of_sq_le_mul
  · intro q _; exact mul_nonneg (hf _ _) (mul_self_nonneg _)
  · intro q _; exact mul_nonneg (hf _ _) (mul_self_nonneg _)
  · intro q _; exact le_of_eq (by ring)

theorem var_nonneg {n : ℕ} {f : ℕ → ℕ → K} (hf : ∀ i j, 0 ≤ f i j) (h1 : contentOf n f = 1) (g : ℕ → ℕ → K) :
    0 ≤ covOf n f g g := by
  unfold covOf
  unfold meanOf
  rw [h1, div_one]
  exact Finset.sum_nonneg fun i _ => Finset.sum_nonneg fun j _ => mul_nonneg (hf _ _) (mul_self_nonneg _)

/-- index of the time bin -/
def timeBin : ℕ → ℕ → K := fun i _ => (i : K)
/-- index of the energy bin -/
def energyBin : ℕ → ℕ → K := fun _ j => (j : K)

/-- C75: for a square image that is not negative and has content 1, the results are π times the root of the determinant of the
covariances, and the means and standard deviations of time and energy, where energies count from the middle of the image; no
root of a negative number is taken. -/
theorem C75_moments_partial (L : MathLib K) {n : ℕ} {f : ℕ → ℕ → K} (hf : ∀ i j, 0 ≤ f i j) (h1 : contentOf n f = 1) (dt dE : K) :
    rmsParams L (arr n n f) dt dE = .ok
      (L.pi * dt * dE * L.sqrt (covOf n f timeBin timeBin * covOf n f energyBin energyBin - covOf n f timeBin energyBin ^ 2),
       meanOf n f timeBin * dt, L.sqrt (covOf n f timeBin timeBin) * dt,
       (meanOf n f energyBin - n / 2) * dE, L.sqrt (covOf n f energyBin energyBin) * dE) ∧
    covOf n f timeBin energyBin ^ 2 ≤ covOf n f timeBin timeBin * covOf n f energyBin energyBin := by
  refine ⟨?_, cov_sq_le hf h1 _ _⟩
  have hm : ∀ g, meanOf n f g = ∑ i ∈ range n, ∑ j ∈ range n, f i j * g i j := by
    intro g; unfold meanOf; rw [h1, div_one]
  unfold rmsParams
  simp only [timesGrid_arr, bind_ok, timesGrid_sum]
  have hx : (∑ i ∈ range n, ∑ j ∈ range n, f i j * (i : K) ^ 2) - (∑ i ∈ range n, ∑ j ∈ range n, f i j * (i : K)) ^ 2
      = covOf n f timeBin timeBin := by
    rw [cov_expand h1]; unfold timeBin; simp only [sq]
  have hy : (∑ i ∈ range n, ∑ j ∈ range n, f i j * (j : K) ^ 2) - (∑ i ∈ range n, ∑ j ∈ range n, f i j * (j : K)) ^ 2
      = covOf n f energyBin energyBin := by
    rw [cov_expand h1]; unfold energyBin; simp only [sq]
  have hxy : (∑ i ∈ range n, ∑ j ∈ range n, f i j * ((i : K) * (j : K)))
      - (∑ i ∈ range n, ∑ j ∈ range n, f i j * (i : K)) * (∑ i ∈ range n, ∑ j ∈ range n, f i j * (j : K))
      = covOf n f timeBin energyBin := by
    rw [cov_expand h1]; unfold timeBin energyBin; rfl
  have hmx : (∑ i ∈ range n, ∑ j ∈ range n, f i j * (i : K)) = meanOf n f timeBin := by rw [hm]; rfl
  have hmy : (∑ i ∈ range n, ∑ j ∈ range n, f i j * (j : K)) = meanOf n f energyBin := by rw [hm]; rfl
  rw [hx, hy, hxy, hmx, hmy]
  have hs : ∀ x : K, 0 ≤ x → npSqrt L x = .ok (L.sqrt x) := fun x hx => by
    unfold npSqrt; rw [if_neg (not_lt.mpr hx)]
  rw [hs _ (sub_nonneg.mpr (cov_sq_le hf h1 _ _)), bind_ok, hs _ (var_nonneg hf h1 _), bind_ok, hs _ (var_nonneg hf h1 _), bind_ok]
  simp [arr, pure_eq_ok]

/-- C75: the mean time is inside the image, and the mean energy within half of its height. -/
theorem C75_range (L : MathLib K) {n : ℕ} {f : ℕ → ℕ → K} (hf : ∀ i j, 0 ≤ f i j) (h1 : contentOf n f = 1) {dt dE : K} (ht : 0 ≤ dt)
    (hE : 0 ≤ dE) :
    ∃ e t st E sE, rmsParams L (arr n n f) dt dE = .ok (e, t, st, E, sE) ∧ 0 ≤ t ∧ t ≤ ((n : K) - 1) * dt ∧
      -((n : K) / 2) * dE ≤ E ∧ E ≤ ((n : K) / 2 - 1) * dE := by
  have hb : ∀ g : ℕ → ℕ → K, (∀ i j, i < n → j < n → 0 ≤ g i j ∧ g i j ≤ (n : K) - 1) → 0 ≤ meanOf n f g ∧ meanOf n f g ≤ (n : K) - 1 := by
    intro g hg
    unfold meanOf
    rw [h1, div_one]
    constructor
    · exact Finset.sum_nonneg fun i hi => Finset.sum_nonneg fun j hj =>
        mul_nonneg (hf _ _) (hg i j (mem_range.mp hi) (mem_range.mp hj)).1
    · have : (n : K) - 1 = ∑ i ∈ range n, ∑ j ∈ range n, f i j * ((n : K) - 1) := by
        simp only [← Finset.sum_mul]
        have h1' : ∑ i ∈ range n, ∑ j ∈ range n, f i j = 1 := h1
        rw [h1', one_mul]
      rw [this]
      exact Finset.sum_le_sum fun i hi => Finset.sum_le_sum fun j hj =>
        mul_le_mul_of_nonneg_left ((hg i j (mem_range.mp hi) (mem_range.mp hj)).2) (hf _ _)
  have hlt : ∀ i, i < n → (i : K) ≤ (n : K) - 1 := by
    intro i hi
    have : ((i + 1 : ℕ) : K) ≤ n := Nat.cast_le.mpr hi
    push_cast at this; linarith
  obtain ⟨a1, a2⟩ := hb timeBin fun i j hi _ => ⟨Nat.cast_nonneg i, hlt i hi⟩
  obtain ⟨b1, b2⟩ := hb energyBin fun i j _ hj => ⟨Nat.cast_nonneg j, hlt j hj⟩
  refine ⟨_, _, _, _, _, (C75_moments_partial L hf h1 dt dE).1, mul_nonneg a1 ht, mul_le_mul_of_nonneg_right a2 ht,
    mul_le_mul_of_nonneg_right (by linarith) hE, mul_le_mul_of_nonneg_right (by linarith) hE⟩

/-- a normalised image meets the hypotheses: two cells on the diagonal of a 3 × 3 image -/
example : (∀ i j, 0 ≤ (fun i j => if i = j ∧ 0 < i then 1 / 2 else 0 : ℕ → ℕ → ℚ) i j) ∧
    contentOf 3 (fun i j => if i = j ∧ 0 < i then 1 / 2 else 0 : ℕ → ℕ → ℚ) = 1 := by
  refine ⟨fun i j => ?_, by decide +kernel⟩
  dsimp only
  split_ifs <;> norm_num

/-- C75 is violated for images that are not normalised: one cell with content 2 has no spread, but the variance computed is
negative and its root is no number. -/
theorem C75_violated_scale (L : MathLib ℚ) (dt dE : ℚ) :
    rmsParams L (arr 3 3 fun i j => if i = 1 ∧ j = 1 then 2 else 0) dt dE = .error .nonFinite ∧
    covOf 3 (fun i j => if i = 1 ∧ j = 1 then 2 else 0 : ℕ → ℕ → ℚ) timeBin timeBin = 0 := by
  constructor
  · unfold rmsParams
    simp only [timesGrid_arr, bind_ok, timesGrid_sum]
    have hx : (∑ i ∈ range 3, ∑ j ∈ range 3, (if i = 1 ∧ j = 1 then 2 else 0 : ℚ) * (i : ℚ) ^ 2) = 2 := by decide +kernel
    have hx1 : (∑ i ∈ range 3, ∑ j ∈ range 3, (if i = 1 ∧ j = 1 then 2 else 0 : ℚ) * (i : ℚ)) = 2 := by decide +kernel
    have hy : (∑ i ∈ range 3, ∑ j ∈ range 3, (if i = 1 ∧ j = 1 then 2 else 0 : ℚ) * (j : ℚ) ^ 2) = 2 := by decide +kernel
    have hy1 : (∑ i ∈ range 3, ∑ j ∈ range 3, (if i = 1 ∧ j = 1 then 2 else 0 : ℚ) * (j : ℚ)) = 2 := by decide +kernel
    have hxy : (∑ i ∈ range 3, ∑ j ∈ range 3, (if i = 1 ∧ j = 1 then 2 else 0 : ℚ) * ((i : ℚ) * (j : ℚ))) = 2 := by decide +kernel
    rw [hx, hx1, hy, hy1, hxy]
    unfold npSqrt
    rw [if_neg (by norm_num), bind_ok, if_pos (by norm_num), bind_error]
  · decide +kernel

/-- C75 is violated for images that are not square: they are refused with an unrelated error of numpy (unless one side is 1). -/
theorem C75_violated_square (L : MathLib K) {n m : ℕ} (h : n ≠ m) (hn : n ≠ 1) (hm : m ≠ 1) (f : ℕ → ℕ → K) (dt dE : K) :
    rmsParams L (arr n m f) dt dE = .error (.exc .valueError) := by
  have h1 : (arr n m f).rows.length = n := by simp [arr]
  have h2 : (arr n m f).cols = m := rfl
  unfold rmsParams timesGrid
  rw [h1, h2]
  simp only [h, hn, hm, or_self, if_false, bind_error]

/-- … and with one side of length 1 the image is repeated: the mean is far outside the bins of a normalised image. -/
theorem C75_violated_row :
    ∃ r, timesGrid (arr 1 3 fun _ _ => (1 / 3 : ℚ)) (fun i _ => (i : ℚ)) = .ok r ∧ r.sum = 3 :=
  ⟨[0, 0, 0, 1/3, 1/3, 1/3, 2/3, 2/3, 2/3], by decide +kernel, by decide +kernel⟩

end Verif.Props

import Verif.Lemmas.TomographicsContour
import Mathlib.Algebra.Order.BigOperators.Group.Finset

/-! Lemmas on the density inside a contour in `utils/tomographics.py`. -/

set_option linter.unusedSectionVars false

namespace Verif.Graph
open Verif.Asrt Verif.Mch Verif.Pre Verif.Post Verif.Spec Finset

variable {K : Type} [Field K] [LinearOrder K] [IsStrictOrderedRing K]

/-- the indices of a condition that holds exactly from `a` to `b` -/
theorem npWhere_interval {m a b : ℕ} (f : ℕ → K) (P : K → Bool) (hab : a ≤ b) (hb : b < m)
    (h : ∀ j, j < m → (P (f j) = true ↔ a ≤ j ∧ j ≤ b)) : npWhere (tab m f) P = tab (b + 1 - a) fun i => a + i := by
  unfold npWhere
  rw [length_tab]
  have h1 : (List.range m).filter (fun i => ((tab m f)[i]?).any P) = (List.range m).filter fun i => decide (a ≤ i) && decide (i ≤ b) := by
    apply List.filter_congr
    intro i hi
    have hi := List.mem_range.mp hi
    rw [some_tab _ hi, Option.any_some, Bool.eq_iff_iff, h i hi, Bool.and_eq_true, decide_eq_true_eq, decide_eq_true_eq]
  rw [h1, ← List.filter_filter]
  have h2 : (List.range m).filter (fun i => decide (i ≤ b)) = tab (b + 1) fun i => i := by
    have := filter_tab_lt (n := m) (s := b + 1) (by omega) (fun i : ℕ => i) (fun i => decide (i ≤ b)) (by intro i hi; simp; omega)
      (by intro i h1 _; simp; omega)
    unfold tab at this ⊢
    rw [List.map_id'] at this ⊢
    rw [this, List.map_id']
  rw [h2, filter_tab_ge (n := b + 1) (s := a) (by omega) (fun i : ℕ => i) (fun i => decide (a ≤ i)) (by intro i hi; simp; omega)
    (by intro i h1 _; simp; omega)]

theorem lastIdx_tab (c : ℕ) (f : ℕ → ℕ) : lastIdx (tab (c + 1) f) = .ok (f c) := by
  unfold lastIdx
  have : (tab (c + 1) f).getLast? = some (f c) := by
    unfold tab; simp [List.range_succ]
  rw [this]

theorem firstIdx_tab (c : ℕ) (f : ℕ → ℕ) : firstIdx (tab (c + 1) f) = .ok (f 0) := by
  unfold firstIdx
  rw [Prog.tab_cons]
  rfl

/-- interpolation between two points -/
theorem interpAt_two (x : K) (τ μ : ℕ → K) (h1 : τ 0 ≤ x) (h2 : x ≤ τ 1) (h3 : τ 0 < τ 1) :
    interpAt x (tab 2 τ) (tab 2 μ) = .ok (μ 0 + (μ 1 - μ 0) * ((x - τ 0) / (τ 1 - τ 0))) := by
  rw [interpAt_tab (m := 1), if_neg (not_lt.mpr h2), if_neg (not_lt.mpr h1), Prog.tab_cons]
  have hd : τ 1 - τ 0 ≠ 0 := by linarith [sub_pos.mpr h3]|> fun h : τ 1 - τ 0 > 0 => h.ne'
  congr 1
  rw [Prog.interpGo]
  by_cases h4 : x < τ (0 + 1)
  · rw [if_pos h4]
    by_cases h5 : x ≤ τ 0
    · rw [if_pos h5, le_antisymm h5 h1]; simp
    · rw [if_neg h5]; simp only [zero_add]; ring
  · rw [if_neg h4, tab_zero, Prog.interpGo]
    have : x = τ 1 := le_antisymm h2 (not_lt.mp h4)
    rw [this, div_self hd]; simp

/-- the density inside one slice of the contour, where the contour does not leave the image: the area under the polygon of the
densities between the two crossings, in bins -/
theorem crossings_value {m : ℕ} {e r : ℕ → K} {δ h : K} (hδ : 0 < δ) (he : ∀ j : ℕ, e j = e 0 + j * δ) {g0 g1 : ℕ} (h01 : g0 ≤ g1)
    (hg0 : 0 < g0) (hg1 : g1 + 1 < m) (hin : ∀ j, j < m → ((-h < e j ∧ e j < h) ↔ g0 ≤ j ∧ j ≤ g1)) :
    ∃ t0 t1, t0 = (e g0 + h) / δ ∧ t1 = (h - e g1) / δ ∧ 0 ≤ t0 ∧ t0 ≤ 1 ∧ 0 ≤ t1 ∧ t1 ≤ 1 ∧
    crossings (tab m e) (tab m r) h = .ok
      ((∑ i ∈ range (g1 - g0), (r (g0 + i) + r (g0 + i + 1)) / 2)
          + t1 * (r g1 + (r g1 + (r (g1 + 1) - r g1) * t1)) / 2 + t0 * ((r g0 + (r (g0 - 1) - r g0) * t0) + r g0) / 2,
        r g1 + (r (g1 + 1) - r g1) * t1, r g0 + (r (g0 - 1) - r g0) * t0) := by
  have hg1m := (hin g1 (by omega)).mpr ⟨h01, le_rfl⟩
  have hg0m := (hin g0 (by omega)).mpr ⟨le_rfl, h01⟩
  have s1 : e (g1 + 1) - e g1 = δ := by rw [he (g1 + 1), he g1]; push_cast; ring
  have s0 : e g0 - e (g0 - 1) = δ := by
    rw [he g0, he (g0 - 1)]
    have : ((g0 - 1 : ℕ) : K) = (g0 : K) - 1 := by rw [Nat.cast_sub (by omega)]; simp
    rw [this]; ring
  have s01 : e 1 - e 0 = δ := by rw [he 1]; push_cast; ring
  have up : h ≤ e (g1 + 1) := by
    by_contra hc
    have := (hin (g1 + 1) hg1).mp ⟨by linarith [hg1m.1], not_le.mp hc⟩
    omega
  have low : e (g0 - 1) ≤ -h := by
    by_contra hc
    have := (hin (g0 - 1) (by omega)).mp ⟨not_le.mp hc, by linarith [hg0m.2]⟩
    omega
  refine ⟨_, _, rfl, rfl, div_nonneg (by linarith [hg0m.1]) hδ.le, by rw [div_le_one hδ]; linarith, div_nonneg (by linarith [hg1m.2]) hδ.le,
    by rw [div_le_one hδ]; linarith, ?_⟩
  obtain ⟨c, hc⟩ : ∃ c, g1 = g0 + c := ⟨g1 - g0, by omega⟩
  unfold crossings
  dsimp only
  rw [npWhere_interval (a := g0) (b := g1) e (fun v => decide (-h < v ∧ v < h)) h01 (by omega)
    (by intro j hj; rw [decide_eq_true_eq]; exact hin j hj), show g1 + 1 - g0 = c + 1 by omega]
  have hvals := mapM_tab (f := fun i : ℕ => npGet (tab m r) (i : Int)) (g := r) (c + 1) (fun i => g0 + i) (fun i hi => npGet_tab r (by omega))
  rw [hvals, bind_ok, lastIdx_tab, bind_ok, firstIdx_tab, ← hc]
  have sl1 : ∀ g : ℕ → K, npSlice (tab m g) (g1 : Int) ((g1 : Int) + 2) = tab 2 fun i => g (g1 + i) := by
    intro g
    rw [npSlice_of (a := g1) (b := g1 + 2) g (sliceIdx_nat (by omega)) (by rw [show (g1 : Int) + 2 = ((g1 + 2 : ℕ) : Int) by push_cast; rfl]; exact sliceIdx_nat (by omega)) (by omega) (by omega),
      show g1 + 2 - g1 = 2 by omega]
  have sl0 : ∀ g : ℕ → K, npSlice (tab m g) ((g0 + 0 : ℕ) - 1 : Int) (((g0 + 0 : ℕ) : Int) + 1) = tab 2 fun i => g (g0 - 1 + i) := by
    intro g
    rw [npSlice_of (a := g0 - 1) (b := g0 + 1) g (by rw [show (((g0 + 0 : ℕ) : Int) - 1) = ((g0 - 1 : ℕ) : Int) by omega]; exact sliceIdx_nat (by omega))
      (by rw [show ((g0 + 0 : ℕ) : Int) + 1 = ((g0 + 1 : ℕ) : Int) by push_cast; omega]; exact sliceIdx_nat (by omega)) (by omega) (by omega),
      show g0 + 1 - (g0 - 1) = 2 by omega]
  have hg : g0 - 1 + 1 = g0 := by omega
  rw [sl1, sl1, interpAt_two h (fun i => e (g1 + i)) (fun i => r (g1 + i)) hg1m.2.le up (by simp only [add_zero]; linarith), bind_ok,
    npGet_tab _ (by omega), bind_ok, npGet_tab _ (by omega), bind_ok, show (1 : Int) = ((1 : ℕ) : Int) from rfl, npGet_tab _ (by omega), bind_ok,
    show (0 : Int) = ((0 : ℕ) : Int) from rfl, npGet_tab _ (by omega), bind_ok, s01, fdiv_ok hδ.ne', bind_ok, bind_ok]
  rw [show ((1 : ℕ) : Int) = 1 from rfl, sl0, sl0, interpAt_two (-h) (fun i => e (g0 - 1 + i)) (fun i => r (g0 - 1 + i)) low
      (by rw [hg]; exact hg0m.1.le) (by rw [hg]; simp only [add_zero]; linarith), bind_ok,
    npGet_tab _ (by omega), bind_ok, npGet_tab _ (by omega), bind_ok, fdiv_ok hδ.ne', bind_ok, pure_eq_ok, trapz_tab]
  simp only [hg, add_zero, s1, s0]
  have b0 : r (g0 - 1) + (r g0 - r (g0 - 1)) * ((-h - e (g0 - 1)) / δ) = r g0 + (r (g0 - 1) - r g0) * ((e g0 + h) / δ) := by
    have : (-h - e (g0 - 1)) / δ = 1 - (e g0 + h) / δ := by
      rw [eq_sub_iff_add_eq, ← add_div, div_eq_one_iff_eq hδ.ne']; linarith
    rw [this]; ring
  rw [b0, show g1 - g0 = c by omega]
  simp only [trapz, one_mul, sub_neg_eq_add, add_zero]
  congr 3

/-- the density inside one slice is not negative and at most the density of the whole slice -/
theorem crossings_share {m : ℕ} {e r : ℕ → K} {δ h : K} (hδ : 0 < δ) (he : ∀ j : ℕ, e j = e 0 + j * δ) (hr : ∀ j, 0 ≤ r j)
    (hlo : e 0 ≤ -h) (hhi : ∃ k, k < m ∧ h ≤ e k) {q : K × K × K} (hq : crossings (tab m e) (tab m r) h = .ok q) :
    0 ≤ q.1 ∧ q.1 ≤ ∑ j ∈ range m, r j := by
  have hne : ∃ j, j < m ∧ -h < e j ∧ e j < h := by
    unfold crossings at hq
    obtain ⟨v, _, hq⟩ := bind_inv hq
    obtain ⟨g, hg, _⟩ := bind_inv hq
    unfold lastIdx at hg
    cases hgl : (npWhere (tab m e) fun e => decide (-h < e ∧ e < h)).getLast? with
    | none => rw [hgl] at hg; cases hg
    | some i =>
      have hmem := List.mem_of_getLast? hgl
      unfold npWhere at hmem
      rw [List.mem_filter, List.mem_range, length_tab] at hmem
      rw [some_tab _ hmem.1] at hmem
      exact ⟨i, hmem.1, by simpa using hmem.2⟩
  classical
  have hmono : ∀ i j : ℕ, i ≤ j → e i ≤ e j := by
    intro i j hij
    rw [he i, he j]
    have : (i : K) ≤ j := by exact_mod_cast hij
    nlinarith
  set S := (range m).filter fun j => -h < e j ∧ e j < h with hS
  have hSne : S.Nonempty := by
    obtain ⟨j, h1, h2⟩ := hne
    exact ⟨j, by rw [hS, Finset.mem_filter, mem_range]; exact ⟨h1, h2⟩⟩
  have m0 := S.min'_mem hSne
  have m1 := S.max'_mem hSne
  set g0 := S.min' hSne with hg0
  set g1 := S.max' hSne with hg1
  rw [hS, Finset.mem_filter, mem_range] at m0 m1
  have hin : ∀ j, j < m → ((-h < e j ∧ e j < h) ↔ g0 ≤ j ∧ j ≤ g1) := by
    intro j hj
    constructor
    · intro hj'
      have : j ∈ S := by rw [hS, Finset.mem_filter, mem_range]; exact ⟨hj, hj'⟩
      exact ⟨S.min'_le j this, S.le_max' j this⟩
    · rintro ⟨a, b⟩
      exact ⟨lt_of_lt_of_le m0.2.1 (hmono _ _ a), lt_of_le_of_lt (hmono _ _ b) m1.2.2⟩
  have hpos0 : 0 < g0 := by
    by_contra hc
    have : g0 = 0 := by omega
    rw [this] at m0
    linarith [m0.2.1]
  obtain ⟨k, hk, hk'⟩ := hhi
  have hlt : g1 + 1 < m := by
    have : g1 < k := by
      by_contra hc
      have := hmono k g1 (by omega)
      linarith [m1.2.2]
    omega
  have h01 : g0 ≤ g1 := (hin g1 m1.1).mp m1.2 |>.1
  obtain ⟨t0, t1, _, _, a0, a1, b0, b1, hv⟩ := crossings_value (r := r) hδ he h01 hpos0 hlt hin
  rw [hv, Except.ok.injEq] at hq
  rw [← hq]
  dsimp only
  have rg0 := hr g0; have rg1 := hr g1; have rl := hr (g0 - 1); have ru := hr (g1 + 1)
  have hU : 0 ≤ t1 * (r g1 + (r g1 + (r (g1 + 1) - r g1) * t1)) / 2 ∧
      t1 * (r g1 + (r g1 + (r (g1 + 1) - r g1) * t1)) / 2 ≤ r g1 / 2 + r (g1 + 1) / 2 := by
    have e1 : t1 * (r g1 + (r g1 + (r (g1 + 1) - r g1) * t1)) / 2 = r g1 * (t1 * (2 - t1)) / 2 + r (g1 + 1) * (t1 * t1) / 2 := by ring
    have p1 : 0 ≤ t1 * (2 - t1) := mul_nonneg b0 (by linarith)
    have p2 : t1 * (2 - t1) ≤ 1 := by nlinarith [sq_nonneg (1 - t1)]
    have p3 : 0 ≤ t1 * t1 := mul_self_nonneg _
    have p4 : t1 * t1 ≤ 1 := by nlinarith
    rw [e1]
    constructor
    · exact add_nonneg (div_nonneg (mul_nonneg rg1 p1) (by norm_num)) (div_nonneg (mul_nonneg ru p3) (by norm_num))
    · have := mul_le_mul_of_nonneg_left p2 rg1
      have := mul_le_mul_of_nonneg_left p4 ru
      linarith
  have hD : 0 ≤ t0 * ((r g0 + (r (g0 - 1) - r g0) * t0) + r g0) / 2 ∧
      t0 * ((r g0 + (r (g0 - 1) - r g0) * t0) + r g0) / 2 ≤ r g0 / 2 + r (g0 - 1) / 2 := by
    have e1 : t0 * ((r g0 + (r (g0 - 1) - r g0) * t0) + r g0) / 2 = r g0 * (t0 * (2 - t0)) / 2 + r (g0 - 1) * (t0 * t0) / 2 := by ring
    have p1 : 0 ≤ t0 * (2 - t0) := mul_nonneg a0 (by linarith)
    have p2 : t0 * (2 - t0) ≤ 1 := by nlinarith [sq_nonneg (1 - t0)]
    have p3 : 0 ≤ t0 * t0 := mul_self_nonneg _
    have p4 : t0 * t0 ≤ 1 := by nlinarith
    rw [e1]
    constructor
    · exact add_nonneg (div_nonneg (mul_nonneg rg0 p1) (by norm_num)) (div_nonneg (mul_nonneg rl p3) (by norm_num))
    · have := mul_le_mul_of_nonneg_left p2 rg0
      have := mul_le_mul_of_nonneg_left p4 rl
      linarith
  have hM : 0 ≤ ∑ i ∈ range (g1 - g0), (r (g0 + i) + r (g0 + i + 1)) / 2 :=
    Finset.sum_nonneg fun i _ => div_nonneg (add_nonneg (hr _) (hr _)) (by norm_num)
  have hM2 : ∀ c, ∑ i ∈ range c, (r (g0 + i) + r (g0 + i + 1)) / 2 = (∑ i ∈ range (c + 1), r (g0 + i)) - r g0 / 2 - r (g0 + c) / 2 := by
    intro c
    induction c with
    | zero => simp; ring
    | succ c ih =>
      rw [Finset.sum_range_succ, ih, Finset.sum_range_succ _ (c + 1)]
      rw [show g0 + c + 1 = g0 + (c + 1) by omega]
      ring
  refine ⟨by linarith [hU.1, hD.1], ?_⟩
  obtain ⟨c, hc⟩ : ∃ c, g1 = g0 + c := ⟨g1 - g0, by omega⟩
  rw [show g1 - g0 = c by omega] at hM ⊢
  have hall : (∑ i ∈ range (c + 1), r (g0 + i)) + r (g0 - 1) + r (g1 + 1) ≤ ∑ j ∈ range m, r j := by
    have e1 : (∑ i ∈ range (c + 1), r (g0 + i)) + r (g0 - 1) + r (g1 + 1) = ∑ i ∈ range (c + 3), r (g0 - 1 + i) := by
      rw [Finset.sum_range_succ' _ (c + 2), Finset.sum_range_succ _ (c + 1)]
      have : ∀ i, g0 - 1 + (i + 1) = g0 + i := fun i => by omega
      simp only [this, add_zero]
      rw [show g0 + (c + 1) = g1 + 1 by omega]
      ring
    rw [e1]
    have e2 : ∑ i ∈ range (c + 3), r (g0 - 1 + i) = ∑ j ∈ Finset.Ico (g0 - 1) (g0 - 1 + (c + 3)), r j := by
      rw [Finset.sum_Ico_eq_sum_range, Nat.add_sub_cancel_left]
    rw [e2]
    apply Finset.sum_le_sum_of_subset_of_nonneg
    · intro j hj
      rw [Finset.mem_Ico] at hj
      rw [mem_range]; omega
    · intro j _ _; exact hr j
  rw [hM2 c, ← hc]
  linarith [hU.2, hD.2]

/-- the densities at the crossings are between densities of the slice -/
theorem crossings_range {dEs row : List K} {h lo hi : K} {q : K × K × K} (hrow : ∀ x ∈ row, lo ≤ x ∧ x ≤ hi)
    (hq : crossings dEs row h = .ok q) : (lo ≤ q.2.1 ∧ q.2.1 ≤ hi) ∧ lo ≤ q.2.2 ∧ q.2.2 ≤ hi := by
  unfold crossings at hq
  dsimp only at hq
  obtain ⟨v, _, hq⟩ := bind_inv hq
  obtain ⟨g, _, hq⟩ := bind_inv hq
  obtain ⟨top, ht, hq⟩ := bind_inv hq
  obtain ⟨_, _, hq⟩ := bind_inv hq
  obtain ⟨_, _, hq⟩ := bind_inv hq
  obtain ⟨_, _, hq⟩ := bind_inv hq
  obtain ⟨_, _, hq⟩ := bind_inv hq
  obtain ⟨_, _, hq⟩ := bind_inv hq
  obtain ⟨_, _, hq⟩ := bind_inv hq
  obtain ⟨bottom, hb, hq⟩ := bind_inv hq
  obtain ⟨_, _, hq⟩ := bind_inv hq
  obtain ⟨_, _, hq⟩ := bind_inv hq
  obtain ⟨_, _, hq⟩ := bind_inv hq
  rw [pure_eq_ok, Except.ok.injEq] at hq
  subst hq
  have hmem : ∀ {a b : Int} {x : K}, x ∈ npSlice row a b → x ∈ row := by
    intro a b x hx
    unfold npSlice at hx
    exact List.mem_of_mem_take (List.mem_of_mem_drop hx)
  obtain ⟨a, ha, b, hb', h1, h2⟩ := interpAt_between ht
  obtain ⟨a2, ha2, b2, hb2, h3, h4⟩ := interpAt_between hb
  exact ⟨⟨le_trans (hrow a (hmem ha)).1 h1, le_trans h2 (hrow b (hmem hb')).2⟩,
    le_trans (hrow a2 (hmem ha2)).1 h3, le_trans h4 (hrow b2 (hmem hb2)).2⟩

end Verif.Graph

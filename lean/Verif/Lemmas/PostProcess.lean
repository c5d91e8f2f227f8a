import Verif.Model.PostProcess
import Verif.Spec.PostProcess
import Verif.Lemmas.PreProcess
import Mathlib.Tactic.FieldSimp
import Mathlib.Tactic.Linarith

/-! Helper lemmas about `Model/PostProcess.lean`. -/

set_option linter.unusedSectionVars false

namespace Verif.Post
open Verif.Asrt Verif.Pre Verif.Spec

variable {K : Type} [Field K] [LinearOrder K] [IsStrictOrderedRing K]

theorem length_cumsum (acc : K) (l : List K) : (cumsum acc l).length = l.length := by
  induction l generalizing acc with
  | nil => rfl
  | cons a l ih => simp [cumsum, ih]

theorem cumsum_get (acc : K) (l : List K) (i : ℕ) (hi : i < l.length) :
    (cumsum acc l)[i]'(by rw [length_cumsum]; exact hi) = acc + (l.take (i + 1)).sum := by
  induction l generalizing acc i with
  | nil => cases hi
  | cons a l ih =>
    cases i with
    | zero => simp [cumsum]
    | succ i =>
      have hi' : i < l.length := by simpa using hi
      rw [List.take_succ_cons, List.sum_cons, ← add_assoc]
      exact ih (acc + a) i hi'

/-- the first `k` elements of a decreasing list have the largest sum of all choices of `k` elements -/
theorem sum_le_take {l t : List K} (hl : l.Pairwise fun a b => b ≤ a) (ht : t.Sublist l) :
    t.sum ≤ (l.take t.length).sum := by
  induction l generalizing t with
  | nil => rw [List.sublist_nil.mp ht]; simp
  | cons a l ih =>
    rw [List.pairwise_cons] at hl
    cases t with
    | nil => simp
    | cons b t =>
      have hb : b ≤ a ∧ t.Sublist l := by
        rcases List.sublist_cons_iff.mp ht with h | ⟨r, hr, hs⟩
        · exact ⟨hl.1 b (h.subset List.mem_cons_self), (List.sublist_cons_self b t).trans h⟩
        · cases hr
          exact ⟨le_rfl, hs⟩
      rw [List.length_cons, List.take_succ_cons, List.sum_cons, List.sum_cons]
      exact add_le_add hb.1 (ih hl.2 hb.2)

theorem sortDesc_pairwise (l : List K) : (sortDesc l).Pairwise fun a b => b ≤ a := by
  unfold sortDesc
  have : Std.Total (fun a b : K => b ≤ a) := ⟨fun a b => le_total b a⟩
  have : IsTrans K (fun a b : K => b ≤ a) := ⟨fun a b c h1 h2 => h2.trans h1⟩
  exact List.pairwise_insertionSort _ l

theorem sortDesc_perm (l : List K) : (sortDesc l).Perm l := List.perm_insertionSort _ l

theorem sum_div_list (l : List K) (S : K) : (l.map fun v => v / S).sum = l.sum / S := by
  induction l with
  | nil => simp
  | cons a l ih => rw [List.map_cons, List.sum_cons, ih, List.sum_cons, add_div]

theorem sum_mul_list (l : List K) (c : K) : (l.map fun v => c * v).sum = c * l.sum := by
  induction l with
  | nil => simp
  | cons a l ih => rw [List.map_cons, List.sum_cons, ih, List.sum_cons, mul_add]

theorem holds_iff_take (l : List K) (f : K) (k : ℕ) (hk : k ≤ l.length) :
    Holds l f k ↔ f * l.sum ≤ ((sortDesc l).take k).sum := by
  constructor
  · rintro ⟨t, hsub, hlen, hle⟩
    obtain ⟨t', hp, hs⟩ := (hsub.trans (sortDesc_perm l).symm.subperm)
    have := sum_le_take (sortDesc_pairwise l) hs
    rw [hp.length_eq, hlen, hp.sum_eq] at this
    exact hle.trans this
  · intro h
    refine ⟨(sortDesc l).take k, ((List.take_sublist _ _).subperm).trans (sortDesc_perm l).subperm, ?_, h⟩
    rw [List.length_take, (sortDesc_perm l).length_eq, Nat.min_eq_left hk]

theorem holds_le {l : List K} {f : K} {k : ℕ} (h : Holds l f k) : k ≤ l.length := by
  obtain ⟨t, hs, hl, _⟩ := h
  rw [← hl]
  exact hs.length_le

/-- dividing by a positive number does not change the order -/
theorem sortDesc_div (l : List K) {S : K} (hS : 0 < S) : sortDesc (l.map fun v => v / S) = (sortDesc l).map fun v => v / S := by
  unfold sortDesc
  rw [List.map_insertionSort (r := fun a b : K => b ≤ a) (s := fun a b : K => b ≤ a)]
  intro a _ b _
  rw [div_le_div_iff_of_pos_right hS]

/-- the index found: the first `i` such that `i + 1` cells suffice -/
theorem argmax_cumsum (h : List K) (x : K) (hne : h ≠ []) (hx : x ≤ h.sum) :
    ∃ i, argmaxB ((cumsum 0 h).map fun c => decide (x ≤ c)) = .ok i ∧ i < h.length ∧ x ≤ (h.take (i + 1)).sum ∧
      ∀ j, j < i → (h.take (j + 1)).sum < x := by
  have hlen : ((cumsum 0 h).map fun c => decide (x ≤ c)).length = h.length := by rw [List.length_map, length_cumsum]
  have hpos : 0 < h.length := List.length_pos_iff.mpr hne
  have hget : ∀ i (hi : i < h.length), ((cumsum 0 h).map fun c => decide (x ≤ c))[i]'(by rw [hlen]; exact hi)
      = decide (x ≤ (h.take (i + 1)).sum) := by
    intro i hi
    rw [List.getElem_map, cumsum_get 0 h i hi, zero_add]
  have hany : ((cumsum 0 h).map fun c => decide (x ≤ c)).any id = true := by
    rw [List.any_eq_true]
    refine ⟨_, List.getElem_mem (by rw [hlen]; omega : h.length - 1 < _), ?_⟩
    rw [hget _ (by omega), show h.length - 1 + 1 = h.length by omega, List.take_length]
    simpa using hx
  have hlt := List.findIdx_lt_length_of_exists (List.any_eq_true.mp hany)
  refine ⟨((cumsum 0 h).map fun c => decide (x ≤ c)).findIdx id, ?_, ?_, ?_, ?_⟩
  · unfold argmaxB
    cases hc : (cumsum 0 h).map fun c => decide (x ≤ c) with
    | nil => rw [hc] at hlen; simp at hlen; omega
    | cons b l =>
      dsimp only
      unfold argmaxBool
      rw [hc] at hany
      rw [if_pos hany]
  · rw [hlen] at hlt; exact hlt
  · have := List.findIdx_getElem (w := hlt)
    rw [hget _ (by rw [hlen] at hlt; exact hlt)] at this
    simpa using this
  · intro j hj
    have := List.not_of_lt_findIdx hj
    have hj' : j < h.length := by omega
    have e := hget j hj'
    rw [e] at this
    simpa using this

theorem zipWith_tab' {β γ δ : Type _} (f : β → γ → δ) (n : ℕ) (a : ℕ → β) (b : ℕ → γ) :
    List.zipWith f (tab n a) (tab n b) = tab n fun i => f (a i) (b i) := by
  unfold tab
  rw [List.zipWith_map, List.zipWith_self]

theorem mapM_fdiv (l : List K) {S : K} (hS : S ≠ 0) : (l.mapM fun v => FDiv.fdiv v S) = .ok (l.map fun v => v / S) := by
  apply mapM_ok
  intro v _
  exact fdiv_ok hS

theorem npGet_one {n : ℕ} (b : ℕ → K) (h : 2 ≤ n) : npGet (tab n b) 1 = .ok (b 1) := by
  have := npGet_tab b (show 1 < n by omega)
  exact_mod_cast this

theorem npGet_zero {n : ℕ} (b : ℕ → K) (h : 2 ≤ n) : npGet (tab n b) 0 = .ok (b 0) := by
  have := npGet_tab b (show 0 < n by omega)
  exact_mod_cast this

open Finset in
/-- what `_std_from_histogram` computes -/
theorem std_eq (L : Mch.MathLib K) {n : ℕ} (hn : 2 ≤ n) (h b : ℕ → K) (hS : 0 < ∑ i ∈ range n, h i) (hh : ∀ i, i < n → 0 ≤ h i) :
    stdFromHistogram L (tab n h) (tab n b) = .ok (L.sqrt ((∑ i ∈ range n, h i *
      ((b i + (b 1 - b 0) / 2) * (1 - h i / ∑ i ∈ range n, h i)) ^ 2) / ∑ i ∈ range n, h i)) := by
  have e1 : assertArrayNumelEqual [[(tab n h).length], [(tab n b).length]] (tab n h).length = .ok () := by
    rw [length_tab, length_tab]
    unfold assertArrayNumelEqual assertGreaterOrEqual
    rw [if_neg (by simp), bind_ok, if_neg (by simp)]
  unfold stdFromHistogram
  rw [e1, bind_ok, npGet_one b hn, bind_ok, npGet_zero b hn, bind_ok]
  dsimp only
  rw [map_tab, zipWith_tab', sum_tab', mapM_fdiv _ hS.ne', bind_ok, map_tab, zipWith_tab', zipWith_tab', sum_tab',
    fdiv_ok hS.ne', bind_ok]
  have e2 : (∑ i ∈ range n, h i * (b i + (b 1 - b 0) / 2 - (b i + (b 1 - b 0) / 2) * h i / ∑ i ∈ range n, h i) ^ 2)
      = ∑ i ∈ range n, h i * ((b i + (b 1 - b 0) / 2) * (1 - h i / ∑ i ∈ range n, h i)) ^ 2 := by
    apply Finset.sum_congr rfl
    intro i _
    rw [mul_sub, mul_one, mul_div_assoc]
  rw [e2]
  unfold npSqrt
  rw [if_neg]
  rw [not_lt]
  apply div_nonneg _ hS.le
  apply Finset.sum_nonneg
  intro i hi
  exact mul_nonneg (hh i (by simpa using hi)) (sq_nonneg _)

end Verif.Post

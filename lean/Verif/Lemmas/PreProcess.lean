import Verif.Model.PreProcess
import Verif.Lemmas.PhaseSpace
import Verif.Spec.PreProcess
import Verif.Lemmas.Assertions
import Mathlib.Algebra.BigOperators.Field

/-! Helper lemmas about `Model/PreProcess.lean`. -/

set_option linter.unusedSectionVars false

namespace Verif
open Finset

theorem tab_zero {α : Type _} (f : ℕ → α) : tab 0 f = [] := rfl

theorem tab_append {α : Type _} (a b : ℕ) (f : ℕ → α) : tab (a + b) f = tab a f ++ tab b fun i => f (a + i) := by
  unfold tab
  rw [List.range_add, List.map_append, List.map_map]
  rfl

theorem take_tab {α : Type _} {n k : ℕ} (f : ℕ → α) (h : k ≤ n) : (tab n f).take k = tab k f := by
  obtain ⟨d, rfl⟩ : ∃ d, n = k + d := ⟨n - k, by omega⟩
  rw [tab_append, List.take_append_of_le_length (by simp), List.take_of_length_le (by simp)]

theorem drop_tab {α : Type _} {n k : ℕ} (f : ℕ → α) (h : k ≤ n) : (tab n f).drop k = tab (n - k) fun i => f (k + i) := by
  obtain ⟨d, rfl⟩ : ∃ d, n = k + d := ⟨n - k, by omega⟩
  rw [tab_append, List.drop_append_of_le_length (by simp), List.drop_of_length_le (by simp)]
  simp

theorem map_tab {α β : Type _} (g : α → β) (n : ℕ) (f : ℕ → α) : (tab n f).map g = tab n fun i => g (f i) := by
  unfold tab; rw [List.map_map]; rfl

theorem sliceIdx_nat {n i : ℕ} (h : i ≤ n) : sliceIdx n (i : ℤ) = i := by
  unfold sliceIdx
  rw [if_neg (by omega)]
  omega

theorem sliceIdx_neg {n i : ℕ} (h0 : 0 < i) : sliceIdx n (-(i : ℤ)) = n - i := by
  unfold sliceIdx
  rw [if_pos (by omega)]
  omega

theorem npSlice_of {α : Type _} {n a b : ℕ} {lo hi : ℤ} (f : ℕ → α) (ha : sliceIdx n lo = a) (hb : sliceIdx n hi = b)
    (hbn : b ≤ n) (hab : a ≤ b) : npSlice (tab n f) lo hi = tab (b - a) fun i => f (a + i) := by
  unfold npSlice
  rw [length_tab, ha, hb]
  dsimp only
  rw [take_tab f hbn, drop_tab _ hab]

theorem flatten_tab {α : Type _} (n m : ℕ) (f : ℕ → ℕ → α) : (tab n fun i => tab m (f i)).flatten = flat n m f := by
  induction n with
  | zero => unfold flat; simp [tab_zero]
  | succ n ih =>
    rw [tab_append, List.flatten_append, ih]
    have : flat (n + 1) m f = flat n m f ++ tab m (f n) := by
      unfold flat
      rw [Nat.succ_mul, tab_append]
      congr 1
      apply tab_congr
      intro j hj
      rw [idx_div hj, idx_mod hj]
    rw [this]
    simp [tab]

theorem arr_congr {α : Type _} {n m : ℕ} {f g : ℕ → ℕ → α} (h : ∀ i j, i < n → j < m → f i j = g i j) : arr n m f = arr n m g := by
  unfold arr
  congr 1
  apply tab_congr; intro i hi
  apply tab_congr; intro j hj
  exact h i j hi hj

theorem arr_ext {α : Type _} {n n' m m' : ℕ} {f g : ℕ → ℕ → α} (hn : n = n') (hm : m = m')
    (h : ∀ i j, i < n → j < m → f i j = g i j) : arr n m f = arr n' m' g := by
  subst hn hm; exact arr_congr h

namespace Pre

theorem reshape_tab {α : Type _} {l n m : ℕ} (g : ℕ → α) (h : l = n * m) :
    reshape (tab l g) n m = .ok (arr n m fun i j => g (i * m + j)) := by
  subst h
  unfold reshape
  rw [if_pos (by simp)]
  unfold arr
  congr 2
  apply tab_congr
  intro i hi
  have h1 : i * m ≤ n * m := Nat.mul_le_mul_right m hi.le
  have h2 : m ≤ n * m - i * m := by
    have : (i + 1) * m ≤ n * m := Nat.mul_le_mul_right m hi
    rw [Nat.succ_mul] at this
    omega
  rw [drop_tab _ h1, take_tab _ h2]

theorem sliceCols_arr {α : Type _} {n m a b : ℕ} {lo hi : ℤ} (f : ℕ → ℕ → α) (ha : sliceIdx m lo = a)
    (hb : sliceIdx m hi = b) (hbm : b ≤ m) (hab : a ≤ b) :
    sliceCols (arr n m f) lo hi = arr n (b - a) fun i j => f i (a + j) := by
  unfold sliceCols
  rw [arr_cols, arr_rows, ha, hb, map_tab]
  unfold arr
  congr 1
  apply tab_congr
  intro i _
  exact npSlice_of (f i) ha hb hbm hab

section
variable {K : Type _} [Field K] [LinearOrder K] [IsStrictOrderedRing K]

theorem sum_tab' (n : ℕ) (f : ℕ → K) : List.sum (tab n f) = ∑ i ∈ range n, f i := sum_tab n f

theorem rebinDividable_arr {n q rbn : ℕ} (hr : 0 < rbn) (f : ℕ → ℕ → K) :
    rebinDividable (arr n (q * rbn) f) rbn = .ok (arr n q fun i k => ∑ r ∈ range rbn, f i (k * rbn + r)) := by
  unfold rebinDividable
  rw [arr_cols, if_neg (by simp)]
  dsimp only
  rw [Nat.mul_div_cancel _ hr]
  have hf : (arr n (q * rbn) f).flatten = flat n (q * rbn) f := flatten_tab n (q * rbn) f
  rw [hf, arr_rows, length_tab]
  unfold flat
  rw [reshape_tab _ (by ring), bind_ok, arr_rows, map_tab]
  simp only [sum_tab']
  rw [reshape_tab _ (by ring)]
  congr 1
  apply arr_congr
  intro i k hi hk
  apply sum_congr rfl
  intro r hr'
  have h1 : k * rbn + r < q * rbn := idx_lt hk (mem_range.mp hr')
  have h2 : (i * q + k) * rbn + r = i * (q * rbn) + (k * rbn + r) := by ring
  rw [h2, idx_div h1, idx_mod h1]

theorem rebinLast_arr {n q rbn rem : ℕ} (hrem : rem < rbn) (f : ℕ → ℕ → K) :
    rebinLast (arr n ((q + 1) * rbn + rem) f) rbn
      = .ok (tab n fun i => (∑ j ∈ range (rbn + rem), f i (q * rbn + j)) * ((rbn : K) / ((rbn + rem : ℕ) : K))) := by
  have hr : 0 < rbn := by omega
  have hq : ((q + 1) * rbn + rem) / rbn = q + 1 := by rw [Nat.mul_comm, Nat.mul_add_div hr, Nat.div_eq_of_lt hrem]
  unfold rebinLast
  rw [arr_cols, arr_rows]
  simp only [hq]
  have h0 : ((q + 1 : ℕ) - 1 : ℤ) * (rbn : ℤ) = ((q * rbn : ℕ) : ℤ) := by push_cast; ring
  rw [mapM_tab (g := fun (r : List K) =>
    (npSlice r ((q * rbn : ℕ) : ℤ) r.length).sum * ((rbn : K) / ((rbn + rem : ℕ) : K)))]
  · congr 1
    apply tab_congr
    intro i _
    congr 1
    have hle : q * rbn ≤ (q + 1) * rbn + rem := by rw [Nat.succ_mul]; omega
    have hd : (q + 1) * rbn + rem - q * rbn = rbn + rem := by rw [Nat.succ_mul]; omega
    rw [length_tab, npSlice_of (f i) (sliceIdx_nat hle) (sliceIdx_nat le_rfl) le_rfl hle, hd, sum_tab]
  · intro i _
    have h1 : ((((q + 1) * rbn + rem : ℕ) : ℤ) - ((q * rbn : ℕ) : ℤ) : ℤ) = ((rbn + rem : ℕ) : ℤ) := by push_cast; ring
    have h2 : ((rbn + rem : ℕ) : K) ≠ 0 := by exact_mod_cast (by omega : rbn + rem ≠ 0)
    rw [h0, h1, Int.cast_natCast, fdiv_ok h2, bind_ok]
    rfl

theorem zipWith_snoc {n q : ℕ} (g : ℕ → ℕ → K) (l : ℕ → K) :
    List.zipWith (fun (r : List K) v => r ++ [v]) (tab n fun i => tab q (g i)) (tab n l)
      = tab n fun i => tab (q + 1) fun k => if k < q then g i k else l i := by
  have hz : ∀ (L : List ℕ) (a : ℕ → List K) (b : ℕ → K),
      List.zipWith (fun (r : List K) v => r ++ [v]) (L.map a) (L.map b) = L.map fun i => a i ++ [b i] := by
    intro L a b
    induction L with
    | nil => rfl
    | cons x L ih => simp [ih]
  unfold tab
  rw [hz]
  apply List.map_congr_left
  intro i _
  rw [List.range_succ, List.map_append]
  congr 1
  · apply List.map_congr_left
    intro k hk
    rw [if_pos (List.mem_range.mp hk)]
  · simp

theorem rebinIndividable_arr {n q rbn rem : ℕ} (hrem : rem < rbn) (f : ℕ → ℕ → K) :
    rebinIndividable (arr n ((q + 1) * rbn + rem) f) rbn
      = .ok (arr n (q + 2) fun i k =>
          if k < q + 1 then ∑ r ∈ range rbn, f i (k * rbn + r)
          else (∑ j ∈ range (rbn + rem), f i (q * rbn + j)) * ((rbn : K) / ((rbn + rem : ℕ) : K))) := by
  have hr : 0 < rbn := by omega
  have hq : ((q + 1) * rbn + rem) / rbn = q + 1 := by rw [Nat.mul_comm, Nat.mul_add_div hr, Nat.div_eq_of_lt hrem]
  unfold rebinIndividable
  rw [arr_cols]
  simp only [hq]
  have h0 : sliceIdx ((q + 1) * rbn + rem) 0 = 0 := sliceIdx_nat (i := 0) (Nat.zero_le _)
  rw [sliceCols_arr f h0 (sliceIdx_nat (by omega)) (by omega) (Nat.zero_le _), Nat.sub_zero, rebinDividable_arr hr, bind_ok,
    rebinLast_arr hrem, bind_ok]
  simp only [Nat.zero_add, arr_rows, zipWith_snoc]
  rfl

/-- fewer bins than the rebin factor -/
theorem rebinIndividable_small {n rbn m : ℕ} (h : m < rbn) (f : ℕ → ℕ → K) :
    rebinIndividable (arr n m f) rbn
      = .ok (arr n 1 fun i _ => (∑ j ∈ range m, f i j) * ((rbn : K) / ((m + rbn : ℕ) : K))) := by
  have hr : 0 < rbn := by omega
  have hq : m / rbn = 0 := Nat.div_eq_of_lt h
  unfold rebinIndividable rebinLast
  rw [arr_cols]
  simp only [hq, Nat.zero_mul]
  have h0 : sliceIdx m ((0 : ℕ) : ℤ) = 0 := sliceIdx_nat (Nat.zero_le _)
  have h0' : sliceIdx m 0 = 0 := sliceIdx_nat (i := 0) (Nat.zero_le _)
  rw [sliceCols_arr f h0' h0 (Nat.zero_le _) le_rfl]
  have hz : (arr n (0 - 0) fun i j => f i (0 + j)) = arr n (0 * rbn) f := arr_ext rfl (by simp) (by intro i j _ hj; omega)
  rw [hz, rebinDividable_arr hr, bind_ok, arr_rows]
  rw [mapM_tab (g := fun (r : List K) => (npSlice r (-(rbn : ℤ)) r.length).sum * ((rbn : K) / ((m + rbn : ℕ) : K)))]
  · rw [bind_ok]
    simp only [arr_rows, zipWith_snoc]
    unfold arr
    rw [pure_eq_ok]
    congr 2
    apply tab_congr
    intro i _
    apply tab_congr
    intro k _
    rw [if_neg (by omega), length_tab]
    congr 1
    have hs : sliceIdx m (-(rbn : ℤ)) = 0 := by rw [sliceIdx_neg hr]; omega
    rw [npSlice_of (f i) hs (sliceIdx_nat le_rfl) le_rfl (Nat.zero_le _), sum_tab]
    simp
  · intro i _
    have h1 : (((m : ℕ) : ℤ) - (((0 : ℕ) : ℤ) - 1) * (rbn : ℤ) : ℤ) = ((m + rbn : ℕ) : ℤ) := by push_cast; ring
    have h2 : ((m + rbn : ℕ) : K) ≠ 0 := by exact_mod_cast (by omega : m + rbn ≠ 0)
    have h3 : ((((0 : ℕ) : ℤ) - 1) * (rbn : ℤ) : ℤ) = -(rbn : ℤ) := by push_cast; ring
    rw [h1, h3, Int.cast_natCast, fdiv_ok h2, bind_ok]
    rfl

/-! ### minima, maxima, cuts -/

theorem foldl_min_le (l : List K) (a : K) :
    l.foldl (fun m v => if v < m then v else m) a ≤ a ∧ ∀ v ∈ l, l.foldl (fun m v => if v < m then v else m) a ≤ v := by
  induction l generalizing a with
  | nil => simp
  | cons b l ih =>
    simp only [List.foldl_cons]
    obtain ⟨h1, h2⟩ := ih (if b < a then b else a)
    have hb : (if b < a then b else a) ≤ b ∧ (if b < a then b else a) ≤ a := by
      split
      · rename_i h; exact ⟨le_rfl, h.le⟩
      · rename_i h; exact ⟨not_lt.mp h, le_rfl⟩
    refine ⟨h1.trans hb.2, ?_⟩
    intro v hv
    rcases List.mem_cons.mp hv with rfl | hv
    · exact h1.trans hb.1
    · exact h2 v hv

theorem foldl_min_mem (l : List K) (a : K) : l.foldl (fun m v => if v < m then v else m) a ∈ a :: l := by
  induction l generalizing a with
  | nil => simp
  | cons b l ih =>
    simp only [List.foldl_cons]
    have h := ih (if b < a then b else a)
    rcases List.mem_cons.mp h with h | h
    · rw [h]; split <;> simp
    · simp [h]

theorem npMin_spec {l : List K} (h : l ≠ []) : ∃ m, npMin l = .ok m ∧ m ∈ l ∧ ∀ v ∈ l, m ≤ v := by
  cases l with
  | nil => exact absurd rfl h
  | cons a l =>
    refine ⟨_, rfl, foldl_min_mem l a, ?_⟩
    intro v hv
    obtain ⟨h1, h2⟩ := foldl_min_le l a
    rcases List.mem_cons.mp hv with rfl | hv
    · exact h1
    · exact h2 v hv

theorem foldl_max_le (l : List K) (a : K) :
    a ≤ l.foldl (fun m v => if m < v then v else m) a ∧ ∀ v ∈ l, v ≤ l.foldl (fun m v => if m < v then v else m) a := by
  induction l generalizing a with
  | nil => simp
  | cons b l ih =>
    simp only [List.foldl_cons]
    obtain ⟨h1, h2⟩ := ih (if a < b then b else a)
    have hb : b ≤ (if a < b then b else a) ∧ a ≤ (if a < b then b else a) := by
      split
      · rename_i h; exact ⟨le_rfl, h.le⟩
      · rename_i h; exact ⟨not_lt.mp h, le_rfl⟩
    refine ⟨hb.2.trans h1, ?_⟩
    intro v hv
    rcases List.mem_cons.mp hv with rfl | hv
    · exact hb.1.trans h1
    · exact h2 v hv

theorem foldl_max_mem (l : List K) (a : K) : l.foldl (fun m v => if m < v then v else m) a ∈ a :: l := by
  induction l generalizing a with
  | nil => simp
  | cons b l ih =>
    simp only [List.foldl_cons]
    have h := ih (if a < b then b else a)
    rcases List.mem_cons.mp h with h | h
    · rw [h]; split <;> simp
    · simp [h]

theorem npMax_spec {l : List K} (h : l ≠ []) : ∃ m, Tomo.npMax l = .ok m ∧ m ∈ l ∧ ∀ v ∈ l, v ≤ m := by
  cases l with
  | nil => exact absurd rfl h
  | cons a l =>
    refine ⟨_, rfl, foldl_max_mem l a, ?_⟩
    intro v hv
    obtain ⟨h1, h2⟩ := foldl_max_le l a
    rcases List.mem_cons.mp hv with rfl | hv
    · exact h1
    · exact h2 v hv

theorem absv_eq (x : K) : absv x = |x| := by
  unfold absv
  split
  · rename_i h; exact (abs_of_neg h).symm
  · rename_i h; exact (abs_of_nonneg (not_lt.mp h)).symm

/-- summed absolute difference between the neighbouring bins `j` and `j + 1` -/
def steps (n : ℕ) (f : ℕ → ℕ → K) (j : ℕ) : K := ∑ i ∈ range n, |f i (j + 1) - f i j|

theorem activity_arr (n m : ℕ) (hm : 2 ≤ m) (f : ℕ → ℕ → K) :
    ∃ k, k < m - 1 ∧ (∀ j, j < m - 1 → steps n f k ≤ steps n f j) ∧
      activity (arr n m f) = .ok (tab (m - 1) fun j => steps n f j - steps n f k) := by
  have h1 : ((List.range (m - 1)).mapM fun (j : ℕ) => do
      let s ← (arr n m f).rows.mapM fun (r : List K) => do
        let b ← rd r ((j + 1 : ℕ) : ℤ)
        let a ← rd r (j : ℤ)
        pure (absv (b - a))
      pure s.sum) = (.ok (tab (m - 1) (steps n f)) : M (List K)) := by
    rw [mapM_ok (g := steps n f)]
    · rfl
    · intro j hj
      have hj' := List.mem_range.mp hj
      rw [arr_rows]
      unfold tab
      rw [List.mapM_map, mapM_ok (g := fun i => |f i (j + 1) - f i j|)]
      · rw [bind_ok]
        exact congrArg Except.ok (sum_tab n fun i => |f i (j + 1) - f i j|)
      · intro i _
        have e1 : rd (List.map (f i) (List.range m)) ((j + 1 : ℕ) : ℤ) = .ok (f i (j + 1)) := rd_tab (f i) (by omega)
        have e2 : rd (List.map (f i) (List.range m)) (j : ℤ) = .ok (f i j) := rd_tab (f i) (by omega)
        dsimp only [Function.comp]
        rw [e1, bind_ok, e2, bind_ok, absv_eq]; rfl
  have hne : tab (m - 1) (steps n f) ≠ [] := by
    intro h
    have := congrArg List.length h
    simp at this
    omega
  obtain ⟨mn, e, hmem, hle⟩ := npMin_spec hne
  unfold tab at hmem
  obtain ⟨k, hk, rfl⟩ := List.mem_map.mp hmem
  refine ⟨k, List.mem_range.mp hk, ?_, ?_⟩
  · intro j hj
    apply hle
    unfold tab
    exact List.mem_map.mpr ⟨j, List.mem_range.mpr hj, rfl⟩
  · unfold activity
    rw [arr_cols, h1, bind_ok, e, bind_ok, map_tab]; rfl

theorem argmaxBool_le {l : List Bool} {j : ℕ} (h : l[j]? = some true) : argmaxBool l ≤ j := by
  unfold argmaxBool
  split
  · by_contra hc
    push Not at hc
    have hj : j < l.length := by
      by_contra hn
      rw [List.getElem?_eq_none (by omega)] at h
      cases h
    have := List.not_of_lt_findIdx hc
    rw [List.getElem?_eq_getElem hj] at h
    simp only [Option.some.injEq] at h
    rw [h] at this
    simp at this
  · exact Nat.zero_le _

theorem argmaxBool_pos {l : List Bool} (h : 0 < argmaxBool l) : l[argmaxBool l]? = some true := by
  unfold argmaxBool at *
  by_cases hh : l.any id
  · rw [if_pos hh] at *
    obtain ⟨x, hx, hx'⟩ := List.any_eq_true.mp hh
    have hlt : l.findIdx id < l.length := List.findIdx_lt_length_of_exists ⟨x, hx, hx'⟩
    rw [List.getElem?_eq_getElem hlt]
    have := List.findIdx_getElem (w := hlt)
    simpa using this
  · rw [if_neg hh] at h; omega

theorem argmaxBool_lt {l : List Bool} (h : l ≠ []) : argmaxBool l < l.length := by
  by_cases h0 : 0 < argmaxBool l
  · by_contra hc
    have := argmaxBool_pos h0
    rw [List.getElem?_eq_none (by omega)] at this
    cases this
  · have : 0 < l.length := List.length_pos_iff.mpr h
    omega

theorem cutsOf_spec {L : ℕ} (hL : 1 ≤ L) (d : ℕ → K) (t : K) {margin : ℤ} (hm : 0 ≤ margin) {l r : ℤ}
    (h : cutsOf (L + 1) (tab L d) t margin = (l, r)) :
    (0 ≤ l ∧ l < r ∧ r ≤ (L + 1 : ℕ)) ∧
    (∀ j, j < L → t < d j → l ≤ j ∧ (j : ℤ) + 1 < r) ∧
    (0 < l → ∃ j, j < L ∧ (j : ℤ) = l + margin ∧ t < d j ∧ ∀ i, i < j → ¬ t < d i) ∧
    (r < (L + 1 : ℕ) → ∃ j, j < L ∧ (j : ℤ) + 3 + margin = r ∧ t < d j ∧ ∀ i, j < i → i < L → ¬ t < d i) := by
  unfold cutsOf at h
  rw [map_tab] at h
  dsimp only at h
  set act : List Bool := tab L fun i => decide (t < d i) with hact
  have hlen : act.length = L := by simp [hact]
  have hne : act ≠ [] := by
    intro h0
    have := congrArg List.length h0
    simp [hlen] at this
    omega
  have hget : ∀ j, j < L → act[j]? = some (decide (t < d j)) := by
    intro j hj
    exact some_tab _ hj
  have hrev : ∀ j, j < L → act.reverse[L - 1 - j]? = some (decide (t < d j)) := by
    intro j hj
    rw [List.getElem?_reverse (by rw [hlen]; omega), hlen]
    have : L - 1 - (L - 1 - j) = j := by omega
    rw [this]
    exact hget j hj
  have hne' : act.reverse ≠ [] := by simpa using hne
  have ha : argmaxBool act < L := by have := argmaxBool_lt hne; rwa [hlen] at this
  have hb : argmaxBool act.reverse < L := by have := argmaxBool_lt hne'; rwa [List.length_reverse, hlen] at this
  have hA : ∀ j, j < L → t < d j → argmaxBool act ≤ j := by
    intro j hj ht
    apply argmaxBool_le
    rw [hget j hj]; simp [ht]
  have hB : ∀ j, j < L → t < d j → argmaxBool act.reverse ≤ L - 1 - j := by
    intro j hj ht
    apply argmaxBool_le
    rw [hrev j hj]; simp [ht]
  have hApos : 0 < argmaxBool act → t < d (argmaxBool act) := by
    intro h0
    have := argmaxBool_pos h0
    rw [hget _ ha] at this
    simpa using this
  have hBpos : 0 < argmaxBool act.reverse → t < d (L - 1 - argmaxBool act.reverse) := by
    intro h0
    have := argmaxBool_pos h0
    have e := hrev (L - 1 - argmaxBool act.reverse) (by omega)
    have e2 : L - 1 - (L - 1 - argmaxBool act.reverse) = argmaxBool act.reverse := by omega
    rw [e2] at e
    rw [e] at this
    simpa using this
  generalize argmaxBool act = a at *
  generalize argmaxBool act.reverse = b at *
  have hl := (congrArg Prod.fst h).symm
  have hr := (congrArg Prod.snd h).symm
  dsimp only at hl hr
  refine ⟨?_, ?_, ?_, ?_⟩
  · by_cases hex : ∃ j, j < L ∧ t < d j
    · obtain ⟨j, hj, ht⟩ := hex
      have h1 := hA j hj ht
      have h2 := hB j hj ht
      refine ⟨?_, ?_, ?_⟩
      · rw [hl]; split <;> omega
      · have : l ≤ j := by rw [hl]; split <;> omega
        have : (j : ℤ) < r := by rw [hr]; split <;> omega
        omega
      · rw [hr]; split <;> omega
    · have h1 : a = 0 := by
        by_contra h0
        exact hex ⟨a, ha, hApos (by omega)⟩
      have h2 : b = 0 := by
        by_contra h0
        exact hex ⟨L - 1 - b, by omega, hBpos (by omega)⟩
      subst h1 h2
      rw [if_neg (by omega)] at hl hr
      omega
  · intro j hj ht
    have h1 := hA j hj ht
    have h2 := hB j hj ht
    refine ⟨?_, ?_⟩
    · rw [hl]; split <;> omega
    · rw [hr]; split <;> omega
  · intro h0
    by_cases hc : margin < (a : ℤ)
    · rw [if_pos hc] at hl
      refine ⟨a, ha, by omega, hApos (by omega), ?_⟩
      intro i hi ht
      have := hA i (by omega) ht
      omega
    · rw [if_neg hc] at hl; omega
  · intro h0
    by_cases hc : margin < ((L + 1 : ℕ) : ℤ) - (((L + 1 : ℕ) : ℤ) - (b : ℤ) + 1)
    · rw [if_pos hc] at hr
      refine ⟨L - 1 - b, by omega, by omega, hBpos (by omega), ?_⟩
      intro i hi hi' ht
      have := hB i hi' ht
      omega
    · rw [if_neg hc] at hr; omega

/-! ### filtering -/

theorem steps_eq (n : ℕ) (f : ℕ → ℕ → K) (j : ℕ) : steps n f j = Spec.change n f j := rfl

theorem goodFrames_arr {n m : ℕ} (hn : 0 < n) (f : ℕ → ℕ → K) (hT : 0 < ∑ i ∈ range n, Spec.total m f i)
    {P : ℕ → Bool} (hP : ∀ i, i < n → (P i = true ↔ Spec.Kept n m f i)) :
    goodFrames (arr n m f)
      = .ok (arr n m (fun i j => f i j / ∑ i ∈ range n, Spec.total m f i), (List.range n).map P) := by
  set T := ∑ i ∈ range n, Spec.total m f i with hTdef
  have htot : ((arr n m f).rows.map List.sum).sum = T := by
    rw [arr_rows, map_tab]
    simp only [sum_tab']
    rfl
  have hrows : ((arr n m f).rows.mapM fun (r : List K) => r.mapM fun (v : K) => FDiv.fdiv v T)
      = (.ok (tab n fun i => tab m fun j => f i j / T) : M (List (List K))) := by
    rw [arr_rows, mapM_tab (g := fun (r : List K) => r.map fun v => v / T)]
    · simp only [map_tab]
    · intro i _
      rw [mapM_ok (g := fun v => v / T)]
      intro v _
      exact fdiv_ok hT.ne'
  have hsums : (tab n fun i => tab m fun j => f i j / T).map List.sum = tab n fun i => Spec.total m f i / T := by
    rw [map_tab]
    apply tab_congr
    intro i _
    rw [sum_tab, ← sum_div]
    rfl
  have hne : (tab n fun i => Spec.total m f i / T) ≠ [] := by
    intro h0
    have := congrArg List.length h0
    simp at this
    omega
  obtain ⟨mx, e1, hmx, hmx'⟩ := npMax_spec hne
  obtain ⟨mn, e2, hmn, hmn'⟩ := npMin_spec hne
  unfold tab at hmx hmn
  obtain ⟨a, ha, rfl⟩ := List.mem_map.mp hmx
  obtain ⟨b, hb, rfl⟩ := List.mem_map.mp hmn
  have ha' := List.mem_range.mp ha
  have hb' := List.mem_range.mp hb
  have hmemtab : ∀ c, c < n → Spec.total m f c / T ∈ tab n fun i => Spec.total m f i / T := by
    intro c hc
    unfold tab
    exact List.mem_map.mpr ⟨c, List.mem_range.mpr hc, rfl⟩
  have hnK : (n : K) ≠ 0 := by exact_mod_cast hn.ne'
  unfold goodFrames
  rw [htot]
  dsimp only
  rw [hrows, bind_ok, hsums, e1, bind_ok, e2, bind_ok, length_tab, fdiv_ok hnK, bind_ok, map_tab, pure_eq_ok]
  congr 2
  unfold tab
  apply List.map_congr_left
  intro i hi
  have hi' := List.mem_range.mp hi
  have hsum : (List.map (fun i => Spec.total m f i / T) (List.range n)).sum = T / T := by
    have : (tab n fun i => Spec.total m f i / T).sum = T / T := by rw [sum_tab, ← sum_div]
    exact this
  rw [hsum]
  have key : (Spec.total m f a / T - Spec.total m f b / T - T / T / n < Spec.total m f i / T) ↔ Spec.Kept n m f i := by
    have e : Spec.total m f a / T - Spec.total m f b / T - T / T / n
        = (Spec.total m f a - Spec.total m f b - T / n) / T := by field_simp
    rw [e, div_lt_div_iff_of_pos_right hT]
    constructor
    · intro h c c' hc hc'
      have h1 : Spec.total m f c ≤ Spec.total m f a := (div_le_div_iff_of_pos_right hT).mp (hmx' _ (hmemtab c hc))
      have h2 : Spec.total m f b ≤ Spec.total m f c' := (div_le_div_iff_of_pos_right hT).mp (hmn' _ (hmemtab c' hc'))
      rw [← hTdef]
      linarith
    · intro h
      exact h a b ha' hb'
  by_cases hk : Spec.Kept n m f i
  · rw [(hP i hi').mpr hk]; simp [key.mpr hk]
  · have hpf : P i = false := by
      cases hpi : P i with
      | false => rfl
      | true => exact absurd ((hP i hi').mp hpi) hk
    rw [hpf]
    simp [mt key.mp hk]

theorem maskRows_arr {n m : ℕ} (P : ℕ → Bool) (g : ℕ → ℕ → K) :
    maskRows ((List.range n).map P) (arr n m g) = .ok ⟨m, ((List.range n).filter P).map fun i => tab m (g i)⟩ := by
  unfold maskRows
  rw [arr_rows, maskRow_tab, bind_ok]; rfl

end
end Pre
end Verif

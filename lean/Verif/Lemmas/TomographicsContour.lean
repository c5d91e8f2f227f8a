import Verif.Lemmas.Tomographics
import Verif.Lemmas.Machine
import Verif.Lemmas.PhaseSpaceInfo
import Mathlib.Tactic.LinearCombination

/-! Lemmas on the contours of `utils/tomographics.py`. -/

set_option linter.unusedSectionVars false

namespace Verif.Graph
open Verif.Asrt Verif.Mch Verif.Pre Verif.Post Verif.Spec Finset

variable {K : Type} [Field K] [LinearOrder K] [IsStrictOrderedRing K]

/-! ## `np.interp` stays between the values -/

theorem interpGo_between (x x0 y0 : K) (l : List (K × K)) :
    ∃ a ∈ y0 :: l.map Prod.snd, ∃ b ∈ y0 :: l.map Prod.snd, a ≤ Prog.interpGo x x0 y0 l ∧ Prog.interpGo x x0 y0 l ≤ b := by
  induction l generalizing x0 y0 with
  | nil => exact ⟨y0, by simp, y0, by simp, le_rfl, le_rfl⟩
  | cons q l ih =>
    obtain ⟨x1, y1⟩ := q
    rw [Prog.interpGo]
    split_ifs with h1 h2
    · exact ⟨y0, by simp, y0, by simp, le_rfl, le_rfl⟩
    · have h2 := not_le.mp h2
      have hd : 0 < x1 - x0 := by linarith
      set t := (x - x0) / (x1 - x0) with ht
      have t0 : 0 ≤ t := div_nonneg (by linarith) hd.le
      have t1 : t ≤ 1 := by rw [ht, div_le_one hd]; linarith
      have e : (y1 - y0) / (x1 - x0) * (x - x0) + y0 = y0 + (y1 - y0) * t := by rw [ht]; ring
      rw [e]
      rcases le_total y0 y1 with hy | hy
      · exact ⟨y0, by simp, y1, by simp, by nlinarith, by nlinarith⟩
      · exact ⟨y1, by simp, y0, by simp, by nlinarith, by nlinarith⟩
    · obtain ⟨a, ha, b, hb, h⟩ := ih x1 y1
      refine ⟨a, ?_, b, ?_, h⟩
      · exact List.mem_cons_of_mem _ ha
      · exact List.mem_cons_of_mem _ hb

theorem interpAt_between {x r : K} {xs ys : List K} (h : interpAt x xs ys = .ok r) :
    ∃ a ∈ ys, ∃ b ∈ ys, a ≤ r ∧ r ≤ b := by
  unfold interpAt at h
  split_ifs at h with hl
  push Not at hl
  have hz : (xs.zip ys).map Prod.snd = ys := List.map_snd_zip (by omega)
  generalize hq : xs.zip ys = z at h hz
  cases z with
  | nil => cases h
  | cons q l =>
    obtain ⟨x0, y0⟩ := q
    dsimp only at h
    rw [Except.ok.injEq] at h
    rw [← hz]
    split_ifs at h with h1 h2
    · subst h
      have hm : l.getLastD (x0, y0) ∈ (x0, y0) :: l := List.getLastD_mem_cons
      exact ⟨_, List.mem_map_of_mem hm, _, List.mem_map_of_mem hm, le_rfl, le_rfl⟩
    · subst h; exact ⟨_, by simp, _, List.mem_cons_self, le_rfl, le_rfl⟩
    · subst h; exact interpGo_between x x0 y0 l

/-! ## Ends of a contour -/

/-- the left end is before, the right end after the synchronous phase, both within the phases given -/
theorem lengthAtLevel_ends {phis urfs : List K} {phi0 level pr pl : K} (h : lengthAtLevel phis urfs phi0 level = .ok (pr, pl)) :
    pl < phi0 ∧ phi0 < pr ∧ (∃ p ∈ phis, p ≤ pl) ∧ ∃ p ∈ phis, pr ≤ p := by
  unfold lengthAtLevel at h
  dsimp only at h
  obtain ⟨a, h1, h⟩ := bind_inv h
  obtain ⟨b, h2, h⟩ := bind_inv h
  rw [pure_eq_ok, Except.ok.injEq, Prod.mk.injEq] at h
  obtain ⟨rfl, rfl⟩ := h
  obtain ⟨u, hu, w, hw, hu', hw'⟩ := interpAt_between h1
  obtain ⟨u2, hu2, w2, hw2, hu2', hw2'⟩ := interpAt_between h2
  have mem : ∀ q : K × K, q ∈ urfs.zip phis → q.2 ∈ phis := fun q hq => (List.of_mem_zip hq).2
  have left : ∀ x ∈ ((urfs.zip phis).filter fun q => decide (q.2 < phi0)).map fun q => q.2, x ∈ phis ∧ x < phi0 := by
    intro x hx
    obtain ⟨q, hq, rfl⟩ := List.mem_map.mp hx
    rw [List.mem_filter] at hq
    exact ⟨mem q hq.1, by simpa using hq.2⟩
  have right : ∀ x ∈ (((urfs.zip phis).filter fun q => decide (phi0 < q.2)).insertionSort fun a b => a.1 ≤ b.1).map fun q => q.2,
      x ∈ phis ∧ phi0 < x := by
    intro x hx
    obtain ⟨q, hq, rfl⟩ := List.mem_map.mp hx
    rw [List.mem_insertionSort, List.mem_filter] at hq
    exact ⟨mem q hq.1, by simpa using hq.2⟩
  exact ⟨lt_of_le_of_lt hw' (left w hw).2, lt_of_lt_of_le (right u2 hu2).2 hu2', ⟨u, (left u hu).1, hu'⟩, ⟨w2, (right w2 hw2).1, hw2'⟩⟩

theorem filter_tab_lt {α : Type} {n s : ℕ} (hs : s ≤ n) (f : ℕ → α) (P : α → Bool) (h1 : ∀ i, i < s → P (f i) = true)
    (h2 : ∀ i, s ≤ i → i < n → P (f i) = false) : (tab n f).filter P = tab s f := by
  obtain ⟨d, rfl⟩ := Nat.exists_eq_add_of_le hs
  rw [tab_append, List.filter_append, List.filter_eq_self.mpr, List.filter_eq_nil_iff.mpr, List.append_nil]
  · intro a ha
    obtain ⟨i, hi, rfl⟩ := List.mem_map.mp ha
    rw [h2 (s + i) (by omega) (by have := List.mem_range.mp hi; omega)]
    simp
  · intro a ha
    obtain ⟨i, hi, rfl⟩ := List.mem_map.mp ha
    exact h1 i (List.mem_range.mp hi)

theorem filter_tab_ge {α : Type} {n s : ℕ} (hs : s ≤ n) (f : ℕ → α) (P : α → Bool) (h1 : ∀ i, i < s → P (f i) = false)
    (h2 : ∀ i, s ≤ i → i < n → P (f i) = true) : (tab n f).filter P = tab (n - s) fun i => f (s + i) := by
  obtain ⟨d, rfl⟩ := Nat.exists_eq_add_of_le hs
  rw [tab_append, List.filter_append, List.filter_eq_nil_iff.mpr, List.nil_append, List.filter_eq_self.mpr, Nat.add_sub_cancel_left]
  · intro a ha
    obtain ⟨i, hi, rfl⟩ := List.mem_map.mp ha
    exact h2 (s + i) (by omega) (by have := List.mem_range.mp hi; omega)
  · intro a ha
    obtain ⟨i, hi, rfl⟩ := List.mem_map.mp ha
    rw [h1 i (List.mem_range.mp hi)]
    simp

theorem reverse_tab {α : Type} (n : ℕ) (f : ℕ → α) : (tab n f).reverse = tab n fun i => f (n - 1 - i) := by
  apply List.ext_getElem
  · simp
  · intro i h1 h2
    rw [List.getElem_reverse, getElem_tab, getElem_tab, length_tab]

theorem pairwise_tab {α : Type} (R : α → α → Prop) (n : ℕ) (f : ℕ → α) (h : ∀ i j, i < j → j < n → R (f i) (f j)) :
    (tab n f).Pairwise R := by
  rw [List.pairwise_iff_getElem]
  intro i j hi hj hij
  rw [getElem_tab, getElem_tab]
  exact h i j hij (by simpa using hj)

theorem step_mono {n : ℕ} {u : ℕ → K} (h : ∀ k, k + 1 < n → u k < u (k + 1)) : ∀ i j, i < j → j < n → u i < u j := by
  intro i j hij
  induction j with
  | zero => omega
  | succ j ih =>
    intro hj
    rcases Nat.lt_or_eq_of_le (Nat.lt_succ_iff.mp hij) with h' | rfl
    · exact lt_trans (ih h' (by omega)) (h j hj)
    · exact h i hj

/-- `np.interp` of zero in levels that increase -/
theorem interpAt_level {n : ℕ} (u φ : ℕ → K) (level : K) (hu : ∀ k, k + 1 < n → u k < u (k + 1)) {k : ℕ} (hk : k + 1 < n)
    (h1 : u k ≤ level) (h2 : level < u (k + 1)) :
    ∃ z, interpAt 0 (tab n fun i => u i - level) (tab n φ) = .ok z ∧ OnChord φ u k level z ∧ (φ k ≤ φ (k + 1) → φ k ≤ z ∧ z ≤ φ (k + 1))
      ∧ (φ (k + 1) ≤ φ k → φ (k + 1) ≤ z ∧ z ≤ φ k) := by
  obtain ⟨N, rfl⟩ : ∃ N, n = N + 1 := ⟨n - 1, by omega⟩
  have hm := step_mono hu
  rw [interpAt_tab]
  have hN : ¬ u N - level < 0 := by
    rcases Nat.lt_or_eq_of_le (show k + 1 ≤ N by omega) with h | h
    · have := hm (k + 1) N h (by omega); linarith
    · rw [← h]; linarith
  have h0 : ¬ 0 < u 0 - level := by
    rcases Nat.eq_zero_or_pos k with h | h
    · rw [← h]; linarith
    · have := hm 0 k h (by omega); linarith
  rw [if_neg hN, if_neg h0, interpGo_mono (fun i => u i - level) φ (fun k hk => by have := hu k (by omega); linarith) (k := k) (by omega)
    (by linarith) (by linarith)]
  have hd : 0 < u (k + 1) - u k := by have := hu k hk; linarith
  have hd' : u (k + 1) - level - (u k - level) = u (k + 1) - u k := by ring
  rw [hd', zero_sub, neg_sub]
  set t := (level - u k) / (u (k + 1) - u k) with ht
  have t0 : 0 ≤ t := div_nonneg (by linarith) hd.le
  have t1 : t ≤ 1 := by rw [ht, div_le_one hd]; linarith
  have te : t * (u (k + 1) - u k) = level - u k := by rw [ht, div_mul_cancel₀ _ hd.ne']
  refine ⟨_, rfl, ?_, fun h => ⟨by nlinarith, by nlinarith⟩, fun h => ⟨by nlinarith, by nlinarith⟩⟩
  unfold OnChord
  rw [← te]; ring

/-! ## Heights and areas -/

theorem trapz_tab (dx : K) (n : ℕ) (f : ℕ → K) : trapz dx (tab (n + 1) f) = ∑ i ∈ range n, dx * (f i + f (i + 1)) / 2 := by
  induction n generalizing f with
  | zero => rw [Prog.tab_cons]; simp [trapz, tab_zero]
  | succ n ih =>
    rw [Finset.sum_range_succ', ← ih fun i => f (i + 1), Prog.tab_cons, Prog.tab_cons, trapz, ← Prog.tab_cons n (fun i => f (i + 1))]
    ring_nf

theorem height_ok {L : MathLib K} {m : GMach K} {a : At K} {v pl phi h : K} (e : height L m a v pl phi = .ok h) :
    a.gamma0 ≠ 0 ∧ L.pi * m.hNum * a.eta0 ≠ 0 := by
  unfold height at e
  obtain ⟨ig, h1, e⟩ := bind_inv e
  obtain ⟨k, h2, e⟩ := bind_inv e
  constructor
  · intro hz; rw [hz, fdiv_zero] at h1; cases h1
  · intro hz; rw [hz, fdiv_zero] at h2; cases h2

theorem height_eq (L : MathLib K) (m : GMach K) (a : At K) (v pl phi : K) (h1 : a.gamma0 ≠ 0) (h2 : L.pi * m.hNum * a.eta0 ≠ 0) :
    height L m a v pl phi = .ok
      (if m.q * (a.gamma0 - 1 / a.gamma0) * m.eRest / (L.pi * m.hNum * a.eta0)
          * (v * (L.cos phi - L.cos pl) + (phi - pl) * v * L.sin a.phi0) < 0 then 0
        else absv (L.sqrt (m.q * (a.gamma0 - 1 / a.gamma0) * m.eRest / (L.pi * m.hNum * a.eta0)
          * (v * (L.cos phi - L.cos pl) + (phi - pl) * v * L.sin a.phi0)))) := by
  unfold height
  rw [fdiv_ok h1, bind_ok, fdiv_ok h2, bind_ok, pure_eq_ok]

/-- a height computed is a height of the contour -/
theorem isHeight_of {L : MathLib K} (hs : ∀ x, 0 ≤ x → L.sqrt x ^ 2 = x) {k v phi0 pl phi : K} (hk : k ≠ 0) :
    IsHeight L.cos L.sin k v phi0 pl phi
      (if k * (v * (L.cos phi - L.cos pl) + (phi - pl) * v * L.sin phi0) < 0 then 0
        else absv (L.sqrt (k * (v * (L.cos phi - L.cos pl) + (phi - pl) * v * L.sin phi0)))) := by
  set r := k * (v * (L.cos phi - L.cos pl) + (phi - pl) * v * L.sin phi0) with hr
  have key : ∀ e, bucketEnergy L.cos L.sin k v phi0 phi e = bucketEnergy L.cos L.sin k v phi0 pl 0 ↔ e ^ 2 = r := by
    intro e
    unfold bucketEnergy
    have : r / k = v * (L.cos phi - L.cos pl) + (phi - pl) * v * L.sin phi0 := by rw [hr, mul_div_cancel_left₀ _ hk]
    constructor
    · intro h
      have h2 : e ^ 2 / k = r / k := by rw [this]; linear_combination h
      exact (div_left_inj' hk).mp h2
    · intro h
      rw [h, this]
      ring
  split_ifs with hneg
  · refine ⟨le_rfl, Or.inr ⟨rfl, fun e h => ?_⟩⟩
    rw [key] at h
    have := sq_nonneg e
    linarith
  · have hn : 0 ≤ r := not_lt.mp hneg
    have habs : 0 ≤ absv (L.sqrt r) ∧ absv (L.sqrt r) ^ 2 = r := by
      unfold absv
      have := hs r hn
      split_ifs with h
      · exact ⟨by linarith, by linear_combination this⟩
      · exact ⟨not_lt.mp h, by linear_combination this⟩
    exact ⟨habs.1, Or.inl ((key _).mpr habs.2)⟩

theorem npGet_mem {α : Type} {l : List α} {i : Int} {x : α} (h : npGet l i = .ok x) : x ∈ l := by
  unfold npGet at h
  dsimp only at h
  split_ifs at h
  all_goals
    split at h
    · rename_i v hv
      cases h
      exact List.mem_of_getElem? hv
    · cases h

theorem areaOf_tab {m : GMach K} {om A : K} {N n : ℕ} (hN : N = n + 1) (hn : 0 < n) {H φ : ℕ → K}
    (h : areaOf m om (tab N H) (tab N φ) = .ok A) :
    m.hNum * om ≠ 0 ∧ A = 2 / (m.hNum * om) * ∑ j ∈ range n, (φ 1 - φ 0) * (H j + H (j + 1)) / 2 := by
  subst hN
  unfold areaOf at h
  rw [show (1 : Int) = ((1 : ℕ) : Int) from rfl, npGet_tab _ (by omega), bind_ok, show (0 : Int) = ((0 : ℕ) : Int) from rfl,
    npGet_tab _ (by omega), bind_ok] at h
  obtain ⟨q, hq, h⟩ := bind_inv h
  have hz : m.hNum * om ≠ 0 := by
    intro hz; rw [hz, fdiv_zero] at hq; cases hq
  rw [fdiv_ok hz, Except.ok.injEq] at hq
  rw [pure_eq_ok, Except.ok.injEq] at h
  exact ⟨hz, by rw [← h, ← hq, trapz_tab]⟩

end Verif.Graph

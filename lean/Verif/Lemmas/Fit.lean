import Verif.Model.Fit
import Verif.Spec.Fit
import Verif.Lemmas.PreProcess
import Verif.Lemmas.Programs
import Mathlib.Tactic.FieldSimp
import Mathlib.Tactic.LinearCombination
import Mathlib.Tactic.IntervalCases

/-!
# Lemmas about the limits of a bunch
-/

namespace Verif.Fit
open Verif.Pre Verif.Spec Finset

set_option linter.unusedSectionVars false
variable {K : Type} [Field K] [LinearOrder K] [IsStrictOrderedRing K]

/-! ## The search for the edges -/

theorem tangentLow_some {n : ℕ} {f : ℕ → K} {t : K} {i : ℕ} (h1 : 1 ≤ i) (hf : f i < t) :
    ∀ {mb : ℕ}, mb < n → i ≤ mb → (∀ k, i < k → k ≤ mb → t ≤ f k) → tangentLow (tab n f) t mb = .ok (some (i + 1)) := by
  intro mb
  induction mb with
  | zero => intro _ h; omega
  | succ m ih =>
    intro hn hi ha
    unfold tangentLow
    rw [rd_tab f hn, bind_ok]
    rcases Nat.lt_or_ge i (m + 1) with h | h
    · rw [if_neg (not_lt.mpr (ha (m + 1) h le_rfl))]
      exact ih (by omega) (by omega) fun k hk hm => ha k hk (by omega)
    · have : i = m + 1 := by omega
      subst this
      rw [if_pos hf]
      rfl

theorem tangentLow_none {n : ℕ} {f : ℕ → K} {t : K} :
    ∀ {mb : ℕ}, mb < n → (∀ k, 1 ≤ k → k ≤ mb → t ≤ f k) → tangentLow (tab n f) t mb = .ok none := by
  intro mb
  induction mb with
  | zero => intro _ _; rfl
  | succ m ih =>
    intro hn ha
    unfold tangentLow
    rw [rd_tab f hn, bind_ok, if_neg (not_lt.mpr (ha (m + 1) (by omega) le_rfl))]
    exact ih (by omega) fun k hk hm => ha k hk (by omega)

theorem tangentUp_some {n : ℕ} {f : ℕ → K} {t : K} {j : ℕ} (hj : j < n) (hf : f j < t) :
    ∀ {d : ℕ}, d ≤ n → n - d ≤ j → (∀ k, n - d ≤ k → k < j → t ≤ f k) →
      tangentUp (tab n f) t n d = .ok (some ((j : ℤ) - 1)) := by
  intro d
  induction d with
  | zero => intro _ h; omega
  | succ d ih =>
    intro hn hi ha
    unfold tangentUp
    dsimp only
    rw [rd_tab f (show n - (d + 1) < n by omega), bind_ok]
    rcases Nat.lt_or_ge (n - (d + 1)) j with h | h
    · rw [if_neg (not_lt.mpr (ha _ le_rfl h))]
      exact ih (by omega) (by omega) fun k hk hm => ha k (by omega) hm
    · have : j = n - (d + 1) := by omega
      subst this
      rw [if_pos hf]
      rfl

theorem tangentUp_none {n : ℕ} {f : ℕ → K} {t : K} :
    ∀ {d : ℕ}, d ≤ n → (∀ k, n - d ≤ k → k < n → t ≤ f k) → tangentUp (tab n f) t n d = .ok none := by
  intro d
  induction d with
  | zero => intro _ _; rfl
  | succ d ih =>
    intro hn ha
    unfold tangentUp
    dsimp only
    rw [rd_tab f (show n - (d + 1) < n by omega), bind_ok, if_neg (not_lt.mpr (ha _ le_rfl (by omega)))]
    exact ih (by omega) fun k hk hm => ha k (by omega) hm

theorem npMax_peak {n p : ℕ} {f : ℕ → K} (h : Peak n f p) : Tomo.npMax (tab n f) = .ok (f p) := by
  have h0 : tab n f ≠ [] := by
    intro e; have := congrArg List.length e; have := h.lt; simp at *; omega
  obtain ⟨m, h1, h2, h3⟩ := npMax_spec h0
  rw [h1]
  unfold tab at h2 h3
  obtain ⟨k, hk, rfl⟩ := List.mem_map.mp h2
  have := h3 (f p) (List.mem_map.mpr ⟨p, List.mem_range.mpr h.lt, rfl⟩)
  exact congrArg _ (le_antisymm (h.le k (List.mem_range.mp hk)) this)

theorem npArgmax_peak {n p : ℕ} {f : ℕ → K} (h : Peak n f p) : npArgmax (tab n f) = .ok p := by
  unfold npArgmax
  rw [npMax_peak h, bind_ok]
  refine congrArg _ ?_
  rw [List.findIdx_eq (by simpa using h.lt)]
  refine ⟨by simp, fun k hk => ?_⟩
  have : k < n := by have := h.lt; omega
  simpa using h.first k hk

theorem exists_peak {n : ℕ} {f : ℕ → K} (hn : 0 < n) (h0 : ∃ k, k < n ∧ 0 ≤ f k) : ∃ p, Peak n f p := by
  classical
  obtain ⟨q, hq, hmax⟩ := Finset.exists_max_image (range n) f ⟨0, by simpa using hn⟩
  have hex : ∃ k, k < n ∧ f k = f q := ⟨q, by simpa using hq, rfl⟩
  obtain ⟨k, hk, hk0⟩ := h0
  refine ⟨Nat.find hex, (Nat.find_spec hex).1, ?_, ?_, ?_⟩
  · rw [(Nat.find_spec hex).2]; exact le_trans hk0 (hmax k (by simpa using hk))
  · intro k hk; rw [(Nat.find_spec hex).2]; exact hmax k (by simpa using hk)
  · intro k hk
    have h1 := Nat.find_min hex hk
    have h2 := (Nat.find_spec hex).1
    rw [(Nat.find_spec hex).2]
    refine lt_of_le_of_ne (hmax k (by simpa using show k < n by omega)) fun e => h1 ⟨by omega, e⟩

theorem peak_self {n p : ℕ} {f : ℕ → K} (h : Peak n f p) : 15 / 100 * f p ≤ f p := by
  have := h.nonneg; linarith

/-- outcome of the search on either side -/
theorem left_cases {n p : ℕ} {f : ℕ → K} (h : Peak n f p) :
    (∃ i, LeftEdge f p i) ∨ (∀ k, 1 ≤ k → k ≤ p → 15 / 100 * f p ≤ f k) := by
  classical
  by_cases hx : ∃ k, 1 ≤ k ∧ k ≤ p ∧ f k < 15 / 100 * f p
  · left
    have hex : ∃ d, 1 ≤ p - d ∧ p - d ≤ p ∧ f (p - d) < 15 / 100 * f p := by
      obtain ⟨k, a, b, c⟩ := hx
      exact ⟨p - k, by omega, by omega, by rwa [show p - (p - k) = k by omega]⟩
    obtain ⟨a, b, c⟩ := Nat.find_spec hex
    refine ⟨p - Nat.find hex, a, ?_, c, ?_⟩
    · refine lt_of_le_of_ne b fun e => ?_
      rw [e] at c
      exact absurd c (not_lt.mpr (peak_self h))
    · intro k hk hp
      by_contra hlt
      refine Nat.find_min hex (m := p - k) (by omega) ⟨by omega, by omega, ?_⟩
      rw [show p - (p - k) = k by omega]
      exact not_le.mp hlt
  · right
    intro k h1 h2
    by_contra hlt
    exact hx ⟨k, h1, h2, not_le.mp hlt⟩

theorem right_cases {n p : ℕ} {f : ℕ → K} (h : Peak n f p) :
    (∃ j, RightEdge n f p j) ∨ (∀ k, p ≤ k → k < n → 15 / 100 * f p ≤ f k) := by
  classical
  by_cases hx : ∃ k, p ≤ k ∧ k < n ∧ f k < 15 / 100 * f p
  · left
    obtain ⟨a, b, c⟩ := Nat.find_spec hx
    refine ⟨Nat.find hx, ?_, b, c, ?_⟩
    · refine lt_of_le_of_ne a fun e => ?_
      rw [← e] at c
      exact absurd c (not_lt.mpr (peak_self h))
    · intro k hk hp
      by_contra hlt
      exact Nat.find_min hx hp ⟨hk, by omega, not_le.mp hlt⟩
  · right
    intro k h1 h2
    by_contra hlt
    exact hx ⟨k, h1, h2, not_le.mp hlt⟩

theorem tangentBins_ok {n p i j : ℕ} {f : ℕ → K} (h : Peak n f p) (hi : LeftEdge f p i) (hj : RightEdge n f p j) :
    tangentBins (tab n f) = .ok ((j : ℤ) - 1, i + 1) := by
  unfold tangentBins
  have hp := h.lt
  rw [npMax_peak h, bind_ok, npArgmax_peak h, bind_ok, tangentLow_some hi.pos hi.below hp hi.lt.le hi.above, bind_ok,
    length_tab, tangentUp_some hj.lt hj.below (by omega) (by have := hj.gt; omega)
      (fun k hk hl => hj.above k (by omega) hl), bind_ok]
  rfl

theorem tangentBins_left {n p : ℕ} {f : ℕ → K} (h : Peak n f p) (hi : ∀ k, 1 ≤ k → k ≤ p → 15 / 100 * f p ≤ f k) :
    tangentBins (tab n f) = .error (.exc .unboundLocalError) := by
  unfold tangentBins
  have hp := h.lt
  rw [npMax_peak h, bind_ok, npArgmax_peak h, bind_ok, tangentLow_none hp hi, bind_ok, length_tab]
  rcases right_cases h with ⟨j, hj⟩ | hj
  · rw [tangentUp_some hj.lt hj.below (by omega) (by have := hj.gt; omega)
      (fun k hk hl => hj.above k (by omega) hl)]
    rfl
  · rw [tangentUp_none (by omega) (fun k hk hl => hj k (by omega) hl)]
    rfl

theorem tangentBins_right {n p : ℕ} {f : ℕ → K} (h : Peak n f p) (hj : ∀ k, p ≤ k → k < n → 15 / 100 * f p ≤ f k) :
    tangentBins (tab n f) = .error (.exc .unboundLocalError) := by
  unfold tangentBins
  have hp := h.lt
  rw [npMax_peak h, bind_ok, npArgmax_peak h, bind_ok, length_tab,
    tangentUp_none (by omega) (fun k hk hl => hj k (by omega) hl)]
  rcases left_cases h with ⟨i, hi⟩ | hi
  · rw [tangentLow_some hi.pos hi.below hp hi.lt.le hi.above]; rfl
  · rw [tangentLow_none hp hi]; rfl

/-! ## Lines through three and four bins -/

/-- slope of the line through the bins `a, …, a+3` -/
def slope4 (f : ℕ → K) (a : ℕ) : K := (-3 * f a - f (a + 1) + f (a + 2) + 3 * f (a + 3)) / 10
def mean4 (f : ℕ → K) (a : ℕ) : K := (f a + f (a + 1) + f (a + 2) + f (a + 3)) / 4
/-- slope of the line through the bins `a, a+1, a+2` -/
def slope3 (f : ℕ → K) (a : ℕ) : K := (f (a + 2) - f a) / 2
def mean3 (f : ℕ → K) (a : ℕ) : K := (f a + f (a + 1) + f (a + 2)) / 3

theorem fdiv_of {a b c : K} (hb : b ≠ 0) (h : a = c * b) : FDiv.fdiv a b = .ok c := by
  rw [fdiv_ok hb, h, mul_div_cancel_right₀ _ hb]

theorem polyfit_four (f : ℕ → K) (a : ℕ) :
    polyfit1 (tab 4 fun k => (((a + k : ℕ) : K)) + 1 / 2) (tab 4 fun k => f (a + k))
      = .ok (slope4 f a, mean4 f a - slope4 f a * (a + 2)) := by
  unfold polyfit1
  rw [if_neg (by simp [tab])]
  have e : ∀ g : ℕ → K, tab 4 g = [g 0, g 1, g 2, g 3] := fun g => rfl
  rw [e, e]
  simp only [List.length_cons, List.length_nil, List.sum_cons, List.sum_nil, List.map_cons, List.map_nil,
    List.zipWith_cons_cons, List.zipWith_nil_left, Nat.add_zero]
  rw [fdiv_of (c := slope4 f a), bind_ok, fdiv_of (c := mean4 f a - slope4 f a * (a + 2)), bind_ok, pure_eq_ok]
  · norm_num
  · unfold slope4 mean4; push_cast; ring
  · have : (20 : K) ≠ 0 := by norm_num
    convert this using 1
    push_cast; ring
  · unfold slope4; push_cast; ring

theorem polyfit_three (f : ℕ → K) (a : ℕ) :
    polyfit1 (tab 3 fun k => (((a + k : ℕ) : K)) + 1 / 2) (tab 3 fun k => f (a + k))
      = .ok (slope3 f a, mean3 f a - slope3 f a * (a + 3 / 2)) := by
  unfold polyfit1
  rw [if_neg (by simp [tab])]
  have e : ∀ g : ℕ → K, tab 3 g = [g 0, g 1, g 2] := fun g => rfl
  rw [e, e]
  simp only [List.length_cons, List.length_nil, List.sum_cons, List.sum_nil, List.map_cons, List.map_nil,
    List.zipWith_cons_cons, List.zipWith_nil_left, Nat.add_zero]
  rw [fdiv_of (c := slope3 f a), bind_ok, fdiv_of (c := mean3 f a - slope3 f a * (a + 3 / 2)), bind_ok, pure_eq_ok]
  · norm_num
  · unfold slope3 mean3; push_cast; ring
  · have : (6 : K) ≠ 0 := by norm_num
    convert this using 1
    push_cast; ring
  · unfold slope3; push_cast; ring

/-! ## The feet -/

/-- position of the lower foot -/
def footLow (f : ℕ → K) (i : ℕ) : K := (i + 1) - mean4 f (i - 1) / slope4 f (i - 1)

/-- slope of the line at the upper edge -/
def slopeUp (n : ℕ) (f : ℕ → K) (j : ℕ) : K := if j + 1 = n then slope3 f (j - 2) else slope4 f (j - 2)

/-- position of the upper foot -/
def footUp (n : ℕ) (f : ℕ → K) (j : ℕ) : K :=
  if j + 1 = n then (j - 1 / 2) - mean3 f (j - 2) / slope3 f (j - 2) else j - mean4 f (j - 2) / slope4 f (j - 2)

theorem foot_of {s m x : K} (hs : s ≠ 0) : FDiv.fdiv (-1 * (m - s * x)) s = .ok (x - m / s) := by
  rw [fdiv_ok hs]
  congr 1
  field_simp
  ring

theorem tangentFeet_ok {n p i j : ℕ} {f : ℕ → K} (h : Peak n f p) (hi : LeftEdge f p i) (hj : RightEdge n f p j) :
    tangentFeet (tab n f) = if slope4 f (i - 1) = 0 ∨ slopeUp n f j = 0 then .error .nonFinite
      else .ok (footUp n f j, footLow f i) := by
  unfold tangentFeet
  rw [length_tab]
  dsimp only
  rw [tangentBins_ok h hi hj, bind_ok]
  dsimp only
  have hlow : ∀ g : ℕ → K, npSlice (tab n g) (((i + 1 : ℕ) : ℤ) - 2) (((i + 1 : ℕ) : ℤ) + 2) = tab 4 fun k => g (i - 1 + k) := by
    intro g
    have h1 := hi.pos; have h2 := hi.lt; have h3 := hj.gt; have h4 := hj.lt
    have := npSlice_of (n := n) (a := i - 1) (b := i + 3) g (lo := ((i + 1 : ℕ) : ℤ) - 2) (hi := ((i + 1 : ℕ) : ℤ) + 2)
      (by rw [show ((i + 1 : ℕ) : ℤ) - 2 = ((i - 1 : ℕ) : ℤ) by omega]; exact sliceIdx_nat (by omega))
      (by rw [show ((i + 1 : ℕ) : ℤ) + 2 = ((i + 3 : ℕ) : ℤ) by omega]; exact sliceIdx_nat (by omega)) (by omega) (by omega)
    rw [this, show i + 3 - (i - 1) = 4 by omega]
  rw [hlow, hlow, polyfit_four, bind_ok]
  dsimp only
  have h1 := hi.pos; have h2 := hi.lt; have h3 := hj.gt; have h4 := hj.lt
  have ei : (((i - 1 : ℕ) : K)) + 2 = i + 1 := by rw [Nat.cast_sub h1]; push_cast; ring
  rw [ei]
  have ej : (((j - 2 : ℕ) : K)) = j - 2 := by rw [Nat.cast_sub (by omega)]; push_cast; ring
  have hzero : ∀ x : K, FDiv.fdiv x (0 : K) = .error .nonFinite := fun x => fdiv_zero x
  by_cases hn : j + 1 = n
  · have hup : ∀ g : ℕ → K, npSlice (tab n g) ((j : ℤ) - 1 - 1) ((j : ℤ) - 1 + 3) = tab 3 fun k => g (j - 2 + k) := by
      intro g
      have := npSlice_of (n := n) (a := j - 2) (b := n) g (lo := (j : ℤ) - 1 - 1) (hi := (j : ℤ) - 1 + 3)
        (by rw [show (j : ℤ) - 1 - 1 = ((j - 2 : ℕ) : ℤ) by omega]; exact sliceIdx_nat (by omega))
        (by unfold sliceIdx; rw [if_neg (by omega)]; omega) (by omega) (by omega)
      rw [this, show n - (j - 2) = 3 by omega]
    rw [hup, hup, polyfit_three, bind_ok]
    dsimp only
    unfold slopeUp footUp footLow
    rw [if_pos hn, if_pos hn, ej]
    by_cases hs : slope4 f (i - 1) = 0
    · rw [if_pos (Or.inl hs), hs, hzero]; rfl
    · rw [foot_of hs, bind_ok]
      by_cases hu : slope3 f (j - 2) = 0
      · rw [if_pos (Or.inr hu), hu, hzero]; rfl
      · rw [foot_of hu, bind_ok, if_neg (by tauto), pure_eq_ok]
        congr 2; ring
  · have hup : ∀ g : ℕ → K, npSlice (tab n g) ((j : ℤ) - 1 - 1) ((j : ℤ) - 1 + 3) = tab 4 fun k => g (j - 2 + k) := by
      intro g
      have := npSlice_of (n := n) (a := j - 2) (b := j + 2) g (lo := (j : ℤ) - 1 - 1) (hi := (j : ℤ) - 1 + 3)
        (by rw [show (j : ℤ) - 1 - 1 = ((j - 2 : ℕ) : ℤ) by omega]; exact sliceIdx_nat (by omega))
        (by rw [show (j : ℤ) - 1 + 3 = ((j + 2 : ℕ) : ℤ) by omega]; exact sliceIdx_nat (by omega)) (by omega) (by omega)
      rw [this, show j + 2 - (j - 2) = 4 by omega]
    rw [hup, hup, polyfit_four, bind_ok]
    dsimp only
    unfold slopeUp footUp footLow
    rw [if_neg hn, if_neg hn, ej]
    by_cases hs : slope4 f (i - 1) = 0
    · rw [if_pos (Or.inl hs), hs, hzero]; rfl
    · rw [foot_of hs, bind_ok]
      by_cases hu : slope4 f (j - 2) = 0
      · rw [if_pos (Or.inr hu), hu, hzero]; rfl
      · rw [foot_of hu, bind_ok, if_neg (by tauto), pure_eq_ok]
        congr 2; ring

/-! ## Least squares -/

theorem residual_add (f : ℕ → K) (a k : ℕ) (s c : K) :
    residual f a (a + k) s c = ∑ r ∈ range k, (f (a + r) - (s * (((a + r : ℕ) : K) + 1 / 2) + c)) ^ 2 := by
  unfold residual
  rw [Finset.sum_Ico_eq_sum_range, Nat.add_sub_cancel_left]

/-- a line whose residuals are orthogonal to constants and to the abscissa is the only best one -/
theorem least_iff {k : ℕ} (hk : 2 ≤ k) (x y : ℕ → K) (hx : x 0 ≠ x 1) {s c : K}
    (h0 : ∑ r ∈ range k, (y r - (s * x r + c)) = 0) (h1 : ∑ r ∈ range k, (y r - (s * x r + c)) * x r = 0) (s' c' : K) :
    (∑ r ∈ range k, (y r - (s * x r + c)) ^ 2 ≤ ∑ r ∈ range k, (y r - (s' * x r + c')) ^ 2) ∧
    (∑ r ∈ range k, (y r - (s' * x r + c')) ^ 2 ≤ ∑ r ∈ range k, (y r - (s * x r + c)) ^ 2 → s' = s ∧ c' = c) := by
  have key : ∑ r ∈ range k, (y r - (s' * x r + c')) ^ 2 = ∑ r ∈ range k, (y r - (s * x r + c)) ^ 2
      + ∑ r ∈ range k, ((s' - s) * x r + (c' - c)) ^ 2 := by
    have : ∀ r, (y r - (s' * x r + c')) ^ 2 = (y r - (s * x r + c)) ^ 2 + ((s' - s) * x r + (c' - c)) ^ 2
        + (-2 * (s' - s)) * ((y r - (s * x r + c)) * x r) + (-2 * (c' - c)) * (y r - (s * x r + c)) := fun r => by ring
    simp only [this, Finset.sum_add_distrib, ← Finset.mul_sum, h0, h1]
    ring
  have hnn : 0 ≤ ∑ r ∈ range k, ((s' - s) * x r + (c' - c)) ^ 2 := Finset.sum_nonneg fun r _ => sq_nonneg _
  refine ⟨by linarith, fun h => ?_⟩
  have hz : ∑ r ∈ range k, ((s' - s) * x r + (c' - c)) ^ 2 = 0 := by linarith
  rw [Finset.sum_eq_zero_iff_of_nonneg fun r _ => sq_nonneg _] at hz
  have e0 := pow_eq_zero_iff (two_ne_zero) |>.mp (hz 0 (by simp; omega))
  have e1 := pow_eq_zero_iff (two_ne_zero) |>.mp (hz 1 (by simp; omega))
  have hs : (s' - s) * (x 0 - x 1) = 0 := by linear_combination e0 - e1
  have hs' : s' - s = 0 := by
    rcases mul_eq_zero.mp hs with h | h
    · exact h
    · exact absurd (sub_eq_zero.mp h) hx
  refine ⟨sub_eq_zero.mp hs', ?_⟩
  rw [hs', zero_mul, zero_add] at e0
  exact sub_eq_zero.mp e0

/-- for a line with orthogonal residuals, its zero is the foot -/
theorem isFoot_iff {k : ℕ} (hk : 2 ≤ k) (f : ℕ → K) (a : ℕ) {s c : K}
    (h0 : ∑ r ∈ range k, (f (a + r) - (s * (((a + r : ℕ) : K) + 1 / 2) + c)) = 0)
    (h1 : ∑ r ∈ range k, (f (a + r) - (s * (((a + r : ℕ) : K) + 1 / 2) + c)) * (((a + r : ℕ) : K) + 1 / 2) = 0) (x : K) :
    IsFoot f a (a + k) x ↔ s ≠ 0 ∧ s * x + c = 0 := by
  have hx : (((a + 0 : ℕ) : K) + 1 / 2) ≠ (((a + 1 : ℕ) : K) + 1 / 2) := by
    intro e
    push_cast at e
    have : (0 : K) = 1 := by linear_combination e
    exact zero_ne_one this
  have L := least_iff hk (fun r => ((a + r : ℕ) : K) + 1 / 2) (fun r => f (a + r)) hx h0 h1
  constructor
  · rintro ⟨s', c', hs, hl, hz⟩
    have := hl s c
    rw [residual_add, residual_add] at this
    obtain ⟨rfl, rfl⟩ := (L s' c').2 this
    exact ⟨hs, hz⟩
  · rintro ⟨hs, hz⟩
    refine ⟨s, c, hs, fun s' c' => ?_, hz⟩
    rw [residual_add, residual_add]
    exact (L s' c').1

theorem zero_iff {s m x y : K} (hs : s ≠ 0) : s * x + (m - s * y) = 0 ↔ x = y - m / s := by
  constructor
  · intro h
    rw [eq_sub_iff_add_eq, ← eq_sub_iff_add_eq', div_eq_iff hs]
    linear_combination h
  · rintro rfl
    field_simp
    ring

theorem isFoot_four (f : ℕ → K) (a : ℕ) (x : K) :
    IsFoot f a (a + 4) x ↔ slope4 f a ≠ 0 ∧ x = (a + 2) - mean4 f a / slope4 f a := by
  rw [isFoot_iff (by norm_num) f a (s := slope4 f a) (c := mean4 f a - slope4 f a * (a + 2))]
  · exact and_congr_right fun hs => zero_iff hs
  · simp only [Finset.sum_range_succ, Finset.sum_range_zero, Nat.add_zero]
    unfold slope4 mean4; push_cast; ring
  · simp only [Finset.sum_range_succ, Finset.sum_range_zero, Nat.add_zero]
    unfold slope4 mean4; push_cast; ring

theorem isFoot_three (f : ℕ → K) (a : ℕ) (x : K) :
    IsFoot f a (a + 3) x ↔ slope3 f a ≠ 0 ∧ x = (a + 3 / 2) - mean3 f a / slope3 f a := by
  rw [isFoot_iff (by norm_num) f a (s := slope3 f a) (c := mean3 f a - slope3 f a * (a + 3 / 2))]
  · exact and_congr_right fun hs => zero_iff hs
  · simp only [Finset.sum_range_succ, Finset.sum_range_zero, Nat.add_zero]
    unfold slope3 mean3; push_cast; ring
  · simp only [Finset.sum_range_succ, Finset.sum_range_zero, Nat.add_zero]
    unfold slope3 mean3; push_cast; ring

theorem edge_unique_left {f : ℕ → K} {p i i' : ℕ} (h : LeftEdge f p i) (h' : LeftEdge f p i') : i = i' := by
  rcases Nat.lt_trichotomy i i' with hl | he | hl
  · exact absurd (h.above i' hl h'.lt.le) (not_le.mpr h'.below)
  · exact he
  · exact absurd (h'.above i hl h.lt.le) (not_le.mpr h.below)

theorem edge_unique_right {n : ℕ} {f : ℕ → K} {p j j' : ℕ} (h : RightEdge n f p j) (h' : RightEdge n f p j') : j = j' := by
  rcases Nat.lt_trichotomy j j' with hl | he | hl
  · exact absurd (h'.above j h.gt.le hl) (not_le.mpr h.below)
  · exact he
  · exact absurd (h.above j' h'.gt.le hl) (not_le.mpr h'.below)

/-! ## Rescaling the profile -/

theorem npMax_scale {c : K} (hc : 0 < c) (p : List K) :
    Tomo.npMax (p.map fun v => c * v) = (Tomo.npMax p).map fun m => c * m := by
  cases p with
  | nil => rfl
  | cons a l =>
    show Except.ok _ = Except.ok _
    congr 1
    rw [List.foldl_map]
    induction l generalizing a with
    | nil => rfl
    | cons b l ih =>
      rw [List.foldl_cons, List.foldl_cons, ← ih]
      congr 1
      by_cases h : a < b
      · rw [if_pos h, if_pos (by nlinarith)]
      · rw [if_neg h, if_neg (by rw [not_lt] at *; nlinarith)]

theorem rd_scale (c : K) (p : List K) (i : ℤ) : rd (p.map fun v => c * v) i = (rd p i).map fun v => c * v := by
  unfold rd
  split
  · rw [List.getElem?_map]
    cases p[i.toNat]? <;> rfl
  · rfl

theorem tangentLow_scale {c : K} (hc : 0 < c) (p : List K) (t : K) (mb : ℕ) :
    tangentLow (p.map fun v => c * v) (c * t) mb = tangentLow p t mb := by
  induction mb with
  | zero => rfl
  | succ m ih =>
    unfold tangentLow
    rw [rd_scale, ih]
    cases rd p ((m + 1 : ℕ) : ℤ) with
    | error e => rfl
    | ok v =>
      show (if c * v < c * t then _ else _) = (if v < t then _ else _)
      by_cases h : v < t
      · rw [if_pos h, if_pos (by nlinarith)]
      · rw [if_neg h, if_neg (by rw [not_lt] at *; nlinarith)]

theorem tangentUp_scale {c : K} (hc : 0 < c) (p : List K) (t : K) (n d : ℕ) :
    tangentUp (p.map fun v => c * v) (c * t) n d = tangentUp p t n d := by
  induction d with
  | zero => rfl
  | succ m ih =>
    unfold tangentUp
    dsimp only
    rw [rd_scale, ih]
    cases rd p ((n - (m + 1) : ℕ) : ℤ) with
    | error e => rfl
    | ok v =>
      show (if c * v < c * t then _ else _) = (if v < t then _ else _)
      by_cases h : v < t
      · rw [if_pos h, if_pos (by nlinarith)]
      · rw [if_neg h, if_neg (by rw [not_lt] at *; nlinarith)]

theorem npArgmax_scale {c : K} (hc : 0 < c) (p : List K) : npArgmax (p.map fun v => c * v) = npArgmax p := by
  unfold npArgmax
  rw [npMax_scale hc]
  cases Tomo.npMax p with
  | error e => rfl
  | ok m =>
    show Except.ok _ = Except.ok _
    rw [List.findIdx_map]
    congr 2
    funext v
    simp [hc]

theorem tangentBins_scale {c : K} (hc : 0 < c) (p : List K) : tangentBins (p.map fun v => c * v) = tangentBins p := by
  unfold tangentBins
  rw [npMax_scale hc, npArgmax_scale hc]
  cases Tomo.npMax p with
  | error e => rfl
  | ok m =>
    show (do let maxbin ← npArgmax p; _) = _
    rw [bind_ok]
    cases npArgmax p with
    | error e => rfl
    | ok b =>
      simp only [bind_ok]
      rw [show 15 / 100 * (c * m) = c * (15 / 100 * m) by ring, tangentLow_scale hc, tangentUp_scale hc, List.length_map]

theorem npSlice_map {α β : Type} (g : α → β) (l : List α) (a b : ℤ) : npSlice (l.map g) a b = (npSlice l a b).map g := by
  unfold npSlice
  simp [List.map_drop, List.map_take]

theorem polyfit1_scale {c : K} (x y : List K) :
    polyfit1 x (y.map fun v => c * v) = (polyfit1 x y).map fun r => (c * r.1, c * r.2) := by
  unfold polyfit1
  split
  · rfl
  · have h1 : (y.map fun v => c * v).sum = c * y.sum := by
      have := List.sum_map_mul_left y (fun v => v) c
      simpa using this
    have h2 : (List.zipWith (fun a b => a * b) x (y.map fun v => c * v)).sum
        = c * (List.zipWith (fun a b => a * b) x y).sum := by
      clear h1
      rename_i h0
      clear h0
      induction x generalizing y with
      | nil => simp
      | cons a x ih =>
        cases y with
        | nil => simp
        | cons b y =>
          simp only [List.map_cons, List.zipWith_cons_cons, List.sum_cons]
          rw [ih]; ring
    dsimp only
    rw [h1, h2]
    generalize (List.zipWith (fun a b => a * b) x y).sum = sxy
    generalize y.sum = sy
    generalize (List.map (fun v => v * v) x).sum = sxx
    generalize x.sum = sx
    generalize (x.length : K) = n
    by_cases hd : n * sxx - sx * sx = 0
    · rw [hd, fdiv_zero, fdiv_zero]; rfl
    · rw [fdiv_ok hd, fdiv_ok hd, bind_ok, bind_ok]
      by_cases hn : n = 0
      · rw [hn, fdiv_zero, fdiv_zero]; rfl
      · rw [fdiv_ok hn, fdiv_ok hn]
        show Except.ok _ = Except.ok _
        congr 2
        · ring
        · ring

theorem fdiv_scale {c : K} (hc : 0 < c) (a b : K) : FDiv.fdiv (-1 * (c * a)) (c * b) = FDiv.fdiv (-1 * a) b := by
  by_cases hb : b = 0
  · rw [hb, mul_zero, fdiv_zero, fdiv_zero]
  · rw [fdiv_ok (mul_ne_zero hc.ne' hb), fdiv_ok hb]
    congr 1
    have := hc.ne'
    field_simp

theorem tangentFeet_scale {c : K} (hc : 0 < c) (p : List K) : tangentFeet (p.map fun v => c * v) = tangentFeet p := by
  unfold tangentFeet
  dsimp only
  rw [tangentBins_scale hc, List.length_map]
  cases tangentBins p with
  | error e => rfl
  | ok r =>
    obtain ⟨up, low⟩ := r
    simp only [bind_ok]
    rw [npSlice_map, npSlice_map, polyfit1_scale, polyfit1_scale]
    cases polyfit1 (npSlice (tab p.length fun i => (i : K) + 1 / 2) ((low : ℤ) - 2) ((low : ℤ) + 2))
        (npSlice p ((low : ℤ) - 2) ((low : ℤ) + 2)) with
    | error e => rfl
    | ok l =>
      cases polyfit1 (npSlice (tab p.length fun i => (i : K) + 1 / 2) (up - 1) (up + 3)) (npSlice p (up - 1) (up + 3)) with
      | error e => rfl
      | ok v =>
        show (FDiv.fdiv (-1 * (c * l.2)) (c * l.1) >>= fun fl => FDiv.fdiv (-1 * (c * v.2)) (c * v.1) >>= fun fu => pure (fu, fl))
          = (FDiv.fdiv (-1 * l.2) l.1 >>= fun fl => FDiv.fdiv (-1 * v.2) v.1 >>= fun fu => pure (fu, fl))
        rw [fdiv_scale hc, fdiv_scale hc]

theorem npGet_map {α β : Type} (g : α → β) (l : List α) (i : ℤ) : npGet (l.map g) i = (npGet l i).map g := by
  unfold npGet
  dsimp only
  rw [List.length_map]
  generalize (if i < 0 then i + (l.length : ℤ) else i) = k
  split
  · rw [List.getElem?_map]
    cases l[k.toNat]? <;> rfl
  · rfl

end Verif.Fit

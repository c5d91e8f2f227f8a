import Verif.Lemmas.Tomographics
import Verif.Spec.Tomographics
import Verif.Lemmas.TomographicsContour
import Verif.Lemmas.Machine
import Mathlib.LinearAlgebra.Lagrange

/-!
# C72–C75 — feet of a profile and beam sizes by `utils/tomographics.py`
-/

set_option linter.unusedSectionVars false

namespace Verif.Props
open Verif.Asrt Verif.Mch Verif.Pre Verif.Post Verif.Spec Verif.Fit Verif.Graph Finset

variable {K : Type} [Field K] [LinearOrder K] [IsStrictOrderedRing K]

/-! ## C72 `foot_tangent_fit` -/

/-- C72, what is computed: with `xl`, `xr` the points where the lines of least squares through the four bins at each edge cross
zero (bin centres at `k + 1/2`), the lower foot is `xl - 1` and the upper one is `xr` moved out by a fifth of its distance from
the upper edge. -/
theorem C72_feet_partial {n p i j : ℕ} {f : ℕ → K} (hp : Peak n f p) (hi : LeftEdge f p i) (hj : RightEdge n f p j)
    (hn : j + 1 < n) {xl xr : K} (hl : IsFoot f (i - 1) (i + 3) xl) (hr : IsFoot f (j - 2) (j + 2) xr) (dx : K) :
    footTangentFit (tab n f) dx = .ok ((xl - 1) * dx, (xr + (xr - j) / 5) * dx) := by
  have h1 := hi.pos; have h2 := hi.lt; have h3 := hj.gt
  rw [show i + 3 = (i - 1) + 4 by omega, isFoot_four] at hl
  rw [show j + 2 = (j - 2) + 4 by omega, isFoot_four] at hr
  rw [footTangentFit_ok hp hi hj hn, if_neg (by tauto)]
  obtain ⟨_, rfl⟩ := hl
  obtain ⟨_, rfl⟩ := hr
  have ei : (((i - 1 : ℕ) : K)) = i - 1 := by rw [Nat.cast_sub h1]; push_cast; ring
  have ej : (((j - 2 : ℕ) : K)) = j - 2 := by rw [Nat.cast_sub (by omega)]; push_cast; ring
  rw [ei, ej]
  congr 2 <;> ring

/-- a profile rising and falling in a straight line: bins 1, …, 4 and 6, …, 9 -/
def tent (e : ℚ) (k : ℕ) : ℚ :=
  if k = 0 then 0 else if k ≤ 4 then 4 * (k - 1) else if k = 5 then 40 else if k ≤ 9 then 4 * (9 - k) + e else 0

theorem tent_peak {e : ℚ} (h1 : e < 2) : Peak 11 (tent e) 5 := by
  refine ⟨by norm_num, by norm_num [tent], ?_, ?_⟩
  · intro k hk; interval_cases k <;> norm_num [tent] <;> linarith
  · intro k hk; interval_cases k <;> norm_num [tent]

theorem tent_left {e : ℚ} : LeftEdge (tent e) 5 2 := by
  refine ⟨by norm_num, by norm_num, by norm_num [tent], ?_⟩
  intro k h1 h2; interval_cases k <;> norm_num [tent]

theorem tent_right {e : ℚ} (h0 : 0 ≤ e) (h1 : e < 2) : RightEdge 11 (tent e) 5 8 := by
  refine ⟨by norm_num, by norm_num, by norm_num [tent]; linarith, ?_⟩
  intro k h1 h2; interval_cases k <;> norm_num [tent] <;> linarith

theorem tent_footL (e : ℚ) : IsFoot (tent e) (2 - 1) (2 + 3) (3 / 2) := by
  show IsFoot (tent e) 1 (1 + 4) (3 / 2)
  rw [isFoot_four]
  norm_num [slope4, mean4, tent]

theorem tent_footR (e : ℚ) : IsFoot (tent e) (8 - 2) (8 + 2) (19 / 2 + e / 4) := by
  show IsFoot (tent e) 6 (6 + 4) (19 / 2 + e / 4)
  rw [isFoot_four]
  have hs : slope4 (tent e) 6 = -4 := by norm_num [slope4, tent]; ring
  have hm : mean4 (tent e) 6 = 6 + e := by norm_num [mean4, tent]; ring
  rw [hs, hm]
  refine ⟨by norm_num, ?_⟩
  push_cast
  ring

/-- C72 is violated: the upper foot is wrong by an amount that depends on the profile, so no convention for the position of a bin
makes it right.  The formula for the upper foot has a factor 6 where the line of least squares has 5. -/
theorem C72_violated_upper :
    ¬ ∃ a : ℚ, ∀ (n p i j : ℕ) (f : ℕ → ℚ), Peak n f p → LeftEdge f p i → RightEdge n f p j → j + 1 < n →
      ∀ xl xr, IsFoot f (i - 1) (i + 3) xl → IsFoot f (j - 2) (j + 2) xr →
        ∃ l, footTangentFit (tab n f) 1 = .ok (l, xr + a) := by
  rintro ⟨a, h⟩
  have key : ∀ e : ℚ, 0 ≤ e → e < 2 → (3 / 2 + e / 4) / 5 = a := by
    intro e h0 h1
    obtain ⟨l, hl⟩ := h 11 5 2 8 (tent e) (tent_peak h1) tent_left (tent_right h0 h1) (by norm_num) _ _ (tent_footL e) (tent_footR e)
    rw [C72_feet_partial (tent_peak h1) tent_left (tent_right h0 h1) (by norm_num) (tent_footL e) (tent_footR e)] at hl
    injection hl with hl
    have := (Prod.ext_iff.mp hl).2
    simp only at this
    push_cast at this
    linarith
  have h0 := key 0 le_rfl (by norm_num)
  have h1 := key 1 (by norm_num) (by norm_num)
  rw [← h0] at h1
  norm_num at h1

/-- C72 is violated: two profiles of nine bins, each its own mirror image, have different centres. -/
theorem C72_violated_mirror :
    ([0, 1, 2, 20, 30, 20, 2, 1, 0] : List ℚ).reverse = [0, 1, 2, 20, 30, 20, 2, 1, 0] ∧
    ([0, 0, 4, 20, 30, 20, 4, 0, 0] : List ℚ).reverse = [0, 0, 4, 20, 30, 20, 4, 0, 0] ∧
    (footTangentFit ([0, 1, 2, 20, 30, 20, 2, 1, 0] : List ℚ) 1).map (fun q => q.1 + q.2)
      ≠ (footTangentFit ([0, 0, 4, 20, 30, 20, 4, 0, 0] : List ℚ) 1).map (fun q => q.1 + q.2) := by
  refine ⟨rfl, rfl, by decide +kernel⟩

/-- C72, failures: for every profile with a non-negative maximum, whatever is not a pair of feet is an IndexError, exactly when an
edge is missing or has no bin beyond it, or a division by zero, exactly when a fitted line is level. -/
theorem C72_failures {n p : ℕ} {f : ℕ → K} (hp : Peak n f p) (dx : K) :
    (footTangentFit (tab n f) dx = .error (.exc .indexError) ↔ ¬ ∃ i j, LeftEdge f p i ∧ RightEdge n f p j ∧ j + 1 < n) ∧
    (footTangentFit (tab n f) dx = .error .nonFinite ↔ ∃ i j, LeftEdge f p i ∧ RightEdge n f p j ∧ j + 1 < n ∧
      ((¬ ∃ x, IsFoot f (i - 1) (i + 3) x) ∨ ¬ ∃ x, IsFoot f (j - 2) (j + 2) x)) ∧
    ((∃ r, footTangentFit (tab n f) dx = .ok r) ∨ footTangentFit (tab n f) dx = .error (.exc .indexError) ∨
      footTangentFit (tab n f) dx = .error .nonFinite) := by
  have hfoot : ∀ a, (¬ ∃ x, IsFoot f a (a + 4) x) ↔ slope4 f a = 0 := by
    intro a
    constructor
    · intro h; by_contra hc; exact h ⟨_, (isFoot_four f a _).mpr ⟨hc, rfl⟩⟩
    · rintro h ⟨x, hx⟩; exact ((isFoot_four f a x).mp hx).1 h
  by_cases hx : ∃ i j, LeftEdge f p i ∧ RightEdge n f p j ∧ j + 1 < n
  · obtain ⟨i, j, hi, hj, hn⟩ := hx
    have h1 := hi.pos; have h2 := hi.lt; have h3 := hj.gt
    rw [footTangentFit_ok hp hi hj hn]
    have hiff : (∃ i j, LeftEdge f p i ∧ RightEdge n f p j ∧ j + 1 < n ∧
        ((¬ ∃ x, IsFoot f (i - 1) (i + 3) x) ∨ ¬ ∃ x, IsFoot f (j - 2) (j + 2) x)) ↔ slope4 f (i - 1) = 0 ∨ slope4 f (j - 2) = 0 := by
      constructor
      · rintro ⟨i', j', hi', hj', _, h⟩
        rw [edge_unique_left hi' hi, edge_unique_right hj' hj, show i + 3 = (i - 1) + 4 by omega,
          show j + 2 = (j - 2) + 4 by omega, hfoot, hfoot] at h
        exact h
      · intro h
        refine ⟨i, j, hi, hj, hn, ?_⟩
        rw [show i + 3 = (i - 1) + 4 by omega, show j + 2 = (j - 2) + 4 by omega, hfoot, hfoot]
        exact h
    rw [hiff]
    by_cases hs : slope4 f (i - 1) = 0 ∨ slope4 f (j - 2) = 0
    · rw [if_pos hs]
      refine ⟨⟨fun h => by injection h with h; injection h, fun h => absurd ⟨i, j, hi, hj, hn⟩ h⟩, ⟨fun _ => hs, fun _ => rfl⟩,
        Or.inr (Or.inr rfl)⟩
    · rw [if_neg hs]
      refine ⟨⟨fun h => by simp at h, fun h => absurd ⟨i, j, hi, hj, hn⟩ h⟩, ⟨fun h => by simp at h, fun h => absurd h hs⟩,
        Or.inl ⟨_, rfl⟩⟩
  · have herr := footTangentFit_fails hp dx hx
    rw [herr]
    refine ⟨⟨fun _ => hx, fun _ => rfl⟩, ⟨fun h => by injection h with h; simp at h, ?_⟩, Or.inr (Or.inl rfl)⟩
    rintro ⟨i, j, hi, hj, hn, _⟩
    exact absurd ⟨i, j, hi, hj, hn⟩ hx

/-- C72, units: the feet are proportional to the bin width -/
theorem C72_units (y : List K) (dx : K) :
    footTangentFit y dx = (footTangentFit y 1).map fun q => (q.1 * dx, q.2 * dx) := by
  have hb : ∀ {α β γ : Type} (x : M α) (g : α → M β) (h : β → γ), (x >>= g).map h = x >>= fun a => (g a).map h := by
    intro α β γ x g h; cases x <;> rfl
  unfold footTangentFit
  simp only [hb]
  simp only [pure_eq_ok, Except.map, mul_one]

theorem npWhere_scale {c : K} (P Q : K → Bool) (y : List K) (h : ∀ v, Q (c * v) = P v) :
    npWhere (y.map fun v => c * v) Q = npWhere y P := by
  unfold npWhere
  rw [List.length_map]
  apply List.filter_congr
  intro i _
  rw [List.getElem?_map]
  cases y[i]? with
  | none => rfl
  | some v => exact h v

theorem footSums_scale (c : K) (y : List K) : footSums (y.map fun v => c * v) = (footSums y).map fun q => (c * q.1, c * q.2) := by
  unfold footSums
  simp only [npGet_map]
  cases npGet y 0 with
  | error e => rfl
  | ok y0 =>
  cases npGet y 1 with
  | error e => rfl
  | ok y1 =>
  cases npGet y 2 with
  | error e => rfl
  | ok y2 =>
  cases npGet y 3 with
  | error e => rfl
  | ok y3 =>
    show Except.ok _ = Except.ok _
    rw [sum_mul_list]
    congr 2
    ring

/-- C72, gain: multiplying the profile by a positive number does not move the feet -/
theorem C72_scale {c : K} (hc : 0 < c) (y : List K) (dx : K) : footTangentFit (y.map fun v => c * v) dx = footTangentFit y dx := by
  unfold footTangentFit
  rw [npMax_scale hc, npArgmax_scale hc]
  cases Tomo.npMax y with
  | error e => rfl
  | ok m =>
  cases npArgmax y with
  | error e => rfl
  | ok p =>
    dsimp only [Except.map]
    rw [bind_ok, bind_ok, bind_ok, bind_ok]
    rw [npWhere_scale (fun v => decide (v < 15 / 100 * m)) (fun v => decide (v < 15 / 100 * (c * m))) y (by
      intro v
      rw [decide_eq_decide, show 15 / 100 * (c * m) = c * (15 / 100 * m) by ring]
      exact mul_lt_mul_iff_right₀ hc)]
    cases lastIdx (List.filter (fun i => decide (i < p)) (npWhere y fun v => decide (v < 15 / 100 * m))) with
    | error e => rfl
    | ok l =>
    cases firstIdx (List.filter (fun i => decide (p < i)) (npWhere y fun v => decide (v < 15 / 100 * m))) with
    | error e => rfl
    | ok r =>
      rw [bind_ok, bind_ok, bind_ok, bind_ok, npSlice_map, npSlice_map, footSums_scale, footSums_scale]
      cases footSums (npSlice y ((l : ℤ) - 1) ((l : ℤ) + 3)) with
      | error e => rfl
      | ok a =>
      cases footSums (npSlice y ((r : ℤ) - 2) ((r : ℤ) + 2)) with
      | error e => rfl
      | ok b =>
        have hd : ∀ k x z : K, FDiv.fdiv (k * (c * x)) (c * z) = FDiv.fdiv (k * x) z := by
          intro k x z
          by_cases hz : z = 0
          · rw [hz, mul_zero, fdiv_zero, fdiv_zero]
          · rw [fdiv_ok (mul_ne_zero hc.ne' hz), fdiv_ok hz, show k * (c * x) = c * (k * x) by ring, mul_div_mul_left _ _ hc.ne']
        dsimp only [Except.map]
        rw [bind_ok, bind_ok, bind_ok, bind_ok]
        dsimp only
        rw [hd, hd]

example : footTangentFit ([0, 1, 2, 20, 30, 20, 2, 1, 0] : List ℚ) 3 = .ok (31 / 14, 789 / 35) := by decide +kernel

/-- C72, the fit of a density: the result is between two of the abscissae. -/
theorem C72_density_range {y x : List K} {level r : K} (h : footTangentFitDensity y x level = .ok r) :
    ∃ a ∈ x, ∃ b ∈ x, a ≤ r ∧ r ≤ b := by
  unfold footTangentFitDensity at h
  split_ifs at h
  obtain ⟨mn, _, h⟩ := bind_inv h
  dsimp only at h
  obtain ⟨m, _, h⟩ := bind_inv h
  obtain ⟨p, _, h⟩ := bind_inv h
  obtain ⟨k, _, h⟩ := bind_inv h
  obtain ⟨⟨a, b⟩, _, h⟩ := bind_inv h
  dsimp only at h
  obtain ⟨d, _, h⟩ := bind_inv h
  exact interpAt_between h

/-- C72, the fit of a density: a constant background makes no difference. -/
theorem C72_density_offset (y x : List K) (level c : K) :
    footTangentFitDensity (y.map fun v => v + c) x level = footTangentFitDensity y x level := by
  unfold footTangentFitDensity
  by_cases hl : 0 < level ∧ level < 1
  · rw [if_pos hl, if_pos hl]
    by_cases hy : y = []
    · rw [hy]; rfl
    · obtain ⟨m, h1, hm, hle⟩ := npMin_spec hy
      have hy' : (y.map fun v => v + c) ≠ [] := fun h => hy (List.map_eq_nil_iff.mp h)
      obtain ⟨m', h1', hm', hle'⟩ := npMin_spec hy'
      have hmm : m' = m + c := by
        obtain ⟨v, hv, rfl⟩ := List.mem_map.mp hm'
        have a1 := hle v hv
        have a2 := hle' (m + c) (List.mem_map_of_mem hm)
        linarith
      rw [h1, h1', bind_ok, bind_ok, hmm]
      have : (y.map fun v => v + c).map (fun v => v - (m + c)) = y.map fun v => v - m := by
        rw [List.map_map]
        apply List.map_congr_left
        intro v _
        dsimp only [Function.comp]
        ring
      rw [this]
  · rw [if_neg hl, if_neg hl]

/-- C72, the fit of a density: levels outside the open interval from 0 to 1 are rejected. -/
theorem C72_density_rejects (y x : List K) {level : K} (h : level ≤ 0 ∨ 1 ≤ level) :
    footTangentFitDensity y x level = .error (.exc .valueError) := by
  unfold footTangentFitDensity
  rw [if_neg]
  rintro ⟨h1, h2⟩
  rcases h with h | h
  · exact absurd h1 (not_lt.mpr h)
  · exact absurd h2 (not_lt.mpr h)

/-- a density falling off over eight points on a background of 1 -/
example : footTangentFitDensity ([9, 9, 8, 5, 2, 1, 1, 1] : List ℚ) [0, 10, 20, 30, 40, 50, 60, 70] (1 / 4) = .ok 55 := by
  decide +kernel

/-! ## C73 `foot_tangent_fit_dq` -/

/-- the line of `np.polyfit` is one of least squares -/
theorem polyfit1_least {x y : ℕ → K} {k : ℕ} {b a : K} (h : polyfit1 (tab k x) (tab k y) = .ok (b, a)) (b' a' : K) :
    ∑ r ∈ range k, (y r - (b * x r + a)) ^ 2 ≤ ∑ r ∈ range k, (y r - (b' * x r + a')) ^ 2 := by
  unfold polyfit1 at h
  by_cases h0 : tab k x = []
  · rw [if_pos h0] at h; simp at h
  rw [if_neg h0] at h
  dsimp only at h
  rw [length_tab, sum_tab, sum_tab, map_tab, sum_tab, zipWith_tab', sum_tab] at h
  set Sx := ∑ r ∈ range k, x r
  set Sy := ∑ r ∈ range k, y r
  set Sxx := ∑ r ∈ range k, x r * x r
  set Sxy := ∑ r ∈ range k, x r * y r
  by_cases hD : (k : K) * Sxx - Sx * Sx = 0
  · rw [hD, fdiv_zero] at h; simp at h
  rw [fdiv_ok hD, bind_ok] at h
  by_cases hk : (k : K) = 0
  · rw [hk, fdiv_zero] at h; simp at h
  rw [fdiv_ok hk, bind_ok] at h
  injection h with h
  obtain ⟨hb, ha⟩ := Prod.ext_iff.mp h
  simp only at hb ha
  have hbD : b * (k * Sxx - Sx * Sx) = k * Sxy - Sx * Sy := by rw [← hb, div_mul_cancel₀ _ hD]
  have hak : a * k = Sy - b * Sx := by rw [← ha, hb, div_mul_cancel₀ _ hk]
  have n0 : ∑ r ∈ range k, (y r - (b * x r + a)) = 0 := by
    rw [Finset.sum_sub_distrib, Finset.sum_add_distrib, ← Finset.mul_sum, Finset.sum_const, card_range, nsmul_eq_mul]
    linear_combination -hak
  have n1 : ∑ r ∈ range k, (y r - (b * x r + a)) * x r = 0 := by
    have e : ∑ r ∈ range k, (y r - (b * x r + a)) * x r = Sxy - b * Sxx - a * Sx := by
      have : ∀ r, (y r - (b * x r + a)) * x r = x r * y r - b * (x r * x r) - a * x r := fun r => by ring
      simp only [this, Finset.sum_sub_distrib, ← Finset.mul_sum]
      rfl
    rw [e]
    have : (k : K) * (Sxy - b * Sxx - a * Sx) = 0 := by linear_combination -hbD - Sx * hak
    exact (mul_eq_zero.mp this).resolve_left hk
  have key : ∑ r ∈ range k, (y r - (b' * x r + a')) ^ 2 = ∑ r ∈ range k, (y r - (b * x r + a)) ^ 2
      + ∑ r ∈ range k, ((b' - b) * x r + (a' - a)) ^ 2 := by
    have : ∀ r, (y r - (b' * x r + a')) ^ 2 = (y r - (b * x r + a)) ^ 2 + ((b' - b) * x r + (a' - a)) ^ 2
        + (-2 * (b' - b)) * ((y r - (b * x r + a)) * x r) + (-2 * (a' - a)) * (y r - (b * x r + a)) := fun r => by ring
    simp only [this, Finset.sum_add_distrib, ← Finset.mul_sum, n0, n1]
    ring
  have hnn : 0 ≤ ∑ r ∈ range k, ((b' - b) * x r + (a' - a)) ^ 2 := Finset.sum_nonneg fun r _ => sq_nonneg _
  linarith

theorem isFootAt_of {x y : ℕ → K} {a k : ℕ} {b c z : K} (h : polyfit1 (tab k fun r => x (a + r)) (tab k fun r => y (a + r)) = .ok (b, c))
    (hz : FDiv.fdiv (-c) b = .ok z) : IsFootAt x y a (a + k) z := by
  have hb : b ≠ 0 := by
    intro h0; rw [h0, fdiv_zero] at hz; simp at hz
  rw [fdiv_ok hb] at hz
  injection hz with hz
  refine ⟨b, c, hb, ?_, by rw [← hz]; field_simp; ring⟩
  intro s' c'
  unfold residualAt
  rw [Finset.sum_Ico_eq_sum_range, Finset.sum_Ico_eq_sum_range, Nat.add_sub_cancel_left]
  exact polyfit1_least h s' c'

/-- C73: whatever feet are returned, they are the zeros of lines of least squares through the six points around the first and the
last value of at least 15 % of the peak, in this order and less than one RF period apart. -/
theorem C73_feet (savgol : List K → M (List K)) {n : ℕ} (x y : ℕ → K) (tRf lo hi : K)
    (h : footTangentFitDq savgol (tab n x) (tab n y) tRf false = .ok (lo, hi)) :
    ∃ l r, Above n y l r ∧ 3 ≤ l ∧ r + 3 < n ∧ IsFootAt x y (l - 3) (l + 3) lo ∧ IsFootAt x y (r - 2) (r + 4) hi ∧
      lo ≤ hi ∧ hi - lo < tRf := by
  unfold footTangentFitDq at h
  rw [if_neg (by simp)] at h
  unfold footDq at h
  obtain ⟨m, hm, h⟩ := bind_inv h
  have hne : tab n y ≠ [] := by
    intro e; rw [e] at hm; simp [Tomo.npMax] at hm
  obtain ⟨m', hm1, hm2, hm3⟩ := npMax_spec hne
  rw [hm1] at hm
  injection hm with hm
  subst hm
  dsimp only at h
  rw [npWhere_tab, length_tab] at h
  obtain ⟨l, hl, h⟩ := bind_inv h
  obtain ⟨r, hr, h⟩ := bind_inv h
  by_cases hc : (l : ℤ) - 3 < 0 ∨ n ≤ r + 3
  · rw [if_pos hc] at h; simp at h
  rw [if_neg hc] at h
  push Not at hc
  obtain ⟨hc1, hc2⟩ := hc
  obtain ⟨⟨b1, a1⟩, hp1, h⟩ := bind_inv h
  obtain ⟨⟨b2, a2⟩, hp2, h⟩ := bind_inv h
  obtain ⟨x1, hx1, h⟩ := bind_inv h
  obtain ⟨x2, hx2, h⟩ := bind_inv h
  by_cases hw : 0 ≤ x2 - x1 ∧ x2 - x1 < tRf
  swap
  · rw [if_neg hw] at h; simp at h
  rw [if_pos hw] at h
  injection h with h
  obtain ⟨rfl, rfl⟩ := Prod.ext_iff.mp h
  obtain ⟨p, hpn, hp⟩ : ∃ p, p < n ∧ y p = m' := by
    unfold tab at hm2
    obtain ⟨p, hp, e⟩ := List.mem_map.mp hm2
    exact ⟨p, List.mem_range.mp hp, e⟩
  have hmax : ∀ k, k < n → y k ≤ y p := by
    intro k hk
    rw [hp]
    exact hm3 _ (List.mem_map.mpr ⟨k, List.mem_range.mpr hk, rfl⟩)
  have hl' : ((List.range n).filter fun k => decide (15 / 100 * m' ≤ y k)).head? = some l := by
    unfold firstIdx at hl
    revert hl
    cases ((List.range n).filter fun k => decide (15 / 100 * m' ≤ y k)).head? with
    | none => intro hl; simp at hl
    | some i => intro hl; injection hl with hl; rw [hl]
  have hr' : ((List.range n).filter fun k => decide (15 / 100 * m' ≤ y k)).getLast? = some r := by
    unfold lastIdx at hr
    revert hr
    cases ((List.range n).filter fun k => decide (15 / 100 * m' ≤ y k)).getLast? with
    | none => intro hr; simp at hr
    | some i => intro hr; injection hr with hr; rw [hr]
  have hsorted : ((List.range n).filter fun k => decide (15 / 100 * m' ≤ y k)).Pairwise (· < ·) :=
    List.Pairwise.filter _ List.pairwise_lt_range
  have hlm := List.mem_filter.mp (List.mem_of_mem_head? hl')
  have hrm := List.mem_filter.mp (List.mem_of_mem_getLast? hr')
  have hAb : Above n y l r := by
    refine ⟨⟨p, hpn, hmax, ?_, ?_, ?_⟩, List.mem_range.mp hlm.1, List.mem_range.mp hrm.1⟩
    · rw [hp]; simpa using hlm.2
    · rw [hp]; simpa using hrm.2
    · intro k hk hy
      rw [hp] at hy
      have hmem : k ∈ (List.range n).filter fun k => decide (15 / 100 * m' ≤ y k) :=
        List.mem_filter.mpr ⟨List.mem_range.mpr hk, by simpa using hy⟩
      constructor
      · obtain ⟨t, ht⟩ := List.head?_eq_some_iff.mp hl'
        rw [ht] at hmem hsorted
        rcases List.mem_cons.mp hmem with e | e
        · omega
        · exact ((List.pairwise_cons.mp hsorted).1 k e).le
      · obtain ⟨t, ht⟩ := List.getLast?_eq_some_iff.mp hr'
        rw [ht] at hmem hsorted
        rcases List.mem_append.mp hmem with e | e
        · exact ((List.pairwise_append.mp hsorted).2.2 k e r (by simp)).le
        · simp at e; omega
  have hl3 : 3 ≤ l := by omega
  have hlr : l ≤ r := by
    obtain ⟨q, _, _, h1, h2, h3⟩ := hAb.peak
    exact (h3 r hAb.right h2).1
  have sl : ∀ g : ℕ → K, npSlice (tab n g) ((l : ℤ) - 3) ((l : ℤ) + 3) = tab 6 fun k => g (l - 3 + k) := by
    intro g
    have := npSlice_of (n := n) (a := l - 3) (b := l + 3) g (lo := (l : ℤ) - 3) (hi := (l : ℤ) + 3)
      (by rw [show (l : ℤ) - 3 = ((l - 3 : ℕ) : ℤ) by omega]; exact sliceIdx_nat (by omega))
      (by rw [show (l : ℤ) + 3 = ((l + 3 : ℕ) : ℤ) by omega]; exact sliceIdx_nat (by omega)) (by omega) (by omega)
    rw [this, show l + 3 - (l - 3) = 6 by omega]
  have sr : ∀ g : ℕ → K, npSlice (tab n g) ((r : ℤ) - 2) ((r : ℤ) + 4) = tab 6 fun k => g (r - 2 + k) := by
    intro g
    have := npSlice_of (n := n) (a := r - 2) (b := r + 4) g (lo := (r : ℤ) - 2) (hi := (r : ℤ) + 4)
      (by rw [show (r : ℤ) - 2 = ((r - 2 : ℕ) : ℤ) by omega]; exact sliceIdx_nat (by omega))
      (by rw [show (r : ℤ) + 4 = ((r + 4 : ℕ) : ℤ) by omega]; exact sliceIdx_nat (by omega)) (by omega) (by omega)
    rw [this, show r + 4 - (r - 2) = 6 by omega]
  rw [sl, sl] at hp1
  rw [sr, sr] at hp2
  have f1 := isFootAt_of hp1 hx1
  have f2 := isFootAt_of hp2 hx2
  rw [show l - 3 + 6 = l + 3 by omega] at f1
  rw [show r - 2 + 6 = r + 4 by omega] at f2
  exact ⟨l, r, hAb, hl3, by omega, f1, f2, by simpa using hw.1, hw.2⟩

/-- C73: five values lie on a polynomial of degree at most four -/
theorem savgol_id {n : ℕ} {y z : ℕ → K} (hn : 5 ≤ n) (h : Savgol n y z) : ∀ k, k < n → z k = y k := by
  classical
  have key : ∀ a (P : Polynomial K), P.degree < 5 →
      (∀ Q : Polynomial K, Q.degree < 5 →
        ∑ k ∈ range 5, (y (a + k) - P.eval (k : K)) ^ 2 ≤ ∑ k ∈ range 5, (y (a + k) - Q.eval (k : K)) ^ 2) →
      ∀ k : ℕ, k < 5 → P.eval (k : K) = y (a + k) := by
    intro a P _ hmin k hk
    have hinj : Set.InjOn (fun k : ℕ => (k : K)) (range 5) := fun i _ j _ e => Nat.cast_injective e
    have h0 := hmin (Lagrange.interpolate (range 5) (fun k : ℕ => (k : K)) fun k => y (a + k)) (by
      have := Lagrange.degree_interpolate_lt (fun k => y (a + k)) hinj
      simpa using this)
    have hz : ∑ k ∈ range 5, (y (a + k) - (Lagrange.interpolate (range 5) (fun k : ℕ => (k : K)) fun k => y (a + k)).eval (k : K)) ^ 2 = 0 := by
      apply Finset.sum_eq_zero
      intro k hk
      rw [Lagrange.eval_interpolate_at_node (fun k => y (a + k)) hinj hk, sub_self]
      ring
    rw [hz] at h0
    have h1 : ∑ k ∈ range 5, (y (a + k) - P.eval (k : K)) ^ 2 = 0 := le_antisymm h0 (Finset.sum_nonneg fun _ _ => sq_nonneg _)
    rw [Finset.sum_eq_zero_iff_of_nonneg fun _ _ => sq_nonneg _] at h1
    have := pow_eq_zero_iff (two_ne_zero) |>.mp (h1 k (by simpa using hk))
    linarith
  intro k hk
  by_cases h2 : k < 2
  · obtain ⟨P, hd, hm, _, h0, _⟩ := h 0 (by omega)
    have e := key 0 P hd hm k (by omega)
    rw [Nat.zero_add] at e
    rw [← e]
    rcases (by omega : k = 0 ∨ k = 1) with rfl | rfl
    · simpa using (h0 rfl).1
    · simpa using (h0 rfl).2
  · by_cases h3 : k + 2 < n
    · obtain ⟨P, hd, hm, hc, _, _⟩ := h (k - 2) (by omega)
      have e := key (k - 2) P hd hm 2 (by omega)
      rw [show k - 2 + 2 = k by omega] at e hc
      rw [← e, hc]; norm_num
    · obtain ⟨P, hd, hm, _, _, hl⟩ := h (n - 5) (by omega)
      have hl := hl (by omega)
      rcases (by omega : k = n - 2 ∨ k = n - 1) with rfl | rfl
      · have e := key (n - 5) P hd hm 3 (by omega)
        rw [show n - 5 + 3 = n - 2 by omega] at e hl
        rw [← e, hl.1]; norm_num
      · have e := key (n - 5) P hd hm 4 (by omega)
        rw [show n - 5 + 4 = n - 1 by omega] at e hl
        rw [← e, hl.2]; norm_num

/-- C73 is violated: the filter does nothing.  A window of five values is fitted with polynomials of degree four, which pass through
all of them; the argument `apply_filter` has no effect on any profile of at least five values. -/
theorem C73_violated_filter (savgol : List K → M (List K)) {n : ℕ} (hn : 5 ≤ n) (x : List K) (y : ℕ → K) (tRf : K)
    (hs : ∃ z, savgol (tab n y) = .ok (tab n z) ∧ Savgol n y z) :
    footTangentFitDq savgol x (tab n y) tRf true = footTangentFitDq savgol x (tab n y) tRf false := by
  obtain ⟨z, h1, h2⟩ := hs
  unfold footTangentFitDq
  rw [if_pos rfl, if_neg (by simp), h1, bind_ok, tab_congr (savgol_id hn h2)]

/-- such a filter exists: the values themselves -/
example (n : ℕ) (y : ℕ → K) : Savgol n y y := by
  classical
  intro a _
  have hinj : Set.InjOn (fun k : ℕ => (k : K)) (range 5) := fun i _ j _ e => Nat.cast_injective e
  have hv : ∀ k : ℕ, k < 5 → (Lagrange.interpolate (range 5) (fun k : ℕ => (k : K)) fun k => y (a + k)).eval (k : K) = y (a + k) :=
    fun k hk => Lagrange.eval_interpolate_at_node (fun k => y (a + k)) hinj (by simpa using hk)
  refine ⟨Lagrange.interpolate (range 5) (fun k : ℕ => (k : K)) fun k => y (a + k), ?_, ?_, ?_, ?_, ?_⟩
  · have := Lagrange.degree_interpolate_lt (fun k => y (a + k)) hinj
    simpa using this
  · intro Q _
    rw [Finset.sum_eq_zero]
    · exact Finset.sum_nonneg fun _ _ => sq_nonneg _
    · intro k hk
      rw [hv k (by simpa using hk), sub_self]; ring
  · have := hv 2 (by norm_num); simpa using this.symm
  · rintro rfl
    have h0 := hv 0 (by norm_num)
    have h1 := hv 1 (by norm_num)
    constructor
    · simpa using h0.symm
    · simpa using h1.symm
  · intro _
    have h0 := hv 3 (by norm_num)
    have h1 := hv 4 (by norm_num)
    constructor
    · simpa using h0.symm
    · simpa using h1.symm

/-- a bunch in the middle of twelve samples -/
example : footTangentFitDq (fun l => .ok l) (tab 12 fun k => (k : ℚ)) ([0, 0, 0, 2, 4, 6, 6, 4, 2, 0, 0, 0] : List ℚ) 20 true
    = .ok (10 / 11, 111 / 11) := by decide +kernel


end Verif.Props

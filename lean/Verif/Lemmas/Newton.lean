import Verif.Model.Newton
import Mathlib.Analysis.SpecialFunctions.Trigonometric.Bounds
import Mathlib.Analysis.SpecialFunctions.Trigonometric.Inverse
import Mathlib.Analysis.Convex.SpecificFunctions.Deriv

/-!
# Newton's method for the sine
-/

namespace Verif.Mch
open Real

/-- the two sides of the root: mapping the argument by `T x = c + σ x` maps the iterates -/
theorem scipyNewton_conj {f f' g g' : ℝ → ℝ} {c σ ε : ℝ} (hσ : σ = 1 ∨ σ = -1) (hε : ε = 1 ∨ ε = -1)
    (hg : ∀ x, g (c + σ * x) = ε * f x) (hg' : ∀ x, g' (c + σ * x) = ε * σ * f' x) (tol : ℝ) (n : ℕ) (x : ℝ) :
    scipyNewton g g' tol n (c + σ * x) = (scipyNewton f f' tol n x).map fun p => c + σ * p := by
  have hσ0 : σ ≠ 0 := by rcases hσ with rfl | rfl <;> norm_num
  have hε0 : ε ≠ 0 := by rcases hε with rfl | rfl <;> norm_num
  have habs : |σ| = 1 := by rcases hσ with rfl | rfl <;> norm_num
  induction n generalizing x with
  | zero => rfl
  | succ n ih =>
    unfold scipyNewton
    rw [hg, hg']
    by_cases h0 : f x = 0
    · rw [if_pos (by rw [h0, mul_zero]), if_pos h0]; rfl
    rw [if_neg (mul_ne_zero hε0 h0), if_neg h0]
    by_cases h1 : f' x = 0
    · rw [if_pos (by rw [h1, mul_zero]), if_pos h1]; rfl
    rw [if_neg (mul_ne_zero (mul_ne_zero hε0 hσ0) h1), if_neg h1]
    dsimp only
    have hp : c + σ * x - ε * f x / (ε * σ * f' x) = c + σ * (x - f x / f' x) := by
      rcases hσ with rfl | rfl <;> rcases hε with rfl | rfl <;> field_simp <;> ring
    rw [hp]
    have hd : |c + σ * (x - f x / f' x) - (c + σ * x)| = |x - f x / f' x - x| := by
      rw [show c + σ * (x - f x / f' x) - (c + σ * x) = σ * (x - f x / f' x - x) by ring, abs_mul, habs, one_mul]
    rw [hd]
    split
    · rfl
    · exact ih _

/-- `u cos u ≤ sin u` -/
theorem mul_cos_le_sin {u : ℝ} (h0 : 0 ≤ u) (h1 : u ≤ π / 2) : u * cos u ≤ sin u := by
  rcases h1.lt_or_eq with h1 | rfl
  · have hc : 0 < cos u := cos_pos_of_mem_Ioo ⟨by linarith [pi_pos], h1⟩
    have := Real.le_tan h0 h1
    rw [tan_eq_sin_div_cos, le_div_iff₀ hc] at this
    exact this
  · simp

/-- tangent above the sine -/
theorem sin_le_tangent {x s : ℝ} (h0 : 0 ≤ x) (h1 : x ≤ s) (h2 : s ≤ π / 2) : sin s - sin x ≤ (s - x) * cos x := by
  have e : sin s - sin x = 2 * sin ((s - x) / 2) * cos ((s + x) / 2) := sin_sub_sin s x
  have hu : 0 ≤ (s - x) / 2 := by linarith
  have hsin : sin ((s - x) / 2) ≤ (s - x) / 2 := Real.sin_le hu
  have hsin0 : 0 ≤ sin ((s - x) / 2) := sin_nonneg_of_nonneg_of_le_pi hu (by linarith [pi_pos])
  have hcos : cos ((s + x) / 2) ≤ cos x := cos_le_cos_of_nonneg_of_le_pi h0 (by linarith [pi_pos]) (by linarith)
  have hcos0 : 0 ≤ cos ((s + x) / 2) := cos_nonneg_of_mem_Icc ⟨by linarith [pi_pos], by linarith⟩
  rw [e]
  nlinarith

/-- half of the way to the root -/
theorem half_way {x s : ℝ} (h0 : 0 ≤ x) (h1 : x ≤ s) (h2 : s ≤ π / 2) : (s - x) * cos x ≤ 2 * (sin s - sin x) := by
  set u := (s - x) / 2 with hu
  set m := (s + x) / 2 with hm
  have e : sin s - sin x = 2 * sin u * cos m := sin_sub_sin s x
  have hx : x = m - u := by rw [hu, hm]; ring
  have hs : s = m + u := by rw [hu, hm]; ring
  have hu0 : 0 ≤ u := by rw [hu]; linarith
  have hu1 : u ≤ π / 2 := by rw [hu]; linarith
  have a1 := mul_cos_le_sin hu0 hu1
  have hsin0 : 0 ≤ sin u := sin_nonneg_of_nonneg_of_le_pi hu0 (by linarith [pi_pos])
  have hcm : 0 ≤ cos m := cos_nonneg_of_mem_Icc ⟨by rw [hm]; linarith [pi_pos], by rw [hm]; linarith⟩
  have hcs : 0 ≤ cos (m + u) := by rw [← hs]; exact cos_nonneg_of_mem_Icc ⟨by linarith [pi_pos], h2⟩
  rw [cos_add] at hcs
  have a2 : u * (sin m * sin u) ≤ u * (cos m * cos u) := mul_le_mul_of_nonneg_left (by linarith) hu0
  have a3 : cos m * (u * cos u) ≤ cos m * sin u := mul_le_mul_of_nonneg_left a1 hcm
  have : cos x = cos m * cos u + sin m * sin u := by rw [hx, cos_sub]
  rw [e, this, show s - x = 2 * u by rw [hu]; ring]
  nlinarith

/-- Newton for `v sin φ = w` started between 0 and the root `s ≤ π/2`: it finds a value between the start and the root, at most `tol`
from the root, if `2^k tol` is at least the distance to the root and `k + 1` iterations are allowed. -/
theorem newton_sin {v s : ℝ} (hv : 0 < v) (hs1 : s ≤ π / 2) {tol : ℝ} (ht : 0 ≤ tol) :
    ∀ (k n : ℕ) (x : ℝ), k < n → 0 ≤ x → x ≤ s → s - x ≤ 2 ^ k * tol →
    ∃ p, scipyNewton (fun φ => v * sin φ - v * sin s) (fun φ => v * cos φ) tol n x = some p ∧ x ≤ p ∧ p ≤ s ∧ s - p ≤ tol := by
  intro k
  induction k with
  | zero =>
    intro n x hn h0 h1 h2
    rw [pow_zero, one_mul] at h2
    obtain ⟨n, rfl⟩ : ∃ m, n = m + 1 := ⟨n - 1, by omega⟩
    unfold scipyNewton
    dsimp only
    by_cases hf : v * sin x - v * sin s = 0
    · rw [if_pos hf]; exact ⟨x, rfl, le_rfl, h1, h2⟩
    rw [if_neg hf]
    have hxs : x < s := by
      rcases h1.lt_or_eq with h | rfl
      · exact h
      · exact absurd (sub_self _) hf
    have hc : 0 < cos x := cos_pos_of_mem_Ioo ⟨by linarith [pi_pos], by linarith⟩
    rw [if_neg (mul_pos hv hc).ne']
    have hstep : x - (v * sin x - v * sin s) / (v * cos x) = x + (sin s - sin x) / cos x := by field_simp; ring
    have hS : (sin s - sin x) / cos x ≤ s - x := (div_le_iff₀ hc).mpr (sin_le_tangent h0 h1 hs1)
    have hS2 : s - x ≤ 2 * ((sin s - sin x) / cos x) := by
      rw [← mul_div_assoc, le_div_iff₀ hc]; exact half_way h0 h1 hs1
    have hS0 : 0 ≤ (sin s - sin x) / cos x := by linarith
    rw [hstep, if_pos (by rw [add_sub_cancel_left, abs_of_nonneg hS0]; linarith)]
    exact ⟨_, rfl, by linarith, by linarith, by linarith⟩
  | succ k ih =>
    intro n x hn h0 h1 h2
    obtain ⟨n, rfl⟩ : ∃ m, n = m + 1 := ⟨n - 1, by omega⟩
    unfold scipyNewton
    dsimp only
    by_cases hf : v * sin x - v * sin s = 0
    · rw [if_pos hf]
      have hxs : x = s := by
        have : sin x = sin s := by
          have := mul_left_cancel₀ hv.ne' (sub_eq_zero.mp hf); exact this
        exact injOn_sin ⟨by linarith [pi_pos], by linarith⟩ ⟨by linarith [pi_pos], hs1⟩ this
      exact ⟨x, rfl, le_rfl, h1, by rw [hxs, sub_self]; exact ht⟩
    rw [if_neg hf]
    have hxs : x < s := by
      rcases h1.lt_or_eq with h | rfl
      · exact h
      · exact absurd (sub_self _) hf
    have hc : 0 < cos x := cos_pos_of_mem_Ioo ⟨by linarith [pi_pos], by linarith⟩
    rw [if_neg (mul_pos hv hc).ne']
    have hstep : x - (v * sin x - v * sin s) / (v * cos x) = x + (sin s - sin x) / cos x := by field_simp; ring
    have hS : (sin s - sin x) / cos x ≤ s - x := (div_le_iff₀ hc).mpr (sin_le_tangent h0 h1 hs1)
    have hS2 : s - x ≤ 2 * ((sin s - sin x) / cos x) := by
      rw [← mul_div_assoc, le_div_iff₀ hc]; exact half_way h0 h1 hs1
    have hS0 : 0 ≤ (sin s - sin x) / cos x := by linarith
    rw [hstep]
    by_cases hd : |x + (sin s - sin x) / cos x - x| ≤ tol
    · rw [if_pos hd]
      rw [add_sub_cancel_left, abs_of_nonneg hS0] at hd
      exact ⟨_, rfl, by linarith, by linarith, by linarith⟩
    · rw [if_neg hd]
      obtain ⟨p, g1, g2, g3, g4⟩ := ih n (x + (sin s - sin x) / cos x) (by omega) (by linarith) (by linarith) (by
        rw [pow_succ] at h2; linarith)
      exact ⟨p, g1, by linarith, g3, g4⟩

end Verif.Mch

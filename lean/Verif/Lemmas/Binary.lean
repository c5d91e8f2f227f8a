import Verif.Spec.Rnd
import Mathlib.Tactic.Positivity
import Mathlib.Tactic.Linarith

/-!
# Binary floating point numbers are accurate
-/

namespace Verif.Rounded

theorem binaryRound_err (p : ℕ) (x : ℝ) : |binaryRound p x - x| ≤ 2 ^ (-(p : ℤ)) * |x| := by
  by_cases hx : x = 0
  · subst hx
    simp [binaryRound]
  have hx' : 0 < |x| := abs_pos.mpr hx
  unfold binaryRound
  set e := Int.log 2 |x| with he
  have h1 : (2 : ℝ) ^ e ≤ |x| := by
    have := Int.zpow_log_le_self (b := 2) (by norm_num) hx'
    exact_mod_cast this
  have e2 : (2 : ℝ) ^ ((p : ℤ) - 1 - e) * 2 ^ (e - ((p : ℤ) - 1)) = 1 := by
    rw [← zpow_add₀ (by norm_num : (2 : ℝ) ≠ 0)]
    simp
  set y := x * 2 ^ ((p : ℤ) - 1 - e) with hy
  have e3 : x = y * 2 ^ (e - ((p : ℤ) - 1)) := by rw [hy, mul_assoc, e2, mul_one]
  have h2 := abs_sub_round y
  have h3 : (0 : ℝ) < 2 ^ (e - ((p : ℤ) - 1)) := by positivity
  calc |(round y : ℝ) * 2 ^ (e - ((p : ℤ) - 1)) - x| = |y - round y| * 2 ^ (e - ((p : ℤ) - 1)) := by
        conv_lhs => rw [e3]
        rw [← sub_mul, abs_mul, abs_of_pos h3, abs_sub_comm]
    _ ≤ 1 / 2 * 2 ^ (e - ((p : ℤ) - 1)) := mul_le_mul_of_nonneg_right h2 h3.le
    _ = 2 ^ (-(p : ℤ)) * 2 ^ e := by
        rw [← zpow_add₀ (by norm_num : (2 : ℝ) ≠ 0), show e - ((p : ℤ) - 1) = (-(p : ℤ) + e) + 1 by ring,
          zpow_add₀ (by norm_num : (2 : ℝ) ≠ 0)]
        norm_num
        ring
    _ ≤ 2 ^ (-(p : ℤ)) * |x| := mul_le_mul_of_nonneg_left h1 (by positivity)

/-- integers up to `2^p` are representable -/
theorem binaryRound_nat {p : ℕ} (hp : 1 ≤ p) {n : ℕ} (hn : n ≤ 2 ^ p) : binaryRound p n = n := by
  by_cases h0 : n = 0
  · subst h0
    simp [binaryRound]
  unfold binaryRound
  have hl : Int.log 2 |(n : ℝ)| = (Nat.log 2 n : ℤ) := by
    rw [abs_of_nonneg (Nat.cast_nonneg n), Int.log_natCast]
  rw [hl]
  set e := Nat.log 2 n with he
  have hle : e ≤ p := by
    calc e ≤ Nat.log 2 (2 ^ p) := Nat.log_mono_right hn
      _ = p := Nat.log_pow (by norm_num) p
  have key : ∃ z : ℤ, (n : ℝ) * 2 ^ ((p : ℤ) - 1 - e) = z := by
    by_cases hlt : e ≤ p - 1
    · refine ⟨n * 2 ^ (p - 1 - e), ?_⟩
      have : ((p : ℤ) - 1 - e) = ((p - 1 - e : ℕ) : ℤ) := by omega
      rw [this, zpow_natCast]
      push_cast
      ring
    · have hep : e = p := by omega
      have hn2 : 2 ^ p ≤ n := by rw [← hep]; exact Nat.pow_log_le_self 2 h0
      have hn3 : n = 2 ^ p := le_antisymm hn hn2
      refine ⟨2 ^ (p - 1), ?_⟩
      rw [hep, hn3, show ((p : ℤ) - 1 - p) = -1 by ring]
      have : (2 : ℝ) ^ p = 2 ^ (p - 1) * 2 := by
        rw [← pow_succ]; congr 1; omega
      push_cast
      rw [this]
      norm_num
      ring
  obtain ⟨z, hz⟩ := key
  rw [hz, round_intCast, ← hz, mul_assoc, ← zpow_add₀ (by norm_num : (2 : ℝ) ≠ 0)]
  simp

theorem binary_accurate {p : ℕ} (hp : 1 ≤ p) : (binary p).Accurate (2 ^ (-(p : ℤ))) where
  rnd := binaryRound_err p
  exact n hn := by
    apply binaryRound_nat hp
    rw [zpow_neg, zpow_natCast, ← div_eq_mul_inv, div_le_one (by positivity)] at hn
    exact_mod_cast hn
  sin x _ := by
    refine (binaryRound_err p _).trans ?_
    exact mul_le_of_le_one_right (by positivity) (Real.abs_sin_le_one x)
  sqrt x _ := by
    have := binaryRound_err p (Real.sqrt x)
    rwa [abs_of_nonneg (Real.sqrt_nonneg x)] at this

end Verif.Rounded

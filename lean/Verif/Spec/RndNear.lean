import Mathlib.Data.Real.Basic

/-!
# Equal up to a number of roundings
-/

namespace Verif.Rounded

/-- two non-negative numbers that differ by at most `k` roundings of relative size `u`: `(1-u)^k * y ≤ x ≤ y / (1-u)^k`.  In
particular one is zero exactly when the other is (`u < 1`). -/
structure Near (u : ℝ) (k : ℕ) (x y : ℝ) : Prop where
  nonneg : 0 ≤ x
  nonneg' : 0 ≤ y
  lower : (1 - u) ^ k * y ≤ x
  upper : (1 - u) ^ k * x ≤ y

/-- as many numbers, each equal up to `k` roundings -/
def NearAll (u : ℝ) (k : ℕ) (a b : List ℝ) : Prop := List.Forall₂ (Near u k) a b

/-- what `k` roundings of two numbers not above one do to their difference at most: `(2 + u) / (1-u)^k - 2` -/
noncomputable def slack (u : ℝ) (k : ℕ) : ℝ := (2 + u) / (1 - u) ^ k - 2

/-- a number that is `d` shifted by at most `s`, up to `k` roundings -/
def NearShift (u : ℝ) (k : ℕ) (s x d : ℝ) : Prop := 0 ≤ x ∧ (1 - u) ^ k * (d - s) ≤ x ∧ (1 - u) ^ k * x ≤ d + s

end Verif.Rounded

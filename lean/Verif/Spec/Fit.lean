import Mathlib.Algebra.BigOperators.Intervals
import Mathlib.Algebra.Order.Field.Basic

/-!
# The limits of a bunch, independent of the model

A profile has `n` bins with contents `f 0, …, f (n-1)`; the centre of bin `k` is at `k + 1/2`.
-/

namespace Verif.Spec
open Finset

variable {K : Type _} [Field K] [LinearOrder K]

/-- `p` is the first bin holding the largest value, and that value is not negative -/
structure Peak (n : ℕ) (f : ℕ → K) (p : ℕ) : Prop where
  lt : p < n
  nonneg : 0 ≤ f p
  le : ∀ k, k < n → f k ≤ f p
  first : ∀ k, k < p → f k < f p

/-- bin `i` is the last one before the peak `p` (bin 0 excepted) below 15 % of the peak -/
structure LeftEdge (f : ℕ → K) (p i : ℕ) : Prop where
  pos : 1 ≤ i
  lt : i < p
  below : f i < 15 / 100 * f p
  above : ∀ k, i < k → k ≤ p → 15 / 100 * f p ≤ f k

/-- bin `j` is the first one after the peak below 15 % of the peak -/
structure RightEdge (n : ℕ) (f : ℕ → K) (p j : ℕ) : Prop where
  gt : p < j
  lt : j < n
  below : f j < 15 / 100 * f p
  above : ∀ k, p ≤ k → k < j → 15 / 100 * f p ≤ f k

/-- squared distance of the bins `a ≤ k < b` from the line with slope `s` and intercept `c` -/
def residual (f : ℕ → K) (a b : ℕ) (s c : K) : K := ∑ k ∈ Ico a b, (f k - (s * (k + 1 / 2) + c)) ^ 2

/-- `x` is where the line of least squares through the bins `a ≤ k < b` crosses zero -/
def IsFoot (f : ℕ → K) (a b : ℕ) (x : K) : Prop :=
  ∃ s c, s ≠ 0 ∧ (∀ s' c', residual f a b s c ≤ residual f a b s' c') ∧ s * x + c = 0

/-- potential energy of a particle at phase `φ` in two RF systems, relative to a synchronous particle gaining `vs` per turn
(up to a factor common to all phases): its derivative is `vs` minus the RF voltage -/
def potential (cos : K → K) (v1 v2 h p12 vs φ : K) : K := v1 * cos φ + v2 * cos (h * (φ - p12)) / h + vs * φ

end Verif.Spec

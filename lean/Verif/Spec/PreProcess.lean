import Mathlib.Algebra.BigOperators.Intervals
import Mathlib.Algebra.Order.Field.Basic

/-!
# What pre-processing should do, independent of the model
-/

namespace Verif.Spec
open Finset

variable {K : Type _} [Field K] [LinearOrder K]

/-- total of profile `i` -/
def total (m : ℕ) (f : ℕ → ℕ → K) (i : ℕ) : K := ∑ j ∈ range m, f i j

/-- a sum over `rbn` neighbouring samples -/
def binSum (rbn : ℕ) (f : ℕ → ℕ → K) (i k : ℕ) : K := ∑ r ∈ range rbn, f i (k * rbn + r)

/-- how much the waterfall changes from bin `j` to bin `j + 1` -/
def change (n : ℕ) (f : ℕ → ℕ → K) (j : ℕ) : K := ∑ i ∈ range n, |f i (j + 1) - f i j|

/-- a frame is kept when its total exceeds (largest total - smallest total - mean total) -/
def Kept (n m : ℕ) (f : ℕ → ℕ → K) (i : ℕ) : Prop :=
  ∀ a b, a < n → b < n → total m f a - total m f b - (∑ c ∈ range n, total m f c) / n < total m f i

end Verif.Spec

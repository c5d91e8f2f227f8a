import Mathlib.Algebra.BigOperators.Field
import Mathlib.Algebra.Order.Field.Basic
import Mathlib.Data.List.Perm.Subperm
import Mathlib.Order.Bounds.Basic

/-! What the beam quantities mean. -/

namespace Verif.Spec

variable {K : Type _} [Field K] [LinearOrder K]

/-- some choice of `k` cells holds at least the share `f` of the whole content -/
def Holds (cells : List K) (f : K) (k : ℕ) : Prop :=
  ∃ t : List K, t.Subperm cells ∧ t.length = k ∧ f * cells.sum ≤ t.sum

/-- the smallest number of cells that holds at least the share `f` of the content -/
def CellsNeeded (cells : List K) (f : K) (k : ℕ) : Prop := IsLeast {k | Holds cells f k} k

open Finset in
/-- mean of the histogram `h` over the positions `x` -/
def mean (n : ℕ) (h x : ℕ → K) : K := (∑ i ∈ range n, h i * x i) / ∑ i ∈ range n, h i

open Finset in
/-- variance of the histogram `h` over the positions `x` -/
def variance (n : ℕ) (h x : ℕ → K) : K := (∑ i ∈ range n, h i * (x i - mean n h x) ^ 2) / ∑ i ∈ range n, h i

end Verif.Spec

import Verif.Model.Omp

/-!
# What a parallel loop should leave in memory
-/

namespace Verif.Spec
open Verif.Omp

/-- The array `g` of the shared memory holds the buffer `l`. -/
def Stores {β : Type} (g : Int → β) (l : List β) : Prop := ∀ i v, rd l i = .ok v → g i = v

/-- `m'` differs from `m` at most in the array `a`. -/
def OnlyArray {α : Type} (a : Arr) (m m' : Memory α) : Prop := ∀ x, (∀ i, x ≠ .real a i) → m' x = m x

/-- shared memory holding the buffers `r`, `n`, `b` (0 and `false` outside them) -/
def memOf {α : Type} [Zero α] (r : Arr → List α) (n : IArr → List Int) (b : List Bool) : Memory α
  | .real a i => if 0 ≤ i then (r a).getD i.toNat 0 else 0
  | .int a i => if 0 ≤ i then (n a).getD i.toNat 0 else 0
  | .mask i => if 0 ≤ i then b.getD i.toNat false else false

end Verif.Spec

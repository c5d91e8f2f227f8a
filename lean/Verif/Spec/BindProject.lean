import Verif.Spec.Bind
import Verif.Model.BindProject

/-!
# What `project`, `back_project` and `count_particles_in_bins` should do with the caller's arrays
-/

namespace Verif.Spec
open Verif.Bind
variable {α : Type}

/-- the values of an array given for a parameter with element type `d`: as they are in an array of that type in C order,
converted otherwise -/
def valuesAs (E : Env α) (d : DType) (A : NdArr α) : List α :=
  if A.dtype = d ∧ A.order = .c then A.rows.flatten else A.rows.flatten.map (E.cv d)

/-- Memory `h'` after a call that was given array `a` (`A` in memory `h`) to write to and returned array `r`: that array holds the
values `v` in the shape of `A`, with element type `d`; it is the caller's own array exactly if that had element type `d` and
C order; every other array the caller had is as before. -/
def WrittenTo (d : DType) (h h' : Heap α) (a r : Int) (A : NdArr α) (v : List α) : Prop :=
  (∃ B, rd h' r = .ok B ∧ B.rows.flatten = v ∧ B.rows.map List.length = A.rows.map List.length ∧ B.dtype = d ∧ B.order = .c) ∧
    (r = a ↔ A.dtype = d ∧ A.order = .c) ∧ ∀ b C, rd h b = .ok C → b ≠ r → rd h' b = .ok C

/-- The call ends like the computation on values `c`: with the same fault, or with the values written. -/
def CallOf (d : DType) (h : Heap α) (a : Int) (A : NdArr α) (call : M (Heap α × Int)) (c : M (List α)) : Prop :=
  (∀ e, c = .error e → call = .error e) ∧
    ∀ v, c = .ok v → ∃ h' r, call = .ok (h', r) ∧ WrittenTo d h h' a r A v

end Verif.Spec

import Verif.Spec.Bind
import Verif.Spec.Tracking

/-!
# What a tracking may do to the arrays it is given
-/

namespace Verif.Spec
open Verif.Bind

variable {α : Type}

/-- What a caller finds in their array `A` (at `a`) after a routine worked through the values `v`: these, if the compiled code can
work on the array itself, and otherwise what was there before. -/
def LeftIn (h : Heap α) (a : Int) (A : NdArr α) (v : List α) : Prop :=
  rd h a = .ok (if A.dtype = .f64 ∧ A.order = .c then { A with rows := [v] } else A)

/-- an array of one dimension with the values `v` -/
def Is1D (h : Heap α) (a : Int) (A : NdArr α) (v : List α) : Prop := rd h a = .ok A ∧ A.rows = [v]

/-- The machine and the two voltage tables in memory: the per-turn tables hold `m`, none of them is one of the two arrays of
coordinates, and `phi12` and `h_ratio` are numbers (with these values as `double`). -/
structure InMemory [Add α] [Sub α] [Mul α] (E : Env α) (h : Heap α) (o : MachObj α) (r1 r2 : Int) (avoid : List Int)
    (m : Track.Mach α) (phi12 : α) : Prop where
  rf1v : ∃ A, rd h r1 = .ok A ∧ A.rows.flatten = m.rf1v
  rf2v : ∃ A, rd h r2 = .ok A ∧ A.rows.flatten = m.rf2v
  phi0 : ∃ A, rd h o.phi0 = .ok A ∧ A.rows.flatten = m.phi0
  deltaE0 : ∃ A, rd h o.deltaE0 = .ok A ∧ A.rows.flatten = m.deltaE0
  driftCoef : ∃ A, rd h o.driftCoef = .ok A ∧ A.rows.flatten = m.driftCoef
  apart : ∀ a ∈ [r1, r2, o.phi0, o.deltaE0, o.driftCoef], a ∉ avoid
  number12 : o.phi12 = .float phi12 ∨ ∃ k, o.phi12 = .int k ∧ E.ofInt k = phi12
  ratio : o.hratio = .float m.hratio ∨ ∃ k, o.hratio = .int k ∧ E.ofInt k = m.hratio

end Verif.Spec

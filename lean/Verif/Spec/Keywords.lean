import Verif.Model.Keywords

/-!
# What a call by position and by keyword means
-/

namespace Verif.Spec
open Verif.Kw

/-- A call gives each parameter name a value: `f` maps the names of the parameters to the values the python language gives them in
a call of a function declared with these parameters. -/
structure Binding {V : Type _} (sig : List (Param V)) (pos : List V) (kw : List (String × V)) (f : String → V) : Prop where
  /-- every positional value belongs to the parameter at its place -/
  position : ∀ (i : Nat) v, pos[i]? = some v → ∃ p : Param V, sig[i]? = some p ∧ f p.1 = v
  /-- which is not given by keyword again -/
  once : ∀ (i : Nat) (p : Param V), i < pos.length → sig[i]? = some p → ∀ q ∈ kw, q.1 ≠ p.1
  /-- every keyword is the name of a parameter -/
  known : ∀ q ∈ kw, ∃ p ∈ sig, p.1 = q.1
  /-- and gives its value -/
  keyword : ∀ q ∈ kw, f q.1 = q.2
  /-- a parameter that is given in neither way has its default -/
  default : ∀ (i : Nat) (p : Param V), pos.length ≤ i → sig[i]? = some p → (∀ q ∈ kw, q.1 ≠ p.1) → p.2 = some (f p.1)

/-- no name twice -/
def Distinct {V : Type _} (l : List (String × V)) : Prop := (l.map (·.1)).Nodup

/-- exchange of the numbers of particles and profiles -/
def swapped (n : String) : String :=
  if n = "n_particles" then "n_profiles" else if n = "n_profiles" then "n_particles" else n

end Verif.Spec

import Verif.Model.Object

/-!
# Vocabulary for the life of a `Tomography` object
-/

namespace Verif.Spec
open Verif.Obj

variable {α : Type _}

/-- The two objects hold the same x-coordinates. -/
def SameX (o o' : TObj α) : Prop := o.c.xp = o'.c.xp ∧ o.c.nparts = o'.c.nparts

/-- The attributes in which a statement leaves its results. -/
def results : Op α → TObj α → List (Option (List (List α)))
  | .run _ _, o => [o.weight.map ([·]), o.diff.map ([·]), some [o.recreated]]
  | .hybrid _, o => [o.diff.map ([·]), some [o.recreated]]
  | .hybridMulti _ _ _, o => [o.diff.map ([·]), some [o.recreated], o.full.map ([·])]
  | .multi _ _ _ _ _ _, o => [o.diff.map ([·]), o.split, some [o.recreated], o.combined.map ([·]), o.bunches]
  | .multiHybrid _ _ _, o => [o.diff.map ([·]), o.split, some [o.recreated], o.full.map ([·]), o.combined.map ([·]), o.bunches]
  | .xp _, _ => []
  | .yp _, _ => []
  | .runOld _, _ => []

/-- a callback that does nothing to the object (it may raise an exception) -/
def Quiet : Calls α → Prop
  | .done => True
  | .call ops _ rest => ops = .nil ∧ Quiet rest

/-- the statements that set their attributes after the work is done -/
def Late : Op α → Prop
  | .xp _ => True
  | .yp _ => True
  | .run _ cb => Quiet cb
  | .multi _ _ _ _ cb _ => Quiet cb
  | _ => False

/-- statements one after the other -/
def ofList : List (Op α) → Ops α
  | [] => .nil
  | op :: l => .cons op (ofList l)

end Verif.Spec

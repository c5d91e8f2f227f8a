import Verif.Model.Tomography
import Verif.Model.Multi

/-!
# The `Tomography` objects over their whole life

`tomography/tomography.py`, `tomography/tomography_multibunch.py` and their base class: one object, any sequence of assignments and
reconstructions, each of which may fail half-way.  The numerical work is that of `Model/Reconstruct.lean`, `Model/Tomography.lean` and
`Model/Multi.lean`; here is what the methods read from the object and when they write to it.  The attributes of both classes are in
one structure; an object of either class is reached with the methods of its class.

Arrays are values: an attribute that the code rebinds to a new array gets a new value.  The places where an array is changed while two
attributes share it are noted.
-/

namespace Verif.Obj
open Verif.Recon Verif.Tomo Verif.Multi

/-- Python code working on an object: it may change the object and then fail, leaving the changes. -/
def Ob (σ β : Type _) := σ → σ × M β

namespace Ob
variable {σ β γ : Type _}

def ret (b : β) : Ob σ β := fun s => (s, .ok b)

def bind (a : Ob σ β) (f : β → Ob σ γ) : Ob σ γ := fun s =>
  match a s with
  | (s', .ok b) => f b s'
  | (s', .error e) => (s', .error e)

instance : Monad (Ob σ) where
  pure := ret
  bind := bind

/-- a computation that does not touch the object -/
def lift (m : M β) : Ob σ β := fun s => (s, m)

def get : Ob σ σ := fun s => (s, .ok s)

def modify (g : σ → σ) : Ob σ Unit := fun s => (g s, .ok ())

/-- `for i in range(n)` -/
def forO : Nat → (Nat → β → Ob σ β) → β → Ob σ β
  | 0, _, b => ret b
  | n + 1, f, b => bind (forO n f b) (f n)

end Ob

section
variable {α : Type _} [Add α] [Sub α] [Mul α] [Zero α] [One α] [NatCast α] [IntCast α]
  [LT α] [LE α] [DecidableLT α] [DecidableLE α] [DecidableEq α] [FDiv α]

/-- The attributes of a `Tomography` object (__tomography.py:55-69; the last three are created by the methods of
tomography.py:245, tomography_multibunch.py:149, 201-206, 290-295). -/
structure TObj (α : Type _) where
  wf : List α
  c : Coords
  recreated : List α
  diff : Option (List α)
  /-- `diff_split`, one row per bunch -/
  split : Option (List (List α))
  weight : Option (List α)
  /-- `full_recreated` -/
  full : Option (List α)
  /-- `weight_combined` -/
  combined : Option (List α)
  /-- `weight_split` -/
  bunches : Option (List (List α))
  deriving DecidableEq, Repr

/-- __tomography.py:55-69: a new object on the stored (clipped, normalised) waterfall, without coordinates. -/
def new (wf : List α) (nprofs nbins : Nat) : TObj α :=
  ⟨wf, ⟨nprofs, nbins, none, none, none⟩, tab (nprofs * nbins) fun _ => 0, none, none, none, none, none, none⟩

/-- `self.nparts` -/
def TObj.nparts (o : TObj α) : Nat := o.c.nparts.getD 0

/-- `self.diff[i] = d` -/
def setDiff (i : Nat) (d : α) : Ob (TObj α) Unit := fun o =>
  match o.diff with
  | none => (o, .error (.exc .typeError))
  | some v =>
    match upd v (i : Int) d with
    | .error e => (o, .error e)
    | .ok v' => ({ o with diff := some v' }, .ok ())

/-- `self.diff_split[:, i] = ds` -/
def setSplit (i : Nat) (ds : List α) : Ob (TObj α) Unit := fun o =>
  match o.split with
  | none => (o, .error (.exc .typeError))
  | some v =>
    match setColumn v i ds with
    | .error e => (o, .error e)
    | .ok v' => ({ o with split := some v' }, .ok ())

/-- tomography.py:291-298 `_project` with 128, 141: the size of the new array is that of the `recreated` of before. -/
def projectO (fp : List Int) (w : List α) : Ob (TObj α) Unit := do
  let o ← Ob.get
  let rec ← Ob.lift (project (tab o.recreated.length fun _ => (0 : α)) fp w o.nparts o.c.nprofs)
  let rec ← Ob.lift (normalizeProfiles rec o.c.nprofs o.c.nbins)
  Ob.modify fun o => { o with recreated := rec }

/-- tomography.py:130-131, 144-145: `diff_waterfall`, and its discrepancy stored -/
def compareO (sqrt : α → α) (i : Nat) : Ob (TObj α) (List α) := do
  let o ← Ob.get
  let diff ← Ob.lift (zip2 (fun a b => a - b) o.wf o.recreated)
  let d ← Ob.lift (discrepancyPy sqrt diff o.c.nprofs o.c.nbins)
  setDiff i d
  pure diff

/-- tomography.py:124-139: one iteration of `run_hybrid` -/
def hybridBodyO (sqrt : α → α) (fp : List Int) (recipT : List α) (i : Nat) (w : List α) : Ob (TObj α) (List α) := do
  projectO fp w
  let diff ← compareO sqrt i
  let diff ← Ob.lift (zip2 (fun a b => a * b) diff recipT)
  let o ← Ob.get
  let w ← Ob.lift (backProject w fp diff o.nparts o.c.nprofs)
  pure (npClip0 w)

/-- tomography.py:106-150 `run_hybrid`: the weights are returned, not stored. -/
def hybridO (sqrt : α → α) (niter : Nat) : Ob (TObj α) (List α) := do
  let o ← Ob.get
  match o.c.xp with
  | none => Ob.lift (.error (.exc .coordinateError))
  | some (_, x) => do
    Ob.modify fun o => { o with diff := some (tab (niter + 1) fun _ => 0) }
    let recip ← Ob.lift (reciprocalParticlesPy (α := α) x o.c.nbins o.c.nprofs o.nparts)
    let fp ← Ob.lift (createFlatPointsPy x o.nparts o.c.nprofs o.c.nbins)
    let w ← Ob.lift (backProject (tab o.nparts fun _ => (0 : α)) fp o.wf o.nparts o.c.nprofs)
    let recipT ← Ob.lift (transpose recip o.c.nbins o.c.nprofs)
    let w ← Ob.forO niter (hybridBodyO sqrt fp recipT) (npClip0 w)
    projectO fp w
    let _ ← compareO sqrt niter
    pure w

/-- tomography.py:247-251, tomography_multibunch.py:151-158: one bunch projected into `recreated` (300-307, 221-227), which is added to
`full_recreated` in place -/
def addBunchO (fp : List Int) (q : List α × Int) : Ob (TObj α) Unit := do
  let o ← Ob.get
  let r ← Ob.lift (project (tab o.recreated.length fun _ => (0 : α)) (fp.map fun v => v + q.2) q.1 o.nparts o.c.nprofs)
  Ob.modify fun o => { o with recreated := r }
  match o.full with
  | none => Ob.lift (.error (.exc .attributeError))
  | some f => do
    let f' ← Ob.lift (zip2 (fun a b => a + b) f r)
    Ob.modify fun o => { o with full := some f' }

/-- tomography.py:253, tomography_multibunch.py:160: normalised in place, so that both attributes are the same array -/
def normalizeFullO : Ob (TObj α) Unit := do
  let o ← Ob.get
  match o.full with
  | none => Ob.lift (.error (.exc .attributeError))
  | some f => do
    let r ← Ob.lift (normalizeProfiles f o.c.nprofs o.c.nbins)
    Ob.modify fun o => { o with recreated := r, full := some r }

/-- tomography.py:245-253, 271-277: all bunches projected -/
def projectBunchesO (fp : List Int) (ws : List (List α)) (centers : List Int) : Ob (TObj α) Unit := do
  Ob.modify fun o => { o with full := some (tab (o.c.nprofs * o.c.nbins) fun _ => 0) }
  (ws.zip centers).forM (addBunchO fp)
  normalizeFullO

/-- tomography.py:241-269: one iteration of `run_hybrid_multi` -/
def hybridMultiBodyO (sqrt : α → α) (recip : List α) (fp : List Int) (masks : List (List Bool)) (centers : List Int)
    (k : Nat) (ws : List (List α)) : Ob (TObj α) (List (List α)) := do
  projectBunchesO fp ws centers
  let diff ← compareO sqrt k
  let diff ← Ob.lift (zip2 (fun a b => a * b) diff recip)
  let o ← Ob.get
  let ws ← Ob.lift (((ws.zip masks).zip centers).mapM fun q => backBunch q.1.1 fp q.2 diff q.1.2 o.nparts o.c.nprofs)
  pure (ws.map npClip0)

/-- tomography.py:188-286 `run_hybrid_multi` (printing and plotting left out). -/
def hybridMultiO (sqrt : α → α) (centers : List Int) (cuts : List (Int × Int)) (niter : Nat) : Ob (TObj α) (List (List α)) := do
  let o ← Ob.get
  match o.c.xp with
  | none => Ob.lift (.error (.exc .coordinateError))
  | some (_, x) => do
    let masks ← Ob.lift ((centers.zip cuts).mapM fun q => maskPy x q.1 q.2 o.nparts o.c.nprofs)
    Ob.modify fun o => { o with diff := some (tab (niter + 1) fun _ => 0) }
    let recip ← Ob.lift (reciprocalMultiPy (α := α) x centers o.c.nbins o.c.nprofs o.nparts)
    let fp ← Ob.lift (createFlatPointsPy x o.nparts o.c.nprofs o.c.nbins)
    let ws ← Ob.lift ((masks.zip centers).mapM fun q => backBunch (tab o.nparts fun _ => (0 : α)) fp q.2 o.wf q.1 o.nparts o.c.nprofs)
    let ws ← Ob.forO niter (hybridMultiBodyO sqrt recip fp masks centers) (ws.map npClip0)
    projectBunchesO fp ws centers
    let _ ← compareO sqrt niter
    pure ws

/-- tomography_multibunch.py:149-160, 181-190: the bunches are slices of one array of weights -/
def projectFlatO (fp : List Int) (w : List α) (centers : List Int) : Ob (TObj α) Unit := do
  Ob.modify fun o => { o with full := some (tab (o.c.nprofs * o.c.nbins) fun _ => 0) }
  Ob.forO centers.length (fun c _ => do
    let z ← Ob.lift (rd centers (c : Int))
    let o ← Ob.get
    addBunchO fp (slc w c o.nparts, z)) ()
  normalizeFullO

/-- tomography_multibunch.py:162-164, 193-195 -/
def compareSplitO (sqrt : α → α) (cuts : List (Int × Int)) (i : Nat) : Ob (TObj α) (List α) := do
  let diff ← compareO sqrt i
  let o ← Ob.get
  let ds ← Ob.lift (discrepancyMultiPy sqrt diff cuts o.c.nprofs o.c.nbins)
  setSplit i ds
  pure diff

/-- tomography_multibunch.py:145-179: one iteration -/
def hybridFlatBodyO (sqrt : α → α) (recip : List α) (fp : List Int) (masks : List Bool) (centers : List Int) (cuts : List (Int × Int))
    (k : Nat) (w : List α) : Ob (TObj α) (List α) := do
  projectFlatO fp w centers
  let diff ← compareSplitO sqrt cuts k
  let diff ← Ob.lift (zip2 (fun a b => a * b) diff recip)
  let o ← Ob.get
  let w ← Ob.lift (backFlat w fp diff masks centers o.nparts o.c.nprofs)
  pure (npClip0 w)

/-- tomography_multibunch.py:107-206 `run_hybrid` of the multi-bunch class: nothing is returned. -/
def hybridFlatO (sqrt : α → α) (centers : List Int) (cuts : List (Int × Int)) (niter : Nat) : Ob (TObj α) Unit := do
  let o ← Ob.get
  match o.c.xp with
  | none => Ob.lift (.error (.exc .coordinateError))
  | some (_, x) => do
    let masks ← Ob.lift ((centers.zip cuts).mapM fun q => maskPy x q.1 q.2 o.nparts o.c.nprofs)
    let masks := masks.flatten
    Ob.modify fun o => { o with
      diff := some (tab (niter + 1) fun _ => 0), split := some (tab centers.length fun _ => tab (niter + 1) fun _ => 0) }
    let recip ← Ob.lift (reciprocalMultiPy (α := α) x centers o.c.nbins o.c.nprofs o.nparts)
    let fp ← Ob.lift (createFlatPointsPy x o.nparts o.c.nprofs o.c.nbins)
    let w ← Ob.lift (backFlat (tab (o.nparts * centers.length) fun _ => (0 : α)) fp o.wf masks centers o.nparts o.c.nprofs)
    let w ← Ob.forO niter (hybridFlatBodyO sqrt recip fp masks centers cuts) (npClip0 w)
    projectFlatO fp w centers
    let _ ← compareSplitO sqrt cuts niter
    Ob.modify fun o => { o with
      combined := some w, bunches := some ((List.range centers.length).map fun i => npRange w (i * o.nparts) ((i + 1) * o.nparts)) }

/-- what a statement returns -/
inductive Ret (α : Type _)
  | none
  | weights (w : List α)
  /-- a 2-D array, one row per bunch -/
  | rows (ws : List (List α))
  deriving DecidableEq, Repr

/-- a method that returns what `f` makes of its last value -/
def returns {β : Type _} (f : β → Ret α) (p : TObj α × M β) : TObj α × M (Ret α) := (p.1, p.2.map f)

/-- tomography_multibunch.py:291-295: `weight_split`; the number of particles is read from the object again (`i * None` raises). -/
def splitWeights (w : List α) (centers : List Int) (o : TObj α) : TObj α × M (Ret α) :=
  match o.c.nparts, centers with
  | none, _ :: _ => ({ o with bunches := some [] }, .error (.exc .typeError))
  | n, _ => ({ o with bunches := some ((List.range centers.length).map fun i => npRange w (i * n.getD 0) ((i + 1) * n.getD 0)) }, .ok .none)

mutual

/-- one statement of a user working with the object -/
inductive Op (α : Type _)
  /-- `t.xp = v` -/
  | xp (v : PyVal)
  /-- `t.yp = v` -/
  | yp (v : PyVal)
  /-- `t.run(niter, callback=…)`, tomography.py -/
  | run (niter : Nat) (callback : Calls α)
  /-- `t.run_hybrid(niter)`, tomography.py -/
  | hybrid (niter : Nat)
  /-- `t.run_hybrid_multi(centers, cuts, niter)`, tomography.py -/
  | hybridMulti (centers : List Int) (cuts : List (Int × Int)) (niter : Nat)
  /-- `t._run_old(niter)`, tomography.py -/
  | runOld (niter : Nat)
  /-- `t.run(centers, cutleft, cutright, niter, callback=…)`, tomography_multibunch.py; `junk` is what the memory of the
  uninitialised array of discrepancies holds (libtomo.cpp:469) -/
  | multi (centers cutleft cutright : List Int) (niter : Nat) (callback : Calls α) (junk : α)
  /-- `t.run_hybrid(centers, cuts, niter)`, tomography_multibunch.py -/
  | multiHybrid (centers : List Int) (cuts : List (Int × Int)) (niter : Nat)

/-- What a progress callback does at its first, second, … call: statements on the object itself (with their exceptions caught), then
perhaps an exception of its own. -/
inductive Calls (α : Type _)
  | done
  | call (ops : Ops α) (raises : Option Exn) (rest : Calls α)

/-- statements one after the other, exceptions caught -/
inductive Ops (α : Type _)
  | nil
  | cons (op : Op α) (rest : Ops α)

end

mutual

/-- One statement: the object afterwards, and what is returned or raised. -/
def step (sqrt : α → α) : Op α → TObj α → TObj α × M (Ret α)
  -- __tomography.py:162-195, 111-128
  | .xp v, o =>
    match setXp o.c v with
    | (c, none) => ({ o with c := c }, .ok .none)
    | (c, some e) => ({ o with c := c }, .error (.exc e))
  | .yp v, o =>
    match setYp o.c v with
    | (c, none) => ({ o with c := c }, .ok .none)
    | (c, some e) => ({ o with c := c }, .error (.exc e))
  -- tomography.py:395-404: the arguments are evaluated before the call, the attributes are set after it; an exception of the callback
  -- ends the call (libtomo.cpp:416-432)
  | .run niter cb, o =>
    match o.c.xp with
    | none => (o, .error (.exc .coordinateError))
    | some (_, x) =>
      let r := reconstruct sqrt x o.wf niter o.c.nbins o.nparts o.c.nprofs
      match calls sqrt cb r.1.length o with
      | (o', some e) => (o', .error (.exc e))
      | (o', none) =>
        match r.2 with
        | .error e => (o', .error e)
        | .ok st => ({ o' with weight := some st.weights, diff := some st.discr, recreated := st.flatRec }, .ok (.weights st.weights))
  | .hybrid niter, o =>
    returns .weights (hybridO sqrt niter o)
  | .hybridMulti centers cuts niter, o =>
    returns .rows (hybridMultiO sqrt centers cuts niter o)
  -- tomography.py:341-356: the library has no `reconstruct_old`
  | .runOld niter, o =>
    match o.c.xp with
    | none => (o, .error (.exc .coordinateError))
    | some _ => ({ o with diff := some (tab (niter + 1) fun _ => 0) }, .error (.exc .attributeError))
  -- tomography_multibunch.py:272-295
  | .multi centers cl cr niter cb junk, o =>
    match o.c.xp with
    | none => (o, .error (.exc .coordinateError))
    | some (_, x) =>
      let r := runMulti sqrt junk x o.wf centers cl cr niter o.c.nbins o.nparts o.c.nprofs
      match calls sqrt cb r.1.length o with
      | (o', some e) => (o', .error (.exc e))
      | (o', none) =>
        match r.2 with
        | .error e => (o', .error e)
        | .ok b => splitWeights b.weightCombined centers
            { o' with diff := some b.diff, split := some b.diffSplit, recreated := b.recreated, combined := some b.weightCombined }
  | .multiHybrid centers cuts niter, o =>
    returns (fun _ => .none) (hybridFlatO sqrt centers cuts niter o)

/-- The callback called `n` times: the object afterwards, and the exception that ended it. -/
def calls (sqrt : α → α) : Calls α → Nat → TObj α → TObj α × Option Exn
  | .done, _, o => (o, none)
  | .call _ _ _, 0, o => (o, none)
  | .call ops (some e) _, _ + 1, o => (runOps sqrt ops o, some e)
  | .call ops none rest, n + 1, o => calls sqrt rest n (runOps sqrt ops o)

/-- The object after a sequence of statements. -/
def runOps (sqrt : α → α) : Ops α → TObj α → TObj α
  | .nil, o => o
  | .cons op rest, o => runOps sqrt rest (step sqrt op o).1

end

end

end Verif.Obj

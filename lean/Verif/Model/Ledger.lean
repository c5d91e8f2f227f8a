import Verif.Core.Buf

/-!
# Model of the memory the C++ library allocates

Only allocations, deletions, ownership and the places where an exception can start are kept from the C++ functions; what
is computed is in the other models. Whether an exception starts at a given place is decided by an arbitrary function of
the number of such places passed so far, which covers every value of the data, every callback and every point at which memory
runs out. All exceptions are `std::exception`s (`bad_alloc`, `runtime_error`, `out_of_range`, pybind11's
`error_already_set`), so every `catch (const std::exception &)` catches them.
-/

namespace Verif.Ledger

/-- where an exception can start -/
inductive Point
  /-- `new[]` -/
  | alloc
  /-- making a python object: capsule, array, tuple -/
  | python
  /-- a test of the routine or a callback -/
  | work
  deriving DecidableEq, Repr

/-- does an exception start at the `n`-th place? -/
abbrev Fails := Nat → Point → Bool

/-- blocks in use, each with its number of elements; addresses are never used again -/
structure Heap where
  clock : Nat
  next : Nat
  live : List (Nat × Nat)
  deriving DecidableEq, Repr

inductive Out (α : Type)
  | ok (a : α)
  /-- an exception leaves the function -/
  | thrown
  /-- `delete[]` of a block that is not in use: undefined behaviour -/
  | corrupt
  deriving DecidableEq, Repr

/-- a piece of C++ -/
def Act (α : Type) := Fails → Heap → Out α × Heap

def Act.pure {α : Type} (a : α) : Act α := fun _ h => (.ok a, h)

def Act.bind {α β : Type} (x : Act α) (f : α → Act β) : Act β := fun fails h =>
  match x fails h with
  | (.ok a, h') => f a fails h'
  | (.thrown, h') => (.thrown, h')
  | (.corrupt, h') => (.corrupt, h')

instance : Monad Act where
  pure := Act.pure
  bind := Act.bind

/-- a place where an exception can start -/
def point (p : Point) : Act Unit := fun fails h =>
  (if fails h.clock p then .thrown else .ok (), { h with clock := h.clock + 1 })

/-- `throw` -/
def throwNow {α : Type} : Act α := fun _ h => (.thrown, h)

/-- `new T[n]` -/
def new (n : Nat) : Act Nat := fun fails h =>
  if fails h.clock .alloc then (.thrown, { h with clock := h.clock + 1 })
  else (.ok h.next, ⟨h.clock + 1, h.next + 1, (h.next, n) :: h.live⟩)

/-- `delete[] p` -/
def delete (a : Nat) : Act Unit := fun _ h =>
  if h.live.any fun b => b.1 == a then (.ok (), { h with live := h.live.filter fun b => b.1 != a })
  else (.corrupt, h)

/-- `try { body } catch (const std::exception &e) { cleanup; throw; }` -/
def tryClean {α : Type} (body : Act α) (cleanup : Act Unit) : Act α := fun fails h =>
  match body fails h with
  | (.thrown, h') =>
    match cleanup fails h' with
    | (.ok _, h'') => (.thrown, h'')
    | (.thrown, h'') => (.thrown, h'')
    | (.corrupt, h'') => (.corrupt, h'')
  | r => r

/-- `for (i = 0; i < n; i++) body` -/
def loop : Nat → Act Unit → Act Unit
  | 0, _ => Act.pure ()
  | n + 1, body => Act.bind (loop n body) fun _ => body

/-- `py::capsule c(p, deleter)` as a local variable and the code after it: making the capsule can fail, and then nobody deletes
`p`; an exception later on destroys the capsule and with it the block. When the code returns, the array made from the
capsule keeps the block. -/
def capsule {α : Type} (a : Nat) (rest : Act α) : Act α := do
  point .python
  tryClean rest (delete a)

/-- reconstruct.cpp:359-441 `reconstruct`: exceptions start at lines 396, 405 (104), 418, 420, 425 (104), 430 -/
def reconstruct (niter nbins npart nprof : Nat) : Act Unit := do
  let diffProf ← new (nprof * nbins)
  let rparts ← new (nprof * nbins)
  let flatPoints ← new (npart * nprof)
  let cleanup : Act Unit := do
    delete diffProf
    delete rparts
    delete flatPoints
  tryClean (do
    point .work
    loop niter (do
      point .work
      point .work
      point .work)
    point .work
    point .work) cleanup
  cleanup

/-- libtomo.cpp:396-443 `wrapper_reconstruct`: the arrays returned -/
def wrapperReconstruct (niter nbins npart nprof : Nat) : Act (List Nat) := do
  let weights ← new npart
  let discr ← new (niter + 1)
  let recreated ← new (nprof * nbins)
  tryClean (reconstruct niter nbins npart nprof) (do
    delete weights
    delete discr
    delete recreated)
  capsule weights (capsule discr (capsule recreated (do
    point .python
    point .python
    point .python
    point .python
    pure [weights, discr, recreated])))

/-- reconstruct.cpp:446-539 `reconstruct_multi`: exceptions start at lines 492, 502 (104), 515, 517, 522 (104), 528 -/
def reconstructMulti (niter nbins npart nprof ncenter : Nat) : Act Unit := do
  let diffProf ← new (nprof * nbins)
  let rparts ← new (nprof * nbins)
  let flatPoints ← new (npart * nprof)
  let mask ← new (npart * ncenter)
  let cleanup : Act Unit := do
    delete diffProf
    delete rparts
    delete flatPoints
    delete mask
  tryClean (do
    point .work
    loop niter (do
      point .work
      point .work
      point .work)
    point .work
    point .work) cleanup
  cleanup

/-- libtomo.cpp:446-510 `wrapper_reconstruct_multi` -/
def wrapperReconstructMulti (niter nbins npart nprof ncenter : Nat) : Act (List Nat) := do
  let weights ← new (npart * ncenter)
  let discr ← new (niter + 1)
  let discrSplit ← new (ncenter * (niter + 1))
  let recreated ← new (nprof * nbins)
  tryClean (reconstructMulti niter nbins npart nprof ncenter) (do
    delete weights
    delete discr
    delete discrSplit
    delete recreated)
  capsule weights (capsule discr (capsule discrSplit (capsule recreated (do
    point .python
    point .python
    point .python
    point .python
    point .python
    pure [weights, discr, discrSplit, recreated]))))

/-- data_treatment.cpp:27-30: does the loop meet an index behind the image? -/
def outside (nbins : Nat) (particles : List (Int × Int)) : Bool :=
  particles.any fun p => decide (((nbins * nbins : Nat) : Int) ≤ p.2 + p.1 * nbins)

/-- data_treatment.cpp:21-35 `make_phase_space`; `particles` are the pairs `(xp[i], yp[i])` -/
def makePhaseSpace (nbins : Nat) (particles : List (Int × Int)) : Act Nat := do
  let phaseSpace ← new (nbins * nbins)
  if outside nbins particles then throwNow else pure phaseSpace

/-- libtomo.cpp:512-533 `wrapper_make_phase_space` -/
def wrapperMakePhaseSpace (nbins : Nat) (particles : List (Int × Int)) : Act (List Nat) := do
  let phaseSpace ← makePhaseSpace nbins particles
  capsule phaseSpace (do
    point .python
    pure [phaseSpace])

/-- kick_and_drift.cpp:116-211 `kick_and_drift`: an exception can start in the callbacks, after each turn upwards and downwards -/
def kickAndDrift (up down : Nat) : Act Unit := do
  loop up (point .work)
  loop down (point .work)

/-- libtomo.cpp:228-306 `wrapper_kick_and_drift_array`: no new array is returned -/
def wrapperKickAndDriftArray (nprof up down : Nat) : Act (List Nat) := do
  let xp ← new nprof
  let yp ← new nprof
  let cleanup : Act Unit := do
    delete xp
    delete yp
  tryClean (kickAndDrift up down) cleanup
  cleanup
  point .python
  pure []

/-- libtomo.cpp:193-226 `wrapper_kick_and_drift_scalar`: the table of `phi12` belongs to a local array, which is destroyed when the
function ends in whatever way -/
def wrapperKickAndDriftScalar (nturns nprof up down : Nat) : Act (List Nat) := do
  let phi12 ← new nturns
  capsule phi12 (do
    point .python
    let _ ← wrapperKickAndDriftArray nprof up down
    point .python)
  delete phi12
  pure []

/-- what a python program does with the library -/
inductive Call
  | reconstruct (niter nbins npart nprof : Nat)
  | reconstructMulti (niter nbins npart nprof ncenter : Nat)
  | makePhaseSpace (nbins : Nat) (particles : List (Int × Int))
  | trackArray (nprof up down : Nat)
  | trackScalar (nturns nprof up down : Nat)
  /-- the last reference to the `k`-th array held goes -/
  | drop (k : Nat)
  deriving DecidableEq, Repr

/-- the blocks of the arrays python holds, the heap, and whether undefined behaviour was met -/
structure State where
  held : List Nat
  heap : Heap
  broken : Bool
  deriving DecidableEq, Repr

/-- the function behind a call of the library -/
def Call.act : Call → Act (List Nat)
  | .reconstruct i b p f => wrapperReconstruct i b p f
  | .reconstructMulti i b p f c => wrapperReconstructMulti i b p f c
  | .makePhaseSpace b ps => wrapperMakePhaseSpace b ps
  | .trackArray f u d => wrapperKickAndDriftArray f u d
  | .trackScalar t f u d => wrapperKickAndDriftScalar t f u d
  | .drop _ => pure []

/-- one call; an exception is caught by the python program -/
def step (fails : Fails) (s : State) (c : Call) : State :=
  match c with
  | .drop k =>
    match s.held[k]? with
    | none => s
    | some a =>
      match delete a fails s.heap with
      | (.ok _, h) => { s with held := s.held.eraseIdx k, heap := h }
      | (_, h) => { s with held := s.held.eraseIdx k, heap := h, broken := true }
  | c =>
    match c.act fails s.heap with
    | (.ok r, h) => { s with held := r ++ s.held, heap := h }
    | (.thrown, h) => { s with heap := h }
    | (.corrupt, h) => { s with heap := h, broken := true }

def start : State := ⟨[], ⟨0, 0, []⟩, false⟩

/-- a history of calls -/
def run (fails : Fails) (calls : List Call) : State := calls.foldl (step fails) start

end Verif.Ledger

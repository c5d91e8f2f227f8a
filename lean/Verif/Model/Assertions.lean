import Verif.Core.Fl

/-!
# Model of `assertions.py`

Generic in the number type, whose comparisons need obey no law (so the NaN arithmetic `Fl` can be used).  Error texts are
not modelled, only the class of the exception.  `assert_index_ok` is `Track.assertIndexOk` in `Model/Tracking.lean`.
-/

namespace Verif.Asrt

section scalar
variable {α : Type _} [LT α] [LE α] [DecidableLT α] [DecidableLE α]

/-- `raise error_class(...)` -/
def raise (e : Exn) : M Unit := .error (.exc e)

/-- `a == b` on numbers; with `Fl`, NaN equals nothing. -/
def numEq (a b : α) : Bool := decide (a ≤ b) && decide (b ≤ a)

/-- assertions.py:22-41 `assert_greater` -/
def assertGreater (var limit : α) (e : Exn) : M Unit := if var ≤ limit then raise e else .ok ()

/-- assertions.py:44-66 `assert_less` -/
def assertLess (var limit : α) (e : Exn) : M Unit := if limit ≤ var then raise e else .ok ()

/-- assertions.py:69-89 `assert_equal` -/
def assertEqual (var limit : α) (e : Exn) : M Unit := if numEq var limit = false then raise e else .ok ()

/-- assertions.py:92-112 `assert_not_equal` -/
def assertNotEqual (var limit : α) (e : Exn) : M Unit := if numEq var limit = true then raise e else .ok ()

/-- assertions.py:115-135 `assert_less_or_equal` -/
def assertLessOrEqual (var limit : α) (e : Exn) : M Unit := if limit < var then raise e else .ok ()

/-- assertions.py:138-160 `assert_greater_or_equal` -/
def assertGreaterOrEqual (var limit : α) (e : Exn) : M Unit := if var < limit then raise e else .ok ()

/-- assertions.py:163-190 `assert_inrange` -/
def assertInrange (var low up : α) (e : Exn) : M Unit := if var < low ∨ up < var then raise e else .ok ()

/-- assertions.py:198-223 `assert_array_not_equal` (one-dimensional array).  On an empty array `np.all` is true and the
error text reads `array[0]`: IndexError. -/
def assertArrayNotEqual (array : List α) (limit : α) (e : Exn) : M Unit :=
  if array.all fun x => numEq x limit then
    match array with
    | [] => raise .indexError
    | _ :: _ => raise e
  else .ok ()

/-- assertions.py:226-262 `assert_array_shape_equal`; arrays are represented by their shapes. -/
def assertArrayShapeEqual (shapes : List (List Nat)) (demanded : List Nat) : M Unit := do
  assertGreaterOrEqual (shapes.length : Int) 2 .assertionError
  if shapes.any fun s => demanded != s then raise .unequalArrayShapes else .ok ()

/-- assertions.py:265-304 `assert_array_numel_equal` with a scalar number of elements. -/
def assertArrayNumelEqual (shapes : List (List Nat)) (numel : Nat) : M Unit := do
  assertGreaterOrEqual (shapes.length : Int) 2 .assertionError
  if shapes.any fun s => [numel] != s then raise .unequalArrayShapes else .ok ()

/-- assertions.py:432-440 `_assert_log_arr` -/
def assertLogArr (ok : List Bool) (e : Exn) : M Unit := if ok.all id then .ok () else raise e

/-- assertions.py:307-331 `assert_array_in_range`; an n-dimensional array is given by its elements. -/
def assertArrayInRange (array : List α) (low up : α) (e : Exn) : M Unit :=
  assertLogArr (array.map fun x => !(decide (x < low) || decide (up < x))) e

/-- assertions.py:334-354 `assert_array_greater` -/
def assertArrayGreater (array : List α) (limit : α) (e : Exn) : M Unit :=
  assertLogArr (array.map fun x => !decide (x ≤ limit)) e

/-- assertions.py:357-377 `assert_array_greater_eq` -/
def assertArrayGreaterEq (array : List α) (limit : α) (e : Exn) : M Unit :=
  assertLogArr (array.map fun x => !decide (x < limit)) e

/-- assertions.py:380-400 `assert_array_less` -/
def assertArrayLess (array : List α) (limit : α) (e : Exn) : M Unit :=
  assertLogArr (array.map fun x => !decide (limit ≤ x)) e

/-- assertions.py:403-423 `assert_array_less_eq` -/
def assertArrayLessEq (array : List α) (limit : α) (e : Exn) : M Unit :=
  assertLogArr (array.map fun x => !decide (limit < x)) e

/-- assertions.py:447-469 `assert_only_valid_particles` -/
def assertOnlyValidParticles (xp : List α) (nBins zero : α) : M Unit :=
  if xp.any fun x => decide (nBins ≤ x) || decide (x < zero) then raise .invalidParticle else .ok ()

end scalar

/-- assertions.py:702-704 `assert_var_not_none`; returns the value. -/
def notNone {β : Type _} (v : Option β) (e : Exn) : M β :=
  match v with
  | some x => .ok x
  | none => .error (.exc e)

/-- assertions.py:477-499 `assert_fields`: the object is its attribute lookup. -/
def assertFields {β : Type _} (lookup : String → Option β) (needed : List String) (e : Exn) : M Unit :=
  match needed with
  | [] => .ok ()
  | f :: fs =>
    match lookup f with
    | none => raise e
    | some _ => assertFields lookup fs e

/-! ## Machine input -/

/-- The attributes of a `Machine` used by `assert_machine_input` and `values_at_turns` (machine_base.py, machine.py:95-117).
Attributes that the assertions compare with `None` are optional. -/
structure MachineArgs (α : Type _) where
  dtbin : Option α
  dturns : Option Int
  filmstart : Option Int
  filmstop : Option Int
  filmstep : Option Int
  niter : Option Int
  snpt : Option Int
  machineRefFrame : Option Int
  beamRefFrame : Option Int
  hNum : Option α
  hRatio : Option α
  b0 : Option α
  meanOrbitRad : Option α
  bendingRad : Option α
  eRest : Option α
  pickupSensitivity : Option α
  gCoupling : Option α
  vrf1 : α
  vrf1dot : α
  vrf2 : α
  vrf2dot : α
  phi12 : α
  q : α
  bdot : α
  transGamma : α
  nprofiles : Int

/-- The attributes read by `values_at_turns`, known not to be `None`. -/
structure MachinePars (α : Type _) where
  dturns : Int
  nprofiles : Int
  machineRefFrame : Int
  hNum : α
  hRatio : α
  b0 : α
  meanOrbitRad : α
  bendingRad : α
  eRest : α
  vrf1 : α
  vrf1dot : α
  vrf2 : α
  vrf2dot : α
  phi12 : α
  q : α
  bdot : α
  transGamma : α

section machine
variable {α : Type _} [LT α] [LE α] [DecidableLT α] [DecidableLE α] [Zero α]

/-- assertions.py:597-603: an optional space-charge parameter. -/
def assertSpaceCharge (v : Option α) : M Unit :=
  match v with
  | none => .ok ()
  | some x => assertGreaterOrEqual x 0 .spaceChargeParameterError

/-- assertions.py:527-541: the film parameters. -/
def assertFilm (start stop step : Option Int) : M Unit :=
  match start, stop, step with
  | some start, some stop, some step => do
    assertGreaterOrEqual start 0 .machineParameterError
    assertGreaterOrEqual stop start .machineParameterError
    assertLessOrEqual |step| |stop - start + 1| .machineParameterError
    assertNotEqual step 0 .machineParameterError
  | _, _, _ => raise .machineParameterError

/-- assertions.py:502-603 `assert_machine_input`; returns the values found not to be `None`. -/
def assertMachineInput (a : MachineArgs α) : M (MachinePars α) := do
  let dtbin ← notNone a.dtbin .machineParameterError
  assertGreater dtbin 0 .machineParameterError
  let dturns ← notNone a.dturns .machineParameterError
  assertGreater dturns 0 .machineParameterError
  assertFilm a.filmstart a.filmstop a.filmstep
  let niter ← notNone a.niter .machineParameterError
  assertGreater niter 0 .machineParameterError
  let snpt ← notNone a.snpt .machineParameterError
  assertGreater snpt 0 .machineParameterError
  let mref ← notNone a.machineRefFrame .machineParameterError
  assertGreaterOrEqual mref 0 .machineParameterError
  let bref ← notNone a.beamRefFrame .machineParameterError
  assertGreaterOrEqual bref 0 .machineParameterError
  let hNum ← notNone a.hNum .machineParameterError
  assertGreater hNum 0 .machineParameterError
  let hRatio ← notNone a.hRatio .machineParameterError
  assertGreaterOrEqual hRatio 0 .machineParameterError
  let b0 ← notNone a.b0 .machineParameterError
  assertGreater b0 0 .machineParameterError
  let rad ← notNone a.meanOrbitRad .machineParameterError
  assertGreater rad 0 .machineParameterError
  let rho ← notNone a.bendingRad .machineParameterError
  assertGreater rho 0 .machineParameterError
  let eRest ← notNone a.eRest .machineParameterError
  assertGreater eRest 0 .machineParameterError
  assertSpaceCharge a.pickupSensitivity
  assertSpaceCharge a.gCoupling
  pure { dturns := dturns, nprofiles := a.nprofiles, machineRefFrame := mref, hNum := hNum, hRatio := hRatio, b0 := b0,
         meanOrbitRad := rad, bendingRad := rho, eRest := eRest, vrf1 := a.vrf1, vrf1dot := a.vrf1dot, vrf2 := a.vrf2,
         vrf2dot := a.vrf2dot, phi12 := a.phi12, q := a.q, bdot := a.bdot, transGamma := a.transGamma }

end machine

/-! ## Frames -/

/-- The attributes of `Frames` (tomo_input.py:27-203) that are checked. -/
structure FrameArgs where
  nframes : Int
  skipFrames : Int
  nbinsFrame : Int
  skipBinsStart : Int
  skipBinsEnd : Int
  rebin : Int

/-- assertions.py:606-637 `assert_frame_inputs` -/
def assertFrameInputs (f : FrameArgs) : M Unit := do
  assertGreater f.nframes 0 .inputError
  assertInrange f.skipFrames 0 (f.nframes - 1) .inputError
  assertGreater f.nbinsFrame 0 .inputError
  assertInrange f.skipBinsStart 0 (f.nbinsFrame - 1) .inputError
  assertInrange f.skipBinsEnd 0 (f.nbinsFrame - 1) .inputError
  assertLess (f.skipBinsStart + f.skipBinsEnd) f.nbinsFrame .inputError
  assertGreaterOrEqual f.rebin 1 .inputError

end Verif.Asrt

import Verif.Core.Buf

/-!
# Model of the tracking routines without self fields

`cpp_routines/kick_and_drift.cpp`, the wrappers of `libtomo.cpp`, `Tracking.track` and the python loop
`Tracking.kick_and_drift` of `tracking/tracking.py`, `cuda_kernels/kick_and_drift.cu` with
`python_routines/kick_and_drift_cuda.py`, and `python_routines/kick_and_drift_cupy.py`.

Generic in the number type; `sin` (`vdt::fast_sin`, `np.sin`, CUDA `sin`) is a parameter.  C `int` is `Int` (no
overflow; `Model/Int32.lean` has it).  Fortran-style printing is not modelled.  OpenMP pragmas are ignored here (see `Model/Omp.lean`).
-/

namespace Verif.Track

variable {α : Type _} [Add α] [Sub α] [Mul α]

/-- The per-turn arrays handed to the tracking functions (`rf1v`, `rf2v` already multiplied by the charge,
tracking.py:186-190). -/
structure Mach (α : Type _) where
  rf1v : List α
  rf2v : List α
  phi0 : List α
  deltaE0 : List α
  driftCoef : List α
  phi12 : List α
  hratio : α

/-- The right-hand side of the `+=`/`-=` in `kick_up` and `kick_down`, kick_and_drift.cpp:37-38, 58-59. -/
def energyGain (sin : α → α) (rfv1 rfv2 phi0 phi12 hratio accKick dphi : α) : α :=
  rfv1 * sin (dphi + phi0) + rfv2 * sin (hratio * (dphi + phi0 - phi12)) - accKick

/-- kick_and_drift.cpp:25-43 `kick_up`. -/
def kickUp (sin : α → α) (dphi denergy : List α) (rfv1 rfv2 phi0 phi12 hratio : α) (n : Nat) (accKick : α) :
    M (List α) :=
  forN n (fun i de => do
    let p ← rd dphi (i : Int)
    let e ← rd de (i : Int)
    upd de (i : Int) (e + energyGain sin rfv1 rfv2 phi0 phi12 hratio accKick p)) denergy

/-- kick_and_drift.cpp:46-64 `kick_down`. -/
def kickDown (sin : α → α) (dphi denergy : List α) (rfv1 rfv2 phi0 phi12 hratio : α) (n : Nat) (accKick : α) :
    M (List α) :=
  forN n (fun i de => do
    let p ← rd dphi (i : Int)
    let e ← rd de (i : Int)
    upd de (i : Int) (e - energyGain sin rfv1 rfv2 phi0 phi12 hratio accKick p)) denergy

/-- kick_and_drift.cpp:71-78 `drift_up`. -/
def driftUp (dphi denergy : List α) (coef : α) (n : Nat) : M (List α) :=
  forN n (fun i dp => do
    let p ← rd dp (i : Int)
    let e ← rd denergy (i : Int)
    upd dp (i : Int) (p - coef * e)) dphi

/-- kick_and_drift.cpp:81-89 `drift_down`. -/
def driftDown (dphi denergy : List α) (coef : α) (n : Nat) : M (List α) :=
  forN n (fun i dp => do
    let p ← rd dp (i : Int)
    let e ← rd denergy (i : Int)
    upd dp (i : Int) (p + coef * e)) dphi

/-- `for (i < nparts) xp[profile][i] = src[i]`, kick_and_drift.cpp:140-143, 163-166, 197-200.  The row pointers
`xp_d[i] = &xp[i * nparts]` (libtomo.cpp:266-268) make `xp` a list of rows; a profile outside the pointer array is an
out-of-bounds access. -/
def storeRow (xp : List (List α)) (profile : Int) (src : List α) (n : Nat) : M (List (List α)) := do
  let row ← rd xp profile
  let row ← forN n (fun i (row : List α) => do
    let v ← rd src (i : Int)
    upd row (i : Int) v) row
  upd xp profile row

/-- `for (i < nparts) dst[i] = xp[rec_prof][i]`, kick_and_drift.cpp:180-183. -/
def loadRow (dst : List α) (xp : List (List α)) (profile : Int) (n : Nat) : M (List α) := do
  let row ← rd xp profile
  forN n (fun i (dst : List α) => do
    let v ← rd row (i : Int)
    upd dst (i : Int) v) dst

/-- The mutable variables of `kick_and_drift`; `calls` is the list of callback calls made so far. -/
structure TS (α : Type _) where
  xp : List (List α)
  yp : List (List α)
  dphi : List α
  denergy : List α
  profile : Int
  turn : Int
  progress : Int
  calls : List (Int × Int)

/-- One iteration of the upward loop, kick_and_drift.cpp:148-173. -/
def upBody (sin : α → α) (m : Mach α) (dturns nturns : Int) (n : Nat) (s : TS α) : M (TS α) := do
  let coef ← rd m.driftCoef s.turn
  let dphi ← driftUp s.dphi s.denergy coef n
  let turn := s.turn + 1
  let v1 ← rd m.rf1v turn
  let v2 ← rd m.rf2v turn
  let p0 ← rd m.phi0 turn
  let p12 ← rd m.phi12 turn
  let acc ← rd m.deltaE0 turn
  let denergy ← kickUp sin dphi s.denergy v1 v2 p0 p12 m.hratio n acc
  let progress := s.progress + 1
  if turn.tmod dturns = 0 then
    let profile := s.profile + 1
    let xp ← storeRow s.xp profile dphi n
    let yp ← storeRow s.yp profile denergy n
    pure ⟨xp, yp, dphi, denergy, profile, turn, progress, s.calls ++ [(progress, nturns)]⟩
  else
    pure ⟨s.xp, s.yp, dphi, denergy, s.profile, turn, progress, s.calls ++ [(progress, nturns)]⟩

/-- One iteration of the downward loop, kick_and_drift.cpp:186-209. -/
def downBody (sin : α → α) (m : Mach α) (dturns nturns : Int) (n : Nat) (s : TS α) : M (TS α) := do
  let v1 ← rd m.rf1v s.turn
  let v2 ← rd m.rf2v s.turn
  let p0 ← rd m.phi0 s.turn
  let p12 ← rd m.phi12 s.turn
  let acc ← rd m.deltaE0 s.turn
  let denergy ← kickDown sin s.dphi s.denergy v1 v2 p0 p12 m.hratio n acc
  let turn := s.turn - 1
  let coef ← rd m.driftCoef turn
  let dphi ← driftDown s.dphi denergy coef n
  let progress := s.progress + 1
  if turn.tmod dturns = 0 then
    let profile := s.profile - 1
    let xp ← storeRow s.xp profile dphi n
    let yp ← storeRow s.yp profile denergy n
    pure ⟨xp, yp, dphi, denergy, profile, turn, progress, s.calls ++ [(progress, nturns)]⟩
  else
    pure ⟨s.xp, s.yp, dphi, denergy, s.profile, turn, progress, s.calls ++ [(progress, nturns)]⟩

/-- kick_and_drift.cpp:116-211 `kick_and_drift`.  The returned state contains the final contents of `xp`, `yp` and of the
in/out arrays `dphi`, `denergy`. -/
def kickAndDrift (sin : α → α) (xp yp : List (List α)) (denergy dphi : List α) (m : Mach α)
    (dturns recProf deltaturn nturns : Int) (n : Nat) : M (TS α) := do
  let turn := recProf * dturns + deltaturn
  let profile := if deltaturn < 0 then recProf - 1 else recProf
  let xp ← storeRow xp profile dphi n
  let yp ← storeRow yp profile denergy n
  let s ← whileN (nturns - turn).toNat (fun s => decide (s.turn < nturns)) (upBody sin m dturns nturns n)
    ⟨xp, yp, dphi, denergy, profile, turn, 0, []⟩
  let profile := recProf
  let turn := recProf * dturns
  if 0 < profile then
    let dphi ← loadRow s.dphi s.xp recProf n
    let denergy ← loadRow s.denergy s.yp recProf n
    whileN turn.toNat (fun s => decide (0 < s.turn)) (downBody sin m dturns nturns n)
      { s with dphi := dphi, denergy := denergy, profile := profile, turn := turn }
  else pure { s with profile := profile, turn := turn }

/-- libtomo.cpp:194-226 `wrapper_kick_and_drift_scalar`: the scalar `phi12` becomes an array of `nturns` equal
entries. -/
def kickAndDriftScalar (sin : α → α) (xp yp : List (List α)) (denergy dphi : List α) (m : Mach α) (phi12 : α)
    (dturns recProf deltaturn nturns : Int) (n : Nat) : M (TS α) :=
  kickAndDrift sin xp yp denergy dphi { m with phi12 := List.replicate nturns.toNat phi12 }
    dturns recProf deltaturn nturns n

/-! ## the python loop `Tracking.kick_and_drift` -/

/-- numpy row assignment `out[profile] = row`: negative indices count from the end, otherwise IndexError. -/
def setRow {β : Type _} (out : List β) (profile : Int) (row : β) : M (List β) :=
  if 0 ≤ profile then
    if profile.toNat < out.length then .ok (out.set profile.toNat row) else .error (.exc .indexError)
  else if 0 ≤ profile + out.length then .ok (out.set (profile + out.length).toNat row)
  else .error (.exc .indexError)

/-- Variables of the python loop. -/
structure PS (α : Type _) where
  outPhi : List (List α)
  outEn : List (List α)
  dphi : List α
  denergy : List α
  profile : Int
  turn : Int

/-- tracking.py:271-287, one upward iteration (`libtomo.drift`, `libtomo.kick`: libtomo.cpp:82-160, scalar `phi12`). -/
def upBodyPy (sin : α → α) (m : Mach α) (phi12 : α) (dturns : Int) (n : Nat) (s : PS α) : M (PS α) := do
  let coef ← rd m.driftCoef s.turn
  let dphi ← driftUp s.dphi s.denergy coef n
  let turn := s.turn + 1
  let v1 ← rd m.rf1v turn
  let v2 ← rd m.rf2v turn
  let p0 ← rd m.phi0 turn
  let acc ← rd m.deltaE0 turn
  let denergy ← kickUp sin dphi s.denergy v1 v2 p0 phi12 m.hratio n acc
  if turn % dturns = 0 then
    let profile := s.profile + 1
    let a ← setRow s.outPhi profile dphi
    let b ← setRow s.outEn profile denergy
    pure ⟨a, b, dphi, denergy, profile, turn⟩
  else pure ⟨s.outPhi, s.outEn, dphi, denergy, s.profile, turn⟩

/-- tracking.py:296-312, one downward iteration. -/
def downBodyPy (sin : α → α) (m : Mach α) (phi12 : α) (dturns : Int) (n : Nat) (s : PS α) : M (PS α) := do
  let v1 ← rd m.rf1v s.turn
  let v2 ← rd m.rf2v s.turn
  let p0 ← rd m.phi0 s.turn
  let acc ← rd m.deltaE0 s.turn
  let denergy ← kickDown sin s.dphi s.denergy v1 v2 p0 phi12 m.hratio n acc
  let turn := s.turn - 1
  let coef ← rd m.driftCoef turn
  let dphi ← driftDown s.dphi denergy coef n
  if turn % dturns = 0 then
    let profile := s.profile - 1
    let a ← setRow s.outPhi profile dphi
    let b ← setRow s.outEn profile denergy
    pure ⟨a, b, dphi, denergy, profile, turn⟩
  else pure ⟨s.outPhi, s.outEn, dphi, denergy, s.profile, turn⟩

/-- tracking.py:257-259: the starting cloud is stored as the starting profile when there is no turn offset. -/
def storeStart (out : List (List α)) (recProf deltaturn : Int) (v : List α) : M (List (List α)) :=
  if deltaturn = 0 then setRow out recProf v else pure out

/-- tracking.py:216-314 `Tracking.kick_and_drift`.  `zero` fills the output arrays (`np.zeros`).  `libtomo.kick/drift`
work in place on the arrays and return them; the copies of lines 254-255 keep the initial values. -/
def kickAndDriftPy (sin : α → α) (zero : α) (denergy dphi : List α) (m : Mach α) (phi12 : α)
    (dturns nprofiles recProf deltaturn : Int) : M (PS α) := do
  let n := denergy.length
  let out := List.replicate nprofiles.toNat (List.replicate n zero)
  let nturns := dturns * (nprofiles - 1)
  let a ← storeStart out recProf deltaturn dphi
  let b ← storeStart out recProf deltaturn denergy
  let recTurn := recProf * dturns + deltaturn
  let profile := if deltaturn < 0 then recProf - 1 else recProf
  let s ← whileN (nturns - recTurn).toNat (fun s => decide (s.turn < nturns)) (upBodyPy sin m phi12 dturns n)
    ⟨a, b, dphi, denergy, profile, recTurn⟩
  whileN recTurn.toNat (fun s => decide (0 < s.turn)) (downBodyPy sin m phi12 dturns n)
    { s with dphi := dphi, denergy := denergy, turn := recTurn, profile := recProf }

/-! ## CUDA -/

/-- Registers of one CUDA thread and the two global output arrays. -/
structure GS (α : Type _) where
  xp : List α
  yp : List α
  dphi : α
  denergy : α
  profile : Int
  turn : Int

/-- kick_and_drift.cu:158-172, loop body of `kick_drift_up_turns` for thread `tid`. -/
def upBodyCuda (sin : α → α) (m : Mach α) (dturns : Int) (n tid : Nat) (s : GS α) : M (GS α) := do
  let coef ← rd m.driftCoef s.turn
  let dphi := s.dphi - coef * s.denergy
  let turn := s.turn + 1
  let v1 ← rd m.rf1v turn
  let v2 ← rd m.rf2v turn
  let p0 ← rd m.phi0 turn
  let p12 ← rd m.phi12 turn
  let acc ← rd m.deltaE0 turn
  let denergy := s.denergy + energyGain sin v1 v2 p0 p12 m.hratio acc dphi
  if turn.tmod dturns = 0 then
    let profile := s.profile + 1
    let xp ← upd s.xp ((n : Int) * profile + tid) dphi
    let yp ← upd s.yp ((n : Int) * profile + tid) denergy
    pure ⟨xp, yp, dphi, denergy, profile, turn⟩
  else pure ⟨s.xp, s.yp, dphi, denergy, s.profile, turn⟩

/-- kick_and_drift.cu:202-215, loop body of `kick_drift_down_turns` for thread `tid`. -/
def downBodyCuda (sin : α → α) (m : Mach α) (dturns : Int) (n tid : Nat) (s : GS α) : M (GS α) := do
  let v1 ← rd m.rf1v s.turn
  let v2 ← rd m.rf2v s.turn
  let p0 ← rd m.phi0 s.turn
  let p12 ← rd m.phi12 s.turn
  let acc ← rd m.deltaE0 s.turn
  let denergy := s.denergy - energyGain sin v1 v2 p0 p12 m.hratio acc s.dphi
  let turn := s.turn - 1
  let coef ← rd m.driftCoef turn
  let dphi := s.dphi + coef * denergy
  if turn.tmod dturns = 0 then
    let profile := s.profile - 1
    let xp ← upd s.xp ((n : Int) * profile + tid) dphi
    let yp ← upd s.yp ((n : Int) * profile + tid) denergy
    pure ⟨xp, yp, dphi, denergy, profile, turn⟩
  else pure ⟨s.xp, s.yp, dphi, denergy, s.profile, turn⟩

/-- kick_and_drift.cu:151-157, 195-201: a kernel launch; `threads` is grid size times block size.  The threads write
different cells (`Props/Tracking` proves which), they are run here in the order of their number. -/
def launch (threads n : Nat) (dphi denergy : List α) (loop : Nat → GS α → M (GS α)) (profile turn : Int)
    (xp yp : List α) : M (List α × List α) :=
  forN threads (fun tid (st : List α × List α) =>
    if tid < n then do
      let p ← rd dphi (tid : Int)
      let e ← rd denergy (tid : Int)
      let s ← loop tid ⟨st.1, st.2, p, e, profile, turn⟩
      pure (s.xp, s.yp)
    else pure st) (xp, yp)

/-- `grid=(int(n_particles / block_size[0] + 1), 1, 1)`, kick_and_drift_cuda.py:29, 37. -/
def gridSize (n block : Nat) : Nat := n / block + 1

/-- Row `profile` of the flat `(nprofiles, n)` device array: `xp[profile] = cp.copy(src)`. -/
def setFlatRow (xp : List α) (profile : Int) (src : List α) (n : Nat) : M (List α) :=
  forN n (fun i (xp : List α) => do
    let v ← rd src (i : Int)
    upd xp ((n : Int) * profile + i) v) xp

/-- `cp.copy(xp[profile])` -/
def getFlatRow (xp : List α) (profile : Int) (n : Nat) : M (List α) :=
  (List.range n).mapM fun (i : Nat) => rd xp ((n : Int) * profile + (i : Int))

/-- kick_and_drift_cuda.py:39-83 `kick_and_drift_cuda`.  Non-negative profile indices only (a negative one would wrap in
cupy; the model reports it as out of bounds). `callback` is ignored by the code. -/
def kickAndDriftCuda (sin : α → α) (block : Nat) (xp yp : List α) (denergy dphi : List α) (m : Mach α) (phi12 : α)
    (dturns recProf deltaturn nturns : Int) (n : Nat) : M (List α × List α) := do
  let m := { m with phi12 := List.replicate (nturns + 1).toNat phi12 }
  let turn := recProf * dturns + deltaturn
  let profile := if deltaturn < 0 then recProf - 1 else recProf
  let xp ← setFlatRow xp profile dphi n
  let yp ← setFlatRow yp profile denergy n
  let threads := gridSize n block * block
  let (xp, yp) ← launch threads n dphi denergy
    (fun tid s => whileN (nturns - turn).toNat (fun s => decide (s.turn < nturns)) (upBodyCuda sin m dturns n tid) s)
    profile turn xp yp
  let profile := recProf
  let turn := recProf * dturns
  if 0 < profile then
    let dphi ← getFlatRow xp recProf n
    let denergy ← getFlatRow yp recProf n
    launch threads n dphi denergy
      (fun tid s => whileN turn.toNat (fun s => decide (0 < s.turn)) (downBodyCuda sin m dturns n tid) s)
      profile turn xp yp
  else pure (xp, yp)

/-! ## CuPy -/

/-- kick_and_drift_cupy.py:90-99, one upward iteration (whole-array operations, `turn` incremented first). -/
def upBodyCupy (sin : α → α) (m : Mach α) (phi12 : List α) (dturns : Int) (n : Nat) (s : PS α) : M (PS α) := do
  let turn := s.turn + 1
  let coef ← rd m.driftCoef (turn - 1)
  let v1 ← rd m.rf1v turn
  let v2 ← rd m.rf2v turn
  let p0 ← rd m.phi0 turn
  let p12 ← rd phi12 turn
  let acc ← rd m.deltaE0 turn
  let dphi ← driftUp s.dphi s.denergy coef n
  let denergy ← kickUp sin dphi s.denergy v1 v2 p0 p12 m.hratio n acc
  if turn % dturns = 0 then
    let profile := s.profile + 1
    let a ← setRow s.outPhi profile dphi
    let b ← setRow s.outEn profile denergy
    pure ⟨a, b, dphi, denergy, profile, turn⟩
  else pure ⟨s.outPhi, s.outEn, dphi, denergy, s.profile, turn⟩

/-- kick_and_drift_cupy.py:110-118, one downward iteration. -/
def downBodyCupy (sin : α → α) (m : Mach α) (phi12 : List α) (dturns : Int) (n : Nat) (s : PS α) : M (PS α) := do
  let coef ← rd m.driftCoef (s.turn - 1)
  let v1 ← rd m.rf1v s.turn
  let v2 ← rd m.rf2v s.turn
  let p0 ← rd m.phi0 s.turn
  let p12 ← rd phi12 s.turn
  let acc ← rd m.deltaE0 s.turn
  let denergy ← kickDown sin s.dphi s.denergy v1 v2 p0 p12 m.hratio n acc
  let dphi ← driftDown s.dphi denergy coef n
  let turn := s.turn - 1
  if turn % dturns = 0 then
    let profile := s.profile - 1
    let a ← setRow s.outPhi profile dphi
    let b ← setRow s.outEn profile denergy
    pure ⟨a, b, dphi, denergy, profile, turn⟩
  else pure ⟨s.outPhi, s.outEn, dphi, denergy, s.profile, turn⟩

/-- numpy row read `out[i]` -/
def getRow {β : Type _} (out : List β) (i : Int) : M β :=
  match rd out (if 0 ≤ i then i else i + out.length) with
  | .ok v => .ok v
  | .error _ => .error (.exc .indexError)

/-- kick_and_drift_cupy.py:55-118 `kick_and_drift_cupy`. -/
def kickAndDriftCupy (sin : α → α) (xp yp : List (List α)) (denergy dphi : List α) (m : Mach α) (phi12 : α)
    (dturns recProf deltaturn nturns : Int) (n : Nat) : M (PS α) := do
  let phi12Arr := List.replicate (nturns + 1).toNat phi12
  let turn := recProf * dturns + deltaturn
  let profile := if deltaturn < 0 then recProf - 1 else recProf
  let a ← setRow xp profile dphi
  let b ← setRow yp profile denergy
  let s ← whileN (nturns - turn).toNat (fun s => decide (s.turn < nturns)) (upBodyCupy sin m phi12Arr dturns n)
    ⟨a, b, dphi, denergy, profile, turn⟩
  let profile := recProf
  let turn := recProf * dturns
  if 0 < profile then
    let dphi ← getRow s.outPhi recProf
    let denergy ← getRow s.outEn recProf
    whileN turn.toNat (fun s => decide (0 < s.turn)) (downBodyCupy sin m phi12Arr dturns n)
      { s with dphi := dphi, denergy := denergy, profile := profile, turn := turn }
  else pure { s with profile := profile, turn := turn }

/-! ## acceptance -/

/-- assertions.py:644-684 `assert_index_ok` (the index is already an int). -/
def assertIndexOk (index indexLimit : Int) (wrapAround : Bool) : Except Exn Int :=
  if index < 0 then
    if !wrapAround then .error .negativeIndexError
    else if indexLimit + index < 0 then .error .indexError
    else .ok (index + indexLimit)
  else if index ≥ indexLimit then .error .indexError
  else .ok index

/-- tracking.py:141-160: the checks of `track` on `recprof` and `deltaturn`; on success the normalised profile. -/
def trackCheck (nprofiles dturns recprof deltaturn : Int) : Except Exn Int := do
  let recprof ← assertIndexOk recprof nprofiles true
  if ¬ (|deltaturn| < dturns) then .error .valueError
  else if ¬ (dturns * recprof + deltaturn < dturns * (nprofiles - 1)) then .error .valueError
  else if ¬ (0 ≤ dturns * recprof + deltaturn) then .error .valueError
  else .ok recprof

/-- tracking.py:59-214 `Tracking.track` with a user distribution, self fields off and a scalar `phi12` on the C++
backend: the checks, `xp = yp = zeros((nprofiles, nparts))` and the call of `kick_and_drift` with
`nturns = dturns * (nprofiles - 1)`; returns `(xp, yp)`. -/
def track (sin : α → α) (zero : α) (m : Mach α) (phi12 : α) (nprofiles dturns recprof deltaturn : Int)
    (dphi denergy : List α) : M (List (List α) × List (List α)) :=
  match trackCheck nprofiles dturns recprof deltaturn with
  | .error e => .error (.exc e)
  | .ok r => do
    let n := dphi.length
    let z := List.replicate nprofiles.toNat (List.replicate n zero)
    let s ← kickAndDriftScalar sin z z denergy dphi m phi12 dturns r deltaturn (dturns * (nprofiles - 1)) n
    pure (s.xp, s.yp)

/-- As `track`, for a machine whose `phi12` is an array (libtomo.cpp:228-306 `wrapper_kick_and_drift_array`). -/
def trackArray (sin : α → α) (zero : α) (m : Mach α) (nprofiles dturns recprof deltaturn : Int)
    (dphi denergy : List α) : M (List (List α) × List (List α)) :=
  match trackCheck nprofiles dturns recprof deltaturn with
  | .error e => .error (.exc e)
  | .ok r => do
    let n := dphi.length
    let z := List.replicate nprofiles.toNat (List.replicate n zero)
    let s ← kickAndDrift sin z z denergy dphi m dturns r deltaturn (dturns * (nprofiles - 1)) n
    pure (s.xp, s.yp)

end Verif.Track

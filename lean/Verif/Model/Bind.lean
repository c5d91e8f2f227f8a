import Verif.Model.Tracking

/-!
# The python bindings of the compiled routines

`cpp_routines/libtomo.cpp` registers the routines with pybind11.  What a call does with the arrays it is given is decided by
pybind11's argument conversion: an `array_t<T, c_style | forcecast>` parameter refers to the caller's array when that has the
element type `T` and C order, and otherwise to a converted copy; among several overloads the first one that needs no
conversion at all is called, and only if there is none the first one that can be called with conversions.  This file models
that (documented) behaviour, the registered signatures, and the calls made by `Tracking.track`.

Simplifications: arithmetic in `float` and `double` is the same exact arithmetic, only the conversion of values (`cv`) is
visible; an `Int` overflow of the `int` parameters is not modelled; `None` and objects are not convertible to numbers.
-/

namespace Verif.Bind

/-- element type of a numpy array -/
inductive DType
  | f64 | f32 | i32 | other
  deriving DecidableEq, Repr

/-- memory order of a numpy array: C order, Fortran order (the transpose of an array in C order), or neither -/
inductive Order
  | c | f | strided
  deriving DecidableEq, Repr

/-- a numpy array: element type, memory order, rows (one row for a 1D array) -/
structure NdArr (α : Type _) where
  dtype : DType
  order : Order
  rows : List (List α)
  deriving DecidableEq, Repr

/-- the numpy arrays in memory -/
abbrev Heap (α : Type _) := List (NdArr α)

/-- python numbers and arrays; arrays are references -/
inductive Num (α : Type _)
  | arr (a : Int)
  | float (x : α)
  | int (n : Int)
  deriving DecidableEq, Repr

/-- the attributes of a machine object the bindings look at -/
structure MachObj (α : Type _) where
  phi0 : Int
  deltaE0 : Int
  driftCoef : Int
  phi12 : Num α
  hratio : Num α
  dturns : Int
  deriving DecidableEq, Repr

/-- arguments of a call -/
inductive PyVal (α : Type _)
  | num (n : Num α)
  | bool (b : Bool)
  | none
  | machine (m : MachObj α)
  deriving DecidableEq, Repr

/-- what the C++ function receives -/
inductive CVal (α : Type _)
  | ref (a : Int)
  | real (x : α)
  | int (n : Int)
  | bool (b : Bool)
  | obj (v : PyVal α)
  deriving DecidableEq, Repr

/-- parameter types of the registered functions: `d_array`/`f_array`/`i_array`, `double`/`float`, `int`, `bool`,
`py::object` -/
inductive Param
  | arr (d : DType)
  | real (d : DType)
  | int
  | bool
  | obj
  deriving DecidableEq, Repr

/-- the outside world: sine, zero, conversion of a value to an element type, integers as numbers, and whether the installed
pybind11 takes a python `int` for a `double` parameter without calling it a conversion (versions before 3.1 do not). -/
structure Env (α : Type _) where
  sin : α → α
  zero : α
  cv : DType → α → α
  ofInt : Int → α
  intAsFloat : Bool

variable {α : Type _}

/-- a copy of an array with another element type, in C order (`PyArray_FromAny` with `c_style | forcecast`) -/
def convertArr (E : Env α) (d : DType) (a : NdArr α) : NdArr α :=
  ⟨d, .c, a.rows.map (·.map (E.cv d))⟩

/-- `array_t<T, c_style | forcecast>`, libtomo.cpp:28-30: the array itself, or, if conversion is allowed, a converted copy -/
def loadArr (E : Env α) (convert : Bool) (d : DType) (h : Heap α) (a : Int) : Option (Heap α × Int) :=
  match rd h a with
  | .error _ => none
  | .ok A =>
    if A.dtype = d ∧ A.order = .c then some (h, a)
    else if convert then some (h ++ [convertArr E d A], (h.length : Int))
    else none

/-- `float`/`double` parameter: a python float as it is, an `int` by conversion, an array by conversion if it has exactly one
element (`PyFloat_AsDouble`) -/
def loadReal (E : Env α) (convert : Bool) (d : DType) (h : Heap α) : Num α → Option α
  | .float x => some (E.cv d x)
  | .int n => if convert || E.intAsFloat then some (E.cv d (E.ofInt n)) else none
  | .arr a =>
    if convert then
      match rd h a with
      | .ok A => match A.rows.flatten with
        | [x] => some (E.cv d x)
        | _ => none
      | .error _ => none
    else none

/-- one argument -/
def load (E : Env α) (convert : Bool) (h : Heap α) : Param → PyVal α → Option (Heap α × CVal α)
  | .arr d, .num (.arr a) => (loadArr E convert d h a).map fun r => (r.1, .ref r.2)
  | .arr d, .num (.float x) =>
    if convert then some (h ++ [⟨d, .c, [[E.cv d x]]⟩], .ref (h.length : Int)) else none
  | .arr d, .num (.int n) =>
    if convert then some (h ++ [⟨d, .c, [[E.cv d (E.ofInt n)]]⟩], .ref (h.length : Int)) else none
  | .real d, .num v => (loadReal E convert d h v).map fun x => (h, .real x)
  | .int, .num (.int n) => some (h, .int n)
  | .int, .bool b => some (h, .int (if b then 1 else 0))
  | .bool, .bool b => some (h, .bool b)
  | .bool, .num (.int n) => if convert then some (h, .bool (decide (n ≠ 0))) else none
  | .bool, .none => if convert then some (h, .bool false) else none
  | .obj, v => some (h, .obj v)
  | _, _ => none

/-- all arguments, in order -/
def loadAll (E : Env α) (convert : Bool) : Heap α → List Param → List (PyVal α) → Option (Heap α × List (CVal α))
  | h, [], [] => some (h, [])
  | h, p :: ps, v :: vs =>
    match load E convert h p v with
    | none => none
    | some (h, c) =>
      match loadAll E convert h ps vs with
      | none => none
      | some (h, cs) => some (h, c :: cs)
  | _, _, _ => none

/-- one `m.def`: parameter types, default values of the last parameters, and a name for the function behind it -/
structure Overload (τ α : Type _) where
  params : List Param
  defaults : List (PyVal α)
  target : τ

/-- try to call one overload -/
def tryOverload {τ : Type _} (E : Env α) (convert : Bool) (h : Heap α) (o : Overload τ α) (args : List (PyVal α)) :
    Option (Heap α × τ × List (CVal α)) :=
  if args.length ≤ o.params.length ∧ o.params.length ≤ args.length + o.defaults.length then
    (loadAll E convert h o.params (args ++ o.defaults.drop (args.length + o.defaults.length - o.params.length))).map
      fun r => (r.1, o.target, r.2)
  else none

/-- the first overload that can be called -/
def firstOverload {τ : Type _} (E : Env α) (convert : Bool) (h : Heap α) (os : List (Overload τ α))
    (args : List (PyVal α)) : Option (Heap α × τ × List (CVal α)) :=
  match os with
  | [] => none
  | o :: os =>
    match tryOverload E convert h o args with
    | some r => some r
    | none => firstOverload E convert h os args

/-- overload resolution: a pass without conversions if there is a choice, then one with conversions, else `TypeError` -/
def resolve {τ : Type _} (E : Env α) (h : Heap α) (os : List (Overload τ α)) (args : List (PyVal α)) :
    M (Heap α × τ × List (CVal α)) :=
  match (if 1 < os.length then firstOverload E false h os args else none) with
  | some r => .ok r
  | none =>
    match firstOverload E true h os args with
    | some r => .ok r
    | none => .error (.exc .typeError)

/-! ## `kick_and_drift` -/

/-- the functions behind the name `kick_and_drift` -/
inductive Kad
  | machine
  | scalar (d : DType)
  | array (d : DType)
  deriving DecidableEq, Repr

/-- `ftn_out = false, callback = None` -/
def kadDefaults : List (PyVal α) := [.bool false, .none]

/-- libtomo.cpp:566-569 -/
def kadMachine : Overload Kad α :=
  ⟨List.replicate 6 (.arr .f64) ++ [.obj, .int, .int, .int, .int, .bool, .obj], kadDefaults, .machine⟩

/-- libtomo.cpp:571-581, `wrapper_kick_and_drift_scalar<d_array, double>`, `<f_array, float>` -/
def kadScalar (d : DType) : Overload Kad α :=
  ⟨List.replicate 9 (.arr d) ++ [.real d, .real d, .int, .int, .int, .int, .int, .bool, .obj], kadDefaults, .scalar d⟩

/-- libtomo.cpp:583-593, `wrapper_kick_and_drift_array<d_array, double>`, `<f_array, float>` -/
def kadArray (d : DType) : Overload Kad α :=
  ⟨List.replicate 10 (.arr d) ++ [.real d, .int, .int, .int, .int, .int, .bool, .obj], kadDefaults, .array d⟩

/-- libtomo.cpp:566-593, in the order of registration -/
def kadOverloads : List (Overload Kad α) :=
  [kadMachine, kadScalar .f64, kadScalar .f32, kadArray .f64, kadArray .f32]

section body
variable [Add α] [Sub α] [Mul α]

/-- libtomo.cpp:229-306 `wrapper_kick_and_drift_array`: works on the memory of the arrays it received.  Rows of `xp`, `yp` are
`nparts` long in every call of the package (the row pointers of lines 261-271 assume it).  The arrays are different ones. -/
def kadArrayBody (E : Env α) (h : Heap α) (xp yp de dp r1 r2 p0 dE dc : Int) (phi12 : List α) (hratio : α)
    (dturns recProf deltaturn nturns nparts : Int) : M (Heap α) := do
  let X ← rd h xp
  let Y ← rd h yp
  let e ← rd h de
  let p ← rd h dp
  let a1 ← rd h r1
  let a2 ← rd h r2
  let a3 ← rd h p0
  let a4 ← rd h dE
  let a5 ← rd h dc
  let s ← Track.kickAndDrift E.sin X.rows Y.rows e.rows.flatten p.rows.flatten
    ⟨a1.rows.flatten, a2.rows.flatten, a3.rows.flatten, a4.rows.flatten, a5.rows.flatten, phi12, hratio⟩
    dturns recProf deltaturn nturns nparts.toNat
  let h ← upd h xp { X with rows := s.xp }
  let h ← upd h yp { Y with rows := s.yp }
  let h ← upd h de { e with rows := [s.denergy] }
  upd h dp { p with rows := [s.dphi] }

/-- `d_array(machine.attr(...))`: the array itself or a converted copy -/
def attrArr (E : Env α) (h : Heap α) (a : Int) : M (Heap α × Int) :=
  match loadArr E true .f64 h a with
  | some r => .ok r
  | none => .error (.exc .typeError)

/-- `py::float_(machine.attr(...))`: python's `float()`, a `TypeError` for arrays that do not have exactly one element -/
def attrFloat (E : Env α) (h : Heap α) (v : Num α) : M α :=
  match loadReal E true .f64 h v with
  | some x => .ok x
  | none => .error (.exc .typeError)

/-- The call of the chosen function, libtomo.cpp:164-306.  Returns the memory after the call and the two returned arrays. -/
def kadCall (E : Env α) : Heap α × Kad × List (CVal α) → M (Heap α × Int × Int)
  | (h, .array _, [.ref xp, .ref yp, .ref de, .ref dp, .ref r1, .ref r2, .ref p0, .ref dE, .ref dc, .ref p12, .real hr,
      .int dt, .int rp, .int dl, .int nt, .int np, .bool _, .obj _]) => do
    let v ← rd h p12
    let h ← kadArrayBody E h xp yp de dp r1 r2 p0 dE dc v.rows.flatten hr dt rp dl nt np
    pure (h, xp, yp)
  | (h, .scalar _, [.ref xp, .ref yp, .ref de, .ref dp, .ref r1, .ref r2, .ref p0, .ref dE, .ref dc, .real x, .real hr,
      .int dt, .int rp, .int dl, .int nt, .int np, .bool _, .obj _]) => do
    let h ← kadArrayBody E h xp yp de dp r1 r2 p0 dE dc (List.replicate nt.toNat x) hr dt rp dl nt np
    pure (h, xp, yp)
  | (h, .machine, [.ref xp, .ref yp, .ref de, .ref dp, .ref r1, .ref r2, .obj (.machine m), .int rp, .int dl, .int nt,
      .int np, .bool _, .obj _]) => do
    let (h, p0) ← attrArr E h m.phi0
    let (h, dE) ← attrArr E h m.deltaE0
    let (h, dc) ← attrArr E h m.driftCoef
    let x ← attrFloat E h m.phi12
    let hr ← attrFloat E h m.hratio
    let h ← kadArrayBody E h xp yp de dp r1 r2 p0 dE dc (List.replicate nt.toNat x) hr m.dturns rp dl nt np
    pure (h, xp, yp)
  | _ => .error (.exc .typeError)

/-- `libtomo.kick_and_drift(...)` -/
def kickAndDriftCall (E : Env α) (h : Heap α) (args : List (PyVal α)) : M (Heap α × Int × Int) := do
  let r ← resolve E h kadOverloads args
  kadCall E r

/-! ## `Tracking.track` -/

/-- tomo_config.py:212-226 `cast_to_cpu` of new values: an array of the chosen precision -/
def castNew (E : Env α) (prec : DType) (rows : List (List α)) : NdArr α := ⟨prec, .c, rows.map (·.map (E.cv prec))⟩

/-- tracking.py:135-214 `Tracking.track` without self fields on the CPU, precision `prec`, distribution `(dphi, denergy)`
(cast to the precision in either case: particles.py:186, tracking.py:177).  `m` holds the machine's arrays, `phi12` and
`hratio` are passed as they are (line 209).  The value returned by `conf.kick_and_drift` is dropped (line 207); what `track`
returns are the arrays `xp`, `yp` made in lines 204-205.  Returns the memory and these two. -/
def track (E : Env α) (prec : DType) (m : Track.Mach α) (phi12 hratio : Num α)
    (nprofiles dturns recprof deltaturn : Int) (dphi denergy : List α) (ftn : Bool) (callback : PyVal α) (h : Heap α) :
    M (Heap α × Int × Int) :=
  match Track.trackCheck nprofiles dturns recprof deltaturn with
  | .error e => .error (.exc e)
  | .ok r => do
    let b : Int := h.length
    let z := List.replicate nprofiles.toNat (List.replicate dphi.length E.zero)
    let h := h ++ [castNew E prec [dphi], castNew E prec [denergy], castNew E prec [dphi], castNew E prec [denergy],
      castNew E prec [m.rf1v], castNew E prec [m.rf2v], castNew E prec [m.phi0], castNew E prec [m.deltaE0],
      castNew E prec [m.driftCoef], castNew E prec z, castNew E prec z]
    let a (i : Int) : PyVal α := .num (.arr (b + i))
    let k (i : Int) : PyVal α := .num (.int i)
    let res ← kickAndDriftCall E h [a 9, a 10, a 1, a 0, a 4, a 5, a 6, a 7, a 8, .num phi12, .num hratio, k dturns, k r,
      k deltaturn, k (dturns * (nprofiles - 1)), k (dphi.length : Int), .bool ftn, callback]
    pure (res.1, b + 9, b + 10)

/-- the contents of an array after a call -/
def rowsAt (h : Heap α) (a : Int) : M (List (List α)) := do
  let A ← rd h a
  pure A.rows

/-! ## one turn at a time -/

/-- libtomo.cpp:544-546 `libtomo.kick` -/
def kickOverload : Overload Unit α :=
  ⟨[.obj, .arr .f64, .arr .f64, .arr .f64, .arr .f64, .int, .int, .bool], [.bool true], ()⟩

/-- libtomo.cpp:82-110 `wrapper_kick`: returns the array of energies it worked on -/
def kickCall (E : Env α) (h : Heap α) (args : List (PyVal α)) : M (Heap α × Int) := do
  let r ← resolve E h [kickOverload] args
  match r with
  | (h, _, [.obj (.machine m), .ref de, .ref dp, .ref r1, .ref r2, .int n, .int turn, .bool up]) => do
    let (h, p0) ← attrArr E h m.phi0
    let x ← attrFloat E h m.phi12
    let hr ← attrFloat E h m.hratio
    let (h, dE) ← attrArr E h m.deltaE0
    let a1 ← rd h r1
    let a2 ← rd h r2
    let a3 ← rd h p0
    let a4 ← rd h dE
    let v1 ← rd a1.rows.flatten turn
    let v2 ← rd a2.rows.flatten turn
    let f0 ← rd a3.rows.flatten turn
    let acc ← rd a4.rows.flatten turn
    let e ← rd h de
    let p ← rd h dp
    let v ← if up then Track.kickUp E.sin p.rows.flatten e.rows.flatten v1 v2 f0 x hr n.toNat acc
      else Track.kickDown E.sin p.rows.flatten e.rows.flatten v1 v2 f0 x hr n.toNat acc
    let h ← upd h de { e with rows := [v] }
    pure (h, de)
  | _ => .error (.exc .typeError)

/-- libtomo.cpp:548-550 `libtomo.drift` -/
def driftOverload : Overload Unit α :=
  ⟨[.arr .f64, .arr .f64, .arr .f64, .int, .int, .bool], [.bool true], ()⟩

/-- libtomo.cpp:143-160 `wrapper_drift`: returns the array of phases it worked on -/
def driftCall (E : Env α) (h : Heap α) (args : List (PyVal α)) : M (Heap α × Int) := do
  let r ← resolve E h [driftOverload] args
  match r with
  | (h, _, [.ref de, .ref dp, .ref dc, .int n, .int turn, .bool up]) => do
    let a ← rd h dc
    let coef ← rd a.rows.flatten turn
    let e ← rd h de
    let p ← rd h dp
    let v ← if up then Track.driftUp p.rows.flatten e.rows.flatten coef n.toNat
      else Track.driftDown p.rows.flatten e.rows.flatten coef n.toNat
    let h ← upd h dp { p with rows := [v] }
    pure (h, dp)
  | _ => .error (.exc .typeError)

/-- libtomo.cpp:552-558 `kick_up`, `kick_down` -/
def kickStepOverload : Overload Unit α :=
  ⟨[.arr .f64, .arr .f64, .real .f64, .real .f64, .real .f64, .real .f64, .real .f64, .int, .real .f64], [], ()⟩

/-- libtomo.cpp:42-79 `wrapper_kick_up`, `wrapper_kick_down`: no return value -/
def kickStepCall (E : Env α) (up : Bool) (h : Heap α) (args : List (PyVal α)) : M (Heap α) := do
  let r ← resolve E h [kickStepOverload] args
  match r with
  | (h, _, [.ref dp, .ref de, .real v1, .real v2, .real f0, .real x, .real hr, .int n, .real acc]) => do
    let e ← rd h de
    let p ← rd h dp
    let v ← if up then Track.kickUp E.sin p.rows.flatten e.rows.flatten v1 v2 f0 x hr n.toNat acc
      else Track.kickDown E.sin p.rows.flatten e.rows.flatten v1 v2 f0 x hr n.toNat acc
    upd h de { e with rows := [v] }
  | _ => .error (.exc .typeError)

/-- libtomo.cpp:560-564 `drift_up`, `drift_down` -/
def driftStepOverload : Overload Unit α := ⟨[.arr .f64, .arr .f64, .real .f64, .int], [], ()⟩

/-- libtomo.cpp:113-140 `wrapper_drift_up`, `wrapper_drift_down`: no return value -/
def driftStepCall (E : Env α) (up : Bool) (h : Heap α) (args : List (PyVal α)) : M (Heap α) := do
  let r ← resolve E h [driftStepOverload] args
  match r with
  | (h, _, [.ref dp, .ref de, .real coef, .int n]) => do
    let e ← rd h de
    let p ← rd h dp
    let v ← if up then Track.driftUp p.rows.flatten e.rows.flatten coef n.toNat
      else Track.driftDown p.rows.flatten e.rows.flatten coef n.toNat
    upd h dp { p with rows := [v] }
  | _ => .error (.exc .typeError)

end body

/-! ## `reconstruct`, `make_phase_space`

Both return new arrays, so only the choice of the overload matters: it decides the precision of the computation and of the
result. -/

/-- libtomo.cpp:615-623 `reconstruct` for `double` and `float`; the target is the element type of the returned arrays -/
def reconstructOverload (d : DType) : Overload DType α :=
  ⟨[.arr .i32, .arr d, .int, .int, .int, .int, .bool, .obj], [.bool false, .none], d⟩

def reconstructOverloads : List (Overload DType α) := [reconstructOverload .f64, reconstructOverload .f32]

/-- libtomo.cpp:635-639 `make_phase_space` -/
def phaseSpaceOverload (d : DType) : Overload DType α := ⟨[.arr .i32, .arr .i32, .arr d, .int], [], d⟩

def phaseSpaceOverloads : List (Overload DType α) := [phaseSpaceOverload .f64, phaseSpaceOverload .f32]

/-- numpy's `order='K'` (the default of `np.array(arr, dtype=...)`, `.astype`, `.clip`): Fortran order is kept, everything
else ends up in C order.  (A strided 2D array may also end up in Fortran order; not modelled.) -/
def keepOrder : Order → Order
  | .f => .f
  | _ => .c

/-- __tomography.py:57-58: the stored waterfall, `conf.cast(waterfall).clip(0.0)` normalised in place; `v` are its values -/
def storedWaterfall (prec : DType) (given : NdArr α) (v : List (List α)) : NdArr α := ⟨prec, keepOrder given.order, v⟩

/-- __tomography.py:184 `conf.ascontiguousarray(value, dtype=conf.int32)` -/
def storedXp (v : List (List α)) : NdArr α := ⟨.i32, .c, v⟩

/-- __tomography.py:122 `conf.cast(value).astype(conf.int32)` -/
def storedYp (given : NdArr α) (v : List (List α)) : NdArr α := ⟨.i32, keepOrder given.order, v⟩

/-- tomography.py:399-403: the element type of the weights, discrepancies and profiles returned by `Tomography.run` on the
CPU, for an object made from the waterfall `wf` and the coordinates `xp` under precision `prec` -/
def runDtype (E : Env α) (prec : DType) (wf : NdArr α) (wfv xpv : List (List α)) (niter nbins nparts nprofs : Int)
    (verbose : Bool) (callback : PyVal α) : M DType := do
  let r ← resolve E [storedXp xpv, storedWaterfall prec wf wfv] reconstructOverloads
    [.num (.arr 0), .num (.arr 1), .num (.int niter), .num (.int nbins), .num (.int nparts), .num (.int nprofs),
      .bool verbose, callback]
  pure r.2.1

/-- a column `a[:, i]` of an array in C order is strided (if there is more than one column); in Fortran order it is
contiguous.  `v` are its values. -/
def column (a : NdArr α) (v : List α) : NdArr α :=
  ⟨a.dtype, match a.order with | .f => .c | _ => .strided, [v]⟩

/-- data_treatment.py:155-160, 203: the element type of the density `phase_space` returns, for weights of type `w` -/
def phaseSpaceDtype (E : Env α) (xp yp : NdArr α) (w : DType) (xv yv wv : List α) (nbins : Int) : M DType := do
  let r ← resolve E [column xp xv, column yp yv, ⟨w, .c, [wv]⟩] phaseSpaceOverloads
    [.num (.arr 0), .num (.arr 1), .num (.arr 2), .num (.int nbins)]
  pure r.2.1

/-- tomo_output.py:103-105: the element type of the image of `create_phase_space_image`; `.astype(np.int32)` of a column is a
new contiguous array -/
def imageDtype (E : Env α) (w : DType) (xv yv wv : List α) (nbins : Int) : M DType := do
  let r ← resolve E [⟨.i32, .c, [xv]⟩, ⟨.i32, .c, [yv]⟩, ⟨w, .c, [wv]⟩] phaseSpaceOverloads
    [.num (.arr 0), .num (.arr 1), .num (.arr 2), .num (.int nbins)]
  pure r.2.1

end Verif.Bind

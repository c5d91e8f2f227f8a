import Verif.Model.RunFile
import Verif.Model.Object
import Verif.Model.Programs

/-!
# Machine objects: construction by keywords, changed attributes, `values_at_turns` again

`tracking/machine_base.py`, `tracking/machine.py` and the attributes of `tracking/programs_machine.py`.  An object is the list of
its attributes, the last assignment first.  Values are numbers, integers, booleans, strings, `None`, lists and arrays; arithmetic
with anything but a number is a TypeError in the model.
-/

namespace Verif.MObj
open Verif.Mch Verif.Asrt Verif.Psi Verif.Part Verif.Run

/-- a python value -/
inductive Val (K : Type _)
  | num (x : K)
  | int (n : Int)
  | flag (b : Bool)
  | text (s : String)
  | none
  /-- a list of numbers or an array of one dimension -/
  | list (l : List K)
  /-- the rows of an array of two dimensions -/
  | table (rows : List (List K))
  deriving DecidableEq

/-- a dictionary, or the attributes of an object -/
abbrev Dict (K : Type _) := List (String × Val K)

section
variable {K : Type _}

/-- `d[k]` -/
def lookup (d : Dict K) (k : String) : M (Val K) :=
  match d.lookup k with
  | some v => .ok v
  | none => .error (.exc .attributeError)

/-- `d[k] = v` -/
def put (d : Dict K) (k : String) (v : Val K) : Dict K := (k, v) :: d

/-- machine_base.py:292-305 `_process_kwargs`: the defaults, and the given values of the names that have a default.  Other names
are passed over (the exception is commented out). -/
def processKwargs (defaults kwargs : Dict K) : Dict K :=
  kwargs.foldl (fun d p => if (defaults.lookup p.1).isSome then put d p.1 p.2 else d) defaults

/-- Python's binding of the arguments of a call to the parameters (name and default value, if any) of a function with `**kwargs`:
the parameters and the remaining keywords. -/
def bindArgs (params : List (String × Option (Val K))) (pos : List (Val K)) (kw : Dict K) : M (Dict K × Dict K) :=
  let given := (params.map Prod.fst).zip pos
  if params.length < pos.length then .error (.exc .typeError)
  else if kw.any fun p => (given.lookup p.1).isSome then .error (.exc .typeError)
  else do
    let bound ← params.mapM fun p =>
      match (given ++ kw).lookup p.1 with
      | some v => .ok (p.1, v)
      | none =>
        match p.2 with
        | some v => .ok (p.1, v)
        | none => .error (.exc .typeError)
    pure (bound, kw.filter fun p => !(params.map Prod.fst).contains p.1)

end

section
variable {K : Type _} [Field K] [LinearOrder K] [FloorRing K]

/-- machine_base.py:13-35 `_machine_base_defaults` -/
def baseDefaults : Dict K :=
  [("demax", .num (-1000000)), ("phi12", .num 0), ("h_ratio", .num 1), ("synch_part_x", .int (-1)), ("charge", .int 1),
   ("h_num", .int 1), ("g_coupling", .none), ("zwall_over_n", .none), ("min_dt", .none), ("max_dt", .none),
   ("self_field_flag", .flag false), ("full_pp_flag", .flag false), ("pickup_sensitivity", .none), ("machine_ref_frame", .int 0),
   ("beam_ref_frame", .int 0), ("snpt", .int 4), ("niter", .int 20), ("filmstart", .int 0), ("filmstop", .int 1),
   ("filmstep", .int 1), ("output_dir", .none)]

/-- machine.py:19-24 `_machine_opts_def` -/
def machineOpts : Dict K := [("vrf1dot", .num 0), ("vrf2", .num 0), ("vrf2dot", .num 0), ("bdot", .num 0)]

/-- a number read from a value -/
def asNum : Val K → M K
  | .num x => .ok x
  | .int n => .ok (n : K)
  | _ => .error (.exc .typeError)

/-- `a * b` -/
def mulV (a b : Val K) : M (Val K) :=
  match a, b with
  | .int m, .int n => .ok (.int (m * n))
  | a, b => do
    let x ← asNum a
    let y ← asNum b
    pure (.num (x * y))

/-- `o.name = v`: machine_base.py:283-289, 343-344, `nbins` is a property whose setter also stores `synch_part_y`. -/
def setattr (o : Dict K) (name : String) (v : Val K) : M (Dict K) :=
  if name = "nbins" then do
    let n ← asNum v
    pure (put (put o "_nbins" v) "synch_part_y" (.num (n / 2)))
  else .ok (put o name v)

/-- `o.name` -/
def getattr (o : Dict K) (name : String) : M (Val K) := lookup o (if name = "nbins" then "_nbins" else name)

/-- attributes assigned one after the other -/
def setAll (o : Dict K) (l : List (String × Val K)) : M (Dict K) := l.foldlM (fun o p => setattr o p.1 p.2) o

/-- machine_base.py:214-222: the limits of the reconstructed area -/
def limitsOf (kw : Dict K) (nbins dtbin : Val K) : M (Val K × Val K) := do
  let lo ← lookup kw "min_dt"
  let up ← lookup kw "max_dt"
  let up ← (match up with
    | .none => mulV nbins dtbin
    | v => .ok v)
  pure (match lo with
    | .none => .num 0
    | v => v, up)

/-- machine_base.py:239-257: the attributes stored from the processed keywords, each with the name of its keyword, in the order of
the assignments -/
def attrKeys : List (String × String) :=
  [("demax", "demax"), ("phi12", "phi12"), ("h_ratio", "h_ratio"), ("h_num", "h_num"), ("q", "charge"),
  ("g_coupling", "g_coupling"), ("zwall_over_n", "zwall_over_n"), ("synch_part_x", "synch_part_x"),
  ("self_field_flag", "self_field_flag"), ("full_pp_flag", "full_pp_flag"), ("machine_ref_frame", "machine_ref_frame"),
  ("beam_ref_frame", "beam_ref_frame"), ("pickup_sensitivity", "pickup_sensitivity"), ("snpt", "snpt"), ("niter", "niter"),
  ("filmstart", "filmstart"), ("filmstop", "filmstop"), ("filmstep", "filmstep"), ("output_dir", "output_dir")]

/-- machine_base.py:197-263, the attributes that are not arrays, for the eight arguments given by position.  A keyword with the name
of one of these parameters is a TypeError; the names not already taken by the constructors of the subclasses are `n_profiles` and
`n_bins`. -/
def baseInit (dturns rad rho gamma rest nprof nbins dtbin : Val K) (kw : Dict K) : M (Dict K) :=
  if (kw.lookup "n_profiles").isSome ∨ (kw.lookup "n_bins").isSome then .error (.exc .typeError)
  else do
    let d := processKwargs baseDefaults kw
    let o ← setAll [] [("dturns", dturns), ("mean_orbit_rad", rad), ("bending_rad", rho), ("trans_gamma", gamma), ("e_rest", rest),
      ("nprofiles", nprof), ("nbins", nbins), ("dtbin", dtbin)]
    let (lo, up) ← limitsOf d nbins dtbin
    let vals ← attrKeys.mapM fun p => do
      let v ← lookup d p.2
      pure (p.1, v)
    setAll o ([("min_dt", lo), ("max_dt", up)] ++ vals ++ [("dEbin", .none)])

/-- machine.py:95-98 the parameters of the constructor -/
def machineParams : List (String × Option (Val K)) :=
  [("dturns", none), ("vrf1", none), ("mean_orbit_rad", none), ("bending_rad", none), ("b0", none), ("trans_gamma", none),
   ("rest_energy", none), ("nprofiles", none), ("nbins", none), ("dtbin", none), ("vat_now", some (.flag true))]

/-- machine.py:95-117 `Machine(*pos, **kw)` up to the call of `values_at_turns`: the attributes, and `vat_now` -/
def machineInit (pos : List (Val K)) (kw : Dict K) : M (Dict K × Val K) := do
  let (b, rest) ← bindArgs machineParams pos kw
  let dturns ← lookup b "dturns"
  let vrf1 ← lookup b "vrf1"
  let rad ← lookup b "mean_orbit_rad"
  let rho ← lookup b "bending_rad"
  let b0 ← lookup b "b0"
  let gamma ← lookup b "trans_gamma"
  let energy ← lookup b "rest_energy"
  let nprof ← lookup b "nprofiles"
  let nbins ← lookup b "nbins"
  let dtbin ← lookup b "dtbin"
  let now ← lookup b "vat_now"
  let o ← baseInit dturns rad rho gamma energy nprof nbins dtbin rest
  let d := processKwargs machineOpts rest
  let vrf1dot ← lookup d "vrf1dot"
  let vrf2 ← lookup d "vrf2"
  let vrf2dot ← lookup d "vrf2dot"
  let bdot ← lookup d "bdot"
  let o ← setAll o [("vrf1", vrf1), ("vrf1dot", vrf1dot), ("vrf2", vrf2), ("vrf2dot", vrf2dot), ("b0", b0), ("bdot", bdot),
    ("fitted_synch_part_x", .none), ("bunchlimit_low", .none), ("bunchlimit_up", .none)]
  pure (o, now)

/-- a count read from a value -/
def asInt : Val K → M Int
  | .int n => .ok n
  | _ => .error (.exc .typeError)

/-- a number or `None` -/
def optNum : Val K → M (Option K)
  | .none => .ok none
  | v => (asNum v).map some

/-- a count or `None` -/
def optInt : Val K → M (Option Int)
  | .none => .ok none
  | v => (asInt v).map some

/-- the attributes read by `assert_machine_input` and `values_at_turns` (machine.py:122-195), converted to numbers
when they are read -/
def argsOf (o : Dict K) : M (MachineArgs K) := do
  let dtbin ← getattr o "dtbin" >>= optNum
  let dturns ← getattr o "dturns" >>= optInt
  let filmstart ← getattr o "filmstart" >>= optInt
  let filmstop ← getattr o "filmstop" >>= optInt
  let filmstep ← getattr o "filmstep" >>= optInt
  let niter ← getattr o "niter" >>= optInt
  let snpt ← getattr o "snpt" >>= optInt
  let machineRefFrame ← getattr o "machine_ref_frame" >>= optInt
  let beamRefFrame ← getattr o "beam_ref_frame" >>= optInt
  let hNum ← getattr o "h_num" >>= optNum
  let hRatio ← getattr o "h_ratio" >>= optNum
  let b0 ← getattr o "b0" >>= optNum
  let meanOrbitRad ← getattr o "mean_orbit_rad" >>= optNum
  let bendingRad ← getattr o "bending_rad" >>= optNum
  let eRest ← getattr o "e_rest" >>= optNum
  let pickupSensitivity ← getattr o "pickup_sensitivity" >>= optNum
  let gCoupling ← getattr o "g_coupling" >>= optNum
  let vrf1 ← getattr o "vrf1" >>= asNum
  let vrf1dot ← getattr o "vrf1dot" >>= asNum
  let vrf2 ← getattr o "vrf2" >>= asNum
  let vrf2dot ← getattr o "vrf2dot" >>= asNum
  let phi12 ← getattr o "phi12" >>= asNum
  let q ← getattr o "q" >>= asNum
  let bdot ← getattr o "bdot" >>= asNum
  let transGamma ← getattr o "trans_gamma" >>= asNum
  let nprofiles ← getattr o "nprofiles" >>= asInt
  pure {
    dtbin, dturns, filmstart, filmstop, filmstep, niter, snpt, machineRefFrame, beamRefFrame, hNum, hRatio, b0,
    meanOrbitRad, bendingRad, eRest, pickupSensitivity, gCoupling, vrf1, vrf1dot, vrf2, vrf2dot, phi12, q, bdot, transGamma,
    nprofiles }

/-- whether a value counts as true in a condition (an array with more than one element raises in numpy, here it is true) -/
def truthy : Val K → Bool
  | .num x => x ≠ 0
  | .int n => n ≠ 0
  | .flag b => b
  | .text s => s ≠ ""
  | .none => false
  | .list l => !l.isEmpty
  | .table rows => !rows.isEmpty

/-- machine.py:95-120 `Machine(*pos, **kw)`: the attributes, and the arrays if they were computed -/
def newMachine (L : MathLib K) (pos : List (Val K)) (kw : Dict K) : M (Dict K × Option (MachineOut K)) := do
  let (o, now) ← machineInit pos kw
  if truthy now then do
    let a ← argsOf o
    let out ← valuesAtTurns L a
    pure (o, some out)
  else pure (o, none)

/-- tomo_input.py:383-421 `machine_kwargs`; `text` gives the string of a line -/
def fileKwargs {S : Type _} (text : S → String) (p : Inp.FilePars S K) : Dict K :=
  [("output_dir", .text (text p.outputDir)), ("dtbin", .num p.dtbin), ("dturns", .int p.dturns), ("synch_part_x", .num p.synchPartX),
   ("demax", .num p.demax), ("filmstart", .int p.filmstart), ("filmstop", .int p.filmstop), ("filmstep", .int p.filmstep),
   ("niter", .int p.niter), ("snpt", .int p.snpt), ("full_pp_flag", .flag p.fullPpFlag), ("beam_ref_frame", .int p.beamRefFrame),
   ("machine_ref_frame", .int p.machineRefFrame), ("vrf1", .num p.vrf1), ("vrf1dot", .num p.vrf1dot), ("vrf2", .num p.vrf2),
   ("vrf2dot", .num p.vrf2dot), ("h_num", .num p.hNum), ("h_ratio", .num p.hRatio), ("phi12", .num p.phi12), ("b0", .num p.b0),
   ("bdot", .num p.bdot), ("mean_orbit_rad", .num p.meanOrbitRad), ("bending_rad", .num p.bendingRad),
   ("trans_gamma", .num p.transGamma), ("rest_energy", .num p.restEnergy), ("charge", .num p.charge),
   ("self_field_flag", .flag p.selfFieldFlag), ("g_coupling", .num p.gCoupling), ("zwall_over_n", .num p.zwallOverN),
   ("pickup_sensitivity", .num p.pickupSensitivity), ("nprofiles", .int p.nprofiles), ("nbins", .int p.nbins),
   ("min_dt", .num p.minDt), ("max_dt", .num p.maxDt)]

end
end Verif.MObj

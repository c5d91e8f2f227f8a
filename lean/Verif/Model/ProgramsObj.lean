import Verif.Model.MachineObj

/-!
# `ProgramsMachine(...)`: construction by positional and keyword arguments

`tracking/programs_machine.py:61-109` on top of the constructor of the base class.
-/

namespace Verif.PMObj
open Verif.Mch Verif.Asrt Verif.MObj

section
variable {K : Type _} [Field K] [LinearOrder K] [FloorRing K]

/-- programs_machine.py:61-75 the parameters of the constructor -/
def programsParams : List (String × Option (Val K)) :=
  [("dturns", none), ("voltage_function", none), ("momentum_function", none), ("harmonics", none), ("mean_orbit_rad", none),
   ("bending_rad", none), ("trans_gamma", none), ("rest_energy", none), ("nprofiles", none), ("nbins", none), ("dtbin", none),
   ("t_ref", none), ("phase_function", some .none), ("vat_now", some (.flag true))]

/-- `len(v)` -/
def lenOf : Val K → M Nat
  | .list l => .ok l.length
  | .table rows => .ok rows.length
  | .text s => .ok s.length
  | _ => .error (.exc .typeError)

/-- `v is not None` -/
def notNone : Val K → Bool
  | .none => false
  | _ => true

/-- programs_machine.py:86-97: `phase_raw` and `process_phase`, or the exception.  With neither `phi12` nor a phase function
`phase_raw` is not assigned. -/
def phaseAttrs (given : Bool) (phase : Val K) : M (List (String × Val K)) :=
  if given then
    if notNone phase then .error (.exc .valueError)
    else .ok [("phase_raw", .none), ("process_phase", .int 0)]
  else if notNone phase then .ok [("phase_raw", phase), ("process_phase", .int 1)]
  else .ok [("process_phase", .int 2)]

/-- programs_machine.py:61-106 `ProgramsMachine(*pos, **kw)` up to the call of `values_at_turns`: the attributes that are not arrays over
the turns, and `vat_now` -/
def programsInit (L : MathLib K) (pos : List (Val K)) (kw : Dict K) : M (Dict K × Val K) := do
  let (b, rest) ← bindArgs programsParams pos kw
  let dturns ← lookup b "dturns"
  let voltage ← lookup b "voltage_function"
  let momentum ← lookup b "momentum_function"
  let harmonics ← lookup b "harmonics"
  let rad ← lookup b "mean_orbit_rad"
  let rho ← lookup b "bending_rad"
  let gamma ← lookup b "trans_gamma"
  let energy ← lookup b "rest_energy"
  let nprof ← lookup b "nprofiles"
  let nbins ← lookup b "nbins"
  let dtbin ← lookup b "dtbin"
  let tref ← lookup b "t_ref"
  let phase ← lookup b "phase_function"
  let now ← lookup b "vat_now"
  let n ← lenOf harmonics
  assertInrange (n : Int) 1 2 .arrayLengthError
  let o ← baseInit dturns rad rho gamma energy nprof nbins dtbin rest
  let ph ← phaseAttrs (rest.lookup "phi12").isSome phase
  let r ← asNum rad
  let o ← setAll o ([("voltage_raw", voltage), ("momentum_raw", momentum), ("harmonics", harmonics)] ++ ph ++
    [("circumference", .num (2 * L.pi * r)), ("t_ref", tref), ("n_turns", .none), ("i0", .none)])
  pure (o, now)

/-- `v[i, :]` -/
def rowOf (v : Val K) (i : Nat) : M (List K) :=
  match v with
  | .table rows =>
    match rows[i]? with
    | some r => .ok r
    | none => .error (.exc .indexError)
  | .list _ => .error (.exc .indexError)
  | _ => .error (.exc .typeError)

/-- a list of harmonics (a string or an array of two dimensions would fail in the arithmetic with its elements) -/
def asList : Val K → M (List K)
  | .list l => .ok l
  | _ => .error (.exc .typeError)

/-- programs_machine.py:128-147, 158-164, 181-184: how the phases are given.  `None` for `phi12` is refused here, in the code after the
arrays are computed (237-240). -/
def phaseArgOf (o : Dict K) (two : Bool) : M (Prog.PhaseArg K) := do
  let process ← getattr o "process_phase"
  match process with
  | .int 1 => do
    let v ← getattr o "phase_raw"
    let t ← rowOf v 0
    let p1 ← rowOf v 1
    let p2 ← (if two then rowOf v 2 else .ok [])
    pure (.program t p1 p2)
  | .int 0 => do
    let v ← getattr o "phi12"
    match v with
    | .num x => pure (.number x)
    | .int n => pure (.number (n : K))
    | .list l => pure (.array l)
    | .table rows => pure (.array rows.flatten)
    | .none => .error (.exc .valueError)
    | _ => .error (.exc .typeError)
  | _ => pure .missing

/-- The attributes read by `values_at_turns` (programs_machine.py:111-206), converted to numbers when they are read; all of them are read
at the beginning. -/
def programsArgs (o : Dict K) : M (Prog.PArgs K) := do
  let dturns ← getattr o "dturns" >>= asInt
  let nprofiles ← getattr o "nprofiles" >>= asInt
  let machineRefFrame ← getattr o "machine_ref_frame" >>= asInt
  let meanOrbitRad ← getattr o "mean_orbit_rad" >>= asNum
  let bendingRad ← getattr o "bending_rad" >>= asNum
  let transGamma ← getattr o "trans_gamma" >>= asNum
  let eRest ← getattr o "e_rest" >>= asNum
  let hNum ← getattr o "h_num" >>= asNum
  let q ← getattr o "q" >>= asNum
  let mom ← getattr o "momentum_raw"
  let momTime ← rowOf mom 0
  let momVal ← rowOf mom 1
  let volt ← getattr o "voltage_raw"
  let harmonics ← getattr o "harmonics" >>= asList
  let two := harmonics.length = 2
  let voltTime ← rowOf volt 0
  let volt1 ← rowOf volt 1
  let volt2 ← (if two then rowOf volt 2 else .ok [])
  let phase ← phaseArgOf o two
  let tRef ← getattr o "t_ref" >>= optNum
  pure { dturns, nprofiles, machineRefFrame, meanOrbitRad, bendingRad, transGamma, eRest, hNum, q, momTime, momVal, voltTime, volt1,
         volt2, harmonics, phase, tRef }

/-- programs_machine.py:151-182, 311: the attributes that are not arrays over the turns and `phi12`, as `values_at_turns` leaves them.
(It succeeds only with a phase program or without phases, see `Prog.findSynchronousPhase`; so `phi12` is assigned.) -/
def turnAttrs (a : Prog.PArgs K) (out : Prog.POut K) : List (String × Val K) :=
  [("i0", .int (a.machineRefFrame * a.dturns)), ("h_ratio", .num out.hRatio), ("n_turns", .int (out.vrf1AtTurn.length : Int)),
   ("phi12", match out.phi12 with
     | some p => .list p
     | none => .none)]

/-- programs_machine.py:61-109 `ProgramsMachine(*pos, **kw)`: the attributes, and the arrays if they were computed -/
def newProgramsMachine (L : MathLib K) (pos : List (Val K)) (kw : Dict K) (fuel : Nat) : M (Dict K × Option (Prog.POut K)) := do
  let (o, now) ← programsInit L pos kw
  if truthy now then do
    let a ← programsArgs o
    let out ← Prog.valuesAtTurns L a fuel
    let o ← setAll o (turnAttrs a out)
    pure (o, some out)
  else pure (o, none)

end
end Verif.PMObj

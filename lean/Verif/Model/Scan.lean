import Verif.Model.Shortcuts
import Verif.Model.MachineObj

/-!
# One machine and one `Tomography` object used again and again

The example scripts `EX_03_Voltage_calibration.py` and `EX_04_Varying_input.py` change one attribute of a machine, track and
reconstruct with the same `Tomography` object, for one value after the other.  Below them, a `ProgramsMachine` whose attributes are
changed before `values_at_turns` is called again.
-/

namespace Verif.Scan
open Verif.Mch Verif.Asrt Verif.Psi Verif.Part Verif.Run Verif.MObj Verif.Obj

/-- the objects of the scripts: attributes of the machine, its arrays (`None` before `values_at_turns`), the `Tomography` object -/
structure Session (K : Type _) where
  attrs : Dict K
  arrays : Option (MachineOut K)
  tomo : TObj K

section
variable {K : Type _} [Field K] [LinearOrder K] [FloorRing K]

/-- The attributes read by the tracking, converted to numbers when they are read; all of them are read at the beginning.  A number of bins,
particles or iterations that is negative is read as zero.  The arrays are `None` in a new machine, which cannot be subscripted. -/
def machOf (o : Dict K) (arrays : Option (MachineOut K)) : M (Mach K) := do
  let nbins ← getattr o "nbins" >>= asInt
  let synchPartX ← getattr o "synch_part_x" >>= asNum
  let synchPartY ← getattr o "synch_part_y" >>= asNum
  let dtbin ← getattr o "dtbin" >>= asNum
  let minDt ← getattr o "min_dt" >>= asNum
  let maxDt ← getattr o "max_dt" >>= asNum
  let demax ← getattr o "demax" >>= asNum
  let beamRefFrame ← getattr o "beam_ref_frame" >>= asInt
  let filmstart ← getattr o "filmstart" >>= asInt
  let filmstop ← getattr o "filmstop" >>= asInt
  let filmstep ← getattr o "filmstep" >>= asInt
  let dturns ← getattr o "dturns" >>= asInt
  let fullPp ← getattr o "full_pp_flag"
  let selfField ← getattr o "self_field_flag"
  let hNum ← getattr o "h_num" >>= asNum
  let hRatio ← getattr o "h_ratio" >>= asNum
  let q ← getattr o "q" >>= asNum
  let phi12 ← getattr o "phi12" >>= asNum
  let snpt ← getattr o "snpt" >>= asInt
  let nprofiles ← getattr o "nprofiles" >>= asInt
  let niter ← getattr o "niter" >>= asInt
  match arrays with
  | none => .error (.exc .typeError)
  | some out => pure {
      toMachineOut := out, nbins := nbins.toNat, synchPartX, synchPartY, dtbin, minDt, maxDt, demax, beamRefFrame, filmstart, dturns,
      fullPp := truthy fullPp, hNum, hRatio, q, phi12, snpt := snpt.toNat, nprofiles := nprofiles.toNat, niter := niter.toNat,
      filmstop, filmstep, selfField := truthy selfField }

/-- `machine.name = v`, machine_base.py:283-289: the setter of `nbins` has stored its value when the division fails -/
def assign (name : String) (v : Val K) : Ob (Session K) Unit := fun s =>
  match setattr s.attrs name v with
  | .ok o => ({ s with attrs := o }, .ok ())
  | .error e => ({ s with attrs := put s.attrs "_nbins" v }, .error e)

/-- machine.py:122-195 `machine.values_at_turns()`.  Refused by the assertions, it leaves the arrays as they were; failing later, it leaves
arrays that are partly filled, whatever `junk` says. -/
def values (L : MathLib K) (junk : Option (MachineOut K)) : Ob (Session K) Unit := fun s =>
  match argsOf s.attrs >>= assertMachineInput with
  | .error e => (s, .error e)
  | .ok p =>
    match valuesAtTurnsOf L p with
    | .error e => ({ s with arrays := junk }, .error e)
    | .ok out => ({ s with arrays := some out }, .ok ())

/-- EX_03:49-55, EX_04:51-57: `Tracking(machine)`, `track(machine.filmstart)`, `physical_to_coords`, `ready_for_tomography`.  The size
of the energy bins is stored in the machine (particles.py:143-148). -/
def tracked (L : MathLib K) (past : K) : Ob (Session K) (Arr2 Int) := fun s =>
  match machOf s.attrs s.arrays with
  | .error e => (s, .error e)
  | .ok m =>
    let r := Short.track L m past ⟨none, ⟨0, []⟩⟩ (some m.filmstart)
    (match r.1.dEbin with
      | none => s
      | some d => { s with attrs := put s.attrs "dEbin" (.num d) }, r.2.map Prod.fst)

/-- a statement on the `Tomography` object -/
def onTomo (sqrt : K → K) (op : Op K) : Ob (Session K) Unit := fun s =>
  let r := step sqrt op s.tomo
  ({ s with tomo := r.1 }, r.2.map fun _ => ())

/-- `machine.niter` -/
def niterOf : Ob (Session K) Nat := fun s => (s, (getattr s.attrs "niter" >>= asInt).map Int.toNat)

/-- EX_03:49-59, EX_04:51-61: tracking, and a reconstruction with the new coordinates, which are taken from the object afterwards -/
def attempt (L : MathLib K) (past : K) : Ob (Session K) Unit := do
  let x ← tracked L past
  onTomo L.sqrt (.xp (pyArray x))
  let n ← niterOf
  onTomo L.sqrt (.run n .done)
  onTomo L.sqrt (.xp .none)

/-- `tomo.diff[-1]` -/
def lastDiff : Ob (Session K) K := fun s =>
  (s, match s.tomo.diff with
    | none => .error (.exc .typeError)
    | some d => npGet d (-1))

/-- EX_03:46-61 one point of the calibration, after the voltage is set -/
def calibrationPoint (L : MathLib K) (past : K) (junk : Option (MachineOut K)) : Ob (Session K) K := do
  values L junk
  attempt L past
  lastDiff

/-- EX_03:43-61 the discrepancies for a list of voltages; an exception ends the script -/
def calibration (L : MathLib K) (past : K) (junk : Option (MachineOut K)) : List (Val K) → Ob (Session K) (List K)
  | [] => pure []
  | v :: vs => do
    assign "vrf1" v
    let d ← calibrationPoint L past junk
    let ds ← calibration L past junk vs
    pure (d :: ds)

/-- `try: … except Exception: … else: …`: whether no exception was raised.  Undefined behaviour and loops without end are not caught. -/
def caught {σ β : Type _} (a : Ob σ β) : Ob σ Bool := fun s =>
  match a s with
  | (s', .ok _) => (s', .ok true)
  | (s', .error (.exc _)) => (s', .ok false)
  | (s', .error e) => (s', .error e)

/-- EX_04:41-71 the successful values and their discrepancies; the arrays of the machine are those computed before the loop -/
def varying (L : MathLib K) (past : K) : List (Val K) → Ob (Session K) (List (Val K × K))
  | [] => pure []
  | v :: vs => do
    assign "snpt" v
    let ok ← caught (attempt L past)
    let here ← (if ok then do
        let d ← lastDiff
        pure [(v, d)]
      else pure [])
    let rest ← varying L past vs
    pure (here ++ rest)

/-- a statement of a script -/
inductive Stmt (K : Type _)
  | set (name : String) (v : Val K)
  | values (junk : Option (MachineOut K))
  | track
  | tomo (op : Op K)

/-- the objects after a statement, an exception of which is caught -/
def after (L : MathLib K) (past : K) (s : Session K) : Stmt K → Session K
  | .set name v => (assign name v s).1
  | .values junk => (values L junk s).1
  | .track => (tracked L past s).1
  | .tomo op => (onTomo L.sqrt op s).1

/-- the objects after a list of statements -/
def session (L : MathLib K) (past : K) (s : Session K) (stmts : List (Stmt K)) : Session K := stmts.foldl (after L past) s

/-! ## `ProgramsMachine` -/

/-- A `ProgramsMachine`: its attributes (with `phase` as it was given to the constructor, programs_machine.py:85-97), the mean
radius it had when the constructor computed `circumference` (line 99), and its attribute `phi12`. -/
structure PObj (K : Type _) where
  args : Prog.PArgs K
  rad0 : K
  phi12 : Prog.Phi12 K

/-- programs_machine.py:61-106, the object before `values_at_turns`; without `phi12` in the keywords the attribute is the default 0
(machine_base.py:15) -/
def newPObj (a : Prog.PArgs K) : PObj K :=
  ⟨a, a.meanOrbitRad, match a.phase with
    | .number v => .number v
    | .array v => .turns v
    | _ => .number 0⟩

/-- programs_machine.py:134-147, 181-184: the phases that count are the attribute `phi12` if it was given to the constructor, else the
program given to the constructor, else none -/
def phaseNow (p : PObj K) : Prog.PhaseArg K :=
  match p.args.phase with
  | .number _ | .array _ =>
    match p.phi12 with
    | .number v => .number v
    | .turns v => .array v
    | .missing => .missing
  | a => a

/-- programs_machine.py:205-206, 237-240: `phi12` is needed, and `None` -/
def phaseLost (p : PObj K) : Bool :=
  match p.args.phase, p.phi12 with
  | .number _, .missing => true
  | .array _, .missing => true
  | _, _ => false

/-- programs_machine.py:111-206 `values_at_turns` of an existing object: revolution periods come from the stored `circumference`, the
voltages at a phase from the attribute `mean_orbit_rad` (physics.py:132-139, 203-213) -/
def valuesAgain (L : MathLib K) (p : PObj K) (fuel : Nat) : M (Prog.POut K) := do
  let b := { p.args with meanOrbitRad := p.rad0, phase := phaseNow p }
  let (time, moms) ← Prog.interpolateMomentum L b fuel
  let v1 ← Prog.npInterp b.voltTime b.volt1 time
  Prog.checkArray b
  let (v2, ratio) ← Prog.secondHarmonic b time v1
  let o ← Prog.turnArrays L b moms v1 v2 ratio
  if phaseLost p then .error (.exc .valueError)
  else do
    let d ← Prog.phaseDifference L b ratio time
    match d with
    | .missing => pure o
    | .number v => do
      let ph ← Prog.findSynchronousPhase L p.args ratio o.e0 v1 v2 o.bdot (.number v)
      pure { o with phi0 := ph }
    | .turns t => do
      let ph ← Prog.findSynchronousPhase L p.args ratio o.e0 v1 v2 o.bdot (.turns t)
      pure { o with phi12 := some t, phi0 := ph }

end
end Verif.Scan

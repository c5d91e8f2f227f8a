import Verif.Model.Run
import Verif.Model.Profiles

/-!
# Model of a run from an input file: `utils/tomo_run.py:72-101` and `shortcuts.py:22-45`

From the 98 parameter lines and the raw data to the loaded machine and its waterfall, and from there to the result.  `qe` is
the elementary charge (scipy constant).
-/

namespace Verif.Run
open Verif.Mch Verif.Psi Verif.Part Verif.Asrt Verif.Inp Verif.Prof

section
variable {S K : Type _} [Field K] [LinearOrder K] [FloorRing K]

/-- tomo_input.py:380-424, machine.py:96-116, machine_base.py:199-245: the attributes of the new machine that
`assert_machine_input` and `values_at_turns` read -/
def machineArgs (p : FilePars S K) : MachineArgs K :=
  { dtbin := some p.dtbin, dturns := some p.dturns, filmstart := some p.filmstart, filmstop := some p.filmstop
    filmstep := some p.filmstep, niter := some p.niter, snpt := some p.snpt, machineRefFrame := some p.machineRefFrame
    beamRefFrame := some p.beamRefFrame, hNum := some p.hNum, hRatio := some p.hRatio, b0 := some p.b0
    meanOrbitRad := some p.meanOrbitRad, bendingRad := some p.bendingRad, eRest := some p.restEnergy
    pickupSensitivity := some p.pickupSensitivity, gCoupling := some p.gCoupling, vrf1 := p.vrf1, vrf1dot := p.vrf1dot
    vrf2 := p.vrf2, vrf2dot := p.vrf2dot, phi12 := p.phi12, q := p.charge, bdot := p.bdot, transGamma := p.transGamma
    nprofiles := p.nprofiles }

/-- the attributes of the new machine changed by loading profiles; the counts are not negative once `to_waterfall` has
returned -/
def rawMach (p : FilePars S K) : RawMach K :=
  { obj := { waterfall := none, nprofiles := p.nprofiles.toNat, nbins := p.nbins.toNat, synchPartY := (p.nbins : K) / 2 }
    beamRefFrame := p.beamRefFrame, dtbin := p.dtbin, synchPartX := p.synchPartX }

/-- the attributes of the machine once the profiles are loaded (counts that `assert_machine_input` found positive are
natural numbers here) -/
def loadedMach (p : FilePars S K) (o : MachineOut K) (r : RawMach K) : Mach K :=
  { toMachineOut := o, nbins := r.obj.nbins, synchPartX := r.synchPartX, synchPartY := r.obj.synchPartY, dtbin := r.dtbin
    minDt := p.minDt, maxDt := p.maxDt, demax := p.demax, beamRefFrame := p.beamRefFrame, filmstart := p.filmstart
    dturns := p.dturns, fullPp := p.fullPpFlag, hNum := p.hNum, hRatio := p.hRatio, q := p.charge, phi12 := p.phi12
    snpt := p.snpt.toNat, nprofiles := r.obj.nprofiles, niter := p.niter.toNat, filmstop := p.filmstop
    filmstep := p.filmstep, selfField := p.selfFieldFlag }

/-- what `fit_synch_part_x` reads from the loaded machine -/
def fitMach (p : FilePars S K) (m : Mach K) : Fit.FitMach K :=
  { beamRefFrame := m.beamRefFrame, machineRefFrame := p.machineRefFrame, dturns := m.dturns, dtbin := m.dtbin
    hNum := m.hNum, hRatio := m.hRatio, phi12 := .number m.phi12, omegaRev0 := m.omegaRev0, phi0 := m.phi0
    vrf1AtTurn := m.vrf1AtTurn, vrf2AtTurn := m.vrf2AtTurn }

/-- tomo_input.py:441-494 as a value: the machine and the stored waterfall, or the exception -/
def rawProfiles (m : RawMach K) (w : Arr2 K) (rbn : Nat) (samplingTime : K) : M (RawMach K × Arr2 K) :=
  match rawDataToProfiles m w rbn samplingTime none with
  | (_, some e) => .error e
  | (m, none) =>
    match m.obj.waterfall with
    | some (.array2 a) => .ok (m, a)
    | _ => .error (.exc .attributeError)

/-- tomo_run.py:90: `calc_profilecharge()`.  With a pickup sensitivity of zero numpy stores an infinity or NaN in
`profile_charge` and goes on; only the Fortran output reads it. -/
def chargeStep (w : Arr2 K) (beamRefFrame : Int) (samplingTime qe sensitivity : K) : M Unit :=
  match profileCharge w beamRefFrame samplingTime qe sensitivity with
  | .ok _ => .ok ()
  | .error .nonFinite => .ok ()
  | .error e => .error e

/-- tomo_run.py:94-96, machine.py:197-232: a negative position of the synchronous particle asks for the fit -/
def fitStep (L : MathLib K) (p : FilePars S K) (m : Mach K) (w : Arr2 K) : M (Mach K) :=
  if m.synchPartX < 0 then do
    let (x, _, _) ← Fit.fitSynchPartX L (fitMach p m) w
    pure { m with synchPartX := x }
  else .ok m

/-- tomo_run.py:79-96, shortcuts.py:31-45: parameter lines and raw data to machine and waterfall.  The constructor of the
machine already calls `values_at_turns`; the second call repeats the first. -/
def loadFile (L : MathLib K) (R : Reader S K) (qe : K) (params : List S) (data : List K) : M (Mach K × Arr2 K) := do
  let p ← txtInputToMachine R params
  let _ ← valuesAtTurns L (machineArgs p)
  let o ← valuesAtTurns L (machineArgs p)
  let w ← toWaterfall p.frames (some data)
  let (r, wf) ← rawProfiles (rawMach p) w p.frames.rebin.toNat p.samplingTime
  chargeStep wf p.beamRefFrame p.samplingTime qe p.pickupSensitivity
  let m ← fitStep L p (loadedMach p o r) wf
  pure (m, wf)

/-- tomo_run.py:24-150 `run`, after `get_user_input` -/
def runFile (L : MathLib K) (R : Reader S K) (qe past : K) (self : M (Tracked K)) (params : List S) (data : List K)
    (recArg : Option Int) (tomoscope : Bool) : M (Out K) := do
  let (m, wf) ← loadFile L R qe params data
  runMachine L m past self wf recArg tomoscope

end
end Verif.Run

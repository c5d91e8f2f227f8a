import Verif.Model.PreProcess
import Verif.Model.Programs

/-!
# Model of `fit_synch_part_x` (`data/pre_process.py:91-153`)

The feet of the bunch are `Pre.tangentFeet`.  Newton's method is a parameter; here its RuntimeError is not caught.
-/

namespace Verif.Fit
open Verif.Mch Verif.Pre

section
variable {K : Type _} [Field K] [LinearOrder K]

/-- what the fit reads from the machine -/
structure FitMach (K : Type _) where
  beamRefFrame : Int
  machineRefFrame : Int
  dturns : Int
  dtbin : K
  hNum : K
  hRatio : K
  phi12 : Prog.Phi12 K
  omegaRev0 : List K
  phi0 : List K
  vrf1AtTurn : List K
  vrf2AtTurn : List K

/-- physics.py:492-493, 583-584: the phase difference at an index, or the constant.  (`None` fails in the arithmetic.) -/
def phi12At (p : Prog.Phi12 K) (i : Int) : M K :=
  match p with
  | .number v => .ok v
  | .turns l => npGet l i
  | .missing => .error (.exc .typeError)

/-- physics.py:495-507: `phase_low` after its indexing; `v1r`, `v2r` are the voltages at `ref_frame`, `v1t`, `v2t` those at
`rf_turn`. -/
def phaseLowFn (L : MathLib K) (len v1r v2r v1t v2t p0 h p12 phase : K) : K :=
  v1r * (L.cos (phase + len) - L.cos phase)
    + v2r * (L.cos (h * (phase + len - p12)) - L.cos (h * (phase - p12))) / h
    + len * rfVoltageAtPhase L p0 v1t v2t h p12

/-- physics.py:586-593: `dphase_low` after its indexing -/
def dphaseLowFn (L : MathLib K) (len v1t v2t h p12 phase : K) : K :=
  -1 * v2t * (L.sin (h * (phase + len - p12)) - L.sin (h * (phase - p12))) - v1t * (L.sin (phase + len) - L.sin phase)

/-- physics.py:510-553: `phase_low_mch` and `dphase_low_mch` as functions of the phase; the indexing does not depend on it.
Numpy divides by `h_ratio = 0` without an exception (fault `nonFinite`). -/
def potentials (L : MathLib K) (m : FitMach K) (len : K) (turn : Int) : M ((K → K) × (K → K)) := do
  let p12 ← phi12At m.phi12 m.machineRefFrame
  let v1r ← npGet m.vrf1AtTurn m.machineRefFrame
  let v2r ← npGet m.vrf2AtTurn m.machineRefFrame
  let _ ← FDiv.fdiv 1 m.hRatio
  let p0 ← npGet m.phi0 turn
  let v1t ← npGet m.vrf1AtTurn turn
  let v2t ← npGet m.vrf2AtTurn turn
  let p12t ← phi12At m.phi12 turn
  pure (phaseLowFn L len v1r v2r v1t v2t p0 m.hRatio p12, dphaseLowFn L len v1t v2t m.hRatio p12t)

/-- `optimize.newton` without a handler -/
def newtonRaw (L : MathLib K) (f f' : K → K) (x0 : K) : M K :=
  match L.newton f f' x0 with
  | some x => .ok x
  | none => .error (.exc .runtimeError)

/-- pre_process.py:91-153 `fit_synch_part_x`: fitted position, lower and upper limit of the bunch, in bins -/
def fitSynchPartX (L : MathLib K) (m : FitMach K) (waterfall : Arr2 K) : M (K × K × K) := do
  let refProf ← npGet waterfall.rows m.beamRefFrame
  let turn := m.beamRefFrame * m.dturns
  let (up, low) ← tangentFeet refProf
  let om ← npGet m.omegaRev0 turn
  let len := m.hNum * ((up - low) * m.dtbin) * om
  let p0 ← npGet m.phi0 turn
  let x0 := p0 - len / 2
  let (f, f') ← potentials L m len turn
  let phil ← newtonRaw L f f' x0
  let d ← FDiv.fdiv (p0 - phil) (m.hNum * om * m.dtbin)
  pure (low + d, low, up)

end
end Verif.Fit

import Verif.Model.Run
import Verif.Model.CudaRun
import Verif.Model.CudaTrack

/-!
# Model of a whole run on the GPU

`utils/tomo_run.py` after `AppConfig.use_gpu()`: the same python, but `conf.kick_and_drift`, `conf.reconstruct` and
`conf.make_phase_space` are the CUDA and CuPy routines (tomo_config.py:93-98) and the arrays of particles stay on the device.  The
device schedules the threads of every launch as it likes, so a run has a set of possible outcomes (`Cuda.ND`).  The numbers are
those of a field; the element-wise CuPy operations of `physical_to_coords`, `filter_lost`, `ready_for_tomography` and of the
constructor of `Tomography` are then the same functions as those of numpy, and so are the models.
-/

namespace Verif.RunGpu
open Verif.Mch Verif.Psi Verif.Part Verif.Run Verif.Cuda Verif.Omp Verif.Par

section
variable {K : Type} [Field K] [LinearOrder K] [FloorRing K]

/-- tracking.py:180-181, 204-205: the arrays on the device before `kick_and_drift_cuda`; everything else in the memory of the
device is arbitrary -/
def Uploaded (mem : Memory K) (nprofiles : Nat) (pts : List (K × K)) : Prop :=
  (∀ i : Nat, i < pts.length → mem (.real .dphi i) = (pts.getD i (0, 0)).1 ∧ mem (.real .denergy i) = (pts.getD i (0, 0)).2) ∧
  ∀ k : Nat, k < nprofiles * pts.length → mem (.real (.xp 0) k) = 0 ∧ mem (.real (.yp 0) k) = 0

/-- the array `a` of the device as an array of shape `(nprofiles, n)` -/
def onDevice (mem : Memory K) (a : Omp.Arr) (nprofiles n : Nat) : Arr2 K :=
  ⟨n, tab nprofiles fun p => tab n fun i => mem (.real a ((p * n + i : Nat) : Int))⟩

/-- tracking.py:202-211 with kick_and_drift_cuda.py:39-83 -/
def deviceTrack (sin : K → K) (B : Nat) (m : Track.Mach K) (phi12 : K) (dturns r nturns : Int) (nprofiles : Nat)
    (pts : List (K × K)) : ND (Arr2 K × Arr2 K) := fun res =>
  ∃ m₀ m₁, Uploaded m₀ nprofiles pts ∧ Tracks sin B m phi12 dturns r 0 nturns pts.length m₀ m₁ ∧
    res = .ok (onDevice m₁ (.xp 0) nprofiles pts.length, onDevice m₁ (.yp 0) nprofiles pts.length)

/-- tracking.py:135-214 `track(recprof)` on the GPU: automatic distribution, no turn offset, no self fields.  The array `phi12` of
`trackMach` is replaced in `Tracks` by the one made at kick_and_drift_cuda.py:55. -/
def track (L : MathLib K) (B : Nat) (m : Run.Mach K) (recprof : Int) : ND (Tracked K) :=
  match Track.trackCheck m.nprofiles m.dturns recprof 0 with
  | .error e => det (.error (.exc e))
  | .ok r => do
    let (xorigin, dEbin, _) ← det (findLimits L m.toArea)
    let pts ← det (homogeneousDistribution L m.toArea r 0)
    let s ← deviceTrack L.sin B (trackMach m 0) m.phi12 m.dturns r (m.dturns * ((m.nprofiles : Int) - 1)) m.nprofiles pts
    pure ⟨xorigin, dEbin, s.1, s.2⟩

/-- tomo_run.py:113-124: tracking, conversion to phase-space coordinates, removal of lost particles -/
def coordinates (L : MathLib K) (B : Nat) (m : Run.Mach K) (recprof : Int) : ND (K × Arr2 Int × Arr2 Int) := do
  let r ← track L B m recprof
  let c ← det (physicalToCoords m.toArea r.xorigin r.dEbin r.xp r.yp)
  let (x, y) ← det (ready c.1 c.2 m.nbins)
  pure (r.dEbin, x, y)

/-- __tomography.py:53-68 and tomography.py:357-403 with `conf.reconstruct` of the GPU -/
def tomogram (B Q : Nat) (sqrt : K → K) (empty : Nat → K) (wf : Arr2 K) (x y : Arr2 Int) (niter : Nat) : ND (TomoOut K) := do
  let w ← det (Tomo.initWaterfall wf.flatten wf.rows.length wf.cols)
  match Tomo.coordInit wf.rows.length wf.cols (pyArray x) (pyArray y) with
  | .error e => det (.error (.exc e))
  | .ok t =>
    match t.xp, t.nparts with
    | some (_, xs), some n => do
      let st ← reconstructN B Q sqrt empty xs w niter wf.cols n wf.rows.length
      pure ⟨w, st⟩
    | _, _ => det (.error (.exc .coordinateError))

end

section
variable {α : Type} [Add α] [Zero α]

/-- one addition of `cupy.add.at`; indices outside of the array wrap around -/
def addOne (xp yp : List Int) (weight : List α) (nbins : Nat) (ps : List α) (i : Nat) : M (List α) := do
  let y ← rd yp (i : Int)
  let x ← rd xp (i : Int)
  let index := (y + x * (nbins : Int)) % ((nbins * nbins : Nat) : Int)
  let v ← rd ps index
  let w ← rd weight (i : Int)
  upd ps index (v + w)

/-- `cupy.add.at(zeros, index, weights)`: the atomic additions come in any order -/
def addAt (xp yp : List Int) (weight : List α) (nbins : Nat) : ND (List α) := fun res =>
  ∃ order : List Nat, order.Perm (List.range xp.length) ∧
    res = order.foldlM (addOne xp yp weight nbins) (tab (nbins * nbins) fun _ => 0)

/-- python_routines/data_treatment.py:8-21 `make_phase_space` on the GPU -/
def makePhaseSpace (xp yp : List Int) (weight : List α) (nbins : Nat) : ND (List α) :=
  if xp.length = yp.length ∧ xp.length = weight.length then addAt xp yp weight nbins else det (.error (.exc .valueError))

end

section
variable {K : Type} [Field K] [LinearOrder K] [FloorRing K]

/-- data/data_treatment.py:119-208 `phase_space` with `conf.make_phase_space` of the GPU -/
def phaseSpace (xp yp : Arr2 Int) (weight : List K) (nbins : Nat) (synchX synchY dtbin dE : K) (reconstrIdx : Int) :
    ND (List K × List K × List K) := do
  let x ← det (Img.column xp reconstrIdx)
  let y ← det (Img.column yp reconstrIdx)
  let density ← makePhaseSpace x y weight nbins
  pure (Img.axis nbins synchX dtbin, Img.axis nbins synchY dE, density)

/-- tomo_run.py:98-150 on the GPU, without the output for the tomoscope -/
def runMachine (B Q : Nat) (L : MathLib K) (empty : Nat → K) (m : Run.Mach K) (wf : Arr2 K) (recArg : Option Int) : ND (Out K) := do
  let recprof := recArg.getD m.filmstart
  let _ ← det (newTracker m)
  let (dE, x, y) ← coordinates L B m recprof
  let o ← tomogram B Q L.sqrt empty wf x y m.niter
  let (tr, er, ps) ← phaseSpace x y o.st.weights m.nbins m.synchPartX m.synchPartY m.dtbin dE recprof
  let d ← det (normalise ps)
  pure ⟨tr, er, d, o.st.discr, []⟩

end
end Verif.RunGpu

import Verif.Model.Particles
import Verif.Model.PhaseSpace
import Verif.Model.Reconstruct
import Verif.Model.Input
import Verif.Model.Fit

/-!
# Model of a whole run: `utils/tomo_run.py` and `shortcuts.py`

The pieces are the models of the functions called; this file composes them in the order of the code.  The C++ backend
without self fields reads the `phi12` array one element past its end (C24); `past` is whatever that memory holds.
-/

namespace Verif.Run
open Verif.Mch Verif.Psi Verif.Part

/-- The attributes of the machine read by a run, after `values_at_turns` and after the profiles are loaded. -/
structure Mach (K : Type _) extends Area K where
  nprofiles : Nat
  niter : Nat
  filmstop : Int
  filmstep : Int
  /-- `machine.self_field_flag`, the switch of the input file -/
  selfField : Bool

/-- The two flags of the tracker object. -/
structure Tracker where
  selfField : Bool
  fortran : Bool
  deriving DecidableEq, Repr

section
variable {K : Type _} [Field K] [LinearOrder K] [FloorRing K]

/-- __tracking.py:58-74, 170-182 the constructor of the tracker (the attributes checked exist in the model) -/
def newTracker (m : Mach K) : M Tracker :=
  if m.synchPartX < 0 then .error (.exc .machineParameterError) else .ok ⟨false, false⟩

/-- tracking.py:186-190, 203-211 and libtomo.cpp:194-226: the arrays handed to the C++ loop.  The array made of the scalar
`phi12` has `nturns` elements; the element behind it is `past`. -/
def trackMach (m : Mach K) (past : K) : Track.Mach K :=
  { rf1v := m.vrf1AtTurn.map (· * m.q)
    rf2v := m.vrf2AtTurn.map (· * m.q)
    phi0 := m.phi0
    deltaE0 := m.deltaE0
    driftCoef := m.driftCoef
    phi12 := List.replicate (m.dturns * ((m.nprofiles : Int) - 1)).toNat m.phi12 ++ [past]
    hratio := m.hRatio }

/-- what `track` leaves: `particles.xorigin`, `particles.dEbin` (also `machine.dEbin`), `xp`, `yp` -/
structure Tracked (K : Type _) where
  xorigin : K
  dEbin : K
  xp : Arr2 K
  yp : Arr2 K

/-- tracking.py:135-214 `track(recprof)`: automatic distribution, no turn offset, no self fields -/
def track (L : MathLib K) (m : Mach K) (past : K) (recprof : Int) : M (Tracked K) :=
  match Track.trackCheck m.nprofiles m.dturns recprof 0 with
  | .error e => .error (.exc e)
  | .ok r => do
    let (xorigin, dEbin, _) ← findLimits L m.toArea
    let pts ← homogeneousDistribution L m.toArea r 0
    let n := pts.length
    let z := List.replicate m.nprofiles (List.replicate n (0 : K))
    let s ← Track.kickAndDrift L.sin z z (pts.map Prod.snd) (pts.map Prod.fst) (trackMach m past) m.dturns r 0
      (m.dturns * ((m.nprofiles : Int) - 1)) n
    pure ⟨xorigin, dEbin, ⟨n, s.xp⟩, ⟨n, s.yp⟩⟩

/-- particles.py:352-403 `ready_for_tomography` for coordinates that are numbers (`Part.readyForTomography` has NaN and
infinities as well) -/
def ready (xp yp : Arr2 K) (nbins : Nat) : M (Arr2 Int × Arr2 Int) := do
  let (x, y, _) ← filterLost xp yp (nbins : K)
  let x ← (x.map trunc).transpose
  let y ← (y.map trunc).transpose
  pure (x, y)

/-- tomo_run.py:113-120 without self fields: tracking and conversion to phase-space coordinates -/
def trackCoords (L : MathLib K) (m : Mach K) (past : K) (recprof : Int) : M (Tracked K) := do
  let r ← track L m past recprof
  let (x, y) ← physicalToCoords m.toArea r.xorigin r.dEbin r.xp r.yp
  pure ⟨r.xorigin, r.dEbin, x, y⟩

/-- tomo_run.py:109-124.  `self` is the whole self-field branch (`calc_self_fields`, `enable_self_fields`, `track`), which
returns phase-space coordinates. -/
def coordinates (L : MathLib K) (m : Mach K) (past : K) (self : M (Tracked K)) (recprof : Int) (t : Tracker) :
    M (K × Arr2 Int × Arr2 Int) := do
  let r ← (if t.selfField = true then self else trackCoords L m past recprof)
  let (x, y) ← ready r.xp r.yp m.nbins
  pure (r.dEbin, x, y)

end

/-- an integer array handed to the `xp` and `yp` setters -/
def pyArray (a : Arr2 Int) : Tomo.PyVal := .array [a.rows.length, a.cols] (a.flatten.map fun z : Int => Fl.fin (z : ℚ))

/-- the `Tomography` object after `run` -/
structure TomoOut (K : Type _) where
  waterfall : List K
  st : Recon.RState K

section rounded
variable {K : Type _} [Add K] [Sub K] [Mul K] [Zero K] [One K] [NatCast K] [LT K] [LE K] [DecidableLT K] [DecidableLE K]
  [DecidableEq K] [FDiv K]

/-- __tomography.py:53-68 and tomography.py:357-403: `Tomography(waterfall, xp, yp)` and `run(niter)` -/
def tomogram (sqrt : K → K) (wf : Arr2 K) (x y : Arr2 Int) (niter : Nat) : M (TomoOut K) := do
  let w ← Tomo.initWaterfall wf.flatten wf.rows.length wf.cols
  match Tomo.coordInit wf.rows.length wf.cols (pyArray x) (pyArray y) with
  | .error e => .error (.exc e)
  | .ok t =>
    match t.xp, t.nparts with
    | some (_, xs), some n => do
      let st ← (Recon.reconstruct sqrt xs w niter wf.cols n wf.rows.length).2
      pure ⟨w, st⟩
    | _, _ => .error (.exc .coordinateError)

end rounded

section
variable {K : Type _} [Field K] [LinearOrder K] [FloorRing K]

/-- tomo_run.py:142-145: clip at zero, divide by the sum -/
def normalise (ps : List K) : M (List K) :=
  let c := Tomo.npClip0 ps
  c.mapM fun v => FDiv.fdiv v c.sum

/-- `range(a, b, s)` -/
def pyRange (a b s : Int) : M (List Int) :=
  if s = 0 then .error (.exc .valueError)
  else
    let n := (if 0 < s then (b - a + s - 1) / s else (a - b - s - 1) / (-s)).toNat
    .ok (tab n fun k => a + s * (k : Int))

/-- tomo_run.py:133-134 and compat/tomoscope.py:29-50: one film: number, image, profile -/
def oneFilm (nprofiles nbins : Nat) (o : TomoOut K) (x y : Arr2 Int) (film : Int) : M (Int × List K × List K) := do
  let img ← Img.createPhaseSpaceImage x y o.st.weights nbins film
  let prof ← npGet (tab nprofiles fun p => (o.waterfall.drop (p * nbins)).take nbins) film
  pure (film, img, prof)

/-- tomo_run.py:131-136 the tomoscope films.  Line 136 uses the loop variable after the loop, which does not exist when the
range is empty. -/
def films (m : Mach K) (o : TomoOut K) (x y : Arr2 Int) : M (List (Int × List K × List K)) := do
  let fs ← pyRange m.filmstart (m.filmstop + 1) m.filmstep
  let r ← fs.mapM (oneFilm m.nprofiles m.nbins o x y)
  if fs = [] then .error (.exc .unboundLocalError) else pure r

/-- what a run produces -/
structure Out (K : Type _) where
  tRange : List K
  eRange : List K
  density : List K
  diff : List K
  films : List (Int × List K × List K)

/-- tomo_run.py:98-150: everything after the profiles are loaded; `rec` is the argument `reconstruct_profile`. -/
def runMachine (L : MathLib K) (m : Mach K) (past : K) (self : M (Tracked K)) (wf : Arr2 K) (recArg : Option Int)
    (tomoscope : Bool) : M (Out K) := do
  let recprof := recArg.getD m.filmstart
  let t ← newTracker m
  let t := if tomoscope then { t with fortran := true } else t
  let (dE, x, y) ← coordinates L m past self recprof t
  let o ← tomogram L.sqrt wf x y m.niter
  let fs ← (if tomoscope then films m o x y else pure [])
  let (tr, er, ps) ← Img.phaseSpace x y o.st.weights m.nbins m.synchPartX m.synchPartY m.dtbin (some dE) recprof
  let d ← normalise ps
  pure ⟨tr, er, d, o.st.discr, fs⟩

end
end Verif.Run

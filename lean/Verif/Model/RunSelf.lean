import Verif.Model.SelfField
import Verif.Model.Shortcuts

/-!
# Model of `__EXAMPLES/example_scripts/EX_01_Run_tomo_from_input_file.py:39-69`

The program users copy: one tracker, self fields if the input file asks for them, then for every film a tracking, a
reconstruction and a picture.  Reading the file, loading the profiles and fitting the synchronous particle (lines 12-37) are in
`Model/RunFile.lean`.  `enable_fortran_output` (line 40) only prints (C81).
-/

namespace Verif.RunSelf
open Verif.Mch Verif.Psi Verif.Part Verif.Run

/-- what the self fields read from machine and profiles besides what a run reads: `machine.bdot`, `machine.g_coupling`,
`machine.zwall_over_n`, `profiles.profile_charge` -/
structure Fields (K : Type _) where
  bdot : K
  gCoupling : K
  zwallOverN : K
  charge : K

/-- what `enable_self_fields` stores in the tracker: `_phiwrap`, `_vself` -/
structure Table (K : Type _) where
  phiwrap : K
  vself : List (List K)
  deriving DecidableEq, Repr

section
variable {K : Type _} [Field K] [LinearOrder K] [FloorRing K]

/-- the machine as `calc_self_fields` reads it (profiles.py:238-273) -/
def selfMach (m : Run.Mach K) (c : Fields K) : SelfF.SMach K :=
  { bdot := c.bdot, nprofiles := m.nprofiles, dturns := m.dturns, nbins := m.nbins, hNum := m.hNum, dtbin := m.dtbin
    omegaRev0 := m.omegaRev0, beta0 := m.beta0, gCoupling := c.gCoupling, zwallOverN := c.zwallOverN }

/-- machine, particles and tracker as the self-field loop reads them (tracking.py:363-464) -/
def selfData (m : Run.Mach K) (t : Table K) (xorigin dEbin : K) : SelfF.SF K :=
  { xorigin := xorigin, dEbin := dEbin, hNum := m.hNum, dtbin := m.dtbin, omegaRev0 := m.omegaRev0, phiwrap := t.phiwrap
    vself := t.vself, q := m.q, synchPartY := m.synchPartY }

/-- EX_01:44-46 with profiles.py:159-219 `calc_self_fields()` and __tracking.py:137-168 `enable_self_fields` -/
def enable (L : MathLib K) (e tiny : K) (savgol : Arr2 K → M (Arr2 K)) (m : Run.Mach K) (c : Fields K) (wf : Arr2 K) :
    M (Option (Table K)) :=
  if m.selfField then
    match SelfF.calcSelfFields L e tiny savgol (selfMach m c) wf (some c.charge) .standard ⟨none, none, none, none⟩ with
    | (_, some f) => .error f
    | (o, none) =>
      match o.phiwrap, o.vself with
      | some p, some v => .ok (some ⟨p, v⟩)
      | _, _ => .error (.exc .selfFieldTrackingError)
  else .ok none

/-- EX_01:50 with tracking.py:135-201: `track(film)` with self fields enabled, automatic distribution; the coordinates
returned are those of the image -/
def trackSelf (L : MathLib K) (m : Run.Mach K) (t : Table K) (recprof : Int) : M (Tracked K) :=
  match Track.trackCheck m.nprofiles m.dturns recprof 0 with
  | .error e => .error (.exc e)
  | .ok r => do
    let (xorigin, dEbin, _) ← findLimits L m.toArea
    let pts ← homogeneousDistribution L m.toArea r 0
    let (x, y) ← SelfF.kickAndDriftSelf L.sin (trackMach m 0) m.phi12 (selfData m t xorigin dEbin) m.dturns m.nprofiles r
      (pts.map Prod.snd) (pts.map Prod.fst)
    pure ⟨xorigin, dEbin, ⟨pts.length, x⟩, ⟨pts.length, y⟩⟩

/-- EX_01:50-57: tracking, and conversion to coordinates of the image where the tracking has not done it -/
def tracked (L : MathLib K) (m : Run.Mach K) (past : K) (t : Option (Table K)) (film : Int) : M (Tracked K) :=
  match t with
  | some t => trackSelf L m t film
  | none => trackCoords L m past film

/-- EX_01:50-60: the coordinates, ready for the reconstruction -/
def coords (L : MathLib K) (m : Run.Mach K) (past : K) (t : Option (Table K)) (film : Int) : M (Arr2 Int × Arr2 Int) := do
  let r ← tracked L m past t film
  ready r.xp r.yp m.nbins

/-- EX_01:63-64: `TomographyCpp(waterfall, xp)` and `run`, without energies (`Run.tomogram` has them) -/
def tomogramX (sqrt : K → K) (wf : Arr2 K) (x : Arr2 Int) (niter : Nat) : M (TomoOut K) := do
  let w ← Tomo.initWaterfall wf.flatten wf.rows.length wf.cols
  match Tomo.coordInit wf.rows.length wf.cols (pyArray x) .none with
  | .error e => .error (.exc e)
  | .ok t =>
    match t.xp, t.nparts with
    | some (_, xs), some n => do
      let st ← (Recon.reconstruct sqrt xs w niter wf.cols n wf.rows.length).2
      pure ⟨w, st⟩
    | _, _ => .error (.exc .coordinateError)

/-- EX_01:50-68, one film: image and discrepancies -/
def oneFilm (L : MathLib K) (m : Run.Mach K) (past : K) (t : Option (Table K)) (wf : Arr2 K) (film : Int) :
    M (List K × List K) := do
  let (x, y) ← coords L m past t film
  let o ← tomogramX L.sqrt wf x m.niter
  let img ← Img.createPhaseSpaceImage x y o.st.weights m.nbins film
  pure (img, o.st.discr)

/-- EX_01:48-69: the loop.  `show` (line 69) is given a row of the waterfall of the `Profiles` object and divides it by its
sum, in place (tomo_output.py:134). -/
def loop (L : MathLib K) (m : Run.Mach K) (past : K) (t : Option (Table K)) :
    List Int → Arr2 K → M (List (Int × List K × List K))
  | [], _ => .ok []
  | f :: fs, wf => do
    let r ← oneFilm L m past t wf f
    let s ← Short.show_ ⟨none, wf⟩ f
    let rest ← loop L m past t fs s.waterfall
    pure ((f, r) :: rest)

/-- EX_01:39-69: the pictures shown, with their film numbers -/
def films (L : MathLib K) (e tiny : K) (savgol : Arr2 K → M (Arr2 K)) (m : Run.Mach K) (c : Fields K) (past : K)
    (wf : Arr2 K) : M (List (Int × List K × List K)) := do
  let _ ← newTracker m
  let t ← enable L e tiny savgol m c wf
  let fs ← pyRange m.filmstart m.filmstop m.filmstep
  loop L m past t fs wf

end
end Verif.RunSelf

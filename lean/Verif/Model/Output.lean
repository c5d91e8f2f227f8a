import Verif.Model.RunFile
import Mathlib.Data.Nat.Digits.Defs
import Mathlib.Data.Int.Log

/-!
# Model of the output: `compat/fortran.py`, `compat/tomoscope.py` and what a run prints

Text is a list of characters.  Numbers are finite (for them python's `format` rounds the exact value, ties to even); a negative
zero is written as zero.  A directory is a function from file names to contents; opening for writing replaces the file.
Not modelled: failing disks, buffering, the interleaving of the C++ and the python standard output.
-/

namespace Verif.Text
open Verif.Mch Verif.Psi Verif.Asrt

abbrev Txt := List Char

/-! ## Formatting -/

/-- `str(n)` for `0 ≤ n` -/
def showNat (n : Nat) : Txt := if n = 0 then ['0'] else ((Nat.digits 10 n).reverse).map Nat.digitChar

/-- fill up on the left -/
def padLeft (c : Char) (w : Nat) (s : Txt) : Txt := List.replicate (w - s.length) c ++ s

/-- `str(z)` -/
def showInt (z : Int) : Txt := if z < 0 then '-' :: showNat z.natAbs else showNat z.natAbs

/-- `{z:03d}`: the sign counts -/
def show03 (z : Int) : Txt := if z < 0 then '-' :: padLeft '0' 2 (showNat z.natAbs) else padLeft '0' 3 (showNat z.natAbs)

/-- `{n:3d}` and `std::setw(3)` -/
def show3 (n : Nat) : Txt := padLeft ' ' 3 (showNat n)

section
variable {K : Type _} [Field K] [LinearOrder K] [FloorRing K]

/-- nearest integer, ties to even -/
def roundEven (x : K) : Int :=
  let f := ⌊x⌋
  if 2 * (x - f) < 1 then f else if 1 < 2 * (x - f) then f + 1 else if f % 2 = 0 then f else f + 1

/-- mantissa (`p + 1` digits) and exponent of a positive number, rounded -/
def sciParts (p : Nat) (a : K) : Nat × Int :=
  let e := Int.log 10 a
  let m := (roundEven (a / (10 : K) ^ (e - p))).toNat
  if m = 10 ^ (p + 1) then (10 ^ p, e + 1) else (m, e)

/-- mantissa and exponent as text -/
def showSci (p : Nat) (me : Nat × Int) : Txt :=
  showNat (me.1 / 10 ^ p) ++ '.' :: padLeft '0' p (showNat (me.1 % 10 ^ p)) ++ 'E' :: (if me.2 < 0 then '-' else '+') ::
    padLeft '0' 2 (showNat me.2.natAbs)

/-- `{x:0.pE}` -/
def sci (p : Nat) (x : K) : Txt :=
  if x = 0 then showSci p (0, 0)
  else if x < 0 then '-' :: showSci p (sciParts p (-x)) else showSci p (sciParts p x)

/-- `{x:.pf}` -/
def fixed (p : Nat) (x : K) : Txt :=
  let m := (roundEven (|x| * (10 : K) ^ p)).toNat
  let s := showNat (m / 10 ^ p) ++ '.' :: padLeft '0' p (showNat (m % 10 ^ p))
  if x < 0 then '-' :: s else s

/-! ## Files -/

/-- name of a file in the directory -/
def fileName (stem : String) (index : Int) : Txt := stem.toList ++ show03 (index + 1) ++ ".data".toList

/-- contents of the directory -/
abbrev Dir := Txt → Option Txt

/-- `open(name, 'w')`, `write` -/
def Dir.write (d : Dir) (name content : Txt) : Dir := fun n => if n = name then some content else d n

/-- one number in each line after `sp` blanks -/
def column (sp : Nat) (l : List K) : Txt := l.flatMap fun x => List.replicate sp ' ' ++ sci 7 x ++ ['\n']

/-- compat/tomoscope.py:44-50 `save_profile` -/
def saveProfile (prof : List K) (film : Int) (d : Dir) : Dir := d.write (fileName "profile" film) (column 1 prof)

/-- compat/fortran.py:32-50 `save_profile`: the profile is found by numpy's index -/
def saveProfileFtn (profiles : Arr2 K) (recprof : Int) (d : Dir) : M Dir := do
  let p ← npGet profiles.rows recprof
  pure (d.write (fileName "profile" recprof) (column 1 p))

/-- compat/fortran.py:53-67 `save_self_volt_profile` -/
def saveSelfVolt (v : Arr2 K) (d : Dir) : Dir := d.write "vself.data".toList (column 1 v.flatten)

/-- compat/fortran.py:74-91 `save_phase_space`, compat/tomoscope.py:38-41 -/
def savePhaseSpace (image : List K) (recprof : Int) (d : Dir) : Dir := d.write (fileName "image" recprof) (column 2 image)

/-- compat/tomoscope.py:29-41 `save_image` -/
def saveImage (x y : Arr2 Int) (weight : List K) (nbins : Nat) (film : Int) (d : Dir) : M Dir := do
  let img ← Img.createPhaseSpaceImage x y weight nbins film
  pure (savePhaseSpace img film d)

/-- compat/fortran.py:190-209: the lines of `save_difference` -/
def differenceFtn (diff : List K) : Txt :=
  diff.zipIdx.flatMap fun e => List.replicate 9 ' ' ++ show3 e.2 ++ "  ".toList ++ sci 7 e.1 ++ ['\n']

/-- compat/fortran.py:190-209 `save_difference` -/
def saveDifferenceFtn (diff : List K) (recprof : Int) (d : Dir) : Dir := d.write (fileName "d" recprof) (differenceFtn diff)

/-- compat/tomoscope.py:21-26: the lines of `save_difference` -/
def differenceTscp (diff : List K) : Txt :=
  diff.zipIdx.flatMap fun e =>
    if e.2 < 10 then List.replicate 11 ' ' ++ showNat e.2 ++ "  ".toList ++ sci 7 e.1 ++ ['\n']
    else List.replicate 10 ' ' ++ showNat e.2 ++ "  ".toList ++ sci 7 e.1 ++ ['\n']

/-- compat/tomoscope.py:16-26 `save_difference` -/
def saveDifference (diff : List K) (film : Int) (d : Dir) : Dir := d.write (fileName "d" film) (differenceTscp diff)

/-- tomo_run.py:131-136: the films of a run are written, then the discrepancies under the number of the last one -/
def saveFilms (fs : List (Int × List K × List K)) (diff : List K) (d : Dir) : M Dir :=
  let d := fs.foldl (fun d f => saveProfile f.2.2 f.1 (savePhaseSpace f.2.1 f.1 d)) d
  match fs.getLast? with
  | some f => pure (saveDifference diff f.1 d)
  | none => .error (.exc .unboundLocalError)

/-! ## Plot information -/

/-- what `write_plotinfo` reads from the machine; the results of the fit are `None` or absent without a fit -/
structure InfoMach (K : Type _) where
  filmstart : Int
  dturns : Int
  nprofiles : Nat
  nbins : Nat
  dtbin : K
  synchPartX : K
  synchPartY : K
  phi0 : List K
  fittedSynchPartX : Option K
  bunchlimitLow : Option K
  bunchlimitUp : Option K

/-- what it reads from the particles -/
structure InfoPart (K : Type _) where
  dEbin : Option K
  imin : Option Int
  imax : Option Int

/-- compat/fortran.py:128-143: lower limit, upper limit, position; zeros unless all three are there -/
def fitInfo (m : InfoMach K) : K × K × K :=
  match m.fittedSynchPartX, m.bunchlimitLow, m.bunchlimitUp with
  | some x, some l, some u => (l, u, x)
  | _, _, _ => (0, 0, 0)

/-- compat/fortran.py:157-182: the lines of the text -/
def infoLines (m : InfoMach K) (dEbin charge phase : K) (imin imax : Int) : List Txt :=
  let f := fitInfo m
  [ " plotinfo.data".toList
  , "Number of profiles used in each reconstruction,".toList
  , " profilecount = ".toList ++ showNat m.nprofiles
  , "Width (in pixels) of each image = length (in bins) of each profile,".toList
  , " profilelength = ".toList ++ showNat m.nbins
  , "Width (in s) of each pixel = width of each profile bin,".toList
  , " dtbin = ".toList ++ sci 4 m.dtbin
  , "Height (in eV) of each pixel,".toList
  , " dEbin = ".toList ++ sci 4 dEbin
  , "Number of elementary charges in each image,".toList
  , " eperimage = ".toList ++ sci 3 charge
  , "Position (in pixels) of the reference synchronous point:".toList
  , " xat0 =  ".toList ++ fixed 3 m.synchPartX
  , " yat0 =  ".toList ++ fixed 3 m.synchPartY
  , "Foot tangent fit results (in bins):".toList
  , " tangentfootl =    ".toList ++ fixed 3 f.1
  , " tangentfootu =    ".toList ++ fixed 3 f.2.1
  , " fit xat0 =   ".toList ++ fixed 3 f.2.2
  , "Synchronous phase (in radians):".toList
  , " phi0( ".toList ++ showInt (m.filmstart + 1) ++ ") = ".toList ++ fixed 4 phase
  , "Horizontal range (in pixels) of the region in phase space of map elements:".toList
  , " imin( ".toList ++ showInt (m.filmstart + 1) ++ ") =   ".toList ++ showInt imin ++ " and imax( ".toList
      ++ showInt (m.filmstart + 1) ++ ") =  ".toList ++ showInt imax ]

/-- compat/fortran.py:103-183 `write_plotinfo` -/
def writePlotinfo (m : InfoMach K) (p : InfoPart K) (charge : K) : M Txt := do
  let dEbin ← notNone p.dEbin .energyBinningError
  let imin ← notNone p.imin .phaseLimitsError
  let imax ← notNone p.imax .phaseLimitsError
  let phase ← npGet m.phi0 (m.filmstart * m.dturns)
  pure (List.intercalate ['\n'] (infoLines m dEbin charge phase imin imax))

end

/-! ## Standard output -/

/-- compat/fortran.py:214-233 `print_tracking_status`, kick_and_drift.cpp:164-168, 202-206 -/
def status (ref dest : Int) : Txt :=
  " Tracking from time slice  ".toList ++ showInt (ref + 1) ++ " to  ".toList ++ showInt (dest + 1)
    ++ ",   0.000% went outside the image width.".toList

/-- the variables that decide what is printed -/
structure PrintState where
  turn : Int
  profile : Int
  out : List Txt

/-- kick_and_drift.cpp:147-171, tracking.py:271-289: one turn upwards, without the particles -/
def upPrint (dturns ref : Int) (s : PrintState) : PrintState :=
  let turn := s.turn + 1
  if turn % dturns = 0 then ⟨turn, s.profile + 1, s.out ++ [status ref (s.profile + 1)]⟩ else ⟨turn, s.profile, s.out⟩

/-- kick_and_drift.cpp:186-210, tracking.py:297-312: one turn downwards -/
def downPrint (dturns ref : Int) (s : PrintState) : PrintState :=
  let turn := s.turn - 1
  if turn % dturns = 0 then ⟨turn, s.profile - 1, s.out ++ [status ref (s.profile - 1)]⟩ else ⟨turn, s.profile, s.out⟩

/-- `n` times -/
def times {σ : Type} (n : Nat) (f : σ → σ) (s : σ) : σ := (List.range n).foldl (fun s _ => f s) s

/-- what kick_and_drift.cpp:117-212 and tracking.py:253-314 print without turn offset -/
def trackOut (dturns nprofiles ref : Int) : List Txt :=
  let s := times (dturns * (nprofiles - 1) - ref * dturns).toNat (upPrint dturns ref) ⟨ref * dturns, ref, []⟩
  (times (ref * dturns).toNat (downPrint dturns ref) ⟨ref * dturns, ref, s.out⟩).out

/-- tracking.py:426-450: one turn downwards with self fields: the number is decreased before it is printed -/
def downPrintSelf (dturns ref : Int) (s : PrintState) : PrintState :=
  let turn := s.turn - 1
  if turn % dturns = 0 then ⟨turn, s.profile - 1, s.out ++ [status ref (s.profile - 1)]⟩ else ⟨turn, s.profile, s.out⟩

/-- what tracking.py:363-452 `kick_and_drift_self` prints without turn offset -/
def trackOutSelf (dturns nprofiles ref : Int) : List Txt :=
  let s := times (dturns * (nprofiles - 1) - ref * dturns).toNat (upPrint dturns ref) ⟨ref * dturns, ref, [status ref ref]⟩
  (times (ref * dturns).toNat (downPrintSelf dturns ref) ⟨ref * dturns, ref - 1, s.out⟩).out

/-- kick_and_drift_cuda.py:43-85, kick_and_drift_cupy.py:52-117: `ftn_out` is not used -/
def trackOutGpu (_dturns _nprofiles _ref : Int) : List Txt := []

/-- reconstruct.cpp:398-440 (`done = " Done!"`), tomography.py:121-148, reconstruct_cuda.py:146-171 and
reconstruct_cupy.py:117-143 (`done = "Done!"`): what a reconstruction prints that runs to its end -/
def reconOut (done : String) (niter : Nat) : List Txt :=
  [" Iterating...".toList] ++ (List.range niter).map (fun k => show3 (k + 1)) ++ [done.toList]

section
variable {K : Type _} [Field K] [LinearOrder K] [FloorRing K]

/-- what `write_plotinfo` finds in the machine of a run; `fit` is the result of `fit_synch_part_x`, if there was a fit
(machine.py:229-232) -/
def infoMach (m : Run.Mach K) (fit : Option (K × K × K)) : InfoMach K :=
  { filmstart := m.filmstart, dturns := m.dturns, nprofiles := m.nprofiles, nbins := m.nbins, dtbin := m.dtbin
    synchPartX := m.synchPartX, synchPartY := m.synchPartY, phi0 := m.phi0, fittedSynchPartX := fit.map fun f => f.1
    bunchlimitLow := fit.map fun f => f.2.1, bunchlimitUp := fit.map fun f => f.2.2 }

/-- tomo_run.py:76, 109-128 with `tomoscope = True` on the CPU, tracking.py:135-175: what a run prints that gets as far as the
end of the reconstruction -/
def runOut (L : MathLib K) (m : Run.Mach K) (fit : Option (K × K × K)) (charge : K) (recArg : Option Int) : M (List Txt) :=
  match Track.trackCheck m.nprofiles m.dturns (recArg.getD m.filmstart) 0 with
  | .error e => .error (.exc e)
  | .ok r => do
    let (_, dEbin, l) ← findLimits L m.toArea
    let info ← writePlotinfo (infoMach m fit) ⟨some dEbin, some l.imin, some l.imax⟩ charge
    pure ([" Start".toList, info] ++ trackOut m.dturns m.nprofiles r ++ reconOut " Done!" m.niter)

end

end Verif.Text

import Verif.Model.Profiles

/-!
# Model of the text input of `utils/tomo_input.py`

A line of text is a value of an abstract type `S`; the python functions applied to lines (`strip`, `int`, `float`, comparison
with `'pipe'`) are the fields of `Reader`, so the theorems hold for every text.
-/

namespace Verif.Inp
open Verif.Asrt Verif.Prof

/-- Python's operations on a line. -/
structure Reader (S K : Type _) where
  /-- `line.strip('\r\n')` -/
  strip : S → S
  /-- `int(line)`; `none` is a ValueError -/
  int : S → Option Int
  /-- `float(line)`; `none` is a ValueError -/
  flt : S → Option K
  /-- `line == 'pipe'` -/
  isPipe : S → Bool
  /-- `'pipe' in line` -/
  hasPipe : S → Bool
  /-- what `readline` returns at the end of the input -/
  eof : S

/-- `PARAMETER_LENGTH`, tomo_input.py:22 -/
def parameterLength : Nat := 98

variable {S K : Type _}

/-- `int(line)` -/
def toInt (R : Reader S K) (s : S) : M Int :=
  match R.int s with
  | some v => .ok v
  | none => .error (.exc .valueError)

/-- `float(line)` -/
def toFlt (R : Reader S K) (s : S) : M K :=
  match R.flt s with
  | some v => .ok v
  | none => .error (.exc .valueError)

/-- The local variables of `_get_input_stdin`: `left` is what has not been read from stdin. -/
structure StdinSt (S : Type _) where
  read : List S
  left : List S
  piped : Bool
  lineNum : Nat
  ndata : Int
  nframes : Int

/-- `sys.stdin.readline()` -/
def readline (R : Reader S K) : List S → S × List S
  | [] => (R.eof, [])
  | a :: l => (a, l)

/-- tomo_input.py:263-267 -/
def pipedSizes (R : Reader S K) (st : StdinSt S) (line : S) : M (StdinSt S) :=
  if st.piped then
    if st.lineNum = 16 then do
      let n ← toInt R line
      pure { st with nframes := n }
    else if st.lineNum = 20 then do
      let b ← toInt R line
      pure { st with ndata := st.ndata + st.nframes * b }
    else .ok st
  else .ok st

/-- tomo_input.py:257-270: body of the loop (the variable `finished` is never used) -/
def stdinBody (R : Reader S K) (st : StdinSt S) : M (StdinSt S) := do
  let (line, left) := readline R st.left
  let piped := if st.lineNum = 12 then (st.piped || R.hasPipe line) else st.piped
  let st ← pipedSizes R { st with read := st.read ++ [line], left := left, piped := piped } line
  pure { st with lineNum := st.lineNum + 1 }

/-- tomo_input.py:249-272 `_get_input_stdin`; `fuel` bounds the number of iterations of the `while` loop. -/
def getInputStdin (R : Reader S K) (fuel : Nat) (stdin : List S) : M (List S) := do
  let st ← whileN fuel (fun st => decide ((st.lineNum : Int) < st.ndata)) (stdinBody R)
    ⟨[], stdin, false, 0, parameterLength, 0⟩
  pure st.read

/-- `l[i]` of a numpy array, `i ≥ 0` -/
def line {β : Type _} (l : List β) (i : Nat) : M β :=
  match l[i]? with
  | some v => .ok v
  | none => .error (.exc .indexError)

/-- `int(l[i])` -/
def lineInt (R : Reader S K) (l : List S) (i : Nat) : M Int := do
  let s ← line l i
  toInt R s

/-- `float(l[i])` -/
def lineFlt (R : Reader S K) (l : List S) (i : Nat) : M K := do
  let s ← line l i
  toFlt R s

/-- tomo_input.py:295-312: `rest` is what was read after the parameters -/
def readData (R : Reader S K) (load : S → Except Exn (List K)) (src : S) (rest : List S) : M (List K) :=
  if R.isPipe src then rest.mapM (toFlt R)
  else match load src with
    | .ok d => .ok d
    | .error e => .error (.exc e)

/-- tomo_input.py:278-319 `_split_input`; `load` is `np.genfromtxt` (its exceptions are `fileNotFoundError` and, for anything
else, `runtimeError` standing for the plain `Exception` that is raised). -/
def splitInput (R : Reader S K) (load : S → Except Exn (List K)) (read : List S) : M (List S × List K) := do
  let params := read.take parameterLength
  let nbins ← lineInt R params 20
  let nframes ← lineInt R params 16
  let params ← forN parameterLength (fun i p => do
    let s ← line p i
    upd p (i : Int) (R.strip s)) params
  let src ← line params 12
  let data ← readData R load src (read.drop parameterLength)
  if (data.length : Int) = nbins * nframes then pure (params, data) else .error (.exc .inputError)

/-- tomo_input.py:206-230 `get_user_input` for standard input -/
def getUserInputStdin (R : Reader S K) (load : S → Except Exn (List K)) (fuel : Nat) (stdin : List S) : M (List S × List K) := do
  let read ← getInputStdin R fuel stdin
  splitInput R load read

/-- What `txt_input_to_machine` passes to the constructors of `Frames` and `Machine` (tomo_input.py:362-421). -/
structure FilePars (S K : Type _) where
  rawDataPath : S
  frames : FrameArgs
  samplingTime : K
  outputDir : S
  dtbin : K
  dturns : Int
  synchPartX : K
  demax : K
  filmstart : Int
  filmstop : Int
  filmstep : Int
  niter : Int
  snpt : Int
  fullPpFlag : Bool
  beamRefFrame : Int
  machineRefFrame : Int
  vrf1 : K
  vrf1dot : K
  vrf2 : K
  vrf2dot : K
  hNum : K
  hRatio : K
  phi12 : K
  b0 : K
  bdot : K
  meanOrbitRad : K
  bendingRad : K
  transGamma : K
  restEnergy : K
  charge : K
  selfFieldFlag : Bool
  gCoupling : K
  zwallOverN : K
  pickupSensitivity : K
  nprofiles : Int
  nbins : Int
  minDt : K
  maxDt : K

/-- tomo_input.py:322-426 `txt_input_to_machine` up to the call of the `Machine` constructor. -/
def txtInputToMachine [Sub K] [Mul K] [IntCast K] (R : Reader S K) (input : List S) : M (FilePars S K) :=
  if input.length ≠ parameterLength then .error (.exc .inputError)
  else do
    let inp := input.map R.strip
    let rawDataPath ← line inp 12
    let framecount ← lineInt R inp 16
    let skipFrames ← lineInt R inp 18
    let framelength ← lineInt R inp 20
    let dtbinF ← lineFlt R inp 22
    let skipStart ← lineInt R inp 26
    let skipEnd ← lineInt R inp 28
    let rebin ← lineInt R inp 36
    let frames : FrameArgs := ⟨framecount, skipFrames, framelength, skipStart, skipEnd, rebin⟩
    let nprofiles := nprofs frames
    let nbins := nbinsOf frames
    -- _min_max_dt, tomo_input.py:431-438
    let dtbinM ← lineFlt R inp 22
    let minBin ← lineInt R inp 31
    let maxBin ← lineInt R inp 34
    let minDt := (minBin : K) * dtbinM
    let maxDt := ((nbins - maxBin : Int) : K) * dtbinM
    let outputDir ← line inp 14
    let dtbin ← lineFlt R inp 22
    let dturns ← lineInt R inp 24
    let synchPartX ← lineFlt R inp 39
    let demax ← lineFlt R inp 41
    let filmstart ← lineInt R inp 43
    let filmstop ← lineInt R inp 45
    let filmstep ← lineInt R inp 47
    let niter ← lineInt R inp 49
    let snpt ← lineInt R inp 51
    let fullPp ← lineInt R inp 53
    let beamRef ← lineInt R inp 55
    let machineRef ← lineInt R inp 57
    let vrf1 ← lineFlt R inp 61
    let vrf1dot ← lineFlt R inp 63
    let vrf2 ← lineFlt R inp 65
    let vrf2dot ← lineFlt R inp 67
    let hNum ← lineFlt R inp 69
    let hRatio ← lineFlt R inp 71
    let phi12 ← lineFlt R inp 73
    let b0 ← lineFlt R inp 75
    let bdot ← lineFlt R inp 77
    let rad ← lineFlt R inp 79
    let rho ← lineFlt R inp 81
    let gt ← lineFlt R inp 83
    let rest ← lineFlt R inp 85
    let charge ← lineFlt R inp 87
    let selfField ← lineInt R inp 91
    let g ← lineFlt R inp 93
    let z ← lineFlt R inp 95
    let sens ← lineFlt R inp 97
    pure { rawDataPath := rawDataPath, frames := frames, samplingTime := dtbinF, outputDir := outputDir, dtbin := dtbin,
           dturns := dturns, synchPartX := synchPartX, demax := demax, filmstart := filmstart - 1, filmstop := filmstop - 1,
           filmstep := filmstep, niter := niter, snpt := snpt, fullPpFlag := decide (fullPp ≠ 0),
           beamRefFrame := beamRef - 1, machineRefFrame := machineRef - 1, vrf1 := vrf1, vrf1dot := vrf1dot, vrf2 := vrf2,
           vrf2dot := vrf2dot, hNum := hNum, hRatio := hRatio, phi12 := phi12, b0 := b0, bdot := bdot, meanOrbitRad := rad,
           bendingRad := rho, transGamma := gt, restEnergy := rest, charge := charge, selfFieldFlag := decide (selfField ≠ 0),
           gCoupling := g, zwallOverN := z, pickupSensitivity := sens, nprofiles := nprofiles, nbins := nbins,
           minDt := minDt, maxDt := maxDt }

end Verif.Inp

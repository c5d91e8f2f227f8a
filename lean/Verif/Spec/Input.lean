import Verif.Model.Input

/-!
# The documented layout of the parameter file

Line numbers count from 1, as in the example files (`__EXAMPLES/input_files/*.dat`), where the text of the preceding line
says what the value means.
-/

namespace Verif.Spec
open Verif.Inp Verif.Asrt

/-- The values written in a parameter file, as documented there. -/
structure FileDoc (S K : Type _) where
  dataFile : S
  outputDirectory : S
  framesInData : Int
  framesToIgnore : Int
  binsPerFrame : Int
  binWidth : K
  turnsBetweenFrames : Int
  binsBeforeLower : Int
  binsAfterUpper : Int
  emptyAfterLower : Int
  emptyBeforeUpper : Int
  rebin : Int
  synchronousPhase : K
  maxEnergy : K
  firstProfile : Int
  lastProfile : Int
  stepProfiles : Int
  iterations : Int
  sqrtTestParticles : Int
  extendRegion : Int
  bunchReferenceFrame : Int
  machineReferenceFrame : Int
  voltage1 : K
  voltage1Rate : K
  voltage2 : K
  voltage2Rate : K
  harmonic : K
  harmonicRatio : K
  phaseDifference : K
  field : K
  fieldRate : K
  machineRadius : K
  bendingRadius : K
  gammaTransition : K
  restMass : K
  chargeState : K
  selfFields : Int
  coupling : K
  impedance : K
  sensitivity : K

variable {S K : Type _}

/-- line `k` (from 1), without the end of line -/
def TextAt (R : Reader S K) (lines : List S) (k : ℕ) (v : S) : Prop := ∃ s, lines[k - 1]? = some s ∧ R.strip s = v

def IntAt (R : Reader S K) (lines : List S) (k : ℕ) (v : ℤ) : Prop := ∃ s, lines[k - 1]? = some s ∧ R.int (R.strip s) = some v

def FltAt (R : Reader S K) (lines : List S) (k : ℕ) (v : K) : Prop := ∃ s, lines[k - 1]? = some s ∧ R.flt (R.strip s) = some v

/-- the lines are a parameter file with the values `d` -/
structure IsFile (R : Reader S K) (lines : List S) (d : FileDoc S K) : Prop where
  length : lines.length = 98
  dataFile : TextAt R lines 13 d.dataFile
  outputDirectory : TextAt R lines 15 d.outputDirectory
  framesInData : IntAt R lines 17 d.framesInData
  framesToIgnore : IntAt R lines 19 d.framesToIgnore
  binsPerFrame : IntAt R lines 21 d.binsPerFrame
  binWidth : FltAt R lines 23 d.binWidth
  turnsBetweenFrames : IntAt R lines 25 d.turnsBetweenFrames
  binsBeforeLower : IntAt R lines 27 d.binsBeforeLower
  binsAfterUpper : IntAt R lines 29 d.binsAfterUpper
  emptyAfterLower : IntAt R lines 32 d.emptyAfterLower
  emptyBeforeUpper : IntAt R lines 35 d.emptyBeforeUpper
  rebin : IntAt R lines 37 d.rebin
  synchronousPhase : FltAt R lines 40 d.synchronousPhase
  maxEnergy : FltAt R lines 42 d.maxEnergy
  firstProfile : IntAt R lines 44 d.firstProfile
  lastProfile : IntAt R lines 46 d.lastProfile
  stepProfiles : IntAt R lines 48 d.stepProfiles
  iterations : IntAt R lines 50 d.iterations
  sqrtTestParticles : IntAt R lines 52 d.sqrtTestParticles
  extendRegion : IntAt R lines 54 d.extendRegion
  bunchReferenceFrame : IntAt R lines 56 d.bunchReferenceFrame
  machineReferenceFrame : IntAt R lines 58 d.machineReferenceFrame
  voltage1 : FltAt R lines 62 d.voltage1
  voltage1Rate : FltAt R lines 64 d.voltage1Rate
  voltage2 : FltAt R lines 66 d.voltage2
  voltage2Rate : FltAt R lines 68 d.voltage2Rate
  harmonic : FltAt R lines 70 d.harmonic
  harmonicRatio : FltAt R lines 72 d.harmonicRatio
  phaseDifference : FltAt R lines 74 d.phaseDifference
  field : FltAt R lines 76 d.field
  fieldRate : FltAt R lines 78 d.fieldRate
  machineRadius : FltAt R lines 80 d.machineRadius
  bendingRadius : FltAt R lines 82 d.bendingRadius
  gammaTransition : FltAt R lines 84 d.gammaTransition
  restMass : FltAt R lines 86 d.restMass
  chargeState : FltAt R lines 88 d.chargeState
  selfFields : IntAt R lines 92 d.selfFields
  coupling : FltAt R lines 94 d.coupling
  impedance : FltAt R lines 96 d.impedance
  sensitivity : FltAt R lines 98 d.sensitivity

/-- The constructor arguments these values mean: profile and frame numbers count from 1 in the file and from 0 in the
program; the region to treat as empty is turned into times. -/
def meaning [Sub K] [Mul K] [IntCast K] (d : FileDoc S K) : FilePars S K where
  rawDataPath := d.dataFile
  frames := { nframes := d.framesInData, skipFrames := d.framesToIgnore, nbinsFrame := d.binsPerFrame,
              skipBinsStart := d.binsBeforeLower, skipBinsEnd := d.binsAfterUpper, rebin := d.rebin }
  samplingTime := d.binWidth
  outputDir := d.outputDirectory
  dtbin := d.binWidth
  dturns := d.turnsBetweenFrames
  synchPartX := d.synchronousPhase
  demax := d.maxEnergy
  filmstart := d.firstProfile - 1
  filmstop := d.lastProfile - 1
  filmstep := d.stepProfiles
  niter := d.iterations
  snpt := d.sqrtTestParticles
  fullPpFlag := decide (d.extendRegion ≠ 0)
  beamRefFrame := d.bunchReferenceFrame - 1
  machineRefFrame := d.machineReferenceFrame - 1
  vrf1 := d.voltage1
  vrf1dot := d.voltage1Rate
  vrf2 := d.voltage2
  vrf2dot := d.voltage2Rate
  hNum := d.harmonic
  hRatio := d.harmonicRatio
  phi12 := d.phaseDifference
  b0 := d.field
  bdot := d.fieldRate
  meanOrbitRad := d.machineRadius
  bendingRad := d.bendingRadius
  transGamma := d.gammaTransition
  restEnergy := d.restMass
  charge := d.chargeState
  selfFieldFlag := decide (d.selfFields ≠ 0)
  gCoupling := d.coupling
  zwallOverN := d.impedance
  pickupSensitivity := d.sensitivity
  nprofiles := d.framesInData - d.framesToIgnore
  nbins := d.binsPerFrame - d.binsBeforeLower - d.binsAfterUpper
  minDt := (d.emptyAfterLower : K) * d.binWidth
  maxDt := ((d.binsPerFrame - d.binsBeforeLower - d.binsAfterUpper - d.emptyBeforeUpper : ℤ) : K) * d.binWidth

/-- the first `n` lines of a stream, as `readline` gives them when the stream may end earlier -/
def firstLines (R : Reader S K) (stdin : List S) (n : ℕ) : List S := (stdin ++ List.replicate n R.eof).take n

end Verif.Spec

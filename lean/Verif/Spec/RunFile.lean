import Verif.Spec.Input
import Verif.Spec.PreProcess
import Verif.Spec.Run

/-!
# What loading a file does to the raw data, independent of the model
-/

namespace Verif.Spec
open Finset

variable {K : Type _} [Field K] [LinearOrder K]

/-- mean of the first twentieth of the `nb` samples of the reference profile -/
def baseline (nb ref : ℕ) (f : ℕ → ℕ → K) : K := (∑ j ∈ range (nb / 20), f ref j) / ((nb / 20 : ℕ) : K)

/-- number of bins after rebinning `nb` samples by `rbn` -/
def rebinCount (nb rbn : ℕ) : ℕ := (nb + rbn - 1) / rbn

/-- rebinned profile: a complete bin is the sum of its `rbn` samples; a bin left over is made of its samples and of the last
complete bin, scaled to `rbn` samples (with one `rbn` too many in the scale when there is no complete bin, C32) -/
def rebinned (nb rbn : ℕ) (f : ℕ → ℕ → K) (i k : ℕ) : K :=
  if k < nb / rbn then binSum rbn f i k
  else rbn * ((∑ j ∈ range (nb - (nb / rbn - 1) * rbn), f i ((nb / rbn - 1) * rbn + j)) /
    ((nb + rbn - nb / rbn * rbn : ℕ) : K))

/-- measured value used for the reconstruction in bin `k` of profile `i` -/
def treated (nb rbn ref : ℕ) (f : ℕ → ℕ → K) (i k : ℕ) : K :=
  max (rebinned nb rbn (fun i j => f i j - baseline nb ref f) i k) 0

/-- raw sample `j` of profile `i`: frames of `nb` samples, the first `sf` frames and the first `s0` samples left out -/
def rawAt (nb sf s0 : ℕ) (data : List K) (i j : ℕ) : K := data.getD ((sf + i) * nb + (s0 + j)) 0

/-- the counts of a file as natural numbers: frames, skipped frames, samples per frame, skipped samples at the start and at
the end, rebin factor, reference profile (from 0) and turns between profiles -/
structure Counts {S : Type _} (d : FileDoc S K) (nf sf nb s0 s1 rbn ref dt : ℕ) : Prop where
  frames : d.framesInData = nf
  skipped : d.framesToIgnore = sf
  samples : d.binsPerFrame = nb
  start : d.binsBeforeLower = s0
  stop : d.binsAfterUpper = s1
  rebin : d.rebin = rbn
  reference : d.bunchReferenceFrame = ref + 1
  turns : d.turnsBetweenFrames = dt
  some_profile : sf < nf
  some_sample : s0 + s1 < nb
  some_rebin : 1 ≤ rbn
  some_turn : 1 ≤ dt
  has_reference : ref < nf - sf

/-- the machine has the parameters written in the file -/
structure Configured {S : Type _} (m : Run.Mach K) (d : FileDoc S K) : Prop where
  minDt : m.minDt = d.emptyAfterLower * d.binWidth
  maxDt : m.maxDt = ((d.binsPerFrame - d.binsBeforeLower - d.binsAfterUpper - d.emptyBeforeUpper : ℤ) : K) * d.binWidth
  demax : m.demax = d.maxEnergy
  beamRefFrame : m.beamRefFrame = d.bunchReferenceFrame - 1
  filmstart : m.filmstart = d.firstProfile - 1
  filmstop : m.filmstop = d.lastProfile - 1
  filmstep : m.filmstep = d.stepProfiles
  dturns : m.dturns = d.turnsBetweenFrames
  fullPp : m.fullPp = decide (d.extendRegion ≠ 0)
  hNum : m.hNum = d.harmonic
  hRatio : m.hRatio = d.harmonicRatio
  q : m.q = d.chargeState
  phi12 : m.phi12 = d.phaseDifference
  snpt : (m.snpt : ℤ) = d.sqrtTestParticles
  niter : (m.niter : ℤ) = d.iterations
  nprofiles : (m.nprofiles : ℤ) = d.framesInData - d.framesToIgnore

/-- the physical parameters a file describes -/
def filePars {S : Type _} (d : FileDoc S K) : Asrt.MachinePars K where
  dturns := d.turnsBetweenFrames
  nprofiles := d.framesInData - d.framesToIgnore
  machineRefFrame := d.machineReferenceFrame - 1
  hNum := d.harmonic
  hRatio := d.harmonicRatio
  b0 := d.field
  meanOrbitRad := d.machineRadius
  bendingRad := d.bendingRadius
  eRest := d.restMass
  vrf1 := d.voltage1
  vrf1dot := d.voltage1Rate
  vrf2 := d.voltage2
  vrf2dot := d.voltage2Rate
  phi12 := d.phaseDifference
  q := d.chargeState
  bdot := d.fieldRate
  transGamma := d.gammaTransition

end Verif.Spec

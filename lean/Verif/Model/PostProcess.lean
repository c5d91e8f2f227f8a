import Verif.Model.PreProcess
import Verif.Model.Machine
import Mathlib.Data.List.Sort

/-!
# Model of `data/post_process.py`

Arrays are one-dimensional here; a two-dimensional phase space is given by its elements (`ravel`) or its two projections.
`np.sqrt` of a negative number (NaN) is the fault `nonFinite`.
-/

namespace Verif.Post
open Verif.Asrt Verif.Mch Verif.Pre

variable {K : Type _} [Field K] [LinearOrder K]

/-- `np.sqrt` -/
def npSqrt (L : MathLib K) (x : K) : M K := if x < 0 then .error .nonFinite else .ok (L.sqrt x)

/-- post_process.py:263-294 `_std_from_histogram` -/
def stdFromHistogram (L : MathLib K) (hist bins : List K) : M K := do
  assertArrayNumelEqual [[hist.length], [bins.length]] hist.length
  let b1 ← npGet bins 1
  let b0 ← npGet bins 0
  let mid := bins.map fun b => b + (b1 - b0) / 2
  let mean ← (List.zipWith (fun x h => x * h) mid hist).mapM fun v => FDiv.fdiv v hist.sum
  let terms := List.zipWith (fun h d => h * d ^ 2) hist (List.zipWith (fun x m => x - m) mid mean)
  let var ← FDiv.fdiv terms.sum hist.sum
  npSqrt L var

/-- post_process.py:103-123 `emittance_rms(sigma_t, sigma_e)` -/
def emittanceRmsOf (L : MathLib K) (sigmaT sigmaE : K) : K := L.pi * sigmaT * sigmaE

/-- post_process.py:73-100 `emittance_rms(histogram, t_bins, e_bins)` with the two projections of the histogram -/
def emittanceRms (L : MathLib K) (timeProj energyProj tBins eBins : List K) : M K := do
  let st ← stdFromHistogram L timeProj tBins
  let se ← stdFromHistogram L energyProj eBins
  pure (emittanceRmsOf L st se)

/-- post_process.py:195-226 `rms_dpp(energy_std, energy, mass)` -/
def rmsDpp (L : MathLib K) (energyStd energy mass : K) : M K := do
  let momentum ← npSqrt L (energy ^ 2 - mass ^ 2)
  let p ← npSqrt L ((energy + energyStd) ^ 2 - mass ^ 2)
  FDiv.fdiv (p - momentum) momentum

/-- `ndarray.cumsum`, `acc` is the sum so far -/
def cumsum (acc : K) : List K → List K
  | [] => []
  | a :: l => (acc + a) :: cumsum (acc + a) l

/-- `histogram[::-1].sort()`: the order is decreasing -/
def sortDesc (l : List K) : List K := l.insertionSort fun a b => b ≤ a

/-- `np.argmax` of a boolean array; raises ValueError for an empty one -/
def argmaxB (l : List Bool) : M Nat :=
  match l with
  | [] => .error (.exc .valueError)
  | _ :: _ => .ok (argmaxBool l)

/-- post_process.py:150-192 `emittance_fractional`; `histogram` is flattened -/
def emittanceFractional (histogram tBins eBins : List K) (fraction : K) : M K := do
  assertLessOrEqual fraction 100 .valueError
  assertGreaterOrEqual fraction 0 .valueError
  let h ← histogram.mapM fun v => FDiv.fdiv v histogram.sum
  let h := sortDesc h
  let n ← argmaxB ((cumsum 0 h).map fun c => decide (fraction / 100 * h.sum ≤ c))
  let t1 ← npGet tBins 1
  let t0 ← npGet tBins 0
  let e1 ← npGet eBins 1
  let e0 ← npGet eBins 0
  pure ((n : K) * ((t1 - t0) * (e1 - e0)))

/-- post_process.py:126-147 `emittance_90` -/
def emittance90 (phaseSpace tBins eBins : List K) : M K := emittanceFractional phaseSpace tBins eBins 90

end Verif.Post

import Verif.Spec.Converge

/-!
# Specification for the effect of changes in the measured data
-/

namespace Verif.Spec
open Finset

variable {K : Type _} [Field K] [LinearOrder K]

/-- sum of the differences between two waterfalls -/
def waterfallDist (nprof nbins : ℕ) (f g : ℕ → ℕ → K) : K := ∑ p ∈ range nprof, ∑ b ∈ range nbins, |f p b - g p b|

/-- sum of the differences between two sets of weights -/
def weightDist (npart : ℕ) (v w : ℕ → K) : K := ∑ i ∈ range npart, |v i - w i|

/-- total of the weights before the first iteration: every sample counts as often as there are particles in its bin -/
def startTotal (npart nprof nbins : ℕ) (x : ℕ → ℕ → ℕ) (wf : ℕ → ℕ → K) : K :=
  ∑ p ∈ range nprof, ∑ b ∈ range nbins, wf p b * (count npart x p b : K)

/-- by how much an iteration can enlarge a difference: one, and twice the largest number of particles any bins could hold in all profiles
together (one added), in relation to the total of the weights -/
def spread (npart nprof nbins : ℕ) (x : ℕ → ℕ → ℕ) (wf : ℕ → ℕ → K) : K :=
  1 + 2 * ((nprof : K) * (maxCount npart nprof nbins x : K) + 1) / startTotal npart nprof nbins x wf

/-- bound for the difference of the weights after `k` iterations per difference in the data -/
def sensitivity (npart nprof nbins : ℕ) (x : ℕ → ℕ → ℕ) (wf : ℕ → ℕ → K) (k : ℕ) : K :=
  (maxCount npart nprof nbins x : K) * ∑ j ∈ range (k + 1), spread npart nprof nbins x wf ^ j

end Verif.Spec

import Verif.Spec.Manual

/-!
# Specification for what iterating does to weights and discrepancies
-/

namespace Verif.Spec
open Finset

variable {K : Type _} [Field K] [LinearOrder K]

/-- measured profiles without negative samples, each with total one -/
def Profiled (nprof nbins : ℕ) (wf : ℕ → ℕ → K) : Prop :=
  (∀ p, p < nprof → ∀ b, b < nbins → 0 ≤ wf p b) ∧ ∀ p, p < nprof → rowSum nbins wf p = 1

/-- wherever there is signal there is a particle -/
def Covered (npart nprof nbins : ℕ) (x : ℕ → ℕ → ℕ) (wf : ℕ → ℕ → K) : Prop :=
  ∀ p, p < nprof → ∀ b, b < nbins → wf p b ≠ 0 → ∃ i, i < npart ∧ x i p = b

/-- weights whose profiles are the measured ones, times their total -/
def Explains (npart nprof nbins : ℕ) (x : ℕ → ℕ → ℕ) (wf : ℕ → ℕ → K) (v : ℕ → K) : Prop :=
  ∀ p, p < nprof → ∀ b, b < nbins → proj npart x v p b = (∑ i ∈ range npart, v i) * wf p b

/-- squared distance of two sets of weights -/
def sqDist (npart : ℕ) (v w : ℕ → K) : K := ∑ i ∈ range npart, (v i - w i) ^ 2

/-- sum of the squared entries, those of sparsely filled bins counted more: (largest count) / (count of the bin) times -/
def sparseSquares (npart nprof nbins : ℕ) (x : ℕ → ℕ → ℕ) (d : ℕ → ℕ → K) : K :=
  ∑ p ∈ range nprof, ∑ b ∈ range nbins, recip K npart nprof nbins x p b * d p b ^ 2

end Verif.Spec

import Mathlib.Algebra.BigOperators.Intervals
import Mathlib.Algebra.Order.BigOperators.Ring.Finset

/-!
# Specification of the tomographic operators

Written without reference to the model.  A cloud of `npart` particles is a matrix `x` of bin numbers
(`x i p` is the bin of particle `i` in profile `p`), a waterfall is a matrix `wf` (`wf p b`).
-/

namespace Verif.Spec
open Finset

variable {K : Type _} [Field K]

/-- every particle is inside the image in every profile -/
def InRange (npart nprof nbins : ℕ) (x : ℕ → ℕ → ℕ) : Prop :=
  ∀ i, i < npart → ∀ p, p < nprof → x i p < nbins

/-- bin `b` of the projection of the weighted cloud on profile `p` -/
def proj (npart : ℕ) (x : ℕ → ℕ → ℕ) (w : ℕ → K) (p b : ℕ) : K :=
  ∑ i ∈ range npart, if x i p = b then w i else 0

/-- what particle `i` collects from the profiles -/
def backProj (nprof : ℕ) (x : ℕ → ℕ → ℕ) (f : ℕ → ℕ → K) (i : ℕ) : K :=
  ∑ p ∈ range nprof, f p (x i p)

/-- total of profile `p` -/
def rowSum (nbins : ℕ) (f : ℕ → ℕ → K) (p : ℕ) : K := ∑ b ∈ range nbins, f p b

/-- each profile divided by its total -/
def normRows (nbins : ℕ) (f : ℕ → ℕ → K) (p b : ℕ) : K := f p b / rowSum nbins f p

/-- number of particles in bin `b` of profile `p` -/
def count (npart : ℕ) (x : ℕ → ℕ → ℕ) (p b : ℕ) : ℕ :=
  ((range npart).filter (fun i => x i p = b)).card

/-- largest number of particles in any bin of any profile -/
def maxCount (npart nprof nbins : ℕ) (x : ℕ → ℕ → ℕ) : ℕ :=
  (range nprof).sup fun p => (range nbins).sup fun b => count npart x p b

/-- mean square of a matrix -/
def meanSquare (nprof nbins : ℕ) (d : ℕ → ℕ → K) : K :=
  (∑ p ∈ range nprof, ∑ b ∈ range nbins, d p b ^ 2) / ((nprof * nbins : ℕ) : K)

/-- compensation factor: (largest count) / (count, empty bins counted as one) -/
def recip (K : Type _) [Field K] (npart nprof nbins : ℕ) (x : ℕ → ℕ → ℕ) (p b : ℕ) : K :=
  (maxCount npart nprof nbins x : K) / ((max 1 (count npart x p b) : ℕ) : K)

/-- negative entries replaced by zero -/
def pos {K : Type _} [Zero K] [Max K] (w : ℕ → K) (i : ℕ) : K := max (w i) 0

end Verif.Spec

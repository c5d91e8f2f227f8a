import Verif.Spec.Sensitive
import Mathlib.Data.Real.Basic

/-!
# Specification for rounding errors with iterations
-/

namespace Verif.Spec
open Finset

/-- what one iteration of `niter` can add to the difference between floating point and exact weights (sum over the particles): `u` is the
accuracy of the arithmetic, for `npart` particles, at most `maxCount` in a bin, in `nprof` profiles of `nbins` bins -/
noncomputable def noise (u : ℝ) (npart nprof nbins : ℕ) (x : ℕ → ℕ → ℕ) (niter : ℕ) : ℝ :=
  ((nprof : ℝ) * (maxCount npart nprof nbins x : ℝ) + 1) * ((4 * npart + 4 * nbins + nprof * (4 * niter + 10) + 26) * u)

/-- bound for the difference between the weights in floating point and the exact ones after `k` of `niter` iterations -/
noncomputable def weightError (u : ℝ) (npart nprof nbins : ℕ) (x : ℕ → ℕ → ℕ) (wf : ℕ → ℕ → ℝ) (niter k : ℕ) : ℝ :=
  noise u npart nprof nbins x niter * ∑ j ∈ range (k + 1), (spread npart nprof nbins x wf + 2 * (nprof * u)) ^ j

end Verif.Spec

import Verif.Spec.Recon

/-!
# An image inside a wider one

The bins `a ≤ b < a + m` of a waterfall of `nbins` bins hold a waterfall of `m` bins.
-/

namespace Verif.Spec
open Finset

variable {K : Type _}

/-- the bins `a ≤ b < a + m` of `wf` are the waterfall `f`; the other samples of `wf` are arbitrary -/
structure Embedded (nprof m nbins a : ℕ) (f wf : ℕ → ℕ → K) : Prop where
  fits : a + m ≤ nbins
  data : ∀ p, p < nprof → ∀ b, b < m → wf p (a + b) = f p b

/-- the bins in front of and behind the smaller image -/
def margin (m nbins a : ℕ) : Finset ℕ := (range nbins).filter fun b => b < a ∨ a + m ≤ b

end Verif.Spec

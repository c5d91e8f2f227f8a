import Verif.Spec.Union

/-!
# Bunches of the same shape

`f` is the waterfall of one bunch alone (`m` bins); bunch `c` starts at bin `a c` of the image and holds the share `s c` of the charge.
-/

namespace Verif.Spec
open Finset

variable {K : Type _} [Field K] [LinearOrder K]

/-- Bunch `c` of the setup occupies the bins `a c ≤ b < a c + m` of the image, no two bunches overlap, no particle is cut away, and what
is measured there is the share `s c` of `f`.  The samples between the bunches are arbitrary. -/
structure Identical (S : Setup) (m : ℕ) (a : ℕ → ℕ) (s : ℕ → K) (f wf : ℕ → ℕ → K) : Prop where
  start : ∀ c, c < S.nc → S.ctr c = a c
  image : ∀ c, c < S.nc → a c + m ≤ S.nbins
  apart : ∀ c, c < S.nc → ∀ c', c' < S.nc → c ≠ c' → a c + m ≤ a c' ∨ a c' + m ≤ a c
  cloud : InRange S.npart S.nprof m S.x
  inside : AllInside S
  data : ∀ c, c < S.nc → ∀ p, p < S.nprof → ∀ b, b < m → wf p (a c + b) = s c * f p b
  share : ∀ c, 0 ≤ s c
  first : 0 < s 0
  shares : ∑ c ∈ range S.nc, s c = 1

end Verif.Spec

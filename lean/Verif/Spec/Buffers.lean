import Verif.Core.Buf

/-!
# How the matrices of the specifications are laid out in the flat buffers the code works on
-/

namespace Verif.Spec

/-- The coordinate array `xp` (shape `(npart, nprof)`, C order). -/
def xbuf (npart nprof : ℕ) (x : ℕ → ℕ → ℕ) : List Int := flat npart nprof (fun i j => (x i j : Int))

/-- `flat_points`: the coordinates as indices into the flattened waterfall, `x i p + nbins * p`. -/
def fpbuf (npart nprof nbins : ℕ) (x : ℕ → ℕ → ℕ) : List Int :=
  flat npart nprof (fun i j => (x i j : Int) + (nbins * j : ℕ))

end Verif.Spec

import Verif.Spec.RndTurn

/-!
# How far from the edges of a bin a particle has to be
-/

namespace Verif.Spec

/-- horizontal margin, in bins: tracked phase off by `e`, phases up to `X`, rf phase up to `F`, a bin at least `k` radians wide,
origin at `o` -/
noncomputable def marginX (u e X F k o : ℝ) : ℝ := (2 * e + 15 * u * (X + F)) / k + u * |o|

/-- vertical margin, in bins: scaled energy off by `e`, scaled energies up to `X`, bins of height `g` in scaled energy, synchronous
particle at `y` -/
noncomputable def marginY (u e X g y : ℝ) : ℝ := (e + 5 * u * X) / g + u * |y|

/-- `v` is farther than `ε` from every bin edge -/
def ClearBy (ε v : ℝ) : Prop := ∀ z : ℤ, ε < |v - z|

end Verif.Spec

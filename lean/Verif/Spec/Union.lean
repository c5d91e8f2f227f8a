import Verif.Spec.Multi

/-!
# The cloud of all bunches together

Particle `i` of bunch `c` is particle `c * npart + i` of the union, where the multi-bunch routine stores its weight.
-/

namespace Verif.Spec

/-- all particles of all bunches as one cloud -/
def unionCloud (S : Setup) (j p : ℕ) : ℕ := moved S.x (S.ctr (j / S.npart)) (j % S.npart) p

/-- every particle of every bunch stays inside the cuts of its bunch -/
def AllInside (S : Setup) : Prop :=
  ∀ c, c < S.nc → ∀ i, i < S.npart → Inside S.nprof S.x S.ctr S.cl S.cr c i

end Verif.Spec

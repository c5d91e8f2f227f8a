import Verif.Spec.Recon

/-!
# A cloud in which every particle occurs several times (C122)
-/

namespace Verif.Spec
open Finset

/-- The cloud of `n'` particles consists of copies of the `n` particles of another one: particle `i` is a copy of particle `φ i`, and each of the
`n` particles has exactly `c` copies. -/
structure Copies (c n n' : ℕ) (φ : ℕ → ℕ) : Prop where
  lt : ∀ i, i < n' → φ i < n
  card : ∀ j, j < n → ((range n').filter fun i => φ i = j).card = c

end Verif.Spec

import Verif.Spec.Recon

/-!
# Particles that see no signal (C128)
-/

namespace Verif.Spec
open Finset

variable {K : Type _} [Field K] [LinearOrder K]

/-- The particles `n ≤ j < n'` are, in every profile, in bins without (positive) signal. -/
def DarkFrom (n n' P : ℕ) (x : ℕ → ℕ → ℕ) (wf : ℕ → ℕ → K) : Prop := ∀ j, n ≤ j → j < n' → ∀ p, p < P → wf p (x j p) ≤ 0

/-- The particles `n ≤ j < n'` are never in the same bin as one of the first `n`. -/
def ApartFrom (n n' P : ℕ) (x : ℕ → ℕ → ℕ) : Prop := ∀ j, n ≤ j → j < n' → ∀ i, i < n → ∀ p, p < P → x j p ≠ x i p

end Verif.Spec

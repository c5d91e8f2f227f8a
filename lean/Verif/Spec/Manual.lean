import Verif.Spec.Recon

/-!
# Specification of a reconstruction without compensation

`f` is the waterfall that gives the first weights, `g` the one the projections are compared with.
-/

namespace Verif.Spec
open Finset

variable {K : Type _} [Field K] [LinearOrder K]

/-- weights after `k` rounds: what a particle collects from the differences is added, negative weights become zero -/
def plainW (npart nprof nbins : ℕ) (x : ℕ → ℕ → ℕ) (f g : ℕ → ℕ → K) : ℕ → ℕ → K
  | 0 => pos (backProj nprof x f)
  | k + 1 => pos fun i => plainW npart nprof nbins x f g k i +
      backProj nprof x (fun p b => g p b - normRows nbins (proj npart x (plainW npart nprof nbins x f g k)) p b) i

/-- the waterfall recreated after `k` rounds -/
def plainR (npart nprof nbins : ℕ) (x : ℕ → ℕ → ℕ) (f g : ℕ → ℕ → K) (k : ℕ) : ℕ → ℕ → K :=
  normRows nbins (proj npart x (plainW npart nprof nbins x f g k))

/-- all bins of all profiles hold the same number of particles -/
def EvenlyFilled (npart nprof nbins : ℕ) (x : ℕ → ℕ → ℕ) : Prop :=
  ∃ c, 0 < c ∧ ∀ p, p < nprof → ∀ b, b < nbins → count npart x p b = c

end Verif.Spec

import Mathlib.Algebra.Order.Field.Basic

/-!
# What a machine computed from programs should hold

A program is a table of times and values; between two neighbouring times the value is linear.  The turns of the machine
follow each other by the revolution period of the momentum at that turn.
-/

namespace Verif.Spec
variable {K : Type _} [Field K] [LinearOrder K]

/-- `P` follows the program of `n` points `(τ k, μ k)`: between neighbouring points it is the straight line. -/
def Follows (n : ℕ) (τ μ : ℕ → K) (P : K → K) : Prop :=
  ∀ k, k + 1 < n → ∀ t, τ k ≤ t → t ≤ τ (k + 1) → P t = μ k + (μ (k + 1) - μ k) * (t - τ k) / (τ (k + 1) - τ k)

/-- Time and momentum of turn `j`: turn 0 comes one revolution after the start of the program and has its first momentum; the
next turn comes one revolution later and has the momentum of the program `P` at its time.  `T p` is the revolution period. -/
def turn (T P : K → K) (t0 p0 : K) : ℕ → K × K
  | 0 => (t0 + T p0, p0)
  | j + 1 =>
    let t := (turn T P t0 p0 j).1 + T (turn T P t0 p0 j).2
    (t, P t)

/-- Revolution period on an orbit of circumference `C` of a particle with momentum `p` and rest energy `m`, with the speed
`c / sqrt (1 + (m / p)^2)`. -/
def revPeriod (sqrt : K → K) (C c m p : K) : K := C / (sqrt (1 / (1 + (m / p) ^ 2)) * c)

/-- `j` is the first turn at or after `t`. -/
def FirstAt (time : ℕ → K) (t : K) (j : ℕ) : Prop := t ≤ time j ∧ ∀ i, i < j → time i < t

end Verif.Spec

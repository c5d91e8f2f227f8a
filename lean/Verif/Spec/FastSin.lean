import Verif.Spec.Tracking
import Mathlib.Data.Real.Basic

/-!
# How an inexact sine spreads in a tracking

`errTransport` bounds, for a sine that is wrong by at most one unit, how far a particle can be from the particle tracked with the
exact sine: (phase, energy).  For a sine wrong by at most `ε` the bound is `ε` times that.
-/

namespace Verif.Spec

/-- one turn forward -/
def errFwd (R : Program ℝ) (t : ℕ) (e : ℝ × ℝ) : ℝ × ℝ :=
  let a := e.1 + |R.coef t| * e.2
  (a, e.2 + (|R.rf1 (t + 1)| + |R.rf2 (t + 1)| * |R.h|) * a + (|R.rf1 (t + 1)| + |R.rf2 (t + 1)|))

/-- one turn backward -/
def errBwd (R : Program ℝ) (t : ℕ) (e : ℝ × ℝ) : ℝ × ℝ :=
  let b := e.2 + (|R.rf1 (t + 1)| + |R.rf2 (t + 1)| * |R.h|) * e.1 + (|R.rf1 (t + 1)| + |R.rf2 (t + 1)|)
  (e.1 + |R.coef t| * b, b)

/-- `k` turns forward from turn `s`, both particles starting together -/
def errUp (R : Program ℝ) (s : ℕ) : ℕ → ℝ × ℝ
  | 0 => (0, 0)
  | k + 1 => errFwd R (s + k) (errUp R s k)

/-- `k` turns backward from turn `s` -/
def errDown (R : Program ℝ) (s : ℕ) : ℕ → ℝ × ℝ
  | 0 => (0, 0)
  | k + 1 => errBwd R (s - (k + 1)) (errDown R s k)

/-- from turn `s` to turn `t` -/
def errTransport (R : Program ℝ) (s t : ℕ) : ℝ × ℝ := if s ≤ t then errUp R s (t - s) else errDown R s (s - t)

/-- both arguments of the sine at turn `t` and phase `φ` are at most `X` -/
def ArgsAt (R : Program ℝ) (X : ℝ) (t : ℕ) (φ : ℝ) : Prop :=
  |φ + R.phi0 t| ≤ X ∧ |R.h * (φ + R.phi0 t - R.phi12 t)| ≤ X

/-- all arguments of the sine on the way from turn `s` to turn `t` are at most `X` -/
def ArgsWithin (sin : ℝ → ℝ) (R : Program ℝ) (X : ℝ) (s t : ℕ) (x : ℝ × ℝ) : Prop :=
  if s ≤ t then ∀ j < t - s, ArgsAt R X (s + j + 1) (up sin R s (j + 1) x).1
  else ∀ j < s - t, ArgsAt R X (s - (j + 1) + 1) (down sin R s j x).1

end Verif.Spec

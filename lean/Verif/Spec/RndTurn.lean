import Verif.Spec.Tracking
import Verif.Core.Rnd

/-!
# Tracking in floating point: sizes, distance, growth

Phases are in radians, energies are made comparable by a scale `s` (radians per energy unit).
-/

namespace Verif.Spec

/-- distance of two particles: phase difference plus scaled energy difference -/
def apart (s : ℝ) (x y : ℝ × ℝ) : ℝ := |x.1 - y.1| + s * |x.2 - y.2|

/-- the particle is within `X`: phase at most `X` radians, energy at most `X` in scaled units -/
def Held (s X : ℝ) (x : ℝ × ℝ) : Prop := |x.1| ≤ X ∧ s * |x.2| ≤ X

/-- sizes of a machine over `T` turns, in scaled units: phase slip per scaled energy and energy kick per radian at most `κ`,
voltages at most `V`, acceleration per turn at most `G`, phases of the rf at most `F` -/
structure Tame (R : Program ℝ) (T : ℕ) (s κ V G F : ℝ) : Prop where
  slip : ∀ t, t < T → |R.coef t| ≤ κ * s
  slope : ∀ t, t ≤ T → s * (|R.rf1 t| + |R.h| * |R.rf2 t|) ≤ κ
  volt : ∀ t, t ≤ T → s * (|R.rf1 t| + |R.rf2 t|) ≤ V
  acc : ∀ t, t ≤ T → s * |R.dE t| ≤ G
  phase : ∀ t, t ≤ T → |R.phi0 t| + |R.phi12 t| ≤ F

/-- factor by which the distance of two particles can grow in one turn -/
def growth (κ : ℝ) : ℝ := 1 + κ + κ ^ 2

/-- rounding errors made in one turn, in units of the accuracy -/
def roundoff (κ V G F X : ℝ) : ℝ := growth κ * (4 * X + 15 * κ * X + 5 * κ * F + 15 * V + 3 * G)

/-- bound for the distance between rounded and exact particle after `k` turns -/
def drifted (u κ V G F X : ℝ) (k : ℕ) : ℝ := k * growth κ ^ k * (u * roundoff κ V G F X)

end Verif.Spec

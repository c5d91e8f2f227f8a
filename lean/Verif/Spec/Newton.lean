import Verif.Spec.Machine
import Verif.Model.Newton
import Mathlib.Analysis.SpecialFunctions.Trigonometric.Inverse

/-!
# Specification: the stable synchronous phase of a machine with one rf system
-/

namespace Verif.Spec
open Verif.Mch Verif.Asrt

/-- real functions, and the root finder of the code (tolerance 0.0001, at most 100 steps) -/
structure CodeLib (L : MathLib ℝ) : Prop where
  sin : L.sin = Real.sin
  cos : L.cos = Real.cos
  sqrt : L.sqrt = Real.sqrt
  pi : L.pi = Real.pi
  c : 0 < L.c
  newton : L.newton = newtonOfTheCode

/-- one rf system of constant voltage, high enough for the field ramp -/
structure SingleRf (L : MathLib ℝ) (p : MachinePars ℝ) : Prop where
  vrf1 : 0 < p.vrf1
  vrf1dot : p.vrf1dot = 0
  vrf2 : p.vrf2 = 0
  vrf2dot : p.vrf2dot = 0
  ramp : |rampVolt L p| < p.vrf1

/-- energy of the synchronous particle in the field at the reference frame -/
noncomputable def fieldEnergy (c : ℝ) (p : MachinePars ℝ) : ℝ := Real.sqrt ((p.q * p.b0 * p.bendingRad * c) ^ 2 + p.eRest ^ 2)

/-- The phase at which the voltage follows the ramp: on the rising slope of the sine when charge and slip factor at the reference frame
have opposite signs in the sense `γ < γt` for positive charge, on the falling slope otherwise. -/
noncomputable def idealPhase (L : MathLib ℝ) (p : MachinePars ℝ) : ℝ :=
  if 0 < p.q * (p.transGamma - fieldEnergy L.c p / p.eRest) then Real.arcsin (rampVolt L p / p.vrf1)
  else Real.pi - Real.arcsin (rampVolt L p / p.vrf1)

/-- The linear force towards the synchronous particle: the voltage slope times charge changes the energy offset, the drift coefficient
moves the phase back.  Positive: small oscillations; negative: particles run away. -/
noncomputable def restoring (p : MachinePars ℝ) (ph coef : ℝ) : ℝ := p.q * p.vrf1 * Real.cos ph * coef

end Verif.Spec

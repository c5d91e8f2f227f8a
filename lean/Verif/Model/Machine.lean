import Verif.Model.Assertions
import Verif.Model.Tracking
import Mathlib.Algebra.Order.Field.Basic

/-!
# Model of `utils/physics.py` and `Machine.values_at_turns` (`tracking/machine.py`)

Numbers are an ordered field.  `sin`, `cos`, `sqrt`, `π`, the speed of light and `scipy.optimize.newton` are parameters
(`MathLib`).  A division by zero is the fault `nonFinite`; an index outside a numpy array is `oob`.
-/

namespace Verif.Mch
open Verif.Asrt

/-- External functions and constants. `newton f f' x0 = none` is scipy's RuntimeError (no convergence, zero derivative). -/
structure MathLib (K : Type _) where
  sin : K → K
  cos : K → K
  sqrt : K → K
  pi : K
  c : K
  newton : (K → K) → (K → K) → K → Option K

section physics
variable {K : Type _} [Field K] [LinearOrder K]

/-- `np.sign` -/
def npSign (x : K) : K := if 0 < x then 1 else if x < 0 then -1 else 0

/-- physics.py:23-42 `b_to_e` -/
def bToE (L : MathLib K) (q b0 rho m : K) : K := L.sqrt ((q * b0 * rho * L.c) ^ 2 + m ^ 2)

/-- physics.py:45-61 `lorentz_beta`, also machine.py:156-157, 167; `e0` is the energy at the turn. -/
def lorentzBeta (L : MathLib K) (m e0 : K) : M K := do
  let r ← FDiv.fdiv m e0
  pure (L.sqrt (1 - r ^ 2))

/-- physics.py:64-93 `rfvolt_rf1` -/
def rfvoltRf1 (L : MathLib K) (phi v1 bdot radius rho q : K) : K :=
  v1 * L.sin phi - 2 * L.pi * radius * rho * bdot * npSign q

/-- physics.py:96-113 `drfvolt_rf1` -/
def drfvoltRf1 (L : MathLib K) (phi v1 : K) : K := v1 * L.cos phi

/-- physics.py:149-189 `rf_voltage` -/
def rfVoltage (L : MathLib K) (phi v1 v2 bdot h phi12 radius rho q : K) : K :=
  v1 * L.sin phi + v2 * L.sin (h * (phi - phi12)) - L.pi * 2 * radius * rho * bdot * npSign q

/-- physics.py:216-243 `drf_voltage` -/
def drfVoltage (L : MathLib K) (phi v1 v2 h phi12 : K) : K :=
  v1 * L.cos phi + h * v2 * L.cos (h * (phi - phi12))

/-- physics.py:288-307 `vrft` -/
def vrft (vrf vrfDot time : K) : K := vrf + vrfDot * time

/-- physics.py:281-285 `rf_voltage_at_phase` with the voltages of the turn -/
def rfVoltageAtPhase (L : MathLib K) (phi v1 v2 h phi12 : K) : K :=
  v1 * L.sin phi + v2 * L.sin (h * (phi - phi12))

/-- physics.py:116-122 `rfvolt_rf1_mch`; `time` is `machine.time_at_turn[rf_turn]` -/
def rfvoltRf1Mch (L : MathLib K) (p : MachinePars K) (time phi : K) : K :=
  rfvoltRf1 L phi (vrft p.vrf1 p.vrf1dot time) p.bdot p.meanOrbitRad p.bendingRad p.q

/-- physics.py:125-129 `drfvolt_rf1_mch` -/
def drfvoltRf1Mch (L : MathLib K) (p : MachinePars K) (time phi : K) : K :=
  drfvoltRf1 L phi (vrft p.vrf1 p.vrf1dot time)

/-- physics.py:192-200 `rf_voltage_mch` -/
def rfVoltageMch (L : MathLib K) (p : MachinePars K) (time phi : K) : K :=
  rfVoltage L phi (vrft p.vrf1 p.vrf1dot time) (vrft p.vrf2 p.vrf2dot time) p.bdot p.hRatio p.phi12 p.meanOrbitRad
    p.bendingRad p.q

/-- physics.py:246-255 `drf_voltage_mch` (the formula of `drf_voltage` written out) -/
def drfVoltageMch (L : MathLib K) (p : MachinePars K) (time phi : K) : K :=
  vrft p.vrf1 p.vrf1dot time * L.cos phi
    + p.hRatio * vrft p.vrf2 p.vrf2dot time * L.cos (p.hRatio * (phi - p.phi12))

/-- physics.py:268-278 `rf_voltage_at_phase` with the voltages extrapolated to `time` -/
def rfVoltageAtTime (L : MathLib K) (p : MachinePars K) (time phi : K) : K :=
  rfVoltageAtPhase L phi (vrft p.vrf1 p.vrf1dot time) (vrft p.vrf2 p.vrf2dot time) p.hRatio p.phi12

/-- `optimize.newton(...)` with RuntimeError turned into ValueError, machine.py:138-147, physics.py:331-346 -/
def newton (L : MathLib K) (f f' : K → K) (x0 : K) : M K :=
  match L.newton f f' x0 with
  | some x => .ok x
  | none => .error (.exc .valueError)

/-- physics.py:310-348 `find_synch_phase_mch` -/
def findSynchPhase (L : MathLib K) (p : MachinePars K) (time lower upper : K) : M K := do
  let x0 ← FDiv.fdiv (lower + upper) 2
  let start ← newton L (rfvoltRf1Mch L p time) (drfvoltRf1Mch L p time) x0
  newton L (rfVoltageMch L p time) (drfVoltageMch L p time) start

/-- physics.py:351-381 `find_phi_lower_upper` -/
def findPhiLowerUpper (L : MathLib K) (p : MachinePars K) (e0 : K) : M (K × K) := do
  let g ← FDiv.fdiv e0 p.eRest
  if 0 < p.q * (p.transGamma - g) then pure (-L.pi, L.pi) else pure (0, 2 * L.pi)

/-- physics.py:460-507 `phase_low` with per-turn arrays; `phi12` a scalar.  Turn indices may be negative in python; here
they are checked. -/
def phaseLow (L : MathLib K) (phase len : K) (vrf1 vrf2 phi0 : List K) (h phi12 : K) (turn ref : Int) : M K := do
  let v1r ← rd vrf1 ref
  let v2r ← rd vrf2 ref
  let b ← FDiv.fdiv (v2r * (L.cos (h * (phase + len - phi12)) - L.cos (h * (phase - phi12)))) h
  let p0 ← rd phi0 turn
  let v1t ← rd vrf1 turn
  let v2t ← rd vrf2 turn
  pure (v1r * (L.cos (phase + len) - L.cos phase) + b + len * rfVoltageAtPhase L p0 v1t v2t h phi12)

/-- physics.py:556-593 `dphase_low` -/
def dphaseLow (L : MathLib K) (phase len : K) (vrf1 vrf2 : List K) (h phi12 : K) (turn : Int) : M K := do
  let v2t ← rd vrf2 turn
  let v1t ← rd vrf1 turn
  pure (-1 * v2t * (L.sin (h * (phase + len - phi12)) - L.sin (h * (phase - phi12)))
    - v1t * (L.sin (phase + len) - L.sin phase))

/-- programs_machine.py:170 `energy = np.sqrt(momentum ** 2 + self.e_rest ** 2)` -/
def pmEnergy (L : MathLib K) (momentum m : K) : K := L.sqrt (momentum ^ 2 + m ^ 2)

/-- programs_machine.py:174, 299 `beta0 = np.sqrt(1 / (1 + (self.e_rest / momentum) ** 2))` -/
def pmBeta (L : MathLib K) (momentum m : K) : M K := do
  let r ← FDiv.fdiv m momentum
  let s ← FDiv.fdiv 1 (1 + r ^ 2)
  pure (L.sqrt s)

/-- programs_machine.py:172 `gamma = np.sqrt(1 + (momentum / self.e_rest) ** 2)` -/
def pmGamma (L : MathLib K) (momentum m : K) : M K := do
  let r ← FDiv.fdiv momentum m
  pure (L.sqrt (1 + r ^ 2))

/-- programs_machine.py:190 `bfield = momentum / (self.bending_rad * self.q) / cont.c` -/
def pmBfield (L : MathLib K) (momentum rho q : K) : M K := do
  let x ← FDiv.fdiv momentum (rho * q)
  FDiv.fdiv x L.c

end physics

section machine
variable {K : Type _} [Field K] [LinearOrder K]

/-- the arrays filled by the two loops of `values_at_turns` -/
structure MS (K : Type _) where
  time : List K
  phi0 : List K
  e0 : List K
  beta0 : List K
  deltaE0 : List K

/-- everything `values_at_turns` stores -/
structure MachineOut (K : Type _) extends MS K where
  eta0 : List K
  driftCoef : List K
  omegaRev0 : List K
  vrf1AtTurn : List K
  vrf2AtTurn : List K

/-- `np.zeros(n)` -/
def zeros (n : Int) : M (List K) := if n < 0 then .error (.exc .valueError) else .ok (tab n.toNat fun _ => 0)

/-- machine.py:242-251 `_init_arrays` (the arrays overwritten later as a whole are left out) -/
def initArrays (allTurns : Int) : M (MS K) := do
  let z ← zeros (allTurns + 1)
  pure ⟨z, z, z, z, z⟩

/-- machine.py:256-265 `_array_initial_values` -/
def arrayInitialValues (L : MathLib K) (p : MachinePars K) (s : MS K) : M (MS K) := do
  let i0 := p.machineRefFrame * p.dturns
  let time ← upd s.time i0 0
  let e0 ← upd s.e0 i0 (bToE L p.q p.b0 p.bendingRad p.eRest)
  let e ← rd e0 i0
  let b ← lorentzBeta L p.eRest e
  let beta0 ← upd s.beta0 i0 b
  let lim ← findPhiLowerUpper L p e
  let t ← rd time i0
  let ph ← findSynchPhase L p t lim.1 lim.2
  let phi0 ← upd s.phi0 i0 ph
  pure ⟨time, phi0, e0, beta0, s.deltaE0⟩

/-- machine.py:133-158: one pass of the upward loop -/
def upTurn (L : MathLib K) (p : MachinePars K) (i : Int) (s : MS K) : M (MS K) := do
  let t ← rd s.time (i - 1)
  let b ← rd s.beta0 (i - 1)
  let dt ← FDiv.fdiv (2 * L.pi * p.meanOrbitRad) (b * L.c)
  let time ← upd s.time i (t + dt)
  let ti ← rd time i
  let x0 ← rd s.phi0 (i - 1)
  let ph ← newton L (rfVoltageMch L p ti) (drfVoltageMch L p ti) x0
  let phi0 ← upd s.phi0 i ph
  let e ← rd s.e0 (i - 1)
  let e0 ← upd s.e0 i (e + p.q * rfVoltageAtTime L p ti ph)
  let ei ← rd e0 i
  let bi ← lorentzBeta L p.eRest ei
  let beta0 ← upd s.beta0 i bi
  let deltaE0 ← upd s.deltaE0 i (ei - e)
  pure ⟨time, phi0, e0, beta0, deltaE0⟩

/-- machine.py:159-183: one pass of the downward loop -/
def downTurn (L : MathLib K) (p : MachinePars K) (i : Int) (s : MS K) : M (MS K) := do
  let e ← rd s.e0 (i + 1)
  let ph ← rd s.phi0 (i + 1)
  let t ← rd s.time (i + 1)
  let e0 ← upd s.e0 i (e - p.q * rfVoltageAtTime L p t ph)
  let ei ← rd e0 i
  let b ← lorentzBeta L p.eRest ei
  let beta0 ← upd s.beta0 i b
  let deltaE0 ← upd s.deltaE0 i (e - ei)
  let dt ← FDiv.fdiv (2 * L.pi * p.meanOrbitRad) (b * L.c)
  let time ← upd s.time i (t - dt)
  let ti ← rd time i
  let pi ← newton L (rfVoltageMch L p ti) (drfVoltageMch L p ti) ph
  let phi0 ← upd s.phi0 i pi
  pure ⟨time, phi0, e0, beta0, deltaE0⟩

/-- machine.py:133-183: both loops -/
def turnLoops (L : MathLib K) (p : MachinePars K) (allTurns : Int) (s : MS K) : M (MS K) := do
  let i0 := p.machineRefFrame * p.dturns
  let s ← forN (allTurns - i0).toNat (fun k s => upTurn L p (i0 + 1 + k) s) s
  forN i0.toNat (fun k s => downTurn L p (i0 - 1 - k) s) s

/-- physics.py:384-397 `phase_slip_factor` -/
def phaseSlipFactor (p : MachinePars K) (beta0 : List K) : M (List K) := do
  let g ← FDiv.fdiv (1 : K) (p.transGamma ^ 2)
  pure (beta0.map fun b => 1 - b ^ 2 - g)

/-- physics.py:400-415 `find_dphase` -/
def findDphase (L : MathLib K) (p : MachinePars K) (s : MS K) (eta0 : List K) : M (List K) :=
  (List.range s.e0.length).mapM fun (i : Nat) => do
    let e ← rd s.e0 i
    let b ← rd s.beta0 i
    let eta ← rd eta0 i
    FDiv.fdiv (2 * L.pi * p.hNum * eta) (e * b ^ 2)

/-- physics.py:418-431 `revolution_freq` -/
def revolutionFreq (L : MathLib K) (p : MachinePars K) (beta0 : List K) : M (List K) :=
  (List.range beta0.length).mapM fun (i : Nat) => do
    let b ← rd beta0 i
    FDiv.fdiv (b * L.c) p.meanOrbitRad

/-- machine.py:122-195 `values_at_turns` after the assertions -/
def valuesAtTurnsOf (L : MathLib K) (p : MachinePars K) : M (MachineOut K) := do
  let allTurns := (p.nprofiles - 1) * p.dturns
  let s ← initArrays allTurns
  let s ← arrayInitialValues L p s
  let s ← turnLoops L p allTurns s
  let eta ← phaseSlipFactor p s.beta0
  let coef ← findDphase L p s eta
  let omega ← revolutionFreq L p s.beta0
  pure { toMS := s, eta0 := eta, driftCoef := coef, omegaRev0 := omega,
         vrf1AtTurn := s.time.map fun t => p.vrf1 + p.vrf1dot * t,
         vrf2AtTurn := s.time.map fun t => p.vrf2 + p.vrf2dot * t }

/-- machine.py:122-195 `values_at_turns` -/
def valuesAtTurns (L : MathLib K) (a : MachineArgs K) : M (MachineOut K) := do
  let p ← assertMachineInput a
  valuesAtTurnsOf L p

/-- What `Tracking.track` hands to the tracking routine, tracking.py:186-190, 207-211: voltages times charge; here with
`phi12` spread over an array of one value per turn. -/
def trackArrays (p : MachinePars K) (o : MachineOut K) : Track.Mach K :=
  { rf1v := o.vrf1AtTurn.map (· * p.q)
    rf2v := o.vrf2AtTurn.map (· * p.q)
    phi0 := o.phi0
    deltaE0 := o.deltaE0
    driftCoef := o.driftCoef
    phi12 := o.phi0.map fun _ => p.phi12
    hratio := p.hRatio }

end machine
end Verif.Mch

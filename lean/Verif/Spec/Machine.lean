import Verif.Model.Machine
import Verif.Spec.Tracking

/-!
# What the per-turn machine arrays should hold

The arrays are functions of the turn.  `i0` is the turn of the machine reference frame.
-/

namespace Verif.Spec
open Verif.Mch Verif.Asrt

variable {K : Type _} [Field K] [LinearOrder K]

/-- voltage of both rf systems at time `t` and phase `φ` -/
def volt (L : MathLib K) (p : MachinePars K) (t φ : K) : K :=
  (p.vrf1 + p.vrf1dot * t) * L.sin φ + (p.vrf2 + p.vrf2dot * t) * L.sin (p.hRatio * (φ - p.phi12))

/-- the voltage that keeps a particle of charge `q` on the orbit in the ramping field -/
def rampVolt (L : MathLib K) (p : MachinePars K) : K :=
  2 * L.pi * p.meanOrbitRad * p.bendingRad * p.bdot * npSign p.q

/-- Newton's method started at `x` to find the phase at which the voltage at time `t` follows the field ramp returns `y`. -/
def SynchPhaseFrom (L : MathLib K) (p : MachinePars K) (t x y : K) : Prop :=
  L.newton (fun φ => volt L p t φ - rampVolt L p)
    (fun φ => (p.vrf1 + p.vrf1dot * t) * L.cos φ
      + p.hRatio * (p.vrf2 + p.vrf2dot * t) * L.cos (p.hRatio * (φ - p.phi12))) x = some y

/-- where the search for the first synchronous phase starts: at 0 when charge and slip factor have opposite signs (positive charge
below transition), at half a turn otherwise -/
def firstGuess (L : MathLib K) (p : MachinePars K) (e : K) : K := if 0 < p.q * (p.transGamma - e / p.eRest) then 0 else L.pi

/-- Newton's method started at `x` for the first rf system alone returns `y`. -/
def FirstSystemFrom (L : MathLib K) (p : MachinePars K) (t x y : K) : Prop :=
  L.newton (fun φ => (p.vrf1 + p.vrf1dot * t) * L.sin φ - rampVolt L p) (fun φ => (p.vrf1 + p.vrf1dot * t) * L.cos φ) x = some y

/-- The relations between time `t`, synchronous phase `ph`, energy `e` and velocity `b` at all turns `lo..hi`. -/
structure TurnLaws (L : MathLib K) (p : MachinePars K) (i0 lo hi : ℕ) (t ph e b : ℕ → K) : Prop where
  /-- the clock starts at the reference frame -/
  time0 : t i0 = 0
  /-- the energy at the reference frame is the one of the magnetic field -/
  energy0 : e i0 = L.sqrt ((p.q * p.b0 * p.bendingRad * L.c) ^ 2 + p.eRest ^ 2)
  /-- the synchronous phase at the reference frame comes from Newton's method, first for one rf system, then for both -/
  phase0 : ∃ x, FirstSystemFrom L p (t i0) (firstGuess L p (e i0)) x ∧ SynchPhaseFrom L p (t i0) x (ph i0)
  /-- velocity from energy -/
  beta : ∀ i, lo ≤ i → i ≤ hi → e i ≠ 0 ∧ b i = L.sqrt (1 - (p.eRest / e i) ^ 2)
  /-- time advances by one revolution -/
  time : ∀ i, lo ≤ i → i < hi → b i * L.c ≠ 0 ∧ t (i + 1) = t i + 2 * L.pi * p.meanOrbitRad / (b i * L.c)
  /-- the synchronous particle gains the charge times the voltage at the synchronous phase -/
  energy : ∀ i, lo ≤ i → i < hi → e (i + 1) = e i + p.q * volt L p (t (i + 1)) (ph (i + 1))
  /-- synchronous phases after the reference frame -/
  phaseUp : ∀ i, i0 ≤ i → i < hi → SynchPhaseFrom L p (t (i + 1)) (ph i) (ph (i + 1))
  /-- synchronous phases before the reference frame -/
  phaseDown : ∀ i, lo ≤ i → i < i0 → SynchPhaseFrom L p (t i) (ph (i + 1)) (ph i)

/-- The arrays `o` have one entry for each turn `0..A` and obey the defining relations. -/
structure TurnArrays (L : MathLib K) (p : MachinePars K) (i0 A : ℕ) (t ph e b d eta coef om : ℕ → K) (o : MachineOut K) :
    Prop where
  time : o.time = tab (A + 1) t
  phi0 : o.phi0 = tab (A + 1) ph
  e0 : o.e0 = tab (A + 1) e
  beta0 : o.beta0 = tab (A + 1) b
  deltaE0 : o.deltaE0 = tab (A + 1) d
  eta0 : o.eta0 = tab (A + 1) eta
  driftCoef : o.driftCoef = tab (A + 1) coef
  omegaRev0 : o.omegaRev0 = tab (A + 1) om
  vrf1 : o.vrf1AtTurn = tab (A + 1) fun i => p.vrf1 + p.vrf1dot * t i
  vrf2 : o.vrf2AtTurn = tab (A + 1) fun i => p.vrf2 + p.vrf2dot * t i
  laws : TurnLaws L p i0 0 A t ph e b
  gt : p.transGamma ≠ 0
  etaEq : ∀ i, i ≤ A → eta i = 1 - b i ^ 2 - 1 / p.transGamma ^ 2
  coefEq : ∀ i, i ≤ A → e i * b i ^ 2 ≠ 0 ∧ coef i = 2 * L.pi * p.hNum * eta i / (e i * b i ^ 2)
  omEq : ∀ i, i ≤ A → om i = b i * L.c / p.meanOrbitRad

/-- The parameters `assert_machine_input` accepts. -/
structure ValidMachine {α : Type _} [LT α] [LE α] [Zero α] (a : MachineArgs α) : Prop where
  dtbin : ∃ x, a.dtbin = some x ∧ 0 < x
  dturns : ∃ x, a.dturns = some x ∧ 0 < x
  film : ∃ start stop step, a.filmstart = some start ∧ a.filmstop = some stop ∧ a.filmstep = some step ∧ 0 ≤ start ∧
    start ≤ stop ∧ step ≠ 0 ∧ |step| ≤ stop - start + 1
  niter : ∃ x, a.niter = some x ∧ 0 < x
  snpt : ∃ x, a.snpt = some x ∧ 0 < x
  machineRefFrame : ∃ x, a.machineRefFrame = some x ∧ 0 ≤ x
  beamRefFrame : ∃ x, a.beamRefFrame = some x ∧ 0 ≤ x
  hNum : ∃ x, a.hNum = some x ∧ 0 < x
  hRatio : ∃ x, a.hRatio = some x ∧ 0 ≤ x
  b0 : ∃ x, a.b0 = some x ∧ 0 < x
  meanOrbitRad : ∃ x, a.meanOrbitRad = some x ∧ 0 < x
  bendingRad : ∃ x, a.bendingRad = some x ∧ 0 < x
  eRest : ∃ x, a.eRest = some x ∧ 0 < x

/-- The space-charge parameters it accepts. -/
def ValidSpaceCharge {α : Type _} [LE α] [Zero α] (a : MachineArgs α) : Prop :=
  (∀ x, a.pickupSensitivity = some x → 0 ≤ x) ∧ (∀ x, a.gCoupling = some x → 0 ≤ x)

/-- the synchronous particle and its neighbours in a machine -/
def programOf (p : MachinePars K) (t ph d coef : ℕ → K) : Program K :=
  { rf1 := fun i => (p.vrf1 + p.vrf1dot * t i) * p.q
    rf2 := fun i => (p.vrf2 + p.vrf2dot * t i) * p.q
    phi0 := ph, dE := d, coef := coef, phi12 := fun _ => p.phi12, h := p.hRatio }

end Verif.Spec

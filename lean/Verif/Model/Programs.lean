import Verif.Model.Machine
import Verif.Model.PostProcess

/-!
# Model of `tracking/programs_machine.py`

The machine computed from programs of momentum, voltage and phase.  `fuel` bounds the number of iterations of the two nested
`while` loops.  The array `gamma` (line 172) is never used and left out.  `C * (1 / (beta c))` (line 175) and `C / (beta c)`
(lines 300, 308, 329) are the same function `period`.
-/

namespace Verif.Prog
open Verif.Asrt Verif.Mch

variable {K : Type _} [Field K] [LinearOrder K]

/-- How the phases of the RF systems are given, programs_machine.py:85-97: the argument `phi12` (a number or a numpy array),
the argument `phase_function` (its rows: time, first and second harmonic), both or neither. -/
inductive PhaseArg (K : Type _)
  | number (v : K)
  | array (v : List K)
  | program (time phase1 phase2 : List K)
  | both
  | missing

/-- the attributes read by `values_at_turns` -/
structure PArgs (K : Type _) where
  dturns : Int
  nprofiles : Int
  machineRefFrame : Int
  meanOrbitRad : K
  bendingRad : K
  transGamma : K
  eRest : K
  hNum : K
  q : K
  /-- `momentum_raw[0]`, `momentum_raw[1]` -/
  momTime : List K
  momVal : List K
  /-- the rows of `voltage_raw` -/
  voltTime : List K
  volt1 : List K
  volt2 : List K
  harmonics : List K
  phase : PhaseArg K
  tRef : Option K

/-- programs_machine.py:99 `circumference` -/
def circumference (L : MathLib K) (a : PArgs K) : K := 2 * L.pi * a.meanOrbitRad

/-- programs_machine.py:299-301, 308, 324-330, 174-175: revolution period for a momentum -/
def period (L : MathLib K) (a : PArgs K) (p : K) : M K := do
  let b ← pmBeta L p a.eRest
  FDiv.fdiv (circumference L a) (b * L.c)

/-! ## Interpolation of the momentum -/

/-- variables of `_interpolate_momentum`; `beta_interp` is only read right after it was written -/
structure IS (K : Type _) where
  ti : List K
  mi : List K
  i : Nat
  turn : Int
  k : Nat

/-- programs_machine.py:319-335: body of the inner loop.  Comparing with `None` is a TypeError. -/
def innerBody (L : MathLib K) (a : PArgs K) (s : IS K) : M (IS K) := do
  let t ← npGet s.ti ((s.i : Int) + 1)
  let m0 ← npGet a.momVal ((s.k : Int) - 1)
  let m1 ← npGet a.momVal (s.k : Int)
  let t0 ← npGet a.momTime ((s.k : Int) - 1)
  let t1 ← npGet a.momTime (s.k : Int)
  let f ← FDiv.fdiv ((m1 - m0) * (t - t0)) (t1 - t0)
  let mi := s.mi ++ [m0 + f]
  let p ← npGet mi ((s.i : Int) + 1)
  let T ← period L a p
  let ti := s.ti ++ [t + T]
  let tn ← npGet ti ((s.i : Int) + 2)
  let tref ← notNone a.tRef .typeError
  pure ⟨ti, mi, s.i + 1, if tref < tn then s.turn + 1 else s.turn, s.k⟩

/-- programs_machine.py:318-335: the inner loop -/
def inner (L : MathLib K) (a : PArgs K) : Nat → IS K → M (IS K)
  | 0, _ => .error .diverges
  | fuel + 1, s => do
    let t ← npGet s.ti ((s.i : Int) + 1)
    let tk ← npGet a.momTime (s.k : Int)
    if t ≤ tk then do
      let s' ← innerBody L a s
      inner L a fuel s'
    else pure s

/-- programs_machine.py:316-337: the outer loop -/
def outer (L : MathLib K) (a : PArgs K) (nturns : Int) (fuel : Nat) : Nat → IS K → M (IS K)
  | 0, _ => .error .diverges
  | n + 1, s =>
    if s.turn < nturns then do
      let s' ← inner L a fuel s
      outer L a nturns fuel n { s' with k := s'.k + 1 }
    else pure s

/-- programs_machine.py:344-349: `np.min(np.where(time_interp >= self.t_ref)[0]) - i0` -/
def initialIndex (a : PArgs K) (times : List K) : M Int :=
  match a.tRef with
  | none => .ok 0
  | some t =>
    match times.findIdx? fun x => decide (t ≤ x) with
    | some f => .ok ((f : Int) - a.machineRefFrame * a.dturns)
    | none => .error (.exc .valueError)

/-- programs_machine.py:351-359 -/
def cutTurns (nturns init : Int) (times moms : List K) : M (List K × List K) :=
  if (times.length : Int) + 1 < init + nturns then .error (.exc .valueError)
  else .ok (npSlice times init (init + nturns), npSlice moms init (init + nturns))

/-- programs_machine.py:279-359 `_interpolate_momentum` -/
def interpolateMomentum (L : MathLib K) (a : PArgs K) (fuel : Nat) : M (List K × List K) := do
  let m0 ← npGet a.momVal 0
  let T0 ← period L a m0
  let t0 ← npGet a.momTime 0
  let nturns := a.dturns * a.nprofiles
  let s ← outer L a nturns fuel fuel ⟨[t0 + T0, t0 + T0 + T0], [m0], 0, a.machineRefFrame * a.dturns, 0⟩
  let times := s.ti.dropLast
  let init ← initialIndex a times
  cutTurns nturns init times s.mi

/-! ## Values at the turns -/

/-- `np.interp` at one point, `xs` increasing; `(x0, y0)` is the point before the rest of the program -/
def interpGo (x x0 y0 : K) : List (K × K) → K
  | [] => y0
  | (x1, y1) :: r =>
    if x < x1 then (if x ≤ x0 then y0 else (y1 - y0) / (x1 - x0) * (x - x0) + y0)
    else interpGo x x1 y1 r

/-- `np.interp(x, xs, ys)` -/
def npInterp (xs ys : List K) (x : List K) : M (List K) :=
  if xs.length ≠ ys.length then .error (.exc .valueError)
  else match xs.zip ys with
    | [] => .error (.exc .valueError)
    | (x0, y0) :: r => .ok (x.map fun v => interpGo v x0 y0 r)

/-- `np.diff` -/
def npDiff : List K → List K
  | [] => []
  | [_] => []
  | a :: b :: l => (b - a) :: npDiff (b :: l)

/-- `np.gradient(f, x)` at an inner point -/
def gradInner (f x : List K) (i : Nat) : M K := do
  let f0 ← rd f (i : Int)
  let f1 ← rd f ((i + 1 : Nat) : Int)
  let f2 ← rd f ((i + 2 : Nat) : Int)
  let x0 ← rd x (i : Int)
  let x1 ← rd x ((i + 1 : Nat) : Int)
  let x2 ← rd x ((i + 2 : Nat) : Int)
  let a ← FDiv.fdiv (-(x2 - x1)) ((x1 - x0) * ((x1 - x0) + (x2 - x1)))
  let b ← FDiv.fdiv ((x2 - x1) - (x1 - x0)) ((x1 - x0) * (x2 - x1))
  let c ← FDiv.fdiv (x1 - x0) ((x2 - x1) * ((x1 - x0) + (x2 - x1)))
  pure (a * f0 + b * f1 + c * f2)

/-- `np.gradient(f, x)` between two neighbours (the ends) -/
def gradEdge (f x : List K) (i : Nat) : M K := do
  let f0 ← rd f (i : Int)
  let f1 ← rd f ((i + 1 : Nat) : Int)
  let x0 ← rd x (i : Int)
  let x1 ← rd x ((i + 1 : Nat) : Int)
  FDiv.fdiv (f1 - f0) (x1 - x0)

/-- `np.gradient(f, x)`; the formula for equally spaced points is the same value -/
def npGradient (f x : List K) : M (List K) :=
  if f.length ≠ x.length ∨ f.length < 2 then .error (.exc .valueError)
  else do
    let first ← gradEdge f x 0
    let mid ← (List.range (f.length - 2)).mapM fun (i : Nat) => gradInner f x i
    let last ← gradEdge f x (f.length - 2)
    pure (first :: mid ++ [last])

/-- what `values_at_turns` stores -/
structure POut (K : Type _) where
  momentum : List K
  e0 : List K
  beta0 : List K
  deltaE0 : List K
  eta0 : List K
  driftCoef : List K
  omegaRev0 : List K
  timeAtTurn : List K
  bdot : List K
  vrf1AtTurn : List K
  vrf2AtTurn : List K
  hRatio : K
  /-- `None`, or one value per turn -/
  phi12 : Option (List K)
  phi0 : List K

/-- the attribute `phi12` after programs_machine.py:182: a number as given, one value per turn, or `None` -/
inductive Phi12 (K : Type _)
  | number (v : K)
  | turns (v : List K)
  | missing

/-- programs_machine.py:134-147: for a numpy array `self.phi12.size()` calls an int -/
def checkArray (a : PArgs K) : M Unit :=
  match a.phase with
  | .array _ => .error (.exc .typeError)
  | _ => .ok ()

/-- programs_machine.py:128-133, 158-164, 181-184; the arrays of line 129 and 159 are computed here -/
def phaseDifference (L : MathLib K) (a : PArgs K) (ratio : K) (time : List K) : M (Phi12 K) :=
  match a.phase with
  | .number v => .ok (.number v)
  | .array v => .ok (.turns v)
  | .both => .ok .missing
  | .missing => .ok .missing
  | .program t p1 p2 => do
    let f1 ← npInterp t p1 time
    let f2 ← (if a.harmonics.length = 2 then npInterp t p2 time else pure (time.map fun _ => (0 : K)))
    let d ← (List.zipWith (fun x y => x - y + L.pi) f1 f2).mapM fun v => FDiv.fdiv v ratio
    pure (.turns d)

/-- programs_machine.py:150-165: second voltage and ratio of the harmonics -/
def secondHarmonic (a : PArgs K) (time v1 : List K) : M (List K × K) :=
  match a.harmonics with
  | [h0, h1] =>
    if h0 = 0 then .error (.exc .zeroDivisionError)
    else do
      let v2 ← npInterp a.voltTime a.volt2 time
      pure (v2, h1 / h0)
  | _ => .ok (v1.map fun _ => 0, 1)

/-- physics.py:132-139 `rfvolt_rf1_pmch` -/
def rf1Pmch (L : MathLib K) (a : PArgs K) (v1 bdot phi : K) : K := rfvoltRf1 L phi v1 bdot a.meanOrbitRad a.bendingRad a.q
/-- physics.py:203-213 `rf_voltage_pmch` -/
def rfPmch (L : MathLib K) (a : PArgs K) (ratio v1 v2 bdot phi12 phi : K) : K :=
  rfVoltage L phi v1 v2 bdot ratio phi12 a.meanOrbitRad a.bendingRad a.q
/-- physics.py:258-265 `drf_voltage_pmch` -/
def drfPmch (L : MathLib K) (ratio v1 v2 phi12 phi : K) : K := v1 * L.cos phi + ratio * v2 * L.cos (ratio * (phi - phi12))

/-- one call of the root finder at turn `i` from `x0`, programs_machine.py:253-274 -/
def phaseAt (L : MathLib K) (a : PArgs K) (ratio : K) (v1 v2 bdot phi12 : List K) (i : Int) (x0 : K) : M K := do
  let u1 ← npGet v1 i
  let u2 ← npGet v2 i
  let b ← npGet bdot i
  let p ← npGet phi12 i
  newton L (rfPmch L a ratio u1 u2 b p) (drfPmch L ratio u1 u2 p) x0

/-- programs_machine.py:242-252 with physics.py:351-381: the starting value of the search -/
def phaseStart (L : MathLib K) (a : PArgs K) (e0 v1 bdot : List K) : M K := do
  let i0 := a.machineRefFrame * a.dturns
  let e ← npGet e0 i0
  let g ← FDiv.fdiv e a.eRest
  let lim : K × K := if 0 < a.q * (a.transGamma - g) then (-L.pi, L.pi) else (0, 2 * L.pi)
  let u1 ← npGet v1 i0
  let b ← npGet bdot i0
  newton L (rf1Pmch L a u1 b) (drfvoltRf1 L · u1) ((lim.1 + lim.2) / 2)

/-- programs_machine.py:235-277 `find_synchronous_phase` for `0 ≤ i0`.  Subscripting a number is a TypeError. -/
def findSynchronousPhase (L : MathLib K) (a : PArgs K) (ratio : K) (e0 v1 v2 bdot : List K) (phi12 : Phi12 K) : M (List K) :=
  match phi12 with
  | .missing => .error (.exc .valueError)
  | .number _ => do
    let _ ← phaseStart L a e0 v1 bdot
    .error (.exc .typeError)
  | .turns p => do
    let i0 := a.machineRefFrame * a.dturns
    let start ← phaseStart L a e0 v1 bdot
    let ph ← phaseAt L a ratio v1 v2 bdot p i0 start
    let phi0 ← upd (v1.map fun _ => (0 : K)) i0 ph
    let phi0 ← forN ((v1.length : Int) - (i0 + 1)).toNat (fun k phi0 => do
      let x0 ← rd phi0 (i0 + k)
      let ph ← phaseAt L a ratio v1 v2 bdot p (i0 + 1 + k) x0
      upd phi0 (i0 + 1 + k) ph) phi0
    forN i0.toNat (fun k phi0 => do
      let x0 ← rd phi0 (i0 - k)
      let ph ← phaseAt L a ratio v1 v2 bdot p (i0 - 1 - k) x0
      upd phi0 (i0 - 1 - k) ph) phi0

/-- programs_machine.py:167-203 without the phases: the arrays computed from the momentum.  `trans_gamma ** (-2)` for 0 is
an exception in python, here `nonFinite`. -/
def turnArrays (L : MathLib K) (a : PArgs K) (moms v1 v2 : List K) (ratio : K) : M (POut K) := do
  let e0 := moms.map fun p => pmEnergy L p a.eRest
  let beta0 ← moms.mapM fun p => pmBeta L p a.eRest
  let trev ← moms.mapM fun p => period L a p
  let frev ← trev.mapM fun t => FDiv.fdiv 1 t
  let cum := Post.cumsum 0 trev
  let ref ← npGet cum (a.machineRefFrame * a.dturns)
  let time := cum.map fun t => t - ref
  let g ← FDiv.fdiv (1 : K) (a.transGamma ^ 2)
  let eta := beta0.map fun b => 1 - b ^ 2 - g
  let coef ← (List.zip eta (List.zip e0 beta0)).mapM fun x => FDiv.fdiv (2 * L.pi * a.hNum * x.1) (x.2.1 * x.2.2 ^ 2)
  let field ← moms.mapM fun p => pmBfield L p a.bendingRad a.q
  let bdot ← npGradient field time
  pure { momentum := moms, e0 := e0, beta0 := beta0, deltaE0 := npDiff e0, eta0 := eta, driftCoef := coef,
         omegaRev0 := frev.map fun f => 2 * L.pi * f, timeAtTurn := time, bdot := bdot, vrf1AtTurn := v1, vrf2AtTurn := v2,
         hRatio := ratio, phi12 := none, phi0 := v1.map fun _ => 0 }

/-- programs_machine.py:111-206 `values_at_turns` -/
def valuesAtTurns (L : MathLib K) (a : PArgs K) (fuel : Nat) : M (POut K) := do
  let (time, moms) ← interpolateMomentum L a fuel
  let v1 ← npInterp a.voltTime a.volt1 time
  checkArray a
  let (v2, ratio) ← secondHarmonic a time v1
  let o ← turnArrays L a moms v1 v2 ratio
  let d ← phaseDifference L a ratio time
  match d with
  | .missing => pure o
  | .number v => do
    let ph ← findSynchronousPhase L a ratio o.e0 v1 v2 o.bdot (.number v)
    pure { o with phi0 := ph }
  | .turns p => do
    let ph ← findSynchronousPhase L a ratio o.e0 v1 v2 o.bdot (.turns p)
    pure { o with phi12 := some p, phi0 := ph }

/-- programs_machine.py:61-109 the constructor with `vat_now = True` -/
def construct (L : MathLib K) (a : PArgs K) (fuel : Nat) : M (POut K) := do
  assertInrange (a.harmonics.length : Int) 1 2 .arrayLengthError
  match a.phase with
  | .both => .error (.exc .valueError)
  | _ => valuesAtTurns L a fuel

/-- programs_machine.py:208-233 `calc_phi12`; `arcsin` is numpy's -/
def calcPhi12 (L : MathLib K) (arcsin : K → K) (a : PArgs K) (o : POut K) (mode : Int) : M (List K) := do
  let x ← (List.zip o.bdot o.vrf1AtTurn).mapM fun x => FDiv.fdiv (2 * L.pi * a.bendingRad * a.meanOrbitRad * x.1) x.2
  let y ← FDiv.fdiv L.pi o.hRatio
  let phi12 := x.map fun v => arcsin v + y
  pure (if mode = 2 then phi12.map fun v => v - L.pi else phi12)

end Verif.Prog

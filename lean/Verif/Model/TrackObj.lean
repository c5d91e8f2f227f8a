import Verif.Model.Run
import Verif.Model.SelfField

/-!
# Model of a `Tracking` object: `tracking/__tracking.py`, `tracking/tracking.py`, `tracking/particles.py`

The object keeps a reference to the machine, whose attributes its owner may change at any time, a `Particles` object, flags and
tables.  A call returns the object afterwards as well, also when it raises.

Simplifications: double precision on the CPU (the compiled code works in place, `Model/Bind.lean`); when a tracking loop fails in
the middle, the coordinates stay as they were at its start instead of at the turn of the failure; printing is left out.
-/

namespace Verif.TrkO
open Verif.Mch Verif.Psi Verif.Part Verif.SelfF

/-- particles.py:54-66 the attributes of `Particles` -/
structure Parts (K : Type _) where
  dEbin : Option K
  xorigin : Option K
  lim : Option Limits
  coords : Option (List K × List K)
  deriving DecidableEq

/-- __tracking.py:58-74 the attributes of the tracker, tracking.py:183-184 `init_dphi`, `init_denergy`; `machDEbin` is the attribute
`dEbin` of the machine -/
structure Trk (K : Type _) where
  mach : Run.Mach K
  machDEbin : Option K
  parts : Parts K
  nturns : Int
  selfFlag : Bool
  fortran : Bool
  charge : Option K
  phiwrap : Option K
  vself : Option (List (List K))
  init : Option (List K × List K)

section
variable {K : Type _} [Field K] [LinearOrder K] [FloorRing K]

/-- the tracker a constructor makes from an accepted machine -/
def fresh (m : Run.Mach K) : Trk K :=
  ⟨m, none, ⟨none, none, none, none⟩, m.dturns * ((m.nprofiles : Int) - 1), false, false, none, none, none, none⟩

/-- __tracking.py:58-74, 171-181 the constructor -/
def new (m : Run.Mach K) : M (Trk K) := do
  let _ ← Run.newTracker m
  pure (fresh m)

/-- particles.py:113-185 `homogeneous_distribution`, in the order of its assignments -/
def homogeneous (L : MathLib K) (t : Trk K) (recprof deltaturn : Int) : Trk K × M Unit :=
  match findLimits L t.mach.toArea with
  | .error e => (t, .error e)
  | .ok (xorigin, dEbin, lim) =>
    let t := { t with parts := { t.parts with dEbin := some dEbin, xorigin := some xorigin }, machDEbin := some dEbin }
    match cellPoints t.mach.snpt lim with
    | .error e => (t, .error e)
    | .ok pts =>
      let t := { t with parts := { t.parts with lim := some lim } }
      match binToPhysical t.mach.toArea xorigin dEbin recprof deltaturn pts with
      | .error e => (t, .error e)
      | .ok c => ({ t with parts := { t.parts with coords := some (c.map Prod.fst, c.map Prod.snd) } }, .ok ())

/-- tracking.py:316-452 `kick_and_drift_self` (no `deltaturn`), `nturns` the attribute of the tracker.  Returns the coordinates and what
the arrays it was given hold afterwards: the upward loop works in place on them, the downward loop on the copies of lines 379-380. -/
def kickAndDriftSelfO (sin : K → K) (m : Track.Mach K) (phi12 : K) (f : SF K) (nturns dturns nprofiles recProf : Int)
    (denergy dphi : List K) : M ((List (List K) × List (List K)) × (List K × List K)) := do
  let n := denergy.length
  let out := List.replicate nprofiles.toNat (List.replicate n (0 : K))
  let recTurn := recProf * dturns
  let x ← calcXpSf f m.phi0 recTurn dphi
  let a ← Track.setRow out recProf x
  let y ← toY f denergy
  let b ← Track.setRow out recProf y
  let s ← whileN (nturns - recTurn).toNat (fun s => decide (s.turn < nturns)) (upBodySelf sin m phi12 f dturns n)
    ⟨a, b, dphi, denergy, x, recProf, recTurn⟩
  let ends := (s.dphi, s.denergy)
  let x ← Track.getRow s.xp recProf
  let s ← whileN recTurn.toNat (fun s => decide (0 < s.turn)) (downBodySelf sin m phi12 f dturns n)
    { s with dphi := dphi, denergy := denergy, tempXp := x, profile := recProf - 1, turn := recTurn }
  pure ((s.xp, s.yp), ends)

/-- what the tracking with self fields reads: attributes of the machine, of the particles and of the tracker -/
def selfFields (m : Run.Mach K) (xorigin dEbin phiwrap : K) (vself : List (List K)) : SF K :=
  ⟨xorigin, dEbin, m.hNum, m.dtbin, m.omegaRev0, phiwrap, vself, m.q, m.synchPartY⟩

/-- tracking.py:193-199, 458-464: tracking with self fields.  Arithmetic with `None` is a `TypeError`. -/
def followSelf (L : MathLib K) (past : K) (t : Trk K) (r : Int) (dphi denergy : List K) :
    M ((List (List K) × List (List K)) × (List K × List K)) :=
  match t.parts.xorigin, t.parts.dEbin, t.phiwrap, t.vself with
  | some xorigin, some dEbin, some w, some v =>
    kickAndDriftSelfO L.sin (Run.trackMach t.mach past) t.mach.phi12 (selfFields t.mach xorigin dEbin w v) t.nturns t.mach.dturns
      t.mach.nprofiles r denergy dphi
  | _, _, _, _ => .error (.exc .typeError)

/-- tracking.py:200-211: tracking without self fields -/
def followPlain (L : MathLib K) (past : K) (m : Run.Mach K) (r deltaturn : Int) (dphi denergy : List K) :
    M ((List (List K) × List (List K)) × (List K × List K)) := do
  let z := List.replicate m.nprofiles (List.replicate dphi.length (0 : K))
  let s ← Track.kickAndDrift L.sin z z denergy dphi (Run.trackMach m past) m.dturns r deltaturn
    (m.dturns * ((m.nprofiles : Int) - 1)) dphi.length
  pure ((s.xp, s.yp), (s.dphi, s.denergy))

/-- tracking.py:180-214: the copies of the start, the tracking, and what it leaves in the particles -/
def follow (L : MathLib K) (past : K) (t : Trk K) (r deltaturn : Int) (c : List K × List K) :
    Trk K × M (List (List K) × List (List K)) :=
  let t := { t with init := some c }
  match (if t.selfFlag then followSelf L past t r c.1 c.2 else followPlain L past t.mach r deltaturn c.1 c.2) with
  | .error e => (t, .error e)
  | .ok (out, ends) => ({ t with parts := { t.parts with coords := some ends } }, .ok out)

/-- tracking.py:136-173, 180-214 `track(recprof, deltaturn=deltaturn)`, automatic distribution -/
def trackAuto (L : MathLib K) (past : K) (t : Trk K) (recprof deltaturn : Int) : Trk K × M (List (List K) × List (List K)) :=
  match Track.trackCheck t.mach.nprofiles t.mach.dturns recprof deltaturn with
  | .error e => (t, .error (.exc e))
  | .ok r =>
    match homogeneous L t r deltaturn with
    | (t, .error e) => (t, .error e)
    | (t, .ok _) =>
      match t.parts.coords with
      | none => (t, .error (.exc .typeError))
      | some c => follow L past t r deltaturn c

/-- tracking.py:136-160, 175-214 `track(recprof, init_distr=(dphi, denergy), deltaturn=deltaturn)`; `conf.cast` of two arrays of different
lengths is numpy's `ValueError` -/
def trackUser (L : MathLib K) (past : K) (t : Trk K) (recprof deltaturn : Int) (dphi denergy : List K) :
    Trk K × M (List (List K) × List (List K)) :=
  match Track.trackCheck t.mach.nprofiles t.mach.dturns recprof deltaturn with
  | .error e => (t, .error (.exc e))
  | .ok r =>
    if dphi.length ≠ denergy.length then (t, .error (.exc .valueError))
    else follow L past { t with parts := { t.parts with coords := some (dphi, denergy) } } r deltaturn (dphi, denergy)

/-- what a user can do with a tracker and its machine -/
inductive Op (K : Type _)
  /-- assignments to attributes of the machine, another call of `values_at_turns`, ... -/
  | machine (m : Run.Mach K)
  /-- `enable_fortran_output(charge)` -/
  | fortranOutput (q : Option K)
  /-- `enable_self_fields(profiles)` with these attributes of the profiles -/
  | selfFields (phiwrap : Option K) (vself : Option (List (List K)))
  /-- `particles.homogeneous_distribution(machine, recprof, deltaturn)` -/
  | create (recprof deltaturn : Int)
  /-- `particles.coordinates_dphi_denergy = (dphi, denergy)` -/
  | coords (dphi denergy : List K)
  | auto (past : K) (recprof deltaturn : Int)
  | user (past : K) (recprof deltaturn : Int) (dphi denergy : List K)

/-- one step; what is returned by a call of `track` -/
def step (L : MathLib K) (t : Trk K) : Op K → Trk K × M (List (List K) × List (List K))
  | .machine m => ({ t with mach := m }, .ok ([], []))
  -- __tracking.py:103-136
  | .fortranOutput none => (t, .error (.exc .profileChargeNotCalculated))
  | .fortranOutput (some q) => ({ t with fortran := true, charge := some q }, .ok ([], []))
  -- __tracking.py:138-166
  | .selfFields (some w) (some v) => ({ t with phiwrap := some w, vself := some v, selfFlag := true }, .ok ([], []))
  | .selfFields _ _ => (t, .error (.exc .selfFieldTrackingError))
  | .create r d => match homogeneous L t r d with
    | (t, .error e) => (t, .error e)
    | (t, .ok _) => (t, .ok ([], []))
  -- particles.py:91-111, 407-421
  | .coords x y =>
    if x.length ≠ y.length then (t, .error (.exc .invalidParticle))
    else ({ t with parts := { t.parts with coords := some (x, y) } }, .ok ([], []))
  | .auto past r d => trackAuto L past t r d
  | .user past r d x y => trackUser L past t r d x y

/-- a history: the tracker afterwards -/
def runOps (L : MathLib K) (t : Trk K) : List (Op K) → Trk K
  | [] => t
  | o :: os => runOps L (step L t o).1 os

end
end Verif.TrkO

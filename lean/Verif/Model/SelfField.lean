import Verif.Model.PhaseSpaceInfo
import Verif.Model.Profiles

/-!
# Model of the self fields: `data/profiles.py:159-273`, `utils/physics.py:434-457`, `tracking/tracking.py:316-464`,
`tracking/__tracking.py:137-168`

The Savitzky-Golay filter of scipy and a filter given by the user are parameters.
-/

namespace Verif.SelfF
open Verif.Asrt Verif.Mch Verif.Psi

section
variable {K : Type _} [Field K] [LinearOrder K] [FloorRing K]

/-! ## The table of voltages -/

/-- what the calculation reads from the machine -/
structure SMach (K : Type _) where
  bdot : K
  nprofiles : Nat
  dturns : Int
  nbins : Nat
  hNum : K
  dtbin : K
  omegaRev0 : List K
  beta0 : List K
  gCoupling : K
  zwallOverN : K

/-- profiles.py:239-249: radians per bin at the turn chosen -/
def dradBin (m : SMach K) : M K := do
  let i : Int := if 0 < m.bdot then ((m.nprofiles : Int) - 1) * m.dturns - 1 else 0
  let w ← npGet m.omegaRev0 i
  pure (m.hNum * w * m.dtbin)

/-- profiles.py:238-257 `_find_wrap_length` -/
def findWrapLength (L : MathLib K) (m : SMach K) : M (K × Int) := do
  let drad ← dradBin m
  let r ← FDiv.fdiv ((m.nbins : K) * drad) (2 * L.pi)
  let phiwrap := (⌈r⌉ : K) * 2 * L.pi
  let x ← FDiv.fdiv phiwrap drad
  pure (phiwrap, ⌈x⌉)

/-- physics.py:434-457 `calc_self_field_coeffs`; `e` is the elementary charge, `tiny` the literal `2.0e-7` -/
def selfFieldCoeffs (L : MathLib K) (e tiny : K) (m : SMach K) : M (List K) :=
  (List.range m.nprofiles).mapM fun (i : Nat) => do
    let turn : Int := (i : Int) * m.dturns
    let w ← npGet m.omegaRev0 turn
    let b ← npGet m.beta0 turn
    let a ← FDiv.fdiv e w
    let ib ← FDiv.fdiv 1 b
    FDiv.fdiv (a * ((ib - b) * m.gCoupling * L.pi * tiny * L.c - m.zwallOverN)) (m.dtbin ^ 2)

/-- one row of `vself`: `np.zeros(wrap_length + 1)` with the first `nbins` cells assigned; assigning more cells than there are
is numpy's ValueError -/
def selfRow (charge si sj : K) (di dj : List K) (nbins : Nat) (wrapLength : Int) : M (List K) :=
  if wrapLength + 1 < 0 then .error (.exc .valueError)
  else
    let v := List.zipWith (fun a b => 1 / 2 * charge * (si * a + sj * b)) (di.take nbins) (dj.take nbins)
    if (v.length : Int) ≤ wrapLength + 1 then
      pure (v ++ List.replicate ((wrapLength + 1).toNat - v.length) 0)
    else .error (.exc .valueError)

/-- profiles.py:260-273 `_calculate_self` -/
def calculateSelf (L : MathLib K) (e tiny : K) (m : SMach K) (charge : K) (ds : Arr2 K) (wrapLength : Int) :
    M (List (List K)) := do
  let sfc ← selfFieldCoeffs L e tiny m
  (List.range (m.nprofiles - 1)).mapM fun (i : Nat) => do
    let si ← npGet sfc i
    let sj ← npGet sfc ((i : Int) + 1)
    let di ← npGet ds.rows i
    let dj ← npGet ds.rows ((i : Int) + 1)
    selfRow charge si sj di dj m.nbins wrapLength

/-- what the calculation stores in the `Profiles` object -/
structure SelfObj (K : Type _) where
  dsprofiles : Option (Arr2 K)
  phiwrap : Option K
  wrapLength : Option Int
  vself : Option (List (List K))

/-- Where the filtered profiles come from: the argument `filtered_profiles` (`none`: not iterable), the user's filter, or the
standard one. -/
inductive Source (K : Type _)
  | given (a : Option (Arr2 K))
  | user (f : Arr2 K → Option (Arr2 K))
  | standard

/-- profiles.py:222-234 `_check_manual_filtered_profs` -/
def checkFiltered (waterfall : Arr2 K) (a : Option (Arr2 K)) : M (Arr2 K) :=
  match a with
  | none => .error (.exc .filteredProfilesError)
  | some a => if a.rows.length = waterfall.rows.length ∧ a.cols = waterfall.cols then .ok a
    else .error (.exc .filteredProfilesError)

/-- profiles.py:210-214: normalised rows, filtered -/
def standardFilter (savgol : Arr2 K → M (Arr2 K)) (waterfall : Arr2 K) : M (Arr2 K) := do
  let rows ← waterfall.rows.mapM fun r => r.mapM fun v => FDiv.fdiv v r.sum
  savgol ⟨waterfall.cols, rows⟩

/-- profiles.py:201-214 -/
def filtered (savgol : Arr2 K → M (Arr2 K)) (waterfall : Arr2 K) (src : Source K) : M (Arr2 K) :=
  match src with
  | .given a => checkFiltered waterfall a
  | .user f => checkFiltered waterfall (f waterfall)
  | .standard => standardFilter savgol waterfall

/-- profiles.py:159-219 `calc_self_fields`: the object afterwards and the exception, if any.  (With the standard or a user's
filter `dsprofiles` holds intermediate values when an exception is raised; not modelled.) -/
def calcSelfFields (L : MathLib K) (e tiny : K) (savgol : Arr2 K → M (Arr2 K)) (m : SMach K) (waterfall : Arr2 K)
    (charge : Option K) (src : Source K) (o : SelfObj K) : SelfObj K × Option Fault :=
  match charge with
  | none => (o, some (.exc .profileChargeNotCalculated))
  | some q =>
    match filtered savgol waterfall src with
    | .error f => (o, some f)
    | .ok ds =>
      let o := { o with dsprofiles := some ds }
      match findWrapLength L m with
      | .error f => (o, some f)
      | .ok (phiwrap, wl) =>
        let o := { o with phiwrap := some phiwrap, wrapLength := some wl }
        match calculateSelf L e tiny m q ds wl with
        | .error f => (o, some f)
        | .ok v => ({ o with vself := some v }, none)

/-! ## Tracking -/

/-- what the tracking with self fields reads besides the per-turn arrays of `Track.Mach` -/
structure SF (K : Type _) where
  xorigin : K
  dEbin : K
  hNum : K
  dtbin : K
  omegaRev0 : List K
  phiwrap : K
  vself : List (List K)
  q : K
  synchPartY : K

/-- tracking.py:458-464 `_calc_xp_sf`, one particle -/
def xpSf (f : SF K) (dphi phi0 omega : K) : M K := do
  let t := dphi + phi0 - f.xorigin * f.hNum * omega * f.dtbin
  let r ← FDiv.fdiv t f.phiwrap
  FDiv.fdiv (t - f.phiwrap * (⌊r⌋ : K)) (f.hNum * omega * f.dtbin)

/-- tracking.py:458-464 `_calc_xp_sf` at a turn -/
def calcXpSf (f : SF K) (phi0 : List K) (turn : Int) (dphi : List K) : M (List K) := do
  let p0 ← npGet phi0 turn
  let w ← npGet f.omegaRev0 turn
  dphi.mapM fun d => xpSf f d p0 w

/-- `self._vself[profile, temp_xp.astype(int) + shift]` -/
def lookup (f : SF K) (profile : Int) (shift : Int) (xp : List K) : M (List K) := do
  let row ← npGet f.vself profile
  xp.mapM fun x => npGet row (trunc x + shift)

/-- `denergy += selfvolt * self.machine.q` -/
def addSelf (f : SF K) (denergy sv : List K) : List K := List.zipWith (fun e v => e + v * f.q) denergy sv

/-- `denergy / self.particles.dEbin + self.machine.synch_part_y` -/
def toY (f : SF K) (denergy : List K) : M (List K) :=
  denergy.mapM fun e => do
    let y ← FDiv.fdiv e f.dEbin
    pure (y + f.synchPartY)

/-- variables of `kick_and_drift_self` -/
structure SS (K : Type _) where
  xp : List (List K)
  yp : List (List K)
  dphi : List K
  denergy : List K
  tempXp : List K
  profile : Int
  turn : Int

/-- tracking.py:393-417, one upward iteration -/
def upBodySelf (sin : K → K) (m : Track.Mach K) (phi12 : K) (f : SF K) (dturns : Int) (n : Nat) (s : SS K) :
    M (SS K) := do
  let coef ← rd m.driftCoef s.turn
  let dphi ← Track.driftUp s.dphi s.denergy coef n
  let turn := s.turn + 1
  let xp ← calcXpSf f m.phi0 turn dphi
  let sv ← lookup f s.profile (-1) xp
  let v1 ← rd m.rf1v turn
  let v2 ← rd m.rf2v turn
  let p0 ← rd m.phi0 turn
  let acc ← rd m.deltaE0 turn
  let denergy ← Track.kickUp sin dphi s.denergy v1 v2 p0 phi12 m.hratio n acc
  let denergy := addSelf f denergy sv
  if turn % dturns = 0 then
    let profile := s.profile + 1
    let a ← Track.setRow s.xp profile xp
    let y ← toY f denergy
    let b ← Track.setRow s.yp profile y
    pure ⟨a, b, dphi, denergy, xp, profile, turn⟩
  else pure ⟨s.xp, s.yp, dphi, denergy, xp, s.profile, turn⟩

/-- tracking.py:426-450, one downward iteration -/
def downBodySelf (sin : K → K) (m : Track.Mach K) (phi12 : K) (f : SF K) (dturns : Int) (n : Nat) (s : SS K) :
    M (SS K) := do
  let sv ← lookup f s.profile 0 s.tempXp
  let v1 ← rd m.rf1v s.turn
  let v2 ← rd m.rf2v s.turn
  let p0 ← rd m.phi0 s.turn
  let acc ← rd m.deltaE0 s.turn
  let denergy ← Track.kickDown sin s.dphi s.denergy v1 v2 p0 phi12 m.hratio n acc
  let denergy := addSelf f denergy sv
  let turn := s.turn - 1
  let coef ← rd m.driftCoef turn
  let dphi ← Track.driftDown s.dphi denergy coef n
  let xp ← calcXpSf f m.phi0 turn dphi
  if turn % dturns = 0 then
    let a ← Track.setRow s.xp s.profile xp
    let y ← toY f denergy
    let b ← Track.setRow s.yp s.profile y
    pure ⟨a, b, dphi, denergy, xp, s.profile - 1, turn⟩
  else pure ⟨s.xp, s.yp, dphi, denergy, xp, s.profile, turn⟩

/-- tracking.py:316-452 `kick_and_drift_self` with `deltaturn = 0` (`track` passes none, lines 197-200) -/
def kickAndDriftSelf (sin : K → K) (m : Track.Mach K) (phi12 : K) (f : SF K) (dturns nprofiles recProf : Int)
    (denergy dphi : List K) : M (List (List K) × List (List K)) := do
  let n := denergy.length
  let nturns := dturns * (nprofiles - 1)
  let out := List.replicate nprofiles.toNat (List.replicate n (0 : K))
  let recTurn := recProf * dturns
  let x ← calcXpSf f m.phi0 recTurn dphi
  let a ← Track.setRow out recProf x
  let y ← toY f denergy
  let b ← Track.setRow out recProf y
  let s ← whileN (nturns - recTurn).toNat (fun s => decide (s.turn < nturns)) (upBodySelf sin m phi12 f dturns n)
    ⟨a, b, dphi, denergy, x, recProf, recTurn⟩
  let x ← Track.getRow s.xp recProf
  let s ← whileN recTurn.toNat (fun s => decide (0 < s.turn)) (downBodySelf sin m phi12 f dturns n)
    { s with dphi := dphi, denergy := denergy, tempXp := x, profile := recProf - 1, turn := recTurn }
  pure (s.xp, s.yp)

/-- `Tracking.track` with self fields enabled and a user distribution, tracking.py:59-214: the checks and the call.
`track` does not hand `deltaturn` on. -/
def trackSelf (sin : K → K) (m : Track.Mach K) (phi12 : K) (f : SF K) (dturns nprofiles recprof deltaturn : Int)
    (dphi denergy : List K) : M (List (List K) × List (List K)) :=
  match Track.trackCheck nprofiles dturns recprof deltaturn with
  | .error e => .error (.exc e)
  | .ok r => kickAndDriftSelf sin m phi12 f dturns nprofiles r denergy dphi

end
end Verif.SelfF

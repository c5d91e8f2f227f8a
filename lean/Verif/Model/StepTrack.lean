import Verif.Model.Bind
import Verif.Model.TrackObj

/-!
# The tracking loops written in python, on the caller's arrays

`Tracking.kick_and_drift` and `Tracking.kick_and_drift_self` call the compiled routines once per turn.  Those work in place on
arrays they need not convert and return them, so the loops carry references, not values.

Simplifications: the arrays the loops fill (`np.zeros`) and the temporaries are values, nobody else refers to them; the arrays of
coordinates are one-dimensional.
-/

namespace Verif.StepT
open Verif.Bind

variable {α : Type _}

/-- the values of a one-dimensional array -/
def valuesAt (h : Heap α) (a : Int) : M (List α) := do
  let A ← rd h a
  pure A.rows.flatten

/-- `np.copy(a)`: a new array of the same element type -/
def npCopy (h : Heap α) (a : Int) : M (Heap α × Int) := do
  let A ← rd h a
  pure (h ++ [⟨A.dtype, keepOrder A.order, A.rows⟩], (h.length : Int))

/-- variables of the loops: `dp`, `de` are the references `dphi`, `denergy` -/
structure HS (α : Type _) where
  h : Heap α
  outPhi : List (List α)
  outEn : List (List α)
  dp : Int
  de : Int
  profile : Int
  turn : Int
  deriving DecidableEq

section
variable [Add α] [Sub α] [Mul α]

/-- tracking.py:275-289, one upward iteration -/
def upStep (E : Env α) (m : MachObj α) (r1 r2 : Int) (n : Nat) (s : HS α) : M (HS α) := do
  let (h, dp) ← driftCall E s.h [.num (.arr s.de), .num (.arr s.dp), .num (.arr m.driftCoef), .num (.int n), .num (.int s.turn)]
  let turn := s.turn + 1
  let (h, de) ← kickCall E h [.machine m, .num (.arr s.de), .num (.arr dp), .num (.arr r1), .num (.arr r2), .num (.int n),
    .num (.int turn)]
  if turn % m.dturns = 0 then
    let profile := s.profile + 1
    let x ← valuesAt h dp
    let a ← Track.setRow s.outPhi profile x
    let y ← valuesAt h de
    let b ← Track.setRow s.outEn profile y
    pure ⟨h, a, b, dp, de, profile, turn⟩
  else pure ⟨h, s.outPhi, s.outEn, dp, de, s.profile, turn⟩

/-- tracking.py:298-312, one downward iteration -/
def downStep (E : Env α) (m : MachObj α) (r1 r2 : Int) (n : Nat) (s : HS α) : M (HS α) := do
  let (h, de) ← kickCall E s.h [.machine m, .num (.arr s.de), .num (.arr s.dp), .num (.arr r1), .num (.arr r2), .num (.int n),
    .num (.int s.turn), .bool false]
  let turn := s.turn - 1
  let (h, dp) ← driftCall E h [.num (.arr de), .num (.arr s.dp), .num (.arr m.driftCoef), .num (.int n), .num (.int turn),
    .bool false]
  if turn % m.dturns = 0 then
    let profile := s.profile - 1
    let x ← valuesAt h dp
    let a ← Track.setRow s.outPhi profile x
    let y ← valuesAt h de
    let b ← Track.setRow s.outEn profile y
    pure ⟨h, a, b, dp, de, profile, turn⟩
  else pure ⟨h, s.outPhi, s.outEn, dp, de, s.profile, turn⟩

/-- tracking.py:216-314 `tracker.kick_and_drift(denergy, dphi, rf1v, rf2v, rec_prof, deltaturn)`; `nturns` is the attribute of the
tracker -/
def kickAndDriftH (E : Env α) (h : Heap α) (m : MachObj α) (de dp r1 r2 : Int) (nturns nprofiles recProf deltaturn : Int) :
    M (HS α) := do
  let e ← valuesAt h de
  let p ← valuesAt h dp
  let n := e.length
  let out := List.replicate nprofiles.toNat (List.replicate n E.zero)
  let (h, p0) ← npCopy h dp
  let (h, e0) ← npCopy h de
  let a ← Track.storeStart out recProf deltaturn p
  let b ← Track.storeStart out recProf deltaturn e
  let recTurn := recProf * m.dturns + deltaturn
  let profile := if deltaturn < 0 then recProf - 1 else recProf
  let s ← whileN (nturns - recTurn).toNat (fun s => decide (s.turn < nturns)) (upStep E m r1 r2 n)
    ⟨h, a, b, dp, de, profile, recTurn⟩
  let (h, p1) ← npCopy s.h p0
  let (h, e1) ← npCopy h e0
  whileN recTurn.toNat (fun s => decide (0 < s.turn)) (downStep E m r1 r2 n)
    { s with h := h, dp := p1, de := e1, turn := recTurn, profile := recProf }

end

/-! ## with self fields -/

/-- variables of `kick_and_drift_self` -/
structure HSS (K : Type _) where
  h : Heap K
  xp : List (List K)
  yp : List (List K)
  dp : Int
  de : Int
  tempXp : List K
  profile : Int
  turn : Int
  deriving DecidableEq

section
open Verif.SelfF
variable {K : Type _} [Field K] [LinearOrder K] [FloorRing K]

/-- `denergy += selfvolt * self.machine.q`, in place -/
def addSelfH (f : SF K) (h : Heap K) (de : Int) (sv : List K) : M (Heap K) := do
  let A ← rd h de
  upd h de { A with rows := [addSelf f A.rows.flatten sv] }

/-- tracking.py:393-417, one upward iteration; `phi0` are the values of `machine.phi0` -/
def upStepSelf (E : Env K) (m : MachObj K) (f : SF K) (phi0 : List K) (r1 r2 : Int) (n : Nat) (s : HSS K) : M (HSS K) := do
  let (h, dp) ← driftCall E s.h [.num (.arr s.de), .num (.arr s.dp), .num (.arr m.driftCoef), .num (.int n), .num (.int s.turn)]
  let turn := s.turn + 1
  let p ← valuesAt h dp
  let xp ← calcXpSf f phi0 turn p
  let sv ← lookup f s.profile (-1) xp
  let (h, de) ← kickCall E h [.machine m, .num (.arr s.de), .num (.arr dp), .num (.arr r1), .num (.arr r2), .num (.int n),
    .num (.int turn)]
  let h ← addSelfH f h de sv
  if turn % m.dturns = 0 then
    let profile := s.profile + 1
    let a ← Track.setRow s.xp profile xp
    let e ← valuesAt h de
    let y ← toY f e
    let b ← Track.setRow s.yp profile y
    pure ⟨h, a, b, dp, de, xp, profile, turn⟩
  else pure ⟨h, s.xp, s.yp, dp, de, xp, s.profile, turn⟩

/-- tracking.py:426-450, one downward iteration -/
def downStepSelf (E : Env K) (m : MachObj K) (f : SF K) (phi0 : List K) (r1 r2 : Int) (n : Nat) (s : HSS K) : M (HSS K) := do
  let sv ← lookup f s.profile 0 s.tempXp
  let (h, de) ← kickCall E s.h [.machine m, .num (.arr s.de), .num (.arr s.dp), .num (.arr r1), .num (.arr r2), .num (.int n),
    .num (.int s.turn), .bool false]
  let h ← addSelfH f h de sv
  let turn := s.turn - 1
  let (h, dp) ← driftCall E h [.num (.arr de), .num (.arr s.dp), .num (.arr m.driftCoef), .num (.int n), .num (.int turn),
    .bool false]
  let p ← valuesAt h dp
  let xp ← calcXpSf f phi0 turn p
  if turn % m.dturns = 0 then
    let a ← Track.setRow s.xp s.profile xp
    let e ← valuesAt h de
    let y ← toY f e
    let b ← Track.setRow s.yp s.profile y
    pure ⟨h, a, b, dp, de, xp, s.profile - 1, turn⟩
  else pure ⟨h, s.xp, s.yp, dp, de, xp, s.profile, turn⟩

/-- tracking.py:316-452 `tracker.kick_and_drift_self(denergy, dphi, rf1v, rf2v, rec_prof)` -/
def kickAndDriftSelfH (E : Env K) (h : Heap K) (m : MachObj K) (f : SF K) (phi0 : List K) (de dp r1 r2 : Int)
    (nturns nprofiles recProf : Int) : M (HSS K) := do
  let e ← valuesAt h de
  let p ← valuesAt h dp
  let n := e.length
  let out := List.replicate nprofiles.toNat (List.replicate n (0 : K))
  let recTurn := recProf * m.dturns
  let (h, p0) ← npCopy h dp
  let (h, e0) ← npCopy h de
  let x ← calcXpSf f phi0 recTurn p
  let a ← Track.setRow out recProf x
  let y ← toY f e
  let b ← Track.setRow out recProf y
  let s ← whileN (nturns - recTurn).toNat (fun s => decide (s.turn < nturns)) (upStepSelf E m f phi0 r1 r2 n)
    ⟨h, a, b, dp, de, x, recProf, recTurn⟩
  let x ← Track.getRow s.xp recProf
  whileN recTurn.toNat (fun s => decide (0 < s.turn)) (downStepSelf E m f phi0 r1 r2 n)
    { s with dp := p0, de := e0, tempXp := x, profile := recProf - 1, turn := recTurn }

end
end Verif.StepT

import Verif.Model.Machine
import Verif.Model.Tomography
import Verif.Core.Arr
import Mathlib.Algebra.Order.Floor.Ring

/-!
# Model of `tracking/phase_space_info.py`

The float arrays `jmin`, `jmax` only ever hold integers; they are lists of `Int`.
-/

namespace Verif.Psi
open Verif.Asrt Verif.Mch

/-- The attributes of the machine read by `PhaseSpaceInfo` and `Particles`; the arrays are those of `values_at_turns`. -/
structure Area (K : Type _) extends MachineOut K where
  nbins : Nat
  synchPartX : K
  synchPartY : K
  dtbin : K
  minDt : K
  maxDt : K
  demax : K
  beamRefFrame : Int
  filmstart : Int
  dturns : Int
  fullPp : Bool
  hNum : K
  hRatio : K
  q : K
  phi12 : K
  snpt : Nat

/-- the attributes `jmin, jmax, imin, imax` of `PhaseSpaceInfo` -/
structure Limits where
  jmin : List Int
  jmax : List Int
  imin : Int
  imax : Int
  deriving DecidableEq, Repr

variable {K : Type _} [Field K] [LinearOrder K] [FloorRing K]

/-- phase_space_info.py:165-183 `calc_xorigin` -/
def calcXorigin (m : Area K) : M K := do
  let turn := m.beamRefFrame * m.dturns
  let p0 ← rd m.phi0 turn
  let om ← rd m.omegaRev0 turn
  let a ← FDiv.fdiv p0 (m.hNum * om * m.dtbin)
  pure (a - m.synchPartX)

/-- phase_space_info.py:303-309 `_calculate_phases` -/
def calculatePhases (m : Area K) (xorigin : K) (turn : Int) : M (List K) := do
  let om ← rd m.omegaRev0 turn
  pure (tab (m.nbins + 1) fun i => (xorigin + i) * m.dtbin * m.hNum * om)

/-- phase_space_info.py:312-345 `_trajectoryheight` for one phase: the real part of the complex square root -/
def trajectoryHeight (L : MathLib K) (m : Area K) (phi phiKnown deKnown : K) (turn : Int) : M K := do
  let c ← rd m.driftCoef turn
  let a ← FDiv.fdiv (2 * m.q) c
  let v1 ← rd m.vrf1AtTurn turn
  let v2 ← rd m.vrf2AtTurn turn
  let b ← FDiv.fdiv (v2 * (L.cos (m.hRatio * (phi - m.phi12)) - L.cos (m.hRatio * (phiKnown - m.phi12)))) m.hRatio
  let p0 ← rd m.phi0 turn
  let s := a * (v1 * (L.cos phi - L.cos phiKnown) + b + (phi - phiKnown) * rfVoltageAtPhase L p0 v1 v2 m.hRatio m.phi12)
    + deKnown ^ 2
  pure (if 0 ≤ s then L.sqrt s else 0)

/-- phase_space_info.py:109-163 `find_dEbin` (with `xorigin` known).  A negative radicand, which numpy turns into NaN, is
the fault `nonFinite`. -/
def findDEbin (L : MathLib K) (m : Area K) (xorigin : K) : M K := do
  let turn := m.beamRefFrame * m.dturns
  let phases ← calculatePhases m xorigin turn
  assertNotEqual m.demax 0 .energyBinningError
  if m.demax < 0 then do
    let v2 ← rd m.vrf2AtTurn turn
    if v2 ≠ 0 then do
      let first ← rd phases 0
      let last ← rd phases m.nbins
      let low ← phases.mapM fun ph => trajectoryHeight L m ph first 0 turn
      let up ← phases.mapM fun ph => trajectoryHeight L m ph last 0 turn
      let ml ← Tomo.npMax low
      let mu ← Tomo.npMax up
      FDiv.fdiv (min ml mu) (m.nbins - m.synchPartY)
    else do
      let b ← rd m.beta0 turn
      let e ← rd m.e0 turn
      let v1 ← rd m.vrf1AtTurn turn
      let p0 ← rd m.phi0 turn
      let eta ← rd m.eta0 turn
      let om ← rd m.omegaRev0 turn
      let r ← FDiv.fdiv (e * m.q * v1 * L.cos p0) (2 * L.pi * m.hNum * eta)
      if r < 0 then .error .nonFinite
      else pure (b * L.sqrt r * m.dtbin * m.hNum * om)
  else FDiv.fdiv m.demax (m.nbins - m.synchPartY)

/-- phase_space_info.py:187-197 `_limits_track_full_image`: `jmin, jmax, imin, imax` -/
def limitsFullImage (m : Area K) : List Int × List Int × Option Int × Option Int :=
  let jmax := tab m.nbins fun _ => (m.nbins : Int)
  let jmin := jmax.map fun (j : Int) => ⌈2 * m.synchPartY - (j : K) + 1 / 2⌉
  (jmin, jmax, some 0, some m.nbins)

/-- phase_space_info.py:223-253 `_find_max_binned_energy` -/
def findMaxBinnedEnergy (L : MathLib K) (m : Area K) (phases : List K) (turn : Int) (dEbin : K) : M (List Int) := do
  let first ← rd phases 0
  let last ← rd phases m.nbins
  let edge (known : K) (i : Nat) : M Int := do
    let ph ← rd phases i
    let h ← trajectoryHeight L m ph known 0 turn
    let r ← FDiv.fdiv h dEbin
    pure ⌊m.synchPartY + r⌋
  let low ← (List.range (m.nbins + 1)).mapM fun (i : Nat) => edge first i
  let up ← (List.range (m.nbins + 1)).mapM fun (i : Nat) => edge last i
  (List.range m.nbins).mapM fun (i : Nat) => do
    let u0 ← rd up i
    let u1 ← rd up (i + 1)
    let l0 ← rd low i
    let l1 ← rd low (i + 1)
    pure (min u0 (min u1 (min l0 (min l1 (m.nbins : Int)))))

/-- phase_space_info.py:258-261 `_find_min_binned_energy` (threshold 1) -/
def findMinBinnedEnergy (m : Area K) (jmax : List Int) : List Int :=
  jmax.map fun (j : Int) =>
    let jm := ⌈2 * m.synchPartY - (j : K) - 1 / 2⌉
    if 1 ≤ jm then jm else 1

/-- phase_space_info.py:264-268 `_find_min_binned_phase`: first column of `0..nbins-1`; `none` is python's `None`. -/
def findMinBinnedPhase (nbins : Nat) (jmin jmax : List Int) : M (Option Int) :=
  let rec go : List Nat → M (Option Int)
    | [] => .ok none
    | i :: is => do
      let a ← rd jmax i
      let b ← rd jmin i
      if 0 ≤ a - b then .ok (some i) else go is
  go (List.range nbins)

/-- phase_space_info.py:271-275 `_find_max_binned_phase`: last column of `nbins-1, …, 1` (column 0 is not tried). -/
def findMaxBinnedPhase (nbins : Nat) (jmin jmax : List Int) : M (Option Int) :=
  findMinBinnedPhase.go jmin jmax ((List.range nbins).drop 1).reverse

/-- phase_space_info.py:371-375 `_assert_jlimits_ok` -/
def assertJlimitsOk (jmin jmax : List Int) : M Unit :=
  if jmin.length ≠ jmax.length then .error (.exc .valueError)
  else if (List.zipWith (fun a b : Int => decide (b ≤ a)) jmin jmax).all id then .error (.exc .energyLimitsError)
  else .ok ()

/-- phase_space_info.py:200-219 `_limits_track_rec_area` -/
def limitsRecArea (L : MathLib K) (m : Area K) (xorigin dEbin : K) :
    M (List Int × List Int × Option Int × Option Int) := do
  let turn := m.filmstart * m.dturns
  let phases ← calculatePhases m xorigin turn
  let jmax ← findMaxBinnedEnergy L m phases turn dEbin
  let jmin := findMinBinnedEnergy m jmax
  assertJlimitsOk jmin jmax
  let imin ← findMinBinnedPhase m.nbins jmin jmax
  let imax ← findMaxBinnedPhase m.nbins jmin jmax
  pure (jmin, jmax, imin, imax)

/-- `int(x)` of a float: truncation -/
def trunc (x : K) : Int := if 0 ≤ x then ⌊x⌋ else ⌈x⌉

/-- phase_space_info.py:281-300 `_adjust_limits`; comparing with `None` is a TypeError. -/
def adjustLimits (m : Area K) (jmin jmax : List Int) (imin imax : Option Int) : M Limits := do
  let mx ← FDiv.fdiv m.maxDt m.dtbin
  let mn ← FDiv.fdiv m.minDt m.dtbin
  let maxb := ⌈mx⌉
  let minb := trunc mn
  let mirror (jmax : List Int) : List Int := jmax.map fun (j : Int) => ⌈2 * m.synchPartY - (j : K) + 1 / 2⌉
  let imin ← notNone imin .typeError
  let (imin, jmin, jmax) :=
    if minb > imin ∨ m.fullPp = true then
      let jmax := npSetSlice jmax 0 minb ⌊m.synchPartY⌋
      (minb, mirror jmax, jmax)
    else (imin, jmin, jmax)
  let imax ← notNone imax .typeError
  let (imax, jmin, jmax) :=
    if maxb < imax ∨ m.fullPp = true then
      let jmax := npSetSlice jmax maxb m.nbins ⌊m.synchPartY⌋
      (maxb - 1, mirror jmax, jmax)
    else (imax, jmin, jmax)
  pure ⟨jmin, jmax, imin, imax⟩

/-- numpy comparison of two one-dimensional arrays: ValueError when the lengths differ (length-1 broadcasting left out) -/
def broadcastable (a b : Nat) : M Unit := if a = b then .ok () else raise .valueError

/-- phase_space_info.py:347-368 `_assert_correct_ijlimits`.  `assert_array_in_range` is called with an array as upper
limit, compared element by element. -/
def assertCorrectIjlimits (nbins : Nat) (l : Limits) : M Unit := do
  assertInrange l.imin 0 l.imax .phaseLimitsError
  assertLessOrEqual l.imax (l.jmax.length : Int) .phaseLimitsError
  let jmin := npSlice l.jmin l.imin l.imax
  let jmax := npSlice l.jmax l.imin l.imax
  broadcastable jmin.length jmax.length
  assertLogArr (List.zipWith (fun a b : Int => !(decide (a < 0) || decide (b < a))) jmin jmax) .energyLimitsError
  assertArrayLessEq jmax (nbins : Int) .energyLimitsError
  assertEqual (l.jmin.length : Int) (l.jmax.length : Int) .arrayLengthError
  assertJlimitsOk l.jmin l.jmax

/-- phase_space_info.py:58-107 `find_binned_phase_energy_limits`: `xorigin`, `dEbin` and the limits -/
def findLimits (L : MathLib K) (m : Area K) : M (K × K × Limits) := do
  let xorigin ← calcXorigin m
  let dEbin ← findDEbin L m xorigin
  assertGreater dEbin 0 .energyBinningError
  let (jmin, jmax, imin, imax) ←
    (if m.fullPp = true then pure (limitsFullImage m) else limitsRecArea L m xorigin dEbin)
  let lim ← adjustLimits m jmin jmax imin imax
  assertCorrectIjlimits m.nbins lim
  pure (xorigin, dEbin, lim)

end Verif.Psi

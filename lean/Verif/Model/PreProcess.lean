import Verif.Model.Assertions
import Verif.Model.Tomography
import Verif.Core.Arr

/-!
# Model of `data/pre_process.py`

Waterfalls are float arrays of shape `(nprofiles, nbins)`.  (With an integer array the in-place multiplications of the
code raise a numpy casting error; integer arrays are not modelled.)
-/

namespace Verif.Pre
open Verif.Asrt

/-- `l.reshape((n, m))` of a one-dimensional array -/
def reshape {α : Type _} (l : List α) (n m : Nat) : M (Arr2 α) :=
  if l.length = n * m then .ok ⟨m, tab n fun i => (l.drop (i * m)).take m⟩ else raise' .valueError
where
  raise' {β : Type _} (e : Exn) : M β := .error (.exc e)

/-- `a[:, lo:hi]` -/
def sliceCols {α : Type _} (a : Arr2 α) (lo hi : Int) : Arr2 α :=
  ⟨sliceIdx a.cols hi - sliceIdx a.cols lo, a.rows.map fun r => npSlice r lo hi⟩

/-- `a[lo:]` on the first dimension -/
def sliceRows {α : Type _} (a : Arr2 α) (lo : Int) : Arr2 α := ⟨a.cols, npSlice a.rows lo a.rows.length⟩

/-- `len(a[0])` -/
def firstLen {α : Type _} (a : Arr2 α) : M Nat :=
  match a.rows with
  | [] => .error (.exc .indexError)
  | _ :: _ => .ok a.cols

/-- index of the first `True`, 0 if there is none: `np.argmax` of a non-empty boolean array -/
def argmaxBool (l : List Bool) : Nat := if l.any id then l.findIdx id else 0

section
variable {K : Type _} [Field K] [LinearOrder K]

/-- `np.min`; raises ValueError for an empty array. -/
def npMin : List K → M K
  | [] => .error (.exc .valueError)
  | a :: l => .ok (l.foldl (fun m v => if v < m then v else m) a)

/-- the larger of `x` and `-x` -/
def absv (x : K) : K := if x < 0 then -x else x

/-! ## Rebinning -/

/-- pre_process.py:375-391 `_rebin_dividable` -/
def rebinDividable (d : Arr2 K) (rbn : Nat) : M (Arr2 K) :=
  if d.cols % rbn ≠ 0 then .error (.exc .assertionError)
  else do
    let newNbins := d.cols / rbn
    let a ← reshape d.flatten (newNbins * d.rows.length) rbn
    reshape (a.rows.map List.sum) d.rows.length newNbins

/-- pre_process.py:410-419 `_rebin_last`: one number per profile -/
def rebinLast (d : Arr2 K) (rbn : Nat) : M (List K) :=
  let i0 : Int := ((d.cols / rbn : Nat) - 1 : Int) * rbn
  d.rows.mapM fun (r : List K) => do
    let f ← FDiv.fdiv (rbn : K) (((d.cols : Int) - i0 : Int) : K)
    pure ((npSlice r i0 r.length).sum * f)

/-- pre_process.py:396-405 `_rebin_individable`: writing the two parts of the zero array is appending the last column. -/
def rebinIndividable (d : Arr2 K) (rbn : Nat) : M (Arr2 K) := do
  let q := d.cols / rbn
  let first ← rebinDividable (sliceCols d 0 ((q * rbn : Nat) : Int)) rbn
  let last ← rebinLast d rbn
  pure ⟨q + 1, List.zipWith (fun r v => r ++ [v]) first.rows last⟩

/-- pre_process.py:31-87 `rebin`, for a rebin factor that is not negative (`assert_frame_inputs` demands at least 1). -/
def rebin (d : Arr2 K) (rbn : Nat) (dtbin synchPartX : Option K) : M (Arr2 K × Option K × Option K) :=
  if rbn = 0 then .error (.exc .zeroDivisionError)
  else do
    let r ← if d.cols % rbn = 0 then rebinDividable d rbn else rebinIndividable d rbn
    pure (r, dtbin.map fun v => v * (rbn : K), synchPartX.map fun v => v / (rbn : K))

/-! ## Cutting -/

/-- pre_process.py:198-199: summed absolute difference between neighbouring bins, minimum subtracted -/
def activity (w : Arr2 K) : M (List K) := do
  let d ← (List.range (w.cols - 1)).mapM fun (j : Nat) => do
    let s ← w.rows.mapM fun (r : List K) => do
      let b ← rd r ((j + 1 : Nat) : Int)
      let a ← rd r (j : Int)
      pure (absv (b - a))
    pure s.sum
  let m ← npMin d
  pure (d.map fun v => v - m)

/-- pre_process.py:201-220: the cuts computed from the activity -/
def cutsOf (nbins : Nat) (diff : List K) (threshold : K) (margin : Int) : Int × Int :=
  let act := diff.map fun v => decide (threshold < v)
  let left : Int := argmaxBool act
  let right : Int := (nbins : Int) - argmaxBool act.reverse + 1
  (if margin < left then left - margin else 0,
   if margin < (nbins : Int) - right then right + margin else nbins)

/-- pre_process.py:191-220 `get_cuts` -/
def getCuts (w : Arr2 K) (threshold : Option K) (margin : Int) : M (Int × Int) := do
  let nbins ← firstLen w
  let diff ← activity w
  let th ← match threshold with
    | some t => pure t
    | none => do
      let m ← Tomo.npMax diff
      pure (m * (3 / 10))
  pure (cutsOf nbins diff th margin)

/-- pre_process.py:250-262: the checks of `cut_waterfall` -/
def checkCuts (nbins : Nat) (left right : Int) : M Unit := do
  assertGreaterOrEqual left 0 .valueError
  if right < 0 then do
    assertInrange right (-(nbins : Int)) (-1) .valueError
    assertGreater ((nbins : Int) + right) left .valueError
  else do
    assertInrange right 0 (nbins : Int) .valueError
    assertGreater right left .valueError

/-- pre_process.py:223-265 `cut_waterfall` -/
def cutWaterfall {α : Type _} (w : Arr2 α) (left right : Int) : M (Arr2 α) := do
  let nbins ← firstLen w
  checkCuts nbins left right
  pure (sliceCols w left right)

/-! ## Filtering -/

/-- `a[mask, :]` -/
def maskRows {α : Type _} (mask : List Bool) (a : Arr2 α) : M (Arr2 α) := do
  let rows ← maskRow mask a.rows
  pure ⟨a.cols, rows⟩

/-- pre_process.py:303-308: the normalised waterfall and the frames kept -/
def goodFrames (w : Arr2 K) : M (Arr2 K × List Bool) := do
  let total := (w.rows.map List.sum).sum
  let rows ← w.rows.mapM fun (r : List K) => r.mapM fun (v : K) => FDiv.fdiv v total
  let sums := rows.map List.sum
  let mx ← Tomo.npMax sums
  let mn ← npMin sums
  let mean ← FDiv.fdiv sums.sum (sums.length : K)
  let threshold := mx - mn - mean
  pure (⟨w.cols, rows⟩, sums.map fun v => decide (threshold < v))

/-- pre_process.py:321-330: the shifted reconstruction profile -/
def shiftRecProf (before after : Nat) (rec : Int) : M Int :=
  let shifted := rec - ((before : Int) - after)
  if shifted < 0 then .error (.exc .valueError) else .ok shifted

/-- apply to the value that is present -/
def optM {β γ : Type _} (o : Option β) (f : β → M γ) : M (Option γ) :=
  match o with
  | none => .ok none
  | some v => do
    let r ← f v
    pure (some r)

/-- pre_process.py:269-332 `filter_profiles` -/
def filterProfiles {β : Type _} (w : Arr2 K) (xp yp : Option (Arr2 β)) (recProf : Option Int) :
    M (Arr2 K × Option (Arr2 β) × Option (Arr2 β) × Option Int) :=
  if xp.isSome ≠ yp.isSome then .error (.exc .valueError)
  else do
    let (wn, good) ← goodFrames w
    let gw ← maskRows good wn
    let gx ← optM xp (Arr2.maskCols good)
    let gy ← optM yp (Arr2.maskCols good)
    let r ← optM recProf (shiftRecProf w.rows.length gw.rows.length)
    pure (gw, gx, gy, r)

/-! ## Estimate of the bunch limits -/

/-- pre_process.py:361-364: downwards from `i = maxbin` while `i > 0` -/
def tangentLow (p : List K) (threshold : K) : Nat → M (Option Nat)
  | 0 => .ok none
  | i + 1 => do
    let v ← rd p ((i + 1 : Nat) : Int)
    if v < threshold then pure (some (i + 2)) else tangentLow p threshold i

/-- pre_process.py:365-368: upwards; the loop variable is `nbins - k` -/
def tangentUp (p : List K) (threshold : K) (nbins : Nat) : Nat → M (Option Int)
  | 0 => .ok none
  | k + 1 => do
    let i := nbins - (k + 1)
    let v ← rd p (i : Int)
    if v < threshold then pure (some ((i : Int) - 1)) else tangentUp p threshold nbins k

/-- `np.argmax`; raises ValueError for an empty array -/
def npArgmax (p : List K) : M Nat := do
  let m ← Tomo.npMax p
  pure (p.findIdx fun v => decide (m ≤ v))

/-- the value of a local variable that may be unbound -/
def bound {β : Type _} (o : Option β) : M β :=
  match o with
  | some v => .ok v
  | none => .error (.exc .unboundLocalError)

/-- pre_process.py:357-370 `_calc_tangentbins` with the default coefficient 0.15 -/
def tangentBins (p : List K) : M (Int × Nat) := do
  let m ← Tomo.npMax p
  let threshold := (15 / 100 : K) * m
  let maxbin ← npArgmax p
  let low ← tangentLow p threshold maxbin
  let up ← tangentUp p threshold p.length (p.length - maxbin)
  let up ← bound up
  let low ← bound low
  pure (up, low)

/-- `np.polyfit(x, y, deg=1)`: slope and intercept of the least-squares line, exact.  (numpy solves the normal equations by
a singular value decomposition; for fewer than two points it warns and returns the minimum-norm solution, here an error.) -/
def polyfit1 (x y : List K) : M (K × K) :=
  if x = [] then .error (.exc .typeError)
  else do
    let n : K := x.length
    let sx := x.sum
    let sy := y.sum
    let sxx := (x.map fun v => v * v).sum
    let sxy := (List.zipWith (fun a b => a * b) x y).sum
    let b ← FDiv.fdiv (n * sxy - sx * sy) (n * sxx - sx * sx)
    let a ← FDiv.fdiv (sy - b * sx) n
    pure (b, a)

/-- pre_process.py:337-352 `_calc_tangentfeet`: upper and lower foot -/
def tangentFeet (p : List K) : M (K × K) := do
  let index : List K := tab p.length fun i => (i : K) + 1 / 2
  let (up, low) ← tangentBins p
  let (bl, al) ← polyfit1 (npSlice index ((low : Int) - 2) ((low : Int) + 2)) (npSlice p ((low : Int) - 2) ((low : Int) + 2))
  let (bu, au) ← polyfit1 (npSlice index (up - 1) (up + 3)) (npSlice p (up - 1) (up + 3))
  let fl ← FDiv.fdiv (-1 * al) bl
  let fu ← FDiv.fdiv (-1 * au) bu
  pure (fu, fl)

end
end Verif.Pre

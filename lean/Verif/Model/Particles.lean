import Verif.Model.PhaseSpaceInfo

/-!
# Model of `tracking/particles.py`
-/

namespace Verif.Part
open Verif.Asrt Verif.Mch Verif.Psi

section filter
variable {α : Type _} [LT α] [LE α] [DecidableLT α] [DecidableLE α] [Zero α]

/-- `np.argwhere` of a two-dimensional boolean array: the index pairs in C order -/
def argwhere (a : List (List Bool)) : List (Nat × Nat) :=
  a.zipIdx.flatMap fun r => r.1.zipIdx.filterMap fun b => if b.1 then some (r.2, b.2) else none

/-- `np.unique` of an index array: sorted, without duplicates.  `n` bounds the indices. -/
def npUnique (n : Nat) (l : List Nat) : List Nat := (List.range n).filter fun j => l.contains j

/-- particles.py:233-284 `filter_lost` -/
def filterLost (xp yp : Arr2 α) (width : α) : M (Arr2 α × Arr2 α × Nat) := do
  let invalid := argwhere (xp.map fun x => decide (width ≤ x) || decide (x < 0)).rows
  let (xp, yp, lost) ←
    (if invalid.length > 0 then do
      let inv := npUnique xp.cols (invalid.map Prod.snd)
      let mask := (List.range xp.cols).map fun j => !inv.contains j
      let x ← xp.maskCols mask
      let y ← yp.maskCols mask
      pure (x, y, inv.length)
    else pure (xp, yp, 0))
  if xp.size = 0 then .error (.exc .invalidParticle) else pure (xp, yp, lost)

end filter

/-- particles.py:352-403 `ready_for_tomography`: filter, cast to int32, transpose -/
def readyForTomography (xp yp : Arr2 Fl) (nbins : Nat) : M (Arr2 Int × Arr2 Int) := do
  let (x, y, _) ← filterLost xp yp (nbins : Fl)
  let x ← (x.map Tomo.toInt32).transpose
  let y ← (y.map Tomo.toInt32).transpose
  pure (x, y)

section coords
variable {K : Type _} [Field K] [LinearOrder K]

/-- particles.py:187-219 `_bin_nr_to_physical_coords` -/
def binToPhysical (m : Area K) (xorigin dEbin : K) (recprof deltaturn : Int) (pts : List (K × K)) : M (List (K × K)) := do
  let turn := recprof * m.dturns + deltaturn
  let om ← npGet m.omegaRev0 turn
  let p0 ← npGet m.phi0 turn
  pure (pts.map fun pt => ((pt.1 + xorigin) * m.hNum * om * m.dtbin - p0, (pt.2 - m.synchPartY) * dEbin))

end coords

section rounded
variable {K : Type _} [Add K] [Sub K] [Mul K] [FDiv K]

/-- particles.py:287-349 `physical_to_coords` -/
def physicalToCoords (m : Area K) (xorigin dEbin : K) (dphi denergy : Arr2 K) : M (Arr2 K × Arr2 K) := do
  if dphi.rows.length ≠ denergy.rows.length ∨ dphi.cols ≠ denergy.cols then .error (.exc .invalidParticle)
  else do
    let xr ← dphi.rows.zipIdx.mapM fun (row, i) => do
      let p0 ← npGet m.phi0 ((i : Int) * m.dturns)
      let om ← npGet m.omegaRev0 ((i : Int) * m.dturns)
      row.mapM fun v => do
        let a ← FDiv.fdiv (v + p0) (m.hNum * om * m.dtbin)
        pure (a - xorigin)
    let yr ← denergy.rows.mapM fun row => row.mapM fun v => do
      let a ← FDiv.fdiv v dEbin
      pure (a + m.synchPartY)
    pure (⟨dphi.cols, xr⟩, ⟨denergy.cols, yr⟩)

end rounded

section distribution
variable {K : Type _} [Field K] [LinearOrder K] [FloorRing K]

/-- particles.py:152-153 the positions inside a cell -/
def binPts (snpt : Nat) : M (List K) :=
  (List.range snpt).mapM fun (k : Nat) => FDiv.fdiv (2 * (((k + 1 : Nat) : K)) - 1) (2 * (snpt : K))

/-- `np.arange(a, b, dtype=float)` for integers -/
def arange (a b : Int) : List K := (List.range (b - a).toNat).map fun (k : Nat) => ((a + (k : Int) : Int) : K)

/-- `np.repeat(x, n)` -/
def npRepeat {α : Type _} (x : List α) (n : Nat) : List α := x.flatMap fun v => List.replicate n v

/-- `np.tile(x, n)`; a negative number of repetitions is a ValueError -/
def npTile {α : Type _} (x : List α) (n : Int) : M (List α) :=
  if n < 0 then .error (.exc .valueError) else .ok (List.replicate n.toNat x).flatten

/-- `x += y` -/
def addInto (x y : List K) : M (List K) :=
  if x.length = y.length then .ok (List.zipWith (· + ·) x y) else .error (.exc .valueError)

/-- `np.max`, `np.min` of an integer array -/
def npMaxI : List Int → M Int
  | [] => .error (.exc .valueError)
  | a :: l => .ok (l.foldl max a)
def npMinI : List Int → M Int
  | [] => .error (.exc .valueError)
  | a :: l => .ok (l.foldl min a)

/-- coordinates kept by `coords[:, cond]` where `cond` reads an array at the column of the point -/
def keepWhere (pts : List (K × K)) (lim : List Int) (cond : K → Int → Bool) : M (List (K × K)) := do
  let mask ← pts.mapM fun pt => do
    let j ← npGet lim (trunc pt.1)
    pure (cond pt.2 j)
  maskRow mask pts

/-- particles.py:147-178: the points generated, in bins -/
def cellPoints (snpt : Nat) (l : Limits) : M (List (K × K)) := do
  let pts ← binPts (K := K) snpt
  let x : List K := arange l.imin (l.imax + 1)
  let tx ← npTile pts x.length
  let x ← addInto (npRepeat x snpt) tx
  let jtop ← npMaxI l.jmax
  let jbot ← npMinI l.jmin
  let ty ← npTile pts (jtop - jbot)
  let y ← addInto (npRepeat (arange jbot jtop) snpt) ty
  let coords := y.flatMap fun yv => x.map fun xv => (xv, yv)
  let coords ← keepWhere coords l.jmax fun y j => decide (y < (j : K))
  keepWhere coords l.jmin fun y j => decide ((j : K) < y)

/-- particles.py:113-185 `homogeneous_distribution`: the phases and energies (a list of pairs) -/
def homogeneousDistribution (L : MathLib K) (m : Area K) (recprof deltaturn : Int) : M (List (K × K)) := do
  let (xorigin, dEbin, lim) ← findLimits L m
  let pts ← cellPoints m.snpt lim
  binToPhysical m xorigin dEbin recprof deltaturn pts

end distribution
end Verif.Part

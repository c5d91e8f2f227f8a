import Verif.Model.Reconstruct
import Verif.Core.Fl

/-!
# Model of `tomography/__tomography.py` and `tomography/tomography.py`

A numpy 2-D array is its C-order flat buffer; the shape is passed along.
-/

namespace Verif.Tomo
open Verif.Recon

variable {α : Type _} [Add α] [Sub α] [Mul α] [Zero α] [One α] [NatCast α]
  [LT α] [LE α] [DecidableLT α] [DecidableLE α] [DecidableEq α] [FDiv α]

/-- elementwise numpy operation on two arrays of the same shape -/
def zip2 (f : α → α → α) (a b : List α) : M (List α) :=
  if a.length = b.length then .ok (List.zipWith f a b) else .error (.exc .valueError)

/-- `ndarray.clip(0.0)` (NaN stays NaN) -/
def npClip0 (a : List α) : List α := a.map fun v => if v < 0 then 0 else v

/-- `conf.sum(waterfall, axis=1)` -/
def rowSums (wf : List α) (nprof nbins : Nat) : M (List α) :=
  forN nprof (fun i acc => do
    let s ← forN nbins (fun j s => do
      let v ← rd wf ((i * nbins + j : Nat) : Int)
      pure (s + v)) (0 : α)
    pure (acc ++ [s])) []

/-- __tomography.py:228-232 `_normalize_profiles`. -/
def normalizeProfiles (wf : List α) (nprof nbins : Nat) : M (List α) :=
  if wf.any (fun v => v ≠ 0) then do
    let sums ← rowSums wf nprof nbins
    forN nprof (fun i w =>
      forN nbins (fun j w => do
        let v ← rd w ((i * nbins + j : Nat) : Int)
        let s ← rd sums (i : Int)
        let q ← FDiv.fdiv v s
        upd w ((i * nbins + j : Nat) : Int) q) w) wf
  else .error (.exc .waterfallReducedToZero)

/-- __tomography.py:55-58: the waterfall stored by the constructor (`conf.cast` copies; exact here). -/
def initWaterfall (wf : List α) (nprof nbins : Nat) : M (List α) :=
  normalizeProfiles (npClip0 wf) nprof nbins

/-- __tomography.py:235-237 `_discrepancy`. -/
def discrepancyPy (sqrt : α → α) (diff : List α) (nprof nbins : Nat) : M α := do
  let q ← FDiv.fdiv (diff.foldl (fun s d => s + d * d) 0) ((nbins * nprof : Nat) : α)
  pure (sqrt q)

/-- __tomography.py:240-244 `_create_flat_points`. -/
def createFlatPointsPy (xp : List Int) (npart nprof nbins : Nat) : M (List Int) :=
  forN nprof (fun i f =>
    forN npart (fun r f => do
      let v ← rd f ((r * nprof + i : Nat) : Int)
      upd f ((r * nprof + i : Nat) : Int) (v + (nbins * i : Nat))) f) xp

/-- __tomography.py:276-286 `_count_particles_in_bins`; `ppb` has shape `(nbins, nprofs)`.
(numpy would wrap negative indices; `xp` is validated to be non-negative.) -/
def countParticlesInBinsPy (ppb : List α) (xp : List Int) (nprof npart : Nat) : M (List α) :=
  forN nprof (fun i p =>
    forN npart (fun j p => do
      let b ← rd xp ((j * nprof + i : Nat) : Int)
      let c ← rd p (b * (nprof : Int) + (i : Int))
      upd p (b * (nprof : Int) + (i : Int)) (c + 1)) p) ppb

/-- `np.max`; raises ValueError for an empty array. -/
def npMax : List α → M α
  | [] => .error (.exc .valueError)
  | a :: l => .ok (l.foldl (fun m v => if m < v then v else m) a)

/-- `scalar / array` -/
def divInto (m : α) : List α → M (List α)
  | [] => .ok []
  | a :: l => do
    let q ← FDiv.fdiv m a
    let qs ← divInto m l
    pure (q :: qs)

/-- __tomography.py:251-258 `_reciprocal_particles` (shape `(nbins, nprofs)`). -/
def reciprocalParticlesPy (xp : List Int) (nbins nprof npart : Nat) : M (List α) := do
  let ppb ← countParticlesInBinsPy (tab (nbins * nprof) fun _ => (0 : α)) xp nprof npart
  let ppb := ppb.map fun v => if v = 0 then 1 else v
  let m ← npMax ppb
  divInto m ppb

/-- `.T` of a 2-D array of shape `(n, m)`, made contiguous: element `(i, j)` of the result is `(j, i)`. -/
def transpose (a : List α) (n m : Nat) : M (List α) :=
  forN (m * n) (fun k acc => do
    let v ← rd a (((k % n) * m + k / n : Nat) : Int)
    pure (acc ++ [v])) []

/-- tomography.py:291-298 `_project`: project into a fresh zero array, then normalise. -/
def projectPy (fp : List Int) (weight : List α) (npart nprof nbins : Nat) : M (List α) := do
  let rec ← project (tab (nprof * nbins) fun _ => (0 : α)) fp weight npart nprof
  normalizeProfiles rec nprof nbins

/-- tomography.py:127-144: body of the `run_hybrid` loop. -/
def hybridBody (sqrt : α → α) (fp : List Int) (wf recipT : List α) (nbins npart nprof : Nat)
    (i : Nat) (st : RState α) : M (RState α) := do
  let rec ← projectPy fp st.weights npart nprof nbins
  let diff ← zip2 (fun a b => a - b) wf rec
  let d ← discrepancyPy sqrt diff nprof nbins
  let discr ← upd st.discr (i : Int) d
  let diff ← zip2 (fun a b => a * b) diff recipT
  let w ← backProject st.weights fp diff npart nprof
  pure ⟨npClip0 w, rec, discr⟩

/-- tomography.py:70-150 `run_hybrid` (without printing). -/
def runHybrid (sqrt : α → α) (xp : List Int) (wf : List α) (niter nbins npart nprof : Nat) :
    M (RState α) := do
  let recip ← reciprocalParticlesPy (α := α) xp nbins nprof npart
  let fp ← createFlatPointsPy xp npart nprof nbins
  let w ← backProject (tab npart fun _ => (0 : α)) fp wf npart nprof
  let recipT ← transpose recip nbins nprof
  let st ← forN niter (hybridBody sqrt fp wf recipT nbins npart nprof)
    ⟨npClip0 w, tab (nprof * nbins) fun _ => 0, tab (niter + 1) fun _ => 0⟩
  let rec ← projectPy fp st.weights npart nprof nbins
  let diff ← zip2 (fun a b => a - b) wf rec
  let d ← discrepancyPy sqrt diff nprof nbins
  let discr ← upd st.discr (niter : Int) d
  pure ⟨st.weights, rec, discr⟩

/-! ## Coordinates of the `Tomography` object -/

/-- What can be assigned to `xp` / `yp`. -/
inductive PyVal
  | none
  /-- no `__iter__` -/
  | scalar
  /-- an array: its shape and its elements (C order) as floats -/
  | array (shape : List Nat) (data : List Fl)
  deriving DecidableEq, Repr

/-- conversion float64 → int32 (`astype(int32)`): truncation; NaN and infinities become INT_MIN
(x86; undefined behaviour in C).  Finite values beyond int32 are not modelled as wrapping. -/
def toInt32 : Fl → Int
  | .fin q => if 0 ≤ q then q.floor else q.ceil
  | _ => -2147483648

/-- The coordinate part of a `Tomography` object. -/
structure Coords where
  nprofs : Nat
  nbins : Nat
  xp : Option (List Nat × List Int)
  nparts : Option Nat
  yp : Option (List Nat × List Int)
  deriving DecidableEq, Repr

/-- __tomography.py:162-195 `xp` setter: the object afterwards and the exception raised, if any. -/
def setXp (t : Coords) : PyVal → Coords × Option Exn
  | .array shape data =>
    if shape.length ≠ 2 then (t, some .coordinateImportError)
    else if shape[1]? ≠ some t.nprofs then (t, some .coordinateImportError)
    else if data.any (fun v => v < 0) || data.any (fun v => (t.nbins : Fl) ≤ v) then
      (t, some .xpOutOfImageWidth)
    else
      let t := { t with xp := some (shape, data.map toInt32) }
      ({ t with nparts := shape[0]? }, none)
  | .none =>
    let t := { t with xp := none }
    ({ t with nparts := none }, none)
  | .scalar => (t, some .coordinateImportError)

/-- __tomography.py:111-128 `yp` setter (arguments with `__iter__` are taken to be arrays). -/
def setYp (t : Coords) : PyVal → Coords × Option Exn
  | .array shape data =>
    match t.xp with
    | none => (t, some .coordinateImportError)
    | some (xshape, _) =>
      if shape = xshape then ({ t with yp := some (shape, data.map toInt32) }, none)
      else (t, some .coordinateImportError)
  | .none => ({ t with yp := none }, none)
  | .scalar => (t, some .coordinateImportError)

/-- an attempted assignment -/
inductive CoordOp
  | xp (v : PyVal)
  | yp (v : PyVal)
  deriving DecidableEq, Repr

/-- an attempted assignment: object afterwards, exception -/
def coordStep (t : Coords) : CoordOp → Coords × Option Exn
  | .xp v => setXp t v
  | .yp v => setYp t v

/-- The object after a history of attempted assignments. -/
def coordRun (t : Coords) (ops : List CoordOp) : Coords := ops.foldl (fun t op => (coordStep t op).1) t

/-- __tomography.py:55-65: the constructor (coordinates part). -/
def coordInit (nprofs nbins : Nat) (x y : PyVal) : Except Exn Coords :=
  match setXp ⟨nprofs, nbins, none, none, none⟩ x with
  | (_, some e) => .error e
  | (t, none) =>
    match setYp t y with
    | (_, some e) => .error e
    | (t, none) => .ok t

end Verif.Tomo

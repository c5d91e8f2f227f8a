import Verif.Model.Tomography
import Verif.Core.Arr

/-!
# Model of the multi-bunch reconstruction

`cpp_routines/reconstruct.cpp` (`*_multi`), its wrapper in `libtomo.cpp` and `tomography/tomography_multibunch.py`.
The OpenMP loops are run in order (their races are in `Model/Omp.lean`).
-/

namespace Verif.Multi
open Verif.Recon Verif.Tomo

variable {α : Type _} [Add α] [Sub α] [Mul α] [Zero α] [One α] [NatCast α] [IntCast α]
  [LT α] [LE α] [DecidableLT α] [DecidableLE α] [DecidableEq α] [FDiv α]

/-- reconstruct.cpp:32-51 `back_project_multi`. -/
def backProjectMulti (weights : List α) (flatPoints : List Int) (flatProfiles : List α) (mask : List Bool)
    (centers : List Int) (npart nprof ncenter : Nat) : M (List α) :=
  forN ncenter (fun c ws => forN npart (fun i ws => forN nprof (fun j ws => do
    let m ← rd mask ((i + c * npart : Nat) : Int)
    if m then do
      let fp ← rd flatPoints ((i * nprof + j : Nat) : Int)
      let ctr ← rd centers (c : Int)
      let v ← rd flatProfiles (fp + ctr)
      let w ← rd ws ((i + c * npart : Nat) : Int)
      upd ws ((i + c * npart : Nat) : Int) (w + v)
    else pure ws) ws) ws) weights

/-- reconstruct.cpp:67-86 `project_multi` (the mask is not consulted). -/
def projectMulti (flatRec : List α) (flatPoints : List Int) (weights : List α) (centers : List Int)
    (npart nprof ncenter : Nat) : M (List α) :=
  forN ncenter (fun c rec => forN npart (fun i rec => forN nprof (fun j rec => do
    let fp ← rd flatPoints ((i * nprof + j : Nat) : Int)
    let ctr ← rd centers (c : Int)
    let r ← rd rec (fp + ctr)
    let w ← rd weights ((i + c * npart : Nat) : Int)
    upd rec (fp + ctr) (r + w)) rec) rec) flatRec

/-- reconstruct.cpp:164-170: one more sample for the sum of centre `c`. -/
def splitAdd (diffProf : List α) (cl cr : Int) (i : Nat) (s : α) : M α :=
  if (i : Int) < cr ∧ cl < (i : Int) then do
    let d ← rd diffProf (i : Int)
    pure (s + d * d)
  else pure s

/-- reconstruct.cpp:151-174 `discrepancy_multi`: `squared_sum` is declared outside the loop over the centres, the sample index
runs over the flattened waterfall. -/
def discrepancyMulti (sqrt : α → α) (diffProf disc : List α) (cutleft cutright : List Int) (iteration nprof nbins ncenter : Nat) :
    M (List α) := do
  let st ← forN ncenter (fun c (st : List α × α) => do
    let cl ← rd cutleft (c : Int)
    let cr ← rd cutright (c : Int)
    let s ← forN (nprof * nbins) (splitAdd diffProf cl cr) st.2
    let q ← FDiv.fdiv s (((nprof : Int) * (cr - cl) : Int) : α)
    let disc ← upd st.1 ((iteration * ncenter + c : Nat) : Int) (sqrt q)
    pure (disc, s)) (disc, (0 : α))
  pure st.1

/-- reconstruct.cpp:235-254 `count_particles_in_bin_multi` -/
def countMulti (rparts : List α) (xp : List Int) (centers : List Int) (nprof npart nbins ncenters : Nat) : M (List α) :=
  forN ncenters (fun c r => forN npart (fun j r => forN nprof (fun i r => do
    let v ← rd xp ((j * nprof + i : Nat) : Int)
    let ctr ← rd centers (c : Int)
    let n ← rd r (v + ctr + (i * nbins : Nat))
    upd r (v + ctr + (i * nbins : Nat)) (n + 1)) r) r) rparts

/-- reconstruct.cpp:286-314 `reciprocal_particles_multi` -/
def reciprocalMulti (rparts : List α) (xp : List Int) (centers : List Int) (nbins nprof npart ncenters : Nat) : M (List α) := do
  let r ← countMulti rparts xp centers nprof npart nbins ncenters
  let m ← max1d r (nprof * nbins)
  let r ← zerosToOnes r (nprof * nbins)
  takeReciprocal m r nprof nbins

/-- reconstruct.cpp:331-355 `create_mask` -/
def createMask (xp : List Int) (centers cutleft cutright : List Int) (mask : List Bool) (npart nprof ncenter : Nat) :
    M (List Bool) :=
  forN ncenter (fun c m => forN npart (fun i m => forN nprof (fun j m => do
    let v ← rd xp ((i * nprof + j : Nat) : Int)
    let ctr ← rd centers (c : Int)
    let cl ← rd cutleft (c : Int)
    let cr ← rd cutright (c : Int)
    if v + ctr < cl ∨ cr < v + ctr then upd m ((i + c * npart : Nat) : Int) false else pure m) m) m) mask

/-- the arrays `reconstruct_multi` fills -/
structure MState (α : Type _) where
  weights : List α
  flatRec : List α
  discr : List α
  split : List α
  deriving Repr, DecidableEq

/-- the arrays it prepares -/
structure Prep (α : Type _) where
  mask : List Bool
  rparts : List α
  fp : List Int
  deriving Repr, DecidableEq

/-- reconstruct.cpp:463-489: mask, reciprocals, flattened points -/
def prepareMulti (xp centers cutleft cutright : List Int) (nbins npart nprof ncenter : Nat) : M (Prep α) := do
  let mask ← createMask xp centers cutleft cutright (tab (npart * ncenter) fun _ => true) npart nprof ncenter
  let rparts ← reciprocalMulti (tab (nprof * nbins) fun _ => (0 : α)) xp centers nbins nprof npart ncenter
  let fp ← createFlatPoints xp npart nprof nbins
  pure ⟨mask, rparts, fp⟩

/-- reconstruct.cpp:490-495: first back projection; only the first `npart` weights are clipped and summed. -/
def firstMulti (weights : List α) (P : Prep α) (flatProfiles : List α) (centers : List Int) (npart nprof ncenter : Nat) :
    M (List α) := do
  let w ← backProjectMulti weights P.fp flatProfiles P.mask centers npart nprof ncenter
  let w ← clip w npart 0
  let s ← sum w npart
  if s ≤ 0 then .error (.exc .allZero) else pure w

/-- reconstruct.cpp:504-522: one iteration; all weights are clipped, the first `npart` are summed. -/
def iterMulti (sqrt : α → α) (P : Prep α) (flatProfiles : List α) (centers cutleft cutright : List Int)
    (nbins npart nprof ncenter : Nat) (iteration : Nat) (st : MState α) : M (MState α) := do
  let rec ← projectMulti st.flatRec P.fp st.weights centers npart nprof ncenter
  let rec ← normalize rec nprof nbins
  let diff ← findDifferenceProfile (tab (nprof * nbins) fun _ => 0) rec flatProfiles (nprof * nbins)
  let d ← discrepancy sqrt diff nprof nbins
  let discr ← upd st.discr (iteration : Int) d
  let split ← discrepancyMulti sqrt diff st.split cutleft cutright iteration nprof nbins ncenter
  let diff ← compensate diff P.rparts nprof nbins
  let w ← backProjectMulti st.weights P.fp diff P.mask centers npart nprof ncenter
  let w ← clip w (npart * ncenter) 0
  let s ← sum w npart
  if s ≤ 0 then .error (.exc .allZero) else pure ⟨w, rec, discr, split⟩

/-- reconstruct.cpp:500-525: the iteration loop with its callbacks -/
def loopMulti (body : Nat → MState α → M (MState α)) (niter : Nat) :
    Nat → MState α → List (Nat × Nat) × M (MState α)
  | 0, st => ([], .ok st)
  | k + 1, st =>
    match loopMulti body niter k st with
    | (log, .error e) => (log, .error e)
    | (log, .ok st') =>
      match body k st' with
      | .error e => (log, .error e)
      | .ok st'' => (log ++ [(k + 1, niter)], .ok st'')

/-- reconstruct.cpp:527-533 -/
def finalMulti (sqrt : α → α) (P : Prep α) (flatProfiles : List α) (centers cutleft cutright : List Int)
    (nbins npart nprof ncenter niter : Nat) (st : MState α) : M (MState α) := do
  let rec ← projectMulti st.flatRec P.fp st.weights centers npart nprof ncenter
  let rec ← normalize rec nprof nbins
  let diff ← findDifferenceProfile (tab (nprof * nbins) fun _ => 0) rec flatProfiles (nprof * nbins)
  let d ← discrepancy sqrt diff nprof nbins
  let discr ← upd st.discr (niter : Int) d
  let split ← discrepancyMulti sqrt diff st.split cutleft cutright niter nprof nbins ncenter
  pure ⟨st.weights, rec, discr, split⟩

/-- reconstruct.cpp:445-539 `reconstruct_multi` with the output arrays of libtomo.cpp:467-470 (`discr_split` is allocated without
initialisation: the cells hold `junk`). -/
def reconstructMulti (sqrt : α → α) (junk : α) (xp : List Int) (flatProfiles : List α) (cutleft cutright centers : List Int)
    (niter nbins npart nprof ncenter : Nat) : List (Nat × Nat) × M (MState α) :=
  match prepareMulti (α := α) xp centers cutleft cutright nbins npart nprof ncenter with
  | .error e => ([], .error e)
  | .ok P =>
    match firstMulti (tab (npart * ncenter) fun _ => (0 : α)) P flatProfiles centers npart nprof ncenter with
    | .error e => ([], .error e)
    | .ok w =>
      match loopMulti (iterMulti sqrt P flatProfiles centers cutleft cutright nbins npart nprof ncenter) niter niter
          ⟨w, tab (nprof * nbins) fun _ => 0, tab (niter + 1) fun _ => 0, tab (ncenter * (niter + 1)) fun _ => junk⟩ with
      | (log, .error e) => (log, .error e)
      | (log, .ok st') =>
        match finalMulti sqrt P flatProfiles centers cutleft cutright nbins npart nprof ncenter niter st' with
        | .error e => (log, .error e)
        | .ok st'' => (log ++ [(niter, niter)], .ok st'')

/-- what `tomography_multibunch.Tomography.run` leaves in the object -/
structure Bunches (α : Type _) where
  diff : List α
  /-- `diff_split[c][k]` -/
  diffSplit : List (List α)
  recreated : List α
  weightCombined : List α
  /-- `weight_split[c]` -/
  weightSplit : List (List α)
  deriving Repr, DecidableEq

/-- `a[start:stop]` of a 1-D array with `0 ≤ start ≤ stop` -/
def npRange (a : List α) (start stop : Nat) : List α := (a.take stop).drop start

/-- tomography_multibunch.py:281-295: `reshape([niter+1, ncenter]).T` and slices of the weights -/
def unpack (st : MState α) (niter npart ncenter : Nat) : M (Bunches α) := do
  let ds ← (List.range ncenter).mapM fun c => (List.range (niter + 1)).mapM fun k => rd st.split ((k * ncenter + c : Nat) : Int)
  pure ⟨st.discr, ds, st.flatRec, st.weights,
    (List.range ncenter).map fun i => npRange st.weights (i * npart) ((i + 1) * npart)⟩

/-- tomography_multibunch.py:235-295 `run` (coordinates already in the object). -/
def runMulti (sqrt : α → α) (junk : α) (xp : List Int) (waterfall : List α) (centers cutleft cutright : List Int)
    (niter nbins npart nprof : Nat) : List (Nat × Nat) × M (Bunches α) :=
  match reconstructMulti sqrt junk xp waterfall cutleft cutright centers niter nbins npart nprof centers.length with
  | (log, .error e) => (log, .error e)
  | (log, .ok st) => (log, unpack st niter npart centers.length)

end Verif.Multi

/-! ## The hybrid implementation -/

namespace Verif.Multi
open Verif.Recon Verif.Tomo

variable {α : Type _} [Add α] [Sub α] [Mul α] [Zero α] [One α] [NatCast α] [IntCast α]
  [LT α] [LE α] [DecidableLT α] [DecidableLE α] [DecidableEq α] [FDiv α]

/-- tomography_multibunch.py:110-114: the mask of one bunch (strict comparisons). -/
def maskPy (xp : List Int) (center : Int) (cut : Int × Int) (npart nprof : Nat) : M (List Bool) :=
  (List.range npart).mapM fun i => do
    let row ← (List.range nprof).mapM fun j => rd xp ((i * nprof + j : Nat) : Int)
    pure (row.all fun v => decide (cut.1 < v + center) && decide (v + center < cut.2))

/-- __tomography.py:260-273 `_reciprocal_particles_multi`: `xp.T` is copied to C order by the binding (libtomo.cpp:30), so the routine
gets the coordinates of shape `(nprof, npart)`. -/
def reciprocalMultiPy (xp : List Int) (centers : List Int) (nbins nprof npart : Nat) : M (List α) := do
  let xpT ← (List.range (nprof * npart)).mapM fun k => rd xp (((k % npart) * nprof + k / npart : Nat) : Int)
  let ppb ← countMulti (tab (nprof * nbins) fun _ => (0 : α)) xpT centers nprof npart nbins centers.length
  let ppb := ppb.map fun v => if v = 0 then 1 else v
  let m ← npMax ppb
  divInto m ppb

/-- `a[mask]` -/
def compress {β : Type _} (mask : List Bool) (a : List β) : List β := ((a.zip mask).filter fun q => q.2).map fun q => q.1

/-- `a[mask] = new` -/
def scatter {β : Type _} : List Bool → List β → List β → List β
  | true :: m, v :: new, _ :: a => v :: scatter m new a
  | false :: m, new, b :: a => b :: scatter m new a
  | _, _, a => a

/-- tomography_multibunch.py:130-139, 169-177, tomography.py:226-233, 261-267: back projection of one bunch -/
def backBunch (w : List α) (fp : List Int) (center : Int) (prof : List α) (mask : List Bool) (npart nprof : Nat) : M (List α) := do
  let rows := (List.range npart).map fun i => (fp.drop (i * nprof)).take nprof
  let sel := compress mask w
  let w' ← backProject sel ((compress mask rows).flatten.map fun v => v + center) prof sel.length nprof
  pure (scatter mask w' w)

/-- tomography_multibunch.py:149-160, tomography.py:245-253: projection of all bunches, then normalisation -/
def projectBunches (fp : List Int) (ws : List (List α)) (centers : List Int) (npart nprof nbins : Nat) : M (List α) := do
  let full ← (ws.zip centers).foldlM (fun (acc : List α) q => do
    let r ← project (tab (nprof * nbins) fun _ => (0 : α)) (fp.map fun v => v + q.2) q.1 npart nprof
    zip2 (fun a b => a + b) acc r) (tab (nprof * nbins) fun _ => (0 : α))
  normalizeProfiles full nprof nbins

/-- `a[c*n:(c+1)*n]` -/
def slc {β : Type _} (a : List β) (c n : Nat) : List β := (a.drop (c * n)).take n

/-- tomography_multibunch.py:210-218 `_discrepancy_multi`: the columns of a cut are a python slice. -/
def discrepancyMultiPy (sqrt : α → α) (diff : List α) (cuts : List (Int × Int)) (nprof nbins : Nat) : M (List α) :=
  cuts.mapM fun c => do
    let vals := (List.range nprof).map fun p => npSlice (slc diff p nbins) c.1 c.2
    let q ← FDiv.fdiv ((vals.flatten.map fun d => d * d).sum) (((c.2 - c.1) * (nprof : Int) : Int) : α)
    pure (sqrt q)

/-- what a hybrid multi-bunch run leaves behind: the weights of the bunches, `recreated`, `diff` -/
structure HState (α : Type _) where
  weights : List (List α)
  flatRec : List α
  discr : List α
  deriving DecidableEq, Repr

/-- tomography.py:245-269: one iteration of `run_hybrid_multi`. -/
def hybridMultiStep (sqrt : α → α) (wf recip : List α) (fp : List Int) (masks : List (List Bool)) (centers : List Int)
    (nbins npart nprof : Nat) (k : Nat) (st : HState α) : M (HState α) := do
  let rec ← projectBunches fp st.weights centers npart nprof nbins
  let diff ← zip2 (fun a b => a - b) wf rec
  let d ← discrepancyPy sqrt diff nprof nbins
  let discr ← upd st.discr (k : Int) d
  let diff ← zip2 (fun a b => a * b) diff recip
  let ws ← ((st.weights.zip masks).zip centers).mapM fun q => backBunch q.1.1 fp q.2 diff q.1.2 npart nprof
  pure ⟨ws.map npClip0, rec, discr⟩

/-- tomography.py:152-286 `run_hybrid_multi`: one row of weights per bunch. -/
def runHybridMulti (sqrt : α → α) (xp : List Int) (wf : List α) (centers : List Int) (cuts : List (Int × Int))
    (niter nbins npart nprof : Nat) : M (HState α) := do
  let masks ← (centers.zip cuts).mapM fun q => maskPy xp q.1 q.2 npart nprof
  let recip ← reciprocalMultiPy (α := α) xp centers nbins nprof npart
  let fp ← createFlatPointsPy xp npart nprof nbins
  let ws ← (masks.zip centers).mapM fun q => backBunch (tab npart fun _ => (0 : α)) fp q.2 wf q.1 npart nprof
  let st ← forN niter (hybridMultiStep sqrt wf recip fp masks centers nbins npart nprof)
    ⟨ws.map npClip0, tab (nprof * nbins) fun _ => 0, tab (niter + 1) fun _ => 0⟩
  let rec ← projectBunches fp st.weights centers npart nprof nbins
  let diff ← zip2 (fun a b => a - b) wf rec
  let d ← discrepancyPy sqrt diff nprof nbins
  let discr ← upd st.discr (niter : Int) d
  pure ⟨st.weights, rec, discr⟩

/-- `a[c*n:(c+1)*n]` replaced by `new` -/
def putSlc {β : Type _} (a new : List β) (c n : Nat) : List β := a.take (c * n) ++ new ++ a.drop ((c + 1) * n)

/-- tomography_multibunch.py:130-139, 169-177: back projection of the bunches, each in its slice of the one array of weights -/
def backFlat (w : List α) (fp : List Int) (prof : List α) (masks : List Bool) (centers : List Int) (npart nprof : Nat) : M (List α) :=
  forN centers.length (fun c w => do
    let z ← rd centers (c : Int)
    let w' ← backBunch (slc w c npart) fp z prof (slc masks c npart) npart nprof
    pure (putSlc w w' c npart)) w

/-- tomography_multibunch.py:149-160, 181-190 with `_project` (221-227) -/
def projectFlat (fp : List Int) (w : List α) (centers : List Int) (npart nprof nbins : Nat) : M (List α) := do
  let full ← forN centers.length (fun c acc => do
    let z ← rd centers (c : Int)
    let r ← project (tab (nprof * nbins) fun _ => (0 : α)) (fp.map fun v => v + z) (slc w c npart) npart nprof
    zip2 (fun a b => a + b) acc r) (tab (nprof * nbins) fun _ => (0 : α))
  normalizeProfiles full nprof nbins

/-- what `run_hybrid` of the multi-bunch class leaves behind: `weight_combined`, `recreated`, `diff`, `diff_split` (one row per bunch) -/
structure FState (α : Type _) where
  weights : List α
  flatRec : List α
  discr : List α
  split : List (List α)
  deriving DecidableEq, Repr

/-- `diff_split[:, k] = ds` -/
def setColumn (split : List (List α)) (k : Nat) (ds : List α) : M (List (List α)) :=
  if split.length = ds.length then (split.zip ds).mapM fun q => upd q.1 (k : Int) q.2 else .error (.exc .valueError)

/-- tomography_multibunch.py:149-179: one iteration -/
def hybridFlatStep (sqrt : α → α) (wf recip : List α) (fp : List Int) (masks : List Bool) (centers : List Int) (cuts : List (Int × Int))
    (nbins npart nprof : Nat) (k : Nat) (st : FState α) : M (FState α) := do
  let rec ← projectFlat fp st.weights centers npart nprof nbins
  let diff ← zip2 (fun a b => a - b) wf rec
  let d ← discrepancyPy sqrt diff nprof nbins
  let discr ← upd st.discr (k : Int) d
  let ds ← discrepancyMultiPy sqrt diff cuts nprof nbins
  let split ← setColumn st.split k ds
  let diff ← zip2 (fun a b => a * b) diff recip
  let w ← backFlat st.weights fp diff masks centers npart nprof
  pure ⟨npClip0 w, rec, discr, split⟩

/-- tomography_multibunch.py:71-206 `run_hybrid` (`weight_split` is the slices of `weight_combined`). -/
def runHybridFlat (sqrt : α → α) (xp : List Int) (wf : List α) (centers : List Int) (cuts : List (Int × Int))
    (niter nbins npart nprof : Nat) : M (FState α) := do
  let masks ← (centers.zip cuts).mapM fun q => maskPy xp q.1 q.2 npart nprof
  let masks := masks.flatten
  let recip ← reciprocalMultiPy (α := α) xp centers nbins nprof npart
  let fp ← createFlatPointsPy xp npart nprof nbins
  let w ← backFlat (tab (npart * centers.length) fun _ => (0 : α)) fp wf masks centers npart nprof
  let st ← forN niter (hybridFlatStep sqrt wf recip fp masks centers cuts nbins npart nprof)
    ⟨npClip0 w, tab (nprof * nbins) fun _ => 0, tab (niter + 1) fun _ => 0, tab centers.length fun _ => tab (niter + 1) fun _ => 0⟩
  let rec ← projectFlat fp st.weights centers npart nprof nbins
  let diff ← zip2 (fun a b => a - b) wf rec
  let d ← discrepancyPy sqrt diff nprof nbins
  let discr ← upd st.discr (niter : Int) d
  let ds ← discrepancyMultiPy sqrt diff cuts nprof nbins
  let split ← setColumn st.split niter ds
  pure ⟨st.weights, rec, discr, split⟩

end Verif.Multi

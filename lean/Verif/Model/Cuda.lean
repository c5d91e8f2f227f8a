import Verif.Model.Omp
import Verif.Model.Tomography

/-!
# The GPU reconstruction: cuda_kernels/reconstruct.cu, python_routines/reconstruct_cuda.py, reconstruct_cupy.py

Two views of every kernel: as threads sharing the device memory (first part), and as the effect of a launch on buffers, the
threads taken in the order of their number (second part).  `Props/Cuda.lean` proves that they agree.
Device memory, allocation and the transfer of kernel arguments are not modelled; `double` arguments and `real_t` are the same type.
Python's `int(n / block + 1)` is `n / block + 1` in integers (`Track.gridSize`).
-/

namespace Verif.Cuda
open Verif.Par Verif.Omp Verif.Recon Verif.Track

section
variable {α : Type} [Add α] [Sub α] [Mul α] [Zero α] [One α] [NatCast α] [IntCast α]
  [LT α] [LE α] [DecidableLT α] [DecidableLE α] [DecidableEq α] [FDiv α]

/-! ## Kernels as threads -/

/-- `kernel<<<G, B>>>`: the threads of `G` blocks of `B` threads; each computes
`int tid = threadIdx.x + blockDim.x * blockIdx.x` (reconstruct.cu:71, 88, 106, 120, 135, 154, 172). -/
def grid (G B : Nat) (kernel : Nat → Thread α) : List (Thread α) :=
  tab (G * B) fun s => kernel (s % B + B * (s / B))

/-- number of threads started for `n` elements: `block=block_size, grid=(int(n / block_size[0] + 1), 1, 1)`,
reconstruct_cuda.py:47, 67, 76, 91, 103, 109, 120 -/
def threads (n B : Nat) : Nat := gridSize n B * B

/-- reconstruct.cu:67-78 `project` -/
def projectThread (npart nprof tid : Nat) : Thread α :=
  if tid < npart * nprof then
    ldi .points (tid : Int) fun idx => ld .weights ((tid / nprof : Nat) : Int) fun w =>
      .atomic (.real .recon idx) (fun r : α => r + w) .done
  else .done

/-- reconstruct.cu:85-94 `clip`, of the array `a` -/
def clipThread (a : Omp.Arr) (clipVal : α) (length tid : Nat) : Thread α :=
  if tid < length then
    ld a (tid : Int) fun v => if v < clipVal then st a (tid : Int) clipVal .done else .done
  else .done

/-- the values of `i` in `for (int i = tid; i < n; i += S)`; at most `fuel` of them -/
def strided (n S : Nat) : Nat → Nat → List Nat
  | 0, _ => []
  | fuel + 1, i => if i < n then i :: strided n S fuel (i + S) else []

/-- reconstruct.cu:101-109 `find_difference_profile`; `S = blockDim.x * gridDim.x` -/
def differenceThread (allBins S tid : Nat) : Thread α :=
  Prog.seqs ((strided allBins S allBins tid).map fun i =>
    if i < allBins then
      ld .profiles (i : Int) fun p => ld .recon (i : Int) fun r => st .diff (i : Int) (p - r) .done
    else .done)

/-- reconstruct.cu:116-124 `compensate_particle_amount` -/
def compensateThread (nprof nbins tid : Nat) : Thread α :=
  if tid < nprof * nbins then
    ld .diff (tid : Int) fun d => ld .rparts (tid : Int) fun r => st .diff (tid : Int) (d * r) .done
  else .done

/-- reconstruct.cu:130-142 `count_particles_in_bin` -/
def countThread (nprof npart nbins tid : Nat) : Thread α :=
  if tid < npart * nprof then
    ldi .coords (tid : Int) fun bin =>
      .atomic (.real .rparts ((tid % nprof * nbins : Nat) + bin)) (fun c : α => c + 1) .done
  else .done

/-- reconstruct.cu:148-161 `calculate_reciprocal` -/
def reciprocalThread (maxVal : α) (nbins nprof tid : Nat) : Thread α :=
  if tid < nprof * nbins then
    ld .rparts (tid : Int) fun v =>
      if v = 0 then
        st .rparts (tid : Int) 1 <| ld .rparts (tid : Int) fun v => quot maxVal v fun q => st .rparts (tid : Int) q .done
      else ld .rparts (tid : Int) fun v => quot maxVal v fun q => st .rparts (tid : Int) q .done
  else .done

/-- reconstruct.cu:168-175 `create_flat_points` -/
def flatPointsThread (npart nprof nbins tid : Nat) : Thread α :=
  if tid < npart * nprof then
    ldi .points (tid : Int) fun v => sti .points (tid : Int) (v + (nbins * (tid % nprof) : Nat)) .done
  else .done

/-- reconstruct.cu:31-33, 44-52: the indices visited by one block of `back_project`: over the iterations `i`, the threads `t`
and the items `j` of a thread; `B` is BLOCK_SIZE -/
def blockIndices (B nprof : Nat) : List Nat :=
  let items := 512 / B
  let perIt := B * items
  (List.range ((nprof + perIt - 1) / perIt)).flatMap fun i =>
    (List.range B).flatMap fun t => (List.range items).map fun j => i * perIt + j * B + t

/-- reconstruct.cu:44-55: the values at `l` are collected and added up (`BlockReduce::Sum`), then `k` of the total -/
def gather (nprof b : Nat) (k : α → Thread α) : List Nat → α → Thread α
  | [], s => k s
  | index :: l, s =>
    if index < nprof then
      ldi .points ((b * nprof + index : Nat) : Int) fun q => ld .profiles q fun v => gather nprof b k l (s + v)
    else gather nprof b k l (s + 0)

/-- reconstruct.cu:26-61 `back_project`, one block (one particle).  The threads of a block only read until their values are
combined, so the block is one thread here, adding in the order `l` of the indices; thread 0 writes the result. -/
def backProjectBlock (nprof : Nat) (l : List Nat) (b : Nat) : Thread α :=
  gather nprof b (fun aggregate => ld .weights (b : Int) fun w => st .weights (b : Int) (w + aggregate) .done) l 0

/-! ## Effect of the launches -/

/-- reconstruct_cuda.py:41-48 -/
def project (B : Nat) (flatRec : List α) (fp : List Int) (weights : List α) (npart nprof : Nat) : M (List α) :=
  forN (threads (npart * nprof) B) (fun tid rec =>
    if tid < npart * nprof then do
      let idx ← rd fp (tid : Int)
      let r ← rd rec idx
      let w ← rd weights ((tid / nprof : Nat) : Int)
      upd rec idx (r + w)
    else pure rec) flatRec

/-- reconstruct_cuda.py:62-68 -/
def clip (B : Nat) (array : List α) (length : Nat) (clipVal : α) : M (List α) :=
  forN (threads length B) (fun tid a =>
    if tid < length then do
      let v ← rd a (tid : Int)
      if v < clipVal then upd a (tid : Int) clipVal else pure a
    else pure a) array

/-- reconstruct_cuda.py:70-77; `empty` is the content of the fresh array (`cp.empty`) -/
def findDifferenceProfile (B : Nat) (empty : Nat → α) (flatRec flatProfiles : List α) : M (List α) :=
  let length := flatRec.length
  forN (threads length B) (fun tid d =>
    (strided length (threads length B) length tid).foldlM (fun d (i : Nat) => do
      let p ← rd flatProfiles (i : Int)
      let r ← rd flatRec (i : Int)
      upd d (i : Int) (p - r)) d) (tab length empty)

/-- reconstruct_cuda.py:86-92 -/
def compensate (B : Nat) (diff rparts : List α) (nprof nbins : Nat) : M (List α) :=
  forN (threads (nprof * nbins) B) (fun tid d =>
    if tid < nprof * nbins then do
      let a ← rd d (tid : Int)
      let r ← rd rparts (tid : Int)
      upd d (tid : Int) (a * r)
    else pure d) diff

/-- reconstruct_cuda.py:101-103 -/
def countParticles (B : Nat) (rparts : List α) (xp : List Int) (nprof npart nbins : Nat) : M (List α) :=
  forN (threads (npart * nprof) B) (fun tid r =>
    if tid < npart * nprof then do
      let bin ← rd xp (tid : Int)
      let c ← rd r ((tid % nprof * nbins : Nat) + bin)
      upd r ((tid % nprof * nbins : Nat) + bin) (c + 1)
    else pure r) rparts

/-- reconstruct_cuda.py:107-109 -/
def takeReciprocal (B : Nat) (maxVal : α) (rparts : List α) (nprof nbins : Nat) : M (List α) :=
  forN (threads (nprof * nbins) B) (fun tid r =>
    if tid < nprof * nbins then do
      let v ← rd r (tid : Int)
      let r ← if v = 0 then upd r (tid : Int) 1 else pure r
      let v ← rd r (tid : Int)
      let q ← FDiv.fdiv maxVal v
      upd r (tid : Int) q
    else pure r) rparts

/-- reconstruct_cuda.py:98-111 `reciprocal_particles` -/
def reciprocalParticles (B : Nat) (rparts : List α) (xp : List Int) (nbins nprof npart : Nat) : M (List α) := do
  let r ← countParticles B rparts xp nprof npart nbins
  let m ← Tomo.npMax r
  takeReciprocal B m r nprof nbins

/-- reconstruct_cuda.py:113-122 `create_flat_points` (works on a copy of xp) -/
def createFlatPoints (B : Nat) (xp : List Int) (npart nprof nbins : Nat) : M (List Int) :=
  forN (threads (npart * nprof) B) (fun tid f =>
    if tid < npart * nprof then do
      let v ← rd f (tid : Int)
      upd f (tid : Int) (v + (nbins * (tid % nprof) : Nat))
    else pure f) xp

/-- reconstruct_cuda.py:30-38 with the kernel reconstruct.cu:26-61; `R` is REDUCTION_BLOCK_SIZE -/
def backProject (R : Nat) (weights : List α) (fp : List Int) (profiles : List α) (npart nprof : Nat) : M (List α) :=
  forN npart (fun b ws => do
    let aggregate ← (blockIndices R nprof).foldlM (fun (s : α) (index : Nat) =>
      if index < nprof then do
        let q ← rd fp ((b * nprof + index : Nat) : Int)
        let v ← rd profiles q
        pure (s + v)
      else pure (s + 0)) (0 : α)
    let w ← rd ws (b : Int)
    upd ws (b : Int) (w + aggregate)) weights

/-- reconstruct_cuda.py:50-60 `normalize` = reconstruct_cupy.py:25-36: `cp.sum` of the rows, division of every element, test of
the total -/
def normalize (flatRec : List α) (nprof nbins : Nat) : M (List α) := do
  let sums ← (List.range nprof).mapM fun (p : Nat) => forN nbins (fun j (s : α) => do
    let v ← rd flatRec ((p * nbins + j : Nat) : Int)
    pure (s + v)) 0
  let rec ← forN (nprof * nbins) (fun k rec => do
    let v ← rd rec (k : Int)
    let s ← rd sums ((k / nbins : Nat) : Int)
    let q ← FDiv.fdiv v s
    upd rec (k : Int) q) flatRec
  if sums.foldl (· + ·) 0 ≤ 0 then .error (.exc .recZero) else pure rec

/-- reconstruct_cuda.py:79-84 `discrepancy` = reconstruct_cupy.py:47-52 -/
def discrepancy (sqrt : α → α) (diff : List α) (nprof nbins : Nat) : M α := do
  let q ← FDiv.fdiv (diff.foldl (fun s d => s + d * d) 0) ((nprof * nbins : Nat) : α)
  pure (sqrt q)

/-- `if cp.sum(weights) <= 0: raise RuntimeError`, reconstruct_cuda.py:143-144, 161-162 -/
def checkWeights (w : List α) : M Unit := if w.foldl (· + ·) 0 ≤ 0 then .error (.exc .allZero) else .ok ()

/-- reconstruct_cuda.py:153-162: one iteration; `B` the block size of the device, `R` that of the reduction -/
def iteration (B R : Nat) (sqrt : α → α) (empty : Nat → α) (fp : List Int) (flatProfiles rparts : List α)
    (nbins npart nprof k : Nat) (st : RState α) : M (RState α) := do
  let rec ← project B st.flatRec fp st.weights npart nprof
  let rec ← normalize rec nprof nbins
  let diff ← findDifferenceProfile B empty rec flatProfiles
  let d ← discrepancy sqrt diff nprof nbins
  let discr ← upd st.discr (k : Int) d
  let diff ← compensate B diff rparts nprof nbins
  let w ← backProject R st.weights fp diff npart nprof
  let w ← clip B w npart 0
  checkWeights w
  pure ⟨w, rec, discr⟩

/-- reconstruct_cuda.py:124-173 `reconstruct_cuda`.  First component: the calls of `callback` — there are none, the parameter is
not used.  `flat_rec` is not cleared between the iterations. -/
def reconstruct (B R : Nat) (sqrt : α → α) (empty : Nat → α) (xp : List Int) (flatProfiles : List α)
    (niter nbins npart nprof : Nat) : List (Nat × Nat) × M (RState α) :=
  ([], do
    let rparts ← reciprocalParticles B (tab (nprof * nbins) fun _ => (0 : α)) xp nbins nprof npart
    let fp ← createFlatPoints B xp npart nprof nbins
    let w ← backProject R (tab npart fun _ => (0 : α)) fp flatProfiles npart nprof
    let w ← clip B w npart 0
    checkWeights w
    let st ← forN niter (iteration B R sqrt empty fp flatProfiles rparts nbins npart nprof)
      ⟨w, tab (nprof * nbins) fun _ => 0, tab (niter + 1) fun _ => 0⟩
    let rec ← project B st.flatRec fp st.weights npart nprof
    let rec ← normalize rec nprof nbins
    let diff ← findDifferenceProfile B empty rec flatProfiles
    let d ← discrepancy sqrt diff nprof nbins
    let discr ← upd st.discr (niter : Int) d
    pure ⟨st.weights, rec, discr⟩)

/-- cuda_kernels/__init__.py:5 -/
def reductionBlockSize : Nat := 32

/-! ## reconstruct_cupy.py

Whole-array operations; `flat_points` and `xp` are the `(n_particles, n_profiles)` arrays in row-major order. -/

/-- reconstruct_cupy.py:12-17 -/
def backProjectCupy (weights : List α) (fp : List Int) (profiles : List α) (npart nprof : Nat) : M (List α) := do
  let sums ← (List.range npart).mapM fun (i : Nat) => forN nprof (fun j (s : α) => do
    let q ← rd fp ((i * nprof + j : Nat) : Int)
    let v ← rd profiles q
    pure (s + v)) 0
  Tomo.zip2 (· + ·) sums weights

/-- reconstruct_cupy.py:19-23; a point outside the image would make `bincount` raise or return a longer array: `oob` here -/
def projectCupy (flatRec : List α) (fp : List Int) (weights : List α) (npart nprof nbins : Nat) : M (List α) := do
  let counts ← forN (npart * nprof) (fun k c => do
    let idx ← rd fp (k : Int)
    let r ← rd c idx
    let w ← rd weights ((k / nprof : Nat) : Int)
    upd c idx (r + w)) (tab (nprof * nbins) fun _ => (0 : α))
  Tomo.zip2 (· + ·) counts flatRec

/-- reconstruct_cupy.py:38-41 -/
def clipCupy (array : List α) (clipVal : α) : List α := array.map fun v => if v < clipVal then clipVal else v

/-- reconstruct_cupy.py:63-71: `cp.histogram` of column `j` with the edges 0, 1, …, nbins (the last bin includes its right edge) -/
def countCupy (xp : List Int) (nprof npart nbins : Nat) : M (List Nat) :=
  (List.range (nprof * nbins)).mapM fun k => do
    let col ← (List.range npart).mapM fun (i : Nat) => rd xp ((i * nprof + k / nbins : Nat) : Int)
    let b : Int := (k % nbins : Nat)
    pure (col.countP fun v => v = b ∨ (k % nbins + 1 = nbins ∧ v = b + 1))

/-- reconstruct_cupy.py:59-61, 78: `cp.max(rparts[:n_profiles, :n_particles])` of the `(n_profiles, n_bins)` array: only the
first `n_particles` bins are looked at -/
def max2d (counts : List Nat) (nbins xAxis : Nat) : M Nat :=
  Tomo.npMax (α := Nat) ((counts.zipIdx.filter fun e => decide (e.2 % nbins < xAxis)).map Prod.fst)

/-- reconstruct_cupy.py:73-84 `reciprocal_particles` -/
def reciprocalParticlesCupy (xp : List Int) (nbins nprof npart : Nat) : M (List α) := do
  let counts ← countCupy xp nprof npart nbins
  let m ← max2d counts nbins npart
  Tomo.divInto (m : α) (counts.map fun c => ((if c = 0 then 1 else c : Nat) : α))

/-- reconstruct_cupy.py:86-92 -/
def createFlatPointsCupy (xp : List Int) (nprof nbins : Nat) : List Int :=
  (xp.zipIdx).map fun e => e.1 + (e.2 % nprof * nbins : Nat)

/-- reconstruct_cupy.py:120-134: one iteration -/
def iterationCupy (sqrt : α → α) (fp : List Int) (flatProfiles rparts : List α) (nbins npart nprof k : Nat) (st : RState α) :
    M (RState α) := do
  let rec ← projectCupy st.flatRec fp st.weights npart nprof nbins
  let rec ← normalize rec nprof nbins
  let diff ← Tomo.zip2 (· - ·) flatProfiles rec
  let d ← discrepancy sqrt diff nprof nbins
  let discr ← upd st.discr (k : Int) d
  let diff ← Tomo.zip2 (· * ·) diff rparts
  let w ← backProjectCupy st.weights fp diff npart nprof
  let w := clipCupy w 0
  checkWeights w
  pure ⟨w, rec, discr⟩

/-- reconstruct_cupy.py:94-145 `reconstruct_cupy` -/
def reconstructCupy (sqrt : α → α) (xp : List Int) (flatProfiles : List α) (niter nbins npart nprof : Nat) : M (RState α) := do
  let rparts ← reciprocalParticlesCupy (α := α) xp nbins nprof npart
  let fp := createFlatPointsCupy xp nprof nbins
  let w ← backProjectCupy (tab npart fun _ => (0 : α)) fp flatProfiles npart nprof
  let w := clipCupy w 0
  checkWeights w
  let st ← forN niter (iterationCupy sqrt fp flatProfiles rparts nbins npart nprof)
    ⟨w, tab (nprof * nbins) fun _ => 0, tab (niter + 1) fun _ => 0⟩
  let rec ← projectCupy st.flatRec fp st.weights npart nprof nbins
  let rec ← normalize rec nprof nbins
  let diff ← Tomo.zip2 (· - ·) flatProfiles rec
  let d ← discrepancy sqrt diff nprof nbins
  let discr ← upd st.discr (niter : Int) d
  pure ⟨st.weights, rec, discr⟩

end
end Verif.Cuda

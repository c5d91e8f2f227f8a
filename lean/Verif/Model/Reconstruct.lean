import Verif.Core.Buf

/-!
# Model of `cpp_routines/reconstruct.cpp` (single bunch)

Generic in the number type `α`: theorems take `α` an ordered field, the NaN witnesses take `α = Fl`.
`sqrt` is a parameter.  OpenMP pragmas are ignored here (see `Model/Omp.lean` for the interleavings).
C `int` is `Int`/`Nat` (no overflow; `Model/Int32.lean` has it).  `verbose` printing is not modelled.
-/

namespace Verif.Recon

variable {α : Type _} [Add α] [Sub α] [Mul α] [Zero α] [One α] [NatCast α]
  [LT α] [LE α] [DecidableLT α] [DecidableLE α] [DecidableEq α] [FDiv α]

/-- reconstruct.cpp:21-29 `back_project`:
`weights[i] += flat_profiles[flat_points[i*nprof+j]]`. -/
def backProject (weights : List α) (flatPoints : List Int) (flatProfiles : List α)
    (npart nprof : Nat) : M (List α) :=
  forN npart (fun i ws =>
    forN nprof (fun j ws => do
      let fp ← rd flatPoints ((i * nprof + j : Nat) : Int)
      let v ← rd flatProfiles fp
      let w ← rd ws (i : Int)
      upd ws (i : Int) (w + v)) ws) weights

/-- reconstruct.cpp:55-62 `project`: `flat_rec[flat_points[i*nprof+j]] += weights[i]`. -/
def project (flatRec : List α) (flatPoints : List Int) (weights : List α)
    (npart nprof : Nat) : M (List α) :=
  forN npart (fun i rec =>
    forN nprof (fun j rec => do
      let fp ← rd flatPoints ((i * nprof + j : Nat) : Int)
      let r ← rd rec fp
      let w ← rd weights (i : Int)
      upd rec fp (r + w)) rec) flatRec

/-- reconstruct.cpp:89-105 `normalize`.  Returns the divided rows, raises `recZero` when the sum over the
whole waterfall is `<= 0` (after the divisions, as in the code). -/
def normalize (flatRec : List α) (nprof nbins : Nat) : M (List α) := do
  let (rec, sumWaterfall) ← forN nprof (fun i (st : List α × α) => do
    let sumProfile ← forN nbins (fun j s => do
      let v ← rd st.1 ((i * nbins + j : Nat) : Int)
      pure (s + v)) (0 : α)
    let rec ← forN nbins (fun j rec => do
      let v ← rd rec ((i * nbins + j : Nat) : Int)
      let q ← FDiv.fdiv v sumProfile
      upd rec ((i * nbins + j : Nat) : Int) q) st.1
    pure (rec, st.2 + sumProfile)) (flatRec, (0 : α))
  if sumWaterfall ≤ 0 then .error (.exc .recZero) else pure rec

/-- reconstruct.cpp:108-115 `clip`. -/
def clip (array : List α) (length : Nat) (clipVal : α) : M (List α) :=
  forN length (fun i a => do
    let v ← rd a (i : Int)
    if v < clipVal then upd a (i : Int) clipVal else pure a) array

/-- reconstruct.cpp:119-134 `find_difference_profile`. -/
def findDifferenceProfile (diffProf flatRec flatProfiles : List α) (allBins : Nat) : M (List α) :=
  forN allBins (fun i d => do
    let p ← rd flatProfiles (i : Int)
    let r ← rd flatRec (i : Int)
    upd d (i : Int) (p - r)) diffProf

/-- reconstruct.cpp:137-148 `discrepancy`; `pow(x, 2.0)` is `x * x`. -/
def discrepancy (sqrt : α → α) (diffProf : List α) (nprof nbins : Nat) : M α := do
  let s ← forN (nprof * nbins) (fun i s => do
    let d ← rd diffProf (i : Int)
    pure (s + d * d)) (0 : α)
  let q ← FDiv.fdiv s ((nprof * nbins : Nat) : α)
  pure (sqrt q)

/-- reconstruct.cpp:177-187 `compensate_particle_amount`. -/
def compensate (diffProf rparts : List α) (nprof nbins : Nat) : M (List α) :=
  forN nprof (fun i d =>
    forN nbins (fun j d => do
      let a ← rd d ((i * nbins + j : Nat) : Int)
      let r ← rd rparts ((i * nbins + j : Nat) : Int)
      upd d ((i * nbins + j : Nat) : Int) (a * r)) d) diffProf

/-- reconstruct.cpp:202-208 `max_1d` (starts at 0). -/
def max1d (arr : List α) (length : Nat) : M α :=
  forN length (fun i m => do
    let v ← rd arr (i : Int)
    if m < v then pure v else pure m) (0 : α)

/-- reconstruct.cpp:212-217 `sum`. -/
def sum (arr : List α) (length : Nat) : M α :=
  forN length (fun i s => do
    let v ← rd arr (i : Int)
    pure (s + v)) (0 : α)

/-- reconstruct.cpp:220-232 `count_particles_in_bin`. -/
def countParticlesInBin (rparts : List α) (xp : List Int) (nprof npart nbins : Nat) : M (List α) :=
  forN npart (fun i r =>
    forN nprof (fun j r => do
      let bin ← rd xp ((i * nprof + j : Nat) : Int)
      let c ← rd r ((j * nbins : Nat) + bin)
      upd r ((j * nbins : Nat) + bin) (c + 1)) r) rparts

/-- reconstruct.cpp:270-273: zeros replaced by ones. -/
def zerosToOnes (rparts : List α) (allBins : Nat) : M (List α) :=
  forN allBins (fun i r => do
    let v ← rd r (i : Int)
    if v = 0 then upd r (i : Int) 1 else pure r) rparts

/-- reconstruct.cpp:276-282: `rparts[idx] = max_bin_val / rparts[idx]`. -/
def takeReciprocal (maxVal : α) (rparts : List α) (nprof nbins : Nat) : M (List α) :=
  forN nprof (fun i r =>
    forN nbins (fun j r => do
      let v ← rd r ((i * nbins + j : Nat) : Int)
      let q ← FDiv.fdiv maxVal v
      upd r ((i * nbins + j : Nat) : Int) q) r) rparts

/-- reconstruct.cpp:258-283 `reciprocal_particles`.  `int max_bin_val = max_1d(..)` truncates an exact
count, i.e. is the identity. -/
def reciprocalParticles (rparts : List α) (xp : List Int) (nbins nprof npart : Nat) : M (List α) := do
  let r ← countParticlesInBin rparts xp nprof npart nbins
  let m ← max1d r (nprof * nbins)
  let r ← zerosToOnes r (nprof * nbins)
  takeReciprocal m r nprof nbins

/-- reconstruct.cpp:317-328 `create_flat_points` (memcpy, then `+= nbins * j`). -/
def createFlatPoints (xp : List Int) (npart nprof nbins : Nat) : M (List Int) :=
  forN npart (fun i f =>
    forN nprof (fun j f => do
      let v ← rd f ((i * nprof + j : Nat) : Int)
      upd f ((i * nprof + j : Nat) : Int) (v + (nbins * j : Nat))) f) xp

/-- The caller-visible arrays mutated by `reconstruct`. -/
structure RState (α : Type _) where
  weights : List α
  flatRec : List α
  discr : List α
  deriving Repr, DecidableEq

/-- reconstruct.cpp:392-396: first back projection, clipping, and the all-zero test. -/
def firstStep (weights : List α) (flatPoints : List Int) (flatProfiles : List α)
    (npart nprof : Nat) : M (List α) := do
  let w ← backProject weights flatPoints flatProfiles npart nprof
  let w ← clip w npart 0
  let s ← sum w npart
  if s ≤ 0 then .error (.exc .allZero) else pure w

/-- reconstruct.cpp:402-418: the body of the iteration loop up to the callback. -/
def iterBody (sqrt : α → α) (flatPoints : List Int) (flatProfiles rparts : List α)
    (nbins npart nprof : Nat) (iteration : Nat) (st : RState α) : M (RState α) := do
  let rec ← project st.flatRec flatPoints st.weights npart nprof
  let rec ← normalize rec nprof nbins
  let diff ← findDifferenceProfile (tab (nprof * nbins) fun _ => 0) rec flatProfiles (nprof * nbins)
  let d ← discrepancy sqrt diff nprof nbins
  let discr ← upd st.discr (iteration : Int) d
  let diff ← compensate diff rparts nprof nbins
  let w ← backProject st.weights flatPoints diff npart nprof
  let w ← clip w npart 0
  let s ← sum w npart
  if s ≤ 0 then .error (.exc .allZero) else pure ⟨w, rec, discr⟩

/-- reconstruct.cpp:401-421: the iteration loop.  First component: the callbacks made so far. -/
def iterLoop (body : Nat → RState α → M (RState α)) (niter : Nat) :
    Nat → RState α → List (Nat × Nat) × M (RState α)
  | 0, st => ([], .ok st)
  | k + 1, st =>
    match iterLoop body niter k st with
    | (log, .error e) => (log, .error e)
    | (log, .ok st') =>
      match body k st' with
      | .error e => (log, .error e)
      | .ok st'' => (log ++ [(k + 1, niter)], .ok st'')

/-- reconstruct.cpp:424-428: final projection and discrepancy. -/
def finalStep (sqrt : α → α) (flatPoints : List Int) (flatProfiles : List α)
    (nbins npart nprof niter : Nat) (st : RState α) : M (RState α) := do
  let rec ← project st.flatRec flatPoints st.weights npart nprof
  let rec ← normalize rec nprof nbins
  let diff ← findDifferenceProfile (tab (nprof * nbins) fun _ => 0) rec flatProfiles (nprof * nbins)
  let d ← discrepancy sqrt diff nprof nbins
  let discr ← upd st.discr (niter : Int) d
  pure ⟨st.weights, rec, discr⟩

/-- reconstruct.cpp:388-390: reciprocals and flattened points. -/
def prepare (xp : List Int) (nbins npart nprof : Nat) : M (List α × List Int) := do
  let rparts ← reciprocalParticles (tab (nprof * nbins) fun _ => (0 : α)) xp nbins nprof npart
  let fp ← createFlatPoints xp npart nprof nbins
  pure (rparts, fp)

/-- reconstruct.cpp:359-441 `reconstruct` on the caller's arrays `st` (weights, flat_rec, discr).
The log lists the calls of the progress callback. -/
def reconstructOn (sqrt : α → α) (st : RState α) (xp : List Int) (flatProfiles : List α)
    (niter nbins npart nprof : Nat) : List (Nat × Nat) × M (RState α) :=
  match prepare (α := α) xp nbins npart nprof with
  | .error e => ([], .error e)
  | .ok (rparts, fp) =>
    match firstStep st.weights fp flatProfiles npart nprof with
    | .error e => ([], .error e)
    | .ok w =>
      match iterLoop (iterBody sqrt fp flatProfiles rparts nbins npart nprof) niter niter
          { st with weights := w } with
      | (log, .error e) => (log, .error e)
      | (log, .ok st') =>
        match finalStep sqrt fp flatProfiles nbins npart nprof niter st' with
        | .error e => (log, .error e)
        | .ok st'' => (log ++ [(niter, niter)], .ok st'')

/-- libtomo.cpp:395-443 `wrapper_reconstruct`: zero-initialised output arrays
weights[n_particles], discr[n_iter+1], recreated[n_profiles*n_bins]. -/
def reconstruct (sqrt : α → α) (xp : List Int) (flatProfiles : List α)
    (niter nbins npart nprof : Nat) : List (Nat × Nat) × M (RState α) :=
  reconstructOn sqrt
    ⟨tab npart fun _ => 0, tab (nprof * nbins) fun _ => 0, tab (niter + 1) fun _ => 0⟩
    xp flatProfiles niter nbins npart nprof

end Verif.Recon

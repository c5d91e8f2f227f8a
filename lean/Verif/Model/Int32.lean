import Verif.Model.Reconstruct
import Verif.Model.Tracking
import Verif.Model.PhaseSpace

/-!
# The C++ routines with 32-bit integers

`reconstruct.cpp`, `kick_and_drift.cpp`, `data_treatment.cpp` and their wrappers with every integer operation checked: a result
that does not fit into an `int` is `Fault.overflow`. The other models compute with unbounded integers. Loop counters need no check:
they run up to a parameter, which is an `int`. `max_bin_val` (reconstruct.cpp:267) is a count of particles and fits.
-/

namespace Verif

/-- the result of an `int` operation -/
def int32 (z : Int) : M Int := if -2147483648 ≤ z ∧ z ≤ 2147483647 then .ok z else .error .overflow

/-- `i * m + j` in `int` -/
def idx32 (i m j : Nat) : M Int := do
  let a ← int32 ((i : Int) * m)
  int32 (a + j)

namespace Recon

variable {α : Type _} [Add α] [Sub α] [Mul α] [Zero α] [One α] [NatCast α]
  [LT α] [LE α] [DecidableLT α] [DecidableLE α] [DecidableEq α] [FDiv α]

/-- reconstruct.cpp:21-29 `back_project` -/
def backProject32 (weights : List α) (flatPoints : List Int) (flatProfiles : List α) (npart nprof : Nat) : M (List α) :=
  forN npart (fun i ws =>
    forN nprof (fun j ws => do
      let k ← idx32 i nprof j
      let fp ← rd flatPoints k
      let v ← rd flatProfiles fp
      let w ← rd ws (i : Int)
      upd ws (i : Int) (w + v)) ws) weights

/-- reconstruct.cpp:55-62 `project` -/
def project32 (flatRec : List α) (flatPoints : List Int) (weights : List α) (npart nprof : Nat) : M (List α) :=
  forN npart (fun i rec =>
    forN nprof (fun j rec => do
      let k ← idx32 i nprof j
      let fp ← rd flatPoints k
      let r ← rd rec fp
      let w ← rd weights (i : Int)
      upd rec fp (r + w)) rec) flatRec

/-- reconstruct.cpp:89-105 `normalize` -/
def normalize32 (flatRec : List α) (nprof nbins : Nat) : M (List α) := do
  let (rec, sumWaterfall) ← forN nprof (fun i (st : List α × α) => do
    let sumProfile ← forN nbins (fun j s => do
      let k ← idx32 i nbins j
      let v ← rd st.1 k
      pure (s + v)) (0 : α)
    let rec ← forN nbins (fun j rec => do
      let k ← idx32 i nbins j
      let v ← rd rec k
      let q ← FDiv.fdiv v sumProfile
      upd rec k q) st.1
    pure (rec, st.2 + sumProfile)) (flatRec, (0 : α))
  if sumWaterfall ≤ 0 then .error (.exc .recZero) else pure rec

/-- reconstruct.cpp:137-148 `discrepancy`: the product of lines 140 and 147 -/
def discrepancy32 (sqrt : α → α) (diffProf : List α) (nprof nbins : Nat) : M α := do
  let _ ← int32 ((nprof : Int) * nbins)
  discrepancy sqrt diffProf nprof nbins

/-- reconstruct.cpp:177-187 `compensate_particle_amount` -/
def compensate32 (diffProf rparts : List α) (nprof nbins : Nat) : M (List α) :=
  forN nprof (fun i d =>
    forN nbins (fun j d => do
      let k ← idx32 i nbins j
      let a ← rd d k
      let r ← rd rparts k
      upd d k (a * r)) d) diffProf

/-- reconstruct.cpp:220-232 `count_particles_in_bin` -/
def countParticlesInBin32 (rparts : List α) (xp : List Int) (nprof npart nbins : Nat) : M (List α) :=
  forN npart (fun i r =>
    forN nprof (fun j r => do
      let k ← idx32 i nprof j
      let bin ← rd xp k
      let a ← int32 ((j : Int) * nbins)
      let k ← int32 (a + bin)
      let c ← rd r k
      upd r k (c + 1)) r) rparts

/-- reconstruct.cpp:276-282 -/
def takeReciprocal32 (maxVal : α) (rparts : List α) (nprof nbins : Nat) : M (List α) :=
  forN nprof (fun i r =>
    forN nbins (fun j r => do
      let k ← idx32 i nbins j
      let v ← rd r k
      let q ← FDiv.fdiv maxVal v
      upd r k q) r) rparts

/-- reconstruct.cpp:258-283 `reciprocal_particles` -/
def reciprocalParticles32 (rparts : List α) (xp : List Int) (nbins nprof npart : Nat) : M (List α) := do
  let _ ← int32 ((nprof : Int) * nbins)
  let r ← countParticlesInBin32 rparts xp nprof npart nbins
  let m ← max1d r (nprof * nbins)
  let r ← zerosToOnes r (nprof * nbins)
  takeReciprocal32 m r nprof nbins

/-- reconstruct.cpp:317-328 `create_flat_points`: line 323 multiplies two `int`s first -/
def createFlatPoints32 (xp : List Int) (npart nprof nbins : Nat) : M (List Int) := do
  let _ ← int32 ((npart : Int) * nprof)
  forN npart (fun i f =>
    forN nprof (fun j f => do
      let k ← idx32 i nprof j
      let v ← rd f k
      let a ← int32 ((nbins : Int) * j)
      let w ← int32 (v + a)
      upd f k w) f) xp

/-- reconstruct.cpp:392-396 -/
def firstStep32 (weights : List α) (flatPoints : List Int) (flatProfiles : List α) (npart nprof : Nat) : M (List α) := do
  let w ← backProject32 weights flatPoints flatProfiles npart nprof
  let w ← clip w npart 0
  let s ← sum w npart
  if s ≤ 0 then .error (.exc .allZero) else pure w

/-- reconstruct.cpp:402-418; line 420 computes `iteration + 1` -/
def iterBody32 (sqrt : α → α) (flatPoints : List Int) (flatProfiles rparts : List α)
    (nbins npart nprof : Nat) (iteration : Nat) (st : RState α) : M (RState α) := do
  let rec ← project32 st.flatRec flatPoints st.weights npart nprof
  let rec ← normalize32 rec nprof nbins
  let diff ← findDifferenceProfile (tab (nprof * nbins) fun _ => 0) rec flatProfiles (nprof * nbins)
  let d ← discrepancy32 sqrt diff nprof nbins
  let discr ← upd st.discr (iteration : Int) d
  let diff ← compensate32 diff rparts nprof nbins
  let w ← backProject32 st.weights flatPoints diff npart nprof
  let w ← clip w npart 0
  let s ← sum w npart
  if s ≤ 0 then .error (.exc .allZero) else do
    let _ ← int32 ((iteration : Int) + 1)
    pure ⟨w, rec, discr⟩

/-- reconstruct.cpp:424-428 -/
def finalStep32 (sqrt : α → α) (flatPoints : List Int) (flatProfiles : List α)
    (nbins npart nprof niter : Nat) (st : RState α) : M (RState α) := do
  let rec ← project32 st.flatRec flatPoints st.weights npart nprof
  let rec ← normalize32 rec nprof nbins
  let diff ← findDifferenceProfile (tab (nprof * nbins) fun _ => 0) rec flatProfiles (nprof * nbins)
  let d ← discrepancy32 sqrt diff nprof nbins
  let discr ← upd st.discr (niter : Int) d
  pure ⟨st.weights, rec, discr⟩

/-- reconstruct.cpp:372-377, 388-390: sizes of the arrays, reciprocals and flattened points -/
def prepare32 (xp : List Int) (nbins npart nprof : Nat) : M (List α × List Int) := do
  let _ ← int32 ((nprof : Int) * nbins)
  let _ ← int32 ((npart : Int) * nprof)
  let rparts ← reciprocalParticles32 (tab (nprof * nbins) fun _ => (0 : α)) xp nbins nprof npart
  let fp ← createFlatPoints32 xp npart nprof nbins
  pure (rparts, fp)

/-- reconstruct.cpp:359-441 `reconstruct` -/
def reconstructOn32 (sqrt : α → α) (st : RState α) (xp : List Int) (flatProfiles : List α)
    (niter nbins npart nprof : Nat) : List (Nat × Nat) × M (RState α) :=
  match prepare32 (α := α) xp nbins npart nprof with
  | .error e => ([], .error e)
  | .ok (rparts, fp) =>
    match firstStep32 st.weights fp flatProfiles npart nprof with
    | .error e => ([], .error e)
    | .ok w =>
      match iterLoop (iterBody32 sqrt fp flatProfiles rparts nbins npart nprof) niter niter { st with weights := w } with
      | (log, .error e) => (log, .error e)
      | (log, .ok st') =>
        match finalStep32 sqrt fp flatProfiles nbins npart nprof niter st' with
        | .error e => (log, .error e)
        | .ok st'' => (log ++ [(niter, niter)], .ok st'')

/-- the size of an array computed before a routine that reports its progress -/
def sized {β : Type _} (size : M Int) (rest : List (Nat × Nat) × M β) : List (Nat × Nat) × M β :=
  match size with
  | .error e => ([], .error e)
  | .ok _ => rest

/-- libtomo.cpp:395-443 `wrapper_reconstruct`: sizes of lines 410 and 412 -/
def reconstruct32 (sqrt : α → α) (xp : List Int) (flatProfiles : List α) (niter nbins npart nprof : Nat) :
    List (Nat × Nat) × M (RState α) :=
  sized (int32 ((niter : Int) + 1)) (sized (int32 ((nprof : Int) * nbins))
    (reconstructOn32 sqrt ⟨tab npart fun _ => 0, tab (nprof * nbins) fun _ => 0, tab (niter + 1) fun _ => 0⟩
      xp flatProfiles niter nbins npart nprof))

end Recon

namespace Img
variable {α : Type _} [Add α] [Zero α]

/-- data_treatment.cpp:27-32: one iteration of the loop of `make_phase_space` -/
def cellBody32 (xp yp : List Int) (weight : List α) (nbins : Nat) (i : Nat) (ps : List α) : M (List α) := do
  let y ← rd yp (i : Int)
  let x ← rd xp (i : Int)
  let a ← int32 (x * (nbins : Int))
  let index ← int32 (y + a)
  if index ≥ ((nbins * nbins : Nat) : Int) then .error (.exc .outOfRange)
  else do
    let v ← rd ps index
    let w ← rd weight (i : Int)
    upd ps index (v + w)

/-- data_treatment.cpp:22-35 `make_phase_space` -/
def makePhaseSpace32 (xp yp : List Int) (weight : List α) (nbins : Nat) : M (List α) := do
  let _ ← int32 ((nbins : Int) * nbins)
  forN xp.length (cellBody32 xp yp weight nbins) (tab (nbins * nbins) fun _ => 0)

end Img

namespace Track
variable {α : Type _} [Add α] [Sub α] [Mul α]

/-- One iteration of the upward loop, kick_and_drift.cpp:148-171. -/
def upBody32 (sin : α → α) (m : Mach α) (dturns nturns : Int) (n : Nat) (s : TS α) : M (TS α) := do
  let coef ← rd m.driftCoef s.turn
  let dphi ← driftUp s.dphi s.denergy coef n
  let turn ← int32 (s.turn + 1)
  let v1 ← rd m.rf1v turn
  let v2 ← rd m.rf2v turn
  let p0 ← rd m.phi0 turn
  let p12 ← rd m.phi12 turn
  let acc ← rd m.deltaE0 turn
  let denergy ← kickUp sin dphi s.denergy v1 v2 p0 p12 m.hratio n acc
  if turn.tmod dturns = 0 then do
    let profile ← int32 (s.profile + 1)
    let xp ← storeRow s.xp profile dphi n
    let yp ← storeRow s.yp profile denergy n
    let progress ← int32 (s.progress + 1)
    pure ⟨xp, yp, dphi, denergy, profile, turn, progress, s.calls ++ [(progress, nturns)]⟩
  else do
    let progress ← int32 (s.progress + 1)
    pure ⟨s.xp, s.yp, dphi, denergy, s.profile, turn, progress, s.calls ++ [(progress, nturns)]⟩

/-- One iteration of the downward loop, kick_and_drift.cpp:186-209. -/
def downBody32 (sin : α → α) (m : Mach α) (dturns nturns : Int) (n : Nat) (s : TS α) : M (TS α) := do
  let v1 ← rd m.rf1v s.turn
  let v2 ← rd m.rf2v s.turn
  let p0 ← rd m.phi0 s.turn
  let p12 ← rd m.phi12 s.turn
  let acc ← rd m.deltaE0 s.turn
  let denergy ← kickDown sin s.dphi s.denergy v1 v2 p0 p12 m.hratio n acc
  let turn ← int32 (s.turn - 1)
  let coef ← rd m.driftCoef turn
  let dphi ← driftDown s.dphi denergy coef n
  if turn.tmod dturns = 0 then do
    let profile ← int32 (s.profile - 1)
    let xp ← storeRow s.xp profile dphi n
    let yp ← storeRow s.yp profile denergy n
    let progress ← int32 (s.progress + 1)
    pure ⟨xp, yp, dphi, denergy, profile, turn, progress, s.calls ++ [(progress, nturns)]⟩
  else do
    let progress ← int32 (s.progress + 1)
    pure ⟨s.xp, s.yp, dphi, denergy, s.profile, turn, progress, s.calls ++ [(progress, nturns)]⟩

/-- kick_and_drift.cpp:134, 137 -/
def startProfile32 (recProf deltaturn : Int) : M Int := if deltaturn < 0 then int32 (recProf - 1) else .ok recProf

/-- kick_and_drift.cpp:116-211 `kick_and_drift` -/
def kickAndDrift32 (sin : α → α) (xp yp : List (List α)) (denergy dphi : List α) (m : Mach α)
    (dturns recProf deltaturn nturns : Int) (n : Nat) : M (TS α) := do
  let a ← int32 (recProf * dturns)
  let turn ← int32 (a + deltaturn)
  let profile ← startProfile32 recProf deltaturn
  let xp ← storeRow xp profile dphi n
  let yp ← storeRow yp profile denergy n
  let s ← whileN (nturns - turn).toNat (fun s => decide (s.turn < nturns)) (upBody32 sin m dturns nturns n)
    ⟨xp, yp, dphi, denergy, profile, turn, 0, []⟩
  let profile := recProf
  let turn ← int32 (recProf * dturns)
  if 0 < profile then do
    let dphi ← loadRow s.dphi s.xp recProf n
    let denergy ← loadRow s.denergy s.yp recProf n
    whileN turn.toNat (fun s => decide (0 < s.turn)) (downBody32 sin m dturns nturns n)
      { s with dphi := dphi, denergy := denergy, profile := profile, turn := turn }
  else pure { s with profile := profile, turn := turn }

/-- libtomo.cpp:266-271: the row pointers `&xp[i * nparts]` and `&yp[i * nparts]` -/
def rowPointers32 (nprofiles nparts : Nat) : M Unit := do
  forN nprofiles (fun i _ => do
    let _ ← int32 ((i : Int) * nparts)
    pure ()) ()
  forN nprofiles (fun i _ => do
    let _ ← int32 ((i : Int) * nparts)
    pure ()) ()

/-- libtomo.cpp:229-306 `wrapper_kick_and_drift_array` -/
def wrapperKickAndDrift32 (sin : α → α) (xp yp : List (List α)) (denergy dphi : List α) (m : Mach α)
    (dturns recProf deltaturn nturns : Int) (n : Nat) : M (TS α) := do
  rowPointers32 xp.length n
  kickAndDrift32 sin xp yp denergy dphi m dturns recProf deltaturn nturns n

end Track

end Verif

import Verif.Lemmas.OmpNorm
import Mathlib.Tactic.IntervalCases

/-!
# Parallel loops (C15)

`Always ⟨m, pool⟩ R`: started in memory `m`, the threads of `pool` never run forever, never get stuck, and under every
interleaving of their loads and stores the memory at the barrier satisfies `R` (`Core/Par.lean`).
`parallelFor T own n body`: `T` threads, iteration `i` given to thread `own i` (every schedule).
The number type is arbitrary (no laws are used, so the statements hold for rounded floating-point operations too) except in
`C15_normalize`, where the order of a reduction matters.
-/

set_option linter.unusedSectionVars false

namespace Verif.Props
open Verif.Par Verif.Omp Verif.Spec Verif.Recon Verif.Track Finset

/-! ## General -/

/-- C15: a parallel loop whose iterations write only locations of their own (`own i`), which no other iteration reads or writes,
ends under every schedule and every interleaving with exactly the memory of the serial loop. -/
theorem C15_disjoint_iterations {A : Type} {V : A → Type} [DecidableEq A] {m₀ : Mem A V} {T n : ℕ} {asg : ℕ → ℕ}
    {body : ℕ → Prog A V} (hasg : Assigned T asg n) (shared : A → Prop) (own : ℕ → A → Prop)
    (hd : ∀ i a, shared a → ¬ own i a) (hdis : ∀ i j a, i < n → j < n → i ≠ j → own i a → ¬ own j a)
    (hc : ∀ i, i < n → Conf m₀ shared (own i) (body i)) :
    Always ⟨m₀, parallelFor T asg n body⟩ (fun m => m = serialFor n body m₀) :=
  parallelFor_result hasg hd hdis hc

/-- C15: with one thread every loop — also the racy ones below — is the serial loop. -/
theorem C15_one_thread {A : Type} {V : A → Type} [DecidableEq A] (m₀ : Mem A V) (n : ℕ) (body : ℕ → Prog A V) :
    Always ⟨m₀, parallelFor 1 (fun _ => 0) n body⟩ (fun m => m = serialFor n body m₀) :=
  parallelFor_one n body

section loops
variable {α : Type} [Add α] [Sub α] [Mul α] [Zero α] [One α] [NatCast α] [IntCast α]
  [LT α] [LE α] [DecidableLT α] [DecidableLE α] [DecidableEq α] [FDiv α]
variable {T : ℕ} {asg : ℕ → ℕ} {m₀ : Memory α}

/-! ## The reconstruction -/

/-- C15: `back_project` -/
theorem C15_back_project {npart nprof : ℕ} {ws ws' pf : List α} {fp : List Int} (hasg : Assigned T asg npart)
    (hw : Stores (reals m₀ .weights) ws) (hp : Stores (ints m₀ .points) fp) (hf : Stores (reals m₀ .profiles) pf)
    (h : backProject ws fp pf npart nprof = .ok ws') :
    Always ⟨m₀, parallelFor T asg npart (backProjectBody nprof)⟩
      (fun m => Stores (reals m .weights) ws' ∧ OnlyArray .weights m₀ m) :=
  backProject_region hasg hw hp hf h

/-- C15: `clip` -/
theorem C15_clip {n : ℕ} {a : Omp.Arr} {l l' : List α} {c : α} (hasg : Assigned T asg n) (hl : Stores (reals m₀ a) l)
    (h : clip l n c = .ok l') :
    Always ⟨m₀, parallelFor T asg n (clipBody a c)⟩ (fun m => Stores (reals m a) l' ∧ OnlyArray a m₀ m) :=
  clip_region hasg hl h

/-- C15: `find_difference_profile` -/
theorem C15_difference {n : ℕ} {d d' rc pf : List α} (hasg : Assigned T asg n) (hd : Stores (reals m₀ .diff) d)
    (hr : Stores (reals m₀ .recon) rc) (hf : Stores (reals m₀ .profiles) pf)
    (h : findDifferenceProfile d rc pf n = .ok d') :
    Always ⟨m₀, parallelFor T asg n differenceBody⟩ (fun m => Stores (reals m .diff) d' ∧ OnlyArray .diff m₀ m) :=
  difference_region hasg hd hr hf h

/-- C15: `compensate_particle_amount` -/
theorem C15_compensate {nprof nbins : ℕ} {d d' rp : List α} (hasg : Assigned T asg nprof)
    (hd : Stores (reals m₀ .diff) d) (hr : Stores (reals m₀ .rparts) rp) (h : compensate d rp nprof nbins = .ok d') :
    Always ⟨m₀, parallelFor T asg nprof (compensateBody nbins)⟩
      (fun m => Stores (reals m .diff) d' ∧ OnlyArray .diff m₀ m) :=
  compensate_region hasg hd hr h

/-- C15: the loop replacing empty bins by ones -/
theorem C15_zeros_to_ones {n : ℕ} {l l' : List α} (hasg : Assigned T asg n) (hl : Stores (reals m₀ .rparts) l)
    (h : zerosToOnes l n = .ok l') :
    Always ⟨m₀, parallelFor T asg n zerosToOnesBody⟩ (fun m => Stores (reals m .rparts) l' ∧ OnlyArray .rparts m₀ m) :=
  zerosToOnes_region hasg hl h

/-! ## The tracking -/

/-- C15: `kick_up` -/
theorem C15_kick_up (sin : α → α) (v1 v2 p0 p12 hr acc : α) {n : ℕ} {dp de de' : List α} (hasg : Assigned T asg n)
    (hp : Stores (reals m₀ .dphi) dp) (he : Stores (reals m₀ .denergy) de)
    (h : kickUp sin dp de v1 v2 p0 p12 hr n acc = .ok de') :
    Always ⟨m₀, parallelFor T asg n (kickUpBody sin v1 v2 p0 p12 hr acc)⟩
      (fun m => Stores (reals m .denergy) de' ∧ OnlyArray .denergy m₀ m) :=
  kickUp_region sin v1 v2 p0 p12 hr acc hasg hp he h

/-- C15: `kick_down` -/
theorem C15_kick_down (sin : α → α) (v1 v2 p0 p12 hr acc : α) {n : ℕ} {dp de de' : List α} (hasg : Assigned T asg n)
    (hp : Stores (reals m₀ .dphi) dp) (he : Stores (reals m₀ .denergy) de)
    (h : kickDown sin dp de v1 v2 p0 p12 hr n acc = .ok de') :
    Always ⟨m₀, parallelFor T asg n (kickDownBody sin v1 v2 p0 p12 hr acc)⟩
      (fun m => Stores (reals m .denergy) de' ∧ OnlyArray .denergy m₀ m) :=
  kickDown_region sin v1 v2 p0 p12 hr acc hasg hp he h

/-- C15: `drift_up` -/
theorem C15_drift_up (coef : α) {n : ℕ} {dp de dp' : List α} (hasg : Assigned T asg n)
    (hp : Stores (reals m₀ .dphi) dp) (he : Stores (reals m₀ .denergy) de) (h : driftUp dp de coef n = .ok dp') :
    Always ⟨m₀, parallelFor T asg n (driftUpBody coef)⟩ (fun m => Stores (reals m .dphi) dp' ∧ OnlyArray .dphi m₀ m) :=
  driftUp_region coef hasg hp he h

/-- C15: `drift_down` -/
theorem C15_drift_down (coef : α) {n : ℕ} {dp de dp' : List α} (hasg : Assigned T asg n)
    (hp : Stores (reals m₀ .dphi) dp) (he : Stores (reals m₀ .denergy) de) (h : driftDown dp de coef n = .ok dp') :
    Always ⟨m₀, parallelFor T asg n (driftDownBody coef)⟩ (fun m => Stores (reals m .dphi) dp' ∧ OnlyArray .dphi m₀ m) :=
  driftDown_region coef hasg hp he h

/-- C15: the copy of the particles into the output rows of a profile -/
theorem C15_store_profile {n : ℕ} (p : Int) (hasg : Assigned T asg n) :
    Always ⟨m₀, parallelFor T asg n (storeBody p)⟩ (fun m =>
      (∀ i : ℕ, i < n → m (.real (.xp p) i) = m₀ (.real .dphi i) ∧ m (.real (.yp p) i) = m₀ (.real .denergy i)) ∧
      ∀ x, (∀ i : ℕ, i < n → x ≠ .real (.xp p) i ∧ x ≠ .real (.yp p) i) → m x = m₀ x) :=
  store_region p hasg

/-- C15: the copy back before the downward half of the tracking -/
theorem C15_load_profile {n : ℕ} (p : Int) (hasg : Assigned T asg n) :
    Always ⟨m₀, parallelFor T asg n (loadBody p)⟩ (fun m =>
      (∀ i : ℕ, i < n → m (.real .dphi i) = m₀ (.real (.xp p) i) ∧ m (.real .denergy i) = m₀ (.real (.yp p) i)) ∧
      ∀ x, (∀ i : ℕ, i < n → x ≠ .real .dphi i ∧ x ≠ .real .denergy i) → m x = m₀ x) :=
  load_region p hasg

/-! ## What remains of the racy loops -/

/-- C15 (partial): the reciprocal loop of `reciprocal_particles` with one thread.  Missing: more threads
(`C15_violated_reciprocal`). -/
theorem C15_reciprocal_partial {nprof nbins : ℕ} {mx : α} {l l' : List α} (hl : Stores (reals m₀ .rparts) l)
    (h : takeReciprocal mx l nprof nbins = .ok l') :
    Always ⟨m₀, parallelFor 1 (fun _ => 0) nprof (reciprocalBody mx nbins)⟩ (fun m => Stores (reals m .rparts) l') := by
  have key := parallelFor_one (m₀ := m₀) nprof (reciprocalBody mx nbins)
  refine ⟨key.terminates, key.progress, fun s' hr hf => ?_⟩
  rw [key.result s' hr hf]
  exact (reciprocal_serial hl h).1

/-- C15 (partial): `project_multi` when no two bunches reach a common bin.  Missing: overlapping bunches
(`C15_violated_project_multi`). -/
theorem C15_project_multi_partial {npart nprof ncenter : ℕ} {rc rc' ws : List α} {fp cs : List Int}
    (hasg : Assigned T asg ncenter) (hr : Stores (reals m₀ .recon) rc) (hp : Stores (ints m₀ .points) fp)
    (hcs : Stores (ints m₀ .centers) cs) (hw : Stores (reals m₀ .weights) ws)
    (hsep : ∀ c c' i i' j j' : ℕ, c < ncenter → c' < ncenter → c ≠ c' → i < npart → i' < npart → j < nprof → j' < nprof →
      ints m₀ .points ((i * nprof + j : ℕ) : Int) + ints m₀ .centers (c : Int)
        ≠ ints m₀ .points ((i' * nprof + j' : ℕ) : Int) + ints m₀ .centers (c' : Int))
    (h : Multi.projectMulti rc fp ws cs npart nprof ncenter = .ok rc') :
    Always ⟨m₀, parallelFor T asg ncenter (projectMultiBody npart nprof)⟩
      (fun m => Stores (reals m .recon) rc' ∧ OnlyArray .recon m₀ m) :=
  projectMulti_region hasg hr hp hcs hw hsep h

end loops

/-- C15: `normalize` in exact arithmetic: every row is divided by its sum, and the reduction variable is the total whatever the
order in which the copies of the threads are combined; so "reduced to zeroes" is raised exactly when the serial code raises it.
(With rounding the reduction depends on the order; only the sign test uses it.) -/
theorem C15_normalize {K : Type} [Field K] [LinearOrder K] [IsStrictOrderedRing K] {T nprof nbins : ℕ} {asg : ℕ → ℕ}
    (hasg : Assigned T asg nprof) {r : ℕ → ℕ → K} {m₀ : Memory K}
    (hr : ∀ i j, i < nprof → j < nbins → m₀ (.real .recon ((i * nbins + j : ℕ) : ℤ)) = r i j)
    (hs : ∀ i, i < nprof → Spec.rowSum nbins r i ≠ 0) :
    Always ⟨m₀, normalizePool T asg nprof nbins⟩ (fun m =>
      (∀ i j, i < nprof → j < nbins → m (.real .recon ((i * nbins + j : ℕ) : ℤ)) = r i j / ∑ b ∈ range nbins, r i b) ∧
      ∀ order : List ℕ, order.Perm (List.range T) →
        (reduced m order ≤ 0 ↔ normalize (flat nprof nbins r) nprof nbins = .error (.exc .recZero))) := by
  have key := normalize_pool hasg hr hs
  refine ⟨key.terminates, key.progress, fun s' hreach hf => ?_⟩
  obtain ⟨h1, h2⟩ := key.result s' hreach hf
  refine ⟨h1, fun order hp => ?_⟩
  rw [h2 order hp, normalize_rows r hs]
  constructor
  · intro h; rw [if_pos h]
  · intro h
    by_contra hn
    rw [if_neg hn] at h
    cases h

/-! ## Races

Each theorem: the serial code returns `ok` with some result, the memory holds its arguments, and an interleaving of two threads
ends with something else. -/

/-- a memory from a few buffers -/
def bufs (r : List (Omp.Arr × List ℚ)) (n : List (IArr × List Int)) (b : List Bool) : Memory ℚ :=
  memOf (fun a => (r.lookup a).getD []) (fun a => (n.lookup a).getD []) b

/-- 2 profiles of 2 bins visited by 3 particles: counts [1,2], [2,1] -/
def recipMem : Memory ℚ := bufs [(.rparts, [1, 2, 2, 1])] [] []

/-- C15: the variable `idx` of `reciprocal_particles` is shared between the threads: with two threads a compensation factor is
computed for the wrong bin. -/
theorem C15_violated_reciprocal :
    Stores (reals recipMem .rparts) [1, 2, 2, 1] ∧ takeReciprocal (2 : ℚ) [1, 2, 2, 1] 2 2 = .ok [2, 1, 1, 2] ∧
    Assigned 2 id 2 ∧
    ∃ s', Reach ⟨recipMem, parallelFor 2 id 2 (reciprocalBody (2 : ℚ) 2)⟩ s' ∧ Final s' ∧
      ¬ Stores (reals s'.mem .rparts) [2, 1, 1, 2] := by
  refine ⟨stores_memOf _ _ _ _, by decide +kernel, fun i hi => hi, _,
    exec_reach [0, 1, 0, 0, 0, 0, 0, 0, 0, 0, 0, 1, 1, 1, 1, 1, 1, 1, 1, 1] _ _, final_of_isDone (by decide +kernel), ?_⟩
  intro h
  exact absurd (h 0 2 (by decide +kernel)) (by decide +kernel)

/-- one particle in two profiles of two bins -/
def backMem : Memory ℚ :=
  bufs [(.weights, [0]), (.profiles, [1, 0, 1, 0])] [(.points, [0, 2]), (.centers, [0])] [true]

/-- C15: `collapse(3)` hands the profiles of one particle to different threads, which add to the same weight without
synchronisation: an addition is lost. -/
theorem C15_violated_back_project_multi :
    Stores (reals backMem .weights) [0] ∧ Stores (reals backMem .profiles) [1, 0, 1, 0] ∧
    Stores (ints backMem .points) [0, 2] ∧ Stores (ints backMem .centers) [0] ∧ backMem (.mask 0) = true ∧
    Multi.backProjectMulti [(0 : ℚ)] [0, 2] [1, 0, 1, 0] [true] [0] 1 2 1 = .ok [2] ∧ Assigned 2 id 2 ∧
    ∃ s', Reach ⟨backMem, parallelFor 2 id 2 (backProjectMultiBody 1 2)⟩ s' ∧ Final s' ∧
      s'.mem (.real .weights 0) = (1 : ℚ) := by
  exact ⟨stores_memOf _ _ _ _, stores_memOf _ _ _ _, storesInt_memOf _ _ _ _, storesInt_memOf _ _ _ _, by decide +kernel,
    by decide +kernel, fun i hi => hi, _, exec_reach [0, 0, 0, 0, 0, 1, 1, 1, 1, 1, 0, 1] _ _,
    final_of_isDone (by decide +kernel), by decide +kernel⟩

/-- two bunches two bins apart, two particles two bins apart, one profile -/
def projMem : Memory ℚ :=
  bufs [(.recon, [0, 0, 0, 0, 0]), (.weights, [1, 1, 1, 1])] [(.points, [0, 2]), (.centers, [0, 2])] []

/-- C15: two bunches reaching a common bin add to it from different threads: weight is lost. -/
theorem C15_violated_project_multi :
    Stores (reals projMem .recon) [0, 0, 0, 0, 0] ∧ Stores (reals projMem .weights) [1, 1, 1, 1] ∧
    Stores (ints projMem .points) [0, 2] ∧ Stores (ints projMem .centers) [0, 2] ∧
    Multi.projectMulti [(0 : ℚ), 0, 0, 0, 0] [0, 2] [1, 1, 1, 1] [0, 2] 2 1 2 = .ok [1, 0, 2, 0, 1] ∧ Assigned 2 id 2 ∧
    ∃ s', Reach ⟨projMem, parallelFor 2 id 2 (projectMultiBody 2 1)⟩ s' ∧ Final s' ∧
      s'.mem (.real .recon 2) = (1 : ℚ) := by
  exact ⟨stores_memOf _ _ _ _, stores_memOf _ _ _ _, storesInt_memOf _ _ _ _, storesInt_memOf _ _ _ _,
    by decide +kernel, fun i hi => hi, _, exec_reach [0, 0, 0, 0, 0, 0, 0, 0, 1, 1, 1, 1, 0, 0, 1, 1, 1, 1, 1, 1] _ _,
    final_of_isDone (by decide +kernel), by decide +kernel⟩

/-- one particle, two bunches three bins apart -/
def countMem : Memory ℚ :=
  bufs [(.rparts, [0, 0, 0, 0])] [(.coords, [0]), (.centers, [0, 3])] []

/-- C15: the variable `bin` of `count_particles_in_bin_multi` is shared: particles are counted in the wrong bin. -/
theorem C15_violated_count_multi :
    Stores (reals countMem .rparts) [0, 0, 0, 0] ∧ Stores (ints countMem .coords) [0] ∧
    Stores (ints countMem .centers) [0, 3] ∧ Multi.countMulti [(0 : ℚ), 0, 0, 0] [0] [0, 3] 1 1 4 2 = .ok [1, 0, 0, 1] ∧
    Assigned 2 id 2 ∧
    ∃ s', Reach ⟨countMem, parallelFor 2 id 2 (countMultiBody 1 1 4)⟩ s' ∧ Final s' ∧
      s'.mem (.real .rparts 0) = (0 : ℚ) ∧ s'.mem (.real .rparts 3) = (2 : ℚ) := by
  exact ⟨stores_memOf _ _ _ _, storesInt_memOf _ _ _ _, storesInt_memOf _ _ _ _,
    by decide +kernel, fun i hi => hi, _, exec_reach [0, 0, 0, 1, 1, 1, 0, 0, 0, 1, 1, 1] _ _,
    final_of_isDone (by decide +kernel), by decide +kernel, by decide +kernel⟩

/-- one particle in bins 0 and 2 of two profiles; the bunch keeps bins 1 to 3 -/
def maskMem : Memory ℚ :=
  bufs [] [(.coords, [0, 2]), (.centers, [0]), (.cutleft, [1]), (.cutright, [3])] [true]

/-- C15: the variable `bin` of `create_mask` is shared: a particle outside its bunch is kept. -/
theorem C15_violated_mask :
    Stores (ints maskMem .coords) [0, 2] ∧ Stores (ints maskMem .centers) [0] ∧ Stores (ints maskMem .cutleft) [1] ∧
    Stores (ints maskMem .cutright) [3] ∧ maskMem (.mask 0) = true ∧
    Multi.createMask [0, 2] [0] [1] [3] [true] 1 2 1 = .ok [false] ∧ Assigned 2 id 2 ∧
    ∃ s', Reach ⟨maskMem, parallelFor 2 id 2 (createMaskBody 1 2)⟩ s' ∧ Final s' ∧ s'.mem (.mask 0) = true := by
  exact ⟨storesInt_memOf _ _ _ _, storesInt_memOf _ _ _ _, storesInt_memOf _ _ _ _, storesInt_memOf _ _ _ _, by decide +kernel,
    by decide +kernel, fun i hi => hi, _, exec_reach [0, 0, 0, 1, 1, 1, 0, 0, 0, 0, 1, 1, 1, 1] _ _,
    final_of_isDone (by decide +kernel), by decide +kernel⟩

/-- two bunches of one profile with three samples -/
def discMem : Memory ℚ :=
  bufs [(.diff, [0, 1, 0, 2, 0]), (.disc, [0, 0]), (.squaredSum, [0])] [(.cutleft, [0, 2]), (.cutright, [2, 4])] []

/-- C15: `squared_sum` of `discrepancy_multi` is shared (and never reset, see C46): with two threads the discrepancy stored for
the first bunch contains samples of the second one. -/
theorem C15_violated_discrepancy_multi :
    Stores (reals discMem .diff) [0, 1, 0, 2, 0] ∧ Stores (reals discMem .disc) [0, 0] ∧
    Stores (ints discMem .cutleft) [0, 2] ∧ Stores (ints discMem .cutright) [2, 4] ∧
    Multi.discrepancyMulti (id : ℚ → ℚ) [0, 1, 0, 2, 0] [0, 0] [0, 2] [2, 4] 0 1 5 2 = .ok [1 / 2, 5 / 2] ∧ Assigned 2 id 2 ∧
    ∃ s', Reach ⟨discMem, parallelFor 2 id 2 (discrepancyMultiBody (id : ℚ → ℚ) 0 1 5 2)⟩ s' ∧ Final s' ∧
      s'.mem (.real .disc 0) = (5 / 2 : ℚ) ∧ s'.mem (.real .disc 1) = (2 : ℚ) := by
  exact ⟨stores_memOf _ _ _ _, stores_memOf _ _ _ _, storesInt_memOf _ _ _ _, storesInt_memOf _ _ _ _,
    by decide +kernel, fun i hi => hi, _,
    exec_reach (List.replicate 40 1 ++ List.replicate 40 0) _ _,
    final_of_isDone (by decide +kernel), by decide +kernel, by decide +kernel⟩

/-! ## The hypotheses are met -/

/-- the arrays of the example of C01 -/
def parMem : Memory ℚ :=
  bufs [(.weights, [1, 1, 1]), (.profiles, [3/4, 1/4, 6/5, -1/5]), (.rparts, [1, 0, 2, 0]), (.dphi, [1, 2, 3]),
    (.denergy, [3, 4, 5]), (.diff, [1, 2, 3, 4]), (.recon, [1, 2, 3, 4])] [(.points, [0, 2, 0, 3, 1, 3])] []

-- three particles on two threads, dealt out cyclically
example : Always ⟨parMem, parallelFor 2 (fun i => i % 2) 3 (backProjectBody 2)⟩
    (fun m => Stores (reals m .weights) [1 + 3/4 + 6/5, 1 + 3/4 - 1/5, 1 + 1/4 - 1/5] ∧ OnlyArray .weights parMem m) :=
  C15_back_project (ws := [1, 1, 1]) (pf := [3/4, 1/4, 6/5, -1/5]) (fp := [0, 2, 0, 3, 1, 3])
    (fun i _ => Nat.mod_lt _ (by decide)) (stores_memOf _ _ _ _) (storesInt_memOf _ _ _ _) (stores_memOf _ _ _ _)
    (by decide +kernel)

-- an interleaving of the same loop in which the second thread starts in the middle of the first particle
example : ((exec [0, 0, 0, 1, 1, 1, 1, 0, 0, 0, 0, 1, 1, 1, 1, 0, 0, 0, 0, 0, 0, 0, 0, 0] parMem
      (parallelFor 2 (fun i => i % 2) 3 (backProjectBody 2))).2.all Prog.isDone) = true := by decide +kernel

example : Always ⟨parMem, parallelFor 3 (fun i => i) 2 (compensateBody 2)⟩
    (fun m => Stores (reals m .diff) [1, 0, 6, 0] ∧ OnlyArray .diff parMem m) :=
  C15_compensate (d := [1, 2, 3, 4]) (rp := [1, 0, 2, 0]) (fun i hi => by omega) (stores_memOf _ _ _ _)
    (stores_memOf _ _ _ _) (by decide +kernel)

example : Always ⟨parMem, parallelFor 2 (fun i => i % 2) 3 (driftUpBody (1/2))⟩
    (fun m => Stores (reals m .dphi) [-1/2, 0, 1/2] ∧ OnlyArray .dphi parMem m) :=
  C15_drift_up (1/2) (dp := [1, 2, 3]) (de := [3, 4, 5]) (fun i _ => Nat.mod_lt _ (by decide)) (stores_memOf _ _ _ _)
    (stores_memOf _ _ _ _) (by decide +kernel)

-- the hypotheses of `C15_normalize`: rows 1, 2 and 3, 4
example : (∀ i j : ℕ, i < 2 → j < 2 → parMem (.real .recon ((i * 2 + j : ℕ) : ℤ)) = ((2 * i + j + 1 : ℕ) : ℚ)) ∧
    ∀ i, i < 2 → Spec.rowSum 2 (fun i j => ((2 * i + j + 1 : ℕ) : ℚ)) i ≠ 0 := by
  constructor
  · intro i j hi hj
    interval_cases i <;> interval_cases j <;> decide +kernel
  · intro i hi
    interval_cases i <;> decide +kernel

-- bunches that do not overlap
example : Always ⟨bufs [(.recon, [0, 0, 0, 0]), (.weights, [1, 1, 1, 1])] [(.points, [0, 1]), (.centers, [0, 2])] [],
      parallelFor 2 id 2 (projectMultiBody 2 1)⟩
    (fun m => Stores (reals m .recon) [1, 1, 1, 1] ∧ OnlyArray .recon
      (bufs [(.recon, [0, 0, 0, 0]), (.weights, [1, 1, 1, 1])] [(.points, [0, 1]), (.centers, [0, 2])] []) m) := by
  refine C15_project_multi_partial (rc := [0, 0, 0, 0]) (fp := [0, 1]) (cs := [0, 2]) (ws := [1, 1, 1, 1]) (fun i hi => hi)
    (stores_memOf _ _ _ _) (storesInt_memOf _ _ _ _) (storesInt_memOf _ _ _ _) (stores_memOf _ _ _ _) ?_ (by decide +kernel)
  intro c c' i i' j j' hc hc' hne hi hi' hj hj'
  interval_cases c <;> interval_cases c' <;> interval_cases i <;> interval_cases i' <;> interval_cases j <;>
    interval_cases j' <;> first | exact absurd rfl hne | decide +kernel

end Verif.Props

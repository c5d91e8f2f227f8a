import Verif.Lemmas.CudaThreads
import Verif.Lemmas.Cupy
import Verif.Props.Omp
import Verif.Props.Recon

/-!
# GPU reconstruction (C48, C61)

`grid G B kernel`: the threads of a launch with `G` blocks of `B` threads.  `gridSize n B` is the number of blocks the wrappers
ask for.  Every kernel is compared with the C++ routine of `Model/Reconstruct.lean`.
-/

set_option linter.unusedSectionVars false

namespace Verif.Props
open Verif.Par Verif.Omp Verif.Spec Verif.Recon Verif.Track Finset

/-! ## Every element exactly once -/

/-- C48: for every block size, exactly one of the started threads has number `k`, for every element `k`. -/
theorem C48_exactly_once {B n k : ℕ} (hB : 0 < B) (hk : k < n) :
    ∃! bt : ℕ × ℕ, bt.1 < gridSize n B ∧ bt.2 < B ∧ bt.2 + B * bt.1 = k := by
  have hT := Cuda.lt_threads hB n
  unfold Cuda.threads at hT
  refine ⟨(k / B, k % B), ⟨?_, Nat.mod_lt _ hB, Nat.mod_add_div k B⟩, ?_⟩
  · exact Nat.div_lt_of_lt_mul (by rw [Nat.mul_comm]; omega)
  · rintro ⟨b, t⟩ ⟨_, ht, rfl⟩
    simp only [Prod.mk.injEq]
    constructor
    · rw [Nat.add_mul_div_left _ _ hB, Nat.div_eq_of_lt ht, Nat.zero_add]
    · rw [Nat.add_mul_mod_self_left, Nat.mod_eq_of_lt ht]

/-- C48: a block of `back_project` reads every profile of its particle exactly once, for every block size up to the 512 values a
block handles at a time. -/
theorem C48_back_project_profiles_once {B nprof : ℕ} (hB : 0 < B) (h : B ≤ 512) :
    ((Cuda.blockIndices B nprof).filter fun p => decide (p < nprof)).Perm (List.range nprof) :=
  Cuda.blockIndices_perm hB h

/-! ## Kernels: every interleaving gives the result of the C++ routine -/

section any
variable {α : Type} [Add α] [Sub α] [Mul α] [Zero α] [One α] [NatCast α] [IntCast α]
  [LT α] [LE α] [DecidableLT α] [DecidableLE α] [DecidableEq α] [FDiv α] {m₀ : Memory α}

/-- C48: `clip`, in any arithmetic -/
theorem C48_clip {B n : ℕ} (hB : 0 < B) {a : Omp.Arr} {l l' : List α} {c : α}
    (hl : Stores (reals m₀ a) l) (h : Recon.clip l n c = .ok l') :
    Always ⟨m₀, Cuda.grid (gridSize n B) B (Cuda.clipThread a c n)⟩
      (fun m => Stores (reals m a) l' ∧ OnlyArray a m₀ m) :=
  Cuda.clip_kernel hl ((Cuda.clip_eq hB l n c).trans h)

/-- C48: `compensate_particle_amount`, in any arithmetic -/
theorem C48_compensate {B nprof nbins : ℕ} (hB : 0 < B) {d d' rp : List α}
    (hd : Stores (reals m₀ .diff) d) (hr : Stores (reals m₀ .rparts) rp)
    (h : Recon.compensate d rp nprof nbins = .ok d') :
    Always ⟨m₀, Cuda.grid (gridSize (nprof * nbins) B) B (Cuda.compensateThread nprof nbins)⟩
      (fun m => Stores (reals m .diff) d' ∧ OnlyArray .diff m₀ m) :=
  Cuda.compensate_kernel hd hr ((Cuda.compensate_eq hB d rp nprof nbins).trans h)

/-- C48: `find_difference_profile`, in any arithmetic, whatever the fresh array contains -/
theorem C48_difference {B : ℕ} (hB : 0 < B) {d' rc pf : List α} {empty : ℕ → α}
    (hd : Stores (reals m₀ .diff) (tab rc.length empty)) (hr : Stores (reals m₀ .recon) rc)
    (hf : Stores (reals m₀ .profiles) pf)
    (h : Recon.findDifferenceProfile (tab rc.length empty) rc pf rc.length = .ok d') :
    Always ⟨m₀, Cuda.grid (gridSize rc.length B) B (Cuda.differenceThread rc.length (Cuda.threads rc.length B))⟩
      (fun m => Stores (reals m .diff) d' ∧ OnlyArray .diff m₀ m) :=
  Cuda.difference_kernel hB hd hr hf ((Cuda.difference_eq hB empty rc pf).trans h)

/-- C48: `create_flat_points`: every point is moved to its row once, nothing else changes -/
theorem C48_flat_points {B npart nprof nbins : ℕ} (hB : 0 < B) :
    Always ⟨m₀, Cuda.grid (gridSize (npart * nprof) B) B (Cuda.flatPointsThread npart nprof nbins)⟩ (fun m =>
      (∀ k : ℕ, k < npart * nprof → m (.int .points k) = m₀ (.int .points k) + (nbins * (k % nprof) : ℕ)) ∧
      ∀ x, (∀ k : ℕ, k < npart * nprof → x ≠ .int .points k) → m x = m₀ x) :=
  Cuda.flatPoints_kernel hB

end any

section exact
variable {K : Type} [Field K] [LinearOrder K] [IsStrictOrderedRing K] {m₀ : Memory K}

/-- C48: `project`: the atomic additions in any order (exact arithmetic; with rounding the order shows in the last digits) -/
theorem C48_project {B npart nprof : ℕ} (hB : 0 < B) {rc rc' ws : List K} {fp : List Int}
    (hr : Stores (reals m₀ .recon) rc) (hp : Stores (ints m₀ .points) fp) (hw : Stores (reals m₀ .weights) ws)
    (h : Recon.project rc fp ws npart nprof = .ok rc') :
    Always ⟨m₀, Cuda.grid (gridSize (npart * nprof) B) B (Cuda.projectThread npart nprof)⟩
      (fun m => Stores (reals m .recon) rc' ∧ OnlyArray .recon m₀ m) :=
  Cuda.project_kernel hr hp hw ((Cuda.project_eq hB rc fp ws npart nprof).trans h)

/-- C48: `count_particles_in_bin`: the atomic increments in any order -/
theorem C48_count {B nprof npart nbins : ℕ} (hB : 0 < B) {r r' : List K} {xp : List Int}
    (hr : Stores (reals m₀ .rparts) r) (hx : Stores (ints m₀ .coords) xp)
    (h : Recon.countParticlesInBin r xp nprof npart nbins = .ok r') :
    Always ⟨m₀, Cuda.grid (gridSize (npart * nprof) B) B (Cuda.countThread nprof npart nbins)⟩
      (fun m => Stores (reals m .rparts) r' ∧ OnlyArray .rparts m₀ m) :=
  Cuda.count_kernel hr hx ((Cuda.countParticles_eq hB r xp nprof npart nbins).trans h)

/-- C48: `calculate_reciprocal`: maximum over count, empty bins counted as one (no race, unlike the C++ loop, C15) -/
theorem C48_reciprocal {B nprof nbins : ℕ} (hB : 0 < B) {mx : K} {c : ℕ → K}
    (hr : Stores (reals m₀ .rparts) (tab (nprof * nbins) c)) :
    Always ⟨m₀, Cuda.grid (gridSize (nprof * nbins) B) B (Cuda.reciprocalThread mx nbins nprof)⟩
      (fun m => Stores (reals m .rparts) (tab (nprof * nbins) fun k => mx / (if c k = 0 then 1 else c k)) ∧
        OnlyArray .rparts m₀ m) :=
  Cuda.reciprocal_kernel hr (Cuda.takeReciprocal_ok hB mx c)

/-- C48: `back_project`: particle `i` gains `Σ_p f p (x i p)`, in whatever order the threads of a block combine their values -/
theorem C48_back_project {Q npart nprof nbins : ℕ} (hQ : 0 < Q) (hQ' : Q ≤ 512) {x : ℕ → ℕ → ℕ}
    (hx : InRange npart nprof nbins x) {w : ℕ → K} {f : ℕ → ℕ → K} (order : ℕ → List ℕ)
    (ho : ∀ b, (order b).Perm (Cuda.blockIndices Q nprof))
    (hw : Stores (reals m₀ .weights) (tab npart w)) (hp : Stores (ints m₀ .points) (fpbuf npart nprof nbins x))
    (hf : Stores (reals m₀ .profiles) (flat nprof nbins f)) :
    Always ⟨m₀, tab npart fun b => Cuda.backProjectBlock nprof (order b) b⟩
      (fun m => Stores (reals m .weights) (tab npart fun i => w i + ∑ p ∈ range nprof, f p (x i p)) ∧
        OnlyArray .weights m₀ m) :=
  Cuda.backProject_anyorder hQ hQ' hx order ho hw hp hf

/-! ## The whole reconstruction -/

/-- C48: `reconstruct_cuda` returns exactly the weights, discrepancies and profiles of the C++ `reconstruct`, or fails with the
same error, for every block size and whatever fresh device arrays contain. -/
theorem C48_same_as_cpp {B Q npart nprof nbins : ℕ} {x : ℕ → ℕ → ℕ} (hB : 0 < B) (hQ : 0 < Q) (hQ' : Q ≤ 512) (sqrt : K → K)
    (empty : ℕ → K) (hp : 0 < nprof) (hb : 0 < nbins) (hx : InRange npart nprof nbins x) (wf : ℕ → ℕ → K) (niter : ℕ) :
    (Cuda.reconstruct B Q sqrt empty (xbuf npart nprof x) (flat nprof nbins wf) niter nbins npart nprof).2
      = (Recon.reconstruct sqrt (xbuf npart nprof x) (flat nprof nbins wf) niter nbins npart nprof).2 :=
  Cuda.reconstruct_eq hB hQ hQ' sqrt empty hp hb hx wf niter

/-- C61 (partial): `reconstruct_cupy` returns exactly what the C++ `reconstruct` returns.  Missing: fewer particles than bins
(`C61_violated_few_particles`). -/
theorem C61_same_as_cpp_partial {npart nprof nbins : ℕ} {x : ℕ → ℕ → ℕ} (sqrt : K → K) (hp : 0 < nprof) (hb : 0 < nbins)
    (hn : nbins ≤ npart) (hx : InRange npart nprof nbins x) (wf : ℕ → ℕ → K) (niter : ℕ) :
    Cuda.reconstructCupy sqrt (xbuf npart nprof x) (flat nprof nbins wf) niter nbins npart nprof
      = (Recon.reconstruct sqrt (xbuf npart nprof x) (flat nprof nbins wf) niter nbins npart nprof).2 :=
  Cuda.reconstructCupy_eq sqrt hp hb hn hx wf niter

end exact

/-! ## Deviations -/

/-- C07: the GPU reconstruction never calls the progress callback; the C++ one calls it after every iteration and at the end. -/
theorem C07_violated_gpu :
    (Cuda.reconstruct 4 32 (id : ℚ → ℚ) (fun _ => 7) (xbuf 3 2 x3) (flat 2 2 wf3) 2 2 3 2).1 = [] ∧
    (Recon.reconstruct (id : ℚ → ℚ) (xbuf 3 2 x3) (flat 2 2 wf3) 2 2 3 2).1 = [(1, 2), (2, 2), (2, 2)] := by
  constructor
  · rfl
  · decide +kernel

/-- one particle in the second of two bins, in both of two profiles -/
def xFew : ℕ → ℕ → ℕ := fun _ _ => 1

/-- C61: with fewer particles than bins, `reconstruct_cupy` looks for the fullest bin among the first `n_particles` bins only:
here the compensation factors become 0 instead of 1 (and the second iteration of the C++ code is a different one). -/
theorem C61_violated_few_particles :
    InRange 1 2 2 xFew ∧
    Cuda.reciprocalParticlesCupy (α := ℚ) (xbuf 1 2 xFew) 2 2 1 = .ok [0, 0, 0, 0] ∧
    Recon.reciprocalParticles (tab 4 fun _ => (0 : ℚ)) (xbuf 1 2 xFew) 2 2 1 = .ok [1, 1, 1, 1] ∧
    Cuda.reconstructCupy (id : ℚ → ℚ) (xbuf 1 2 xFew) (flat 2 2 fun _ b => if b = 0 then 1/2 else 1/2) 1 2 1 2
      ≠ (Recon.reconstruct (id : ℚ → ℚ) (xbuf 1 2 xFew) (flat 2 2 fun _ b => if b = 0 then 1/2 else 1/2) 1 2 1 2).2 := by
  refine ⟨fun _ _ _ _ => by unfold xFew; omega, by decide +kernel, by decide +kernel, by decide +kernel⟩

/-! ## The hypotheses are met -/

-- 3 elements, blocks of 2 threads: 2 blocks, 4 threads, the last one idle
example : gridSize 3 2 = 2 ∧ Cuda.threads 3 2 = 4 := by decide

-- 600 profiles, blocks of 32: two rounds of 512 indices
example : (Cuda.blockIndices 32 600).length = 1024 ∧
    ((Cuda.blockIndices 32 600).filter fun p => decide (p < 600)).length = 600 := by decide +kernel

/-- device memory for the kernels -/
def gpuMem : Memory ℚ :=
  bufs [(.weights, [1, 1, 1]), (.profiles, [3/4, 1/4, 6/5, -1/5]), (.rparts, [1, 0, 2, 0]), (.diff, [1, -2, 3, 4]),
    (.recon, [1, 2, 3, 4])] [(.points, [0, 2, 0, 3, 1, 3]), (.coords, [0, 0, 0, 1, 1, 1])] []

example : Always ⟨gpuMem, Cuda.grid (gridSize 4 3) 3 (Cuda.clipThread .diff 0 4)⟩
    (fun m => Stores (reals m .diff) [1, 0, 3, 4] ∧ OnlyArray .diff gpuMem m) :=
  C48_clip (by decide) (l := [1, -2, 3, 4]) (stores_memOf _ _ _ _) (by decide +kernel)

example : Always ⟨gpuMem, Cuda.grid (gridSize (2 * 2) 3) 3 (Cuda.compensateThread 2 2)⟩
    (fun m => Stores (reals m .diff) [1, 0, 6, 0] ∧ OnlyArray .diff gpuMem m) :=
  C48_compensate (by decide) (d := [1, -2, 3, 4]) (rp := [1, 0, 2, 0]) (stores_memOf _ _ _ _) (stores_memOf _ _ _ _)
    (by decide +kernel)

-- two particles share bin 0 of the first profile: the additions are atomic
example : Always ⟨gpuMem, Cuda.grid (gridSize (3 * 2) 4) 4 (Cuda.projectThread 3 2)⟩
    (fun m => Stores (reals m .recon) [3, 3, 4, 6] ∧ OnlyArray .recon gpuMem m) :=
  C48_project (by decide) (rc := [1, 2, 3, 4]) (fp := [0, 2, 0, 3, 1, 3]) (ws := [1, 1, 1]) (stores_memOf _ _ _ _)
    (storesInt_memOf _ _ _ _) (stores_memOf _ _ _ _) (by decide +kernel)

example : Always ⟨gpuMem, Cuda.grid (gridSize (3 * 2) 4) 4 (Cuda.countThread 2 3 2)⟩
    (fun m => Stores (reals m .rparts) [3, 1, 3, 2] ∧ OnlyArray .rparts gpuMem m) :=
  C48_count (by decide) (r := [1, 0, 2, 0]) (xp := [0, 0, 0, 1, 1, 1]) (stores_memOf _ _ _ _)
    (storesInt_memOf _ _ _ _) (by decide +kernel)

-- the fresh array holds 1, -2, 3, 4
example : Always ⟨gpuMem, Cuda.grid (gridSize 4 3) 3 (Cuda.differenceThread 4 (Cuda.threads 4 3))⟩
    (fun m => Stores (reals m .diff) [-1/4, -7/4, -9/5, -21/5] ∧ OnlyArray .diff gpuMem m) :=
  C48_difference (by decide) (rc := [1, 2, 3, 4]) (pf := [3/4, 1/4, 6/5, -1/5]) (empty := fun i => [1, -2, 3, 4].getD i 0)
    (stores_memOf _ _ _ _) (stores_memOf _ _ _ _) (stores_memOf _ _ _ _) (by decide +kernel)

example : InRange 3 2 2 x3 ∧ (Cuda.reconstruct 4 32 (id : ℚ → ℚ) (fun _ => 7) (xbuf 3 2 x3) (flat 2 2 wf3) 2 2 3 2).2
    = (Recon.reconstruct (id : ℚ → ℚ) (xbuf 3 2 x3) (flat 2 2 wf3) 2 2 3 2).2 ∧
    ∃ st, (Recon.reconstruct (id : ℚ → ℚ) (xbuf 3 2 x3) (flat 2 2 wf3) 2 2 3 2).2 = .ok st := by
  refine ⟨by unfold InRange; decide, C48_same_as_cpp (by decide) (by decide) (by decide) _ _ (by decide) (by decide)
    (by unfold InRange; decide) _ _, ?_⟩
  have h : (Recon.reconstruct (id : ℚ → ℚ) (xbuf 3 2 x3) (flat 2 2 wf3) 2 2 3 2).2.isOk = true := by decide +kernel
  revert h
  cases (Recon.reconstruct (id : ℚ → ℚ) (xbuf 3 2 x3) (flat 2 2 wf3) 2 2 3 2).2 with
  | ok st => exact fun _ => ⟨st, rfl⟩
  | error e => intro h; cases h

end Verif.Props

import Verif.Lemmas.ReconBounds
import Mathlib.Analysis.Real.Sqrt

/-!
# Properties of the reconstruction routines (C01–C05, C07–C09, C14)

`K` is any linearly ordered field (exact arithmetic).  Matrices of the statements are laid out in the
flat buffers of the code by `flat`, `xbuf`, `fpbuf` (`Spec/Buffers.lean`).
-/

set_option linter.unusedSectionVars false

namespace Verif.Props
open Finset Verif.Spec Verif.Recon

variable {K : Type} [Field K] [LinearOrder K] [IsStrictOrderedRing K]

/-- `libtomo.reconstruct` on coordinates `x`, waterfall `wf`: (callbacks made, result). -/
abbrev run (sqrt : K → K) (npart nprof nbins : ℕ) (x : ℕ → ℕ → ℕ) (wf : ℕ → ℕ → K) (niter : ℕ) :
    List (ℕ × ℕ) × M (RState K) :=
  reconstruct sqrt (xbuf npart nprof x) (flat nprof nbins wf) niter nbins npart nprof

/-- three particles, two profiles of two bins (used in the examples) -/
def x3 : ℕ → ℕ → ℕ := fun i p => if i = 0 then 0 else if i = 1 then p else 1

/-- a waterfall with a negative sample -/
def wf3 : ℕ → ℕ → ℚ := fun p b => if p = 0 then (if b = 0 then 3/4 else 1/4) else (if b = 0 then 6/5 else -1/5)

theorem x3_inRange : InRange 3 2 2 x3 := by
  intro i _ p hp; unfold x3; split
  · omega
  · split <;> omega

/-! ## C01 -/

/-- C01: `back_project` returns old weight plus the sum of the visited profile values; no access leaves a buffer. -/
theorem C01_back_project {npart nprof nbins : ℕ} {x : ℕ → ℕ → ℕ} (hx : InRange npart nprof nbins x)
    (w : ℕ → K) (f : ℕ → ℕ → K) :
    backProject (tab npart w) (fpbuf npart nprof nbins x) (flat nprof nbins f) npart nprof
      = .ok (tab npart fun i => w i + ∑ p ∈ range nprof, f p (x i p)) :=
  backProject_ok hx w f

/-- C01: back projection is the adjoint of projection. -/
theorem C01_adjoint {npart nprof nbins : ℕ} {x : ℕ → ℕ → ℕ} (hx : InRange npart nprof nbins x)
    (w : ℕ → K) (f : ℕ → ℕ → K) :
    ∃ (r : ℕ → ℕ → K) (v : ℕ → K),
      project (flat nprof nbins fun _ _ => (0 : K)) (fpbuf npart nprof nbins x) (tab npart w) npart nprof
        = .ok (flat nprof nbins r) ∧
      backProject (tab npart fun _ => (0 : K)) (fpbuf npart nprof nbins x) (flat nprof nbins f) npart nprof
        = .ok (tab npart v) ∧
      ∑ p ∈ range nprof, ∑ b ∈ range nbins, r p b * f p b = ∑ i ∈ range npart, w i * v i := by
  refine ⟨_, _, project_ok hx w _, backProject_ok hx _ f, ?_⟩
  simp only [zero_add, proj, backProj, sum_mul, mul_sum]
  rw [sum_comm (s := range npart)]
  apply sum_congr rfl
  intro p hp
  rw [sum_comm]
  apply sum_congr rfl
  intro i hi
  simp only [ite_mul, zero_mul]
  rw [sum_ite_eq, if_pos (mem_range.mpr (hx i (mem_range.mp hi) p (mem_range.mp hp)))]

/-- the flat points of C01 are what `create_flat_points` computes from `xp` -/
theorem C01_flat_points (npart nprof nbins : ℕ) (x : ℕ → ℕ → ℕ) :
    createFlatPoints (xbuf npart nprof x) npart nprof nbins
      = .ok (flat npart nprof fun i p => (x i p : Int) + (nbins * p : ℕ)) :=
  createFlatPoints_ok npart nprof nbins x

example : InRange 3 2 2 x3 := x3_inRange
-- the value is not trivially zero: particle 1 visits bin 0 of profile 0 and bin 1 of profile 1
example : backProject (tab 3 fun _ => (1 : ℚ)) (fpbuf 3 2 2 x3) (flat 2 2 wf3) 3 2
    = .ok [1 + 3/4 + 6/5, 1 + 3/4 - 1/5, 1 + 1/4 - 1/5] := by decide +kernel

/-! ## C02 -/

/-- C02: `project` adds to bin `b` of profile `p` exactly the weights of the particles with `x i p = b`. -/
theorem C02_project {npart nprof nbins : ℕ} {x : ℕ → ℕ → ℕ} (hx : InRange npart nprof nbins x)
    (w : ℕ → K) (r : ℕ → ℕ → K) :
    project (flat nprof nbins r) (fpbuf npart nprof nbins x) (tab npart w) npart nprof
      = .ok (flat nprof nbins fun p b => r p b + ∑ i ∈ (range npart).filter (fun i => x i p = b), w i) := by
  rw [project_ok hx]
  simp only [proj, sum_filter]

/-- C02: every projected profile carries the total weight of the particles. -/
theorem C02_conserves_weight {npart nprof nbins : ℕ} {x : ℕ → ℕ → ℕ} (hx : InRange npart nprof nbins x)
    (w : ℕ → K) :
    ∃ r : ℕ → ℕ → K,
      project (flat nprof nbins fun _ _ => (0 : K)) (fpbuf npart nprof nbins x) (tab npart w) npart nprof
        = .ok (flat nprof nbins r) ∧
      ∀ p, p < nprof → ∑ b ∈ range nbins, r p b = ∑ i ∈ range npart, w i := by
  refine ⟨_, project_ok hx w _, fun p hp => ?_⟩
  simp only [zero_add]
  exact rowSum_proj hx w hp

/-! ## C03 -/

/-- C03: on success every recreated row is non-negative and sums to one. -/
theorem C03_rows_sum_to_one (sqrt : K → K) {npart nprof nbins : ℕ} (hp : 0 < nprof) (hb : 0 < nbins)
    {x : ℕ → ℕ → ℕ} (hx : InRange npart nprof nbins x) (wf : ℕ → ℕ → K) (niter : ℕ) {st : RState K}
    (h : (run sqrt npart nprof nbins x wf niter).2 = .ok st) :
    ∃ r : ℕ → ℕ → K, st.flatRec = flat nprof nbins r ∧ (∀ p b, 0 ≤ r p b) ∧
      ∀ p, p < nprof → ∑ b ∈ range nbins, r p b = 1 := by
  rcases reconstruct_run sqrt hp hb hx wf niter with ⟨hg, he⟩ | ⟨_, he⟩ | ⟨f, _, _, _, he⟩
  · rw [run, he] at h
    cases h
    obtain ⟨h1, h2⟩ := R_nonneg_rowSum (keep := true) (wf := wf) hx (k := niter + 1) (Or.inr (by simpa using hg))
    exact ⟨_, rfl, h1, fun p hp => by have := h2 p hp; rwa [if_neg (by omega)] at this⟩
  · rw [run, he] at h; cases h
  · rw [run, he] at h; cases h

/-- C03, C04, C14: whatever the (finite) waterfall and iteration count, the only failure is the all-zero error:
no division by zero, no access outside a buffer, no "waterfall reduced to zeroes". -/
theorem C03_no_division_by_zero (sqrt : K → K) {npart nprof nbins : ℕ} (hp : 0 < nprof) (hb : 0 < nbins)
    {x : ℕ → ℕ → ℕ} (hx : InRange npart nprof nbins x) (wf : ℕ → ℕ → K) (niter : ℕ) :
    (∃ st, (run sqrt npart nprof nbins x wf niter).2 = .ok st) ∨
      (run sqrt npart nprof nbins x wf niter).2 = .error (.exc .allZero) := by
  rcases reconstruct_run sqrt hp hb hx wf niter with ⟨hg, he⟩ | ⟨_, he⟩ | ⟨f, _, _, _, he⟩
  · exact Or.inl ⟨_, by rw [run, he]⟩
  · exact Or.inr (by rw [run, he])
  · exact Or.inr (by rw [run, he])

-- a run that succeeds, and one that raises (all samples negative)
example : ((run (id : ℚ → ℚ) 3 2 2 x3 wf3 2).2.toOption.isSome) = true := by decide +kernel
example : (run (id : ℚ → ℚ) 3 2 2 x3 (fun _ _ => -1) 2) = ([], .error (.exc .allZero)) := by decide +kernel

/-! ## C04 -/

/-- C04: success means non-negative weights with positive total (one per particle); otherwise the
"reduced to zeroes" error. -/
theorem C04_weights (sqrt : K → K) {npart nprof nbins : ℕ} (hp : 0 < nprof) (hb : 0 < nbins)
    {x : ℕ → ℕ → ℕ} (hx : InRange npart nprof nbins x) (wf : ℕ → ℕ → K) (niter : ℕ) :
    (∃ (st : RState K) (w : ℕ → K), (run sqrt npart nprof nbins x wf niter).2 = .ok st ∧
      st.weights = tab npart w ∧ (∀ i, 0 ≤ w i) ∧ 0 < ∑ i ∈ range npart, w i) ∨
    (run sqrt npart nprof nbins x wf niter).2 = .error (.exc .allZero) := by
  rcases reconstruct_run sqrt hp hb hx wf niter with ⟨hg, he⟩ | ⟨_, he⟩ | ⟨f, _, _, _, he⟩
  · exact Or.inl ⟨_, _, by rw [run, he], rfl, W_nonneg true npart nprof nbins x wf niter, hg niter le_rfl⟩
  · exact Or.inr (by rw [run, he])
  · exact Or.inr (by rw [run, he])

theorem good_zero_iff {npart nprof nbins : ℕ} {x : ℕ → ℕ → ℕ} (wf : ℕ → ℕ → K) :
    Good true npart nprof nbins x wf 0 ↔ ∃ i, i < npart ∧ 0 < ∑ p ∈ range nprof, wf p (x i p) := by
  constructor
  · intro h
    by_contra hn
    have := h 0 le_rfl
    have hz : ∑ i ∈ range npart, W true npart nprof nbins x wf 0 i = 0 := by
      apply sum_eq_zero
      intro i hi
      have : ¬ 0 < ∑ p ∈ range nprof, wf p (x i p) := fun h' => hn ⟨i, mem_range.mp hi, h'⟩
      exact max_eq_right (not_lt.mp this)
    linarith
  · rintro ⟨i, hi, hpos⟩ m hm
    have : m = 0 := by omega
    subst this
    apply sum_pos'
    · intro j _; exact W_nonneg ..
    · exact ⟨i, mem_range.mpr hi, lt_max_of_lt_left hpos⟩

/-- C04: the error before any iteration is raised exactly when no particle collects a positive sum.
(`niter = 0` isolates that point; for every `niter` the condition forces the error with no callback.) -/
theorem C04_initial_error_iff (sqrt : K → K) {npart nprof nbins : ℕ} (hp : 0 < nprof) (hb : 0 < nbins)
    {x : ℕ → ℕ → ℕ} (hx : InRange npart nprof nbins x) (wf : ℕ → ℕ → K) :
    ((run sqrt npart nprof nbins x wf 0).2 = .error (.exc .allZero) ↔
      ∀ i, i < npart → ∑ p ∈ range nprof, wf p (x i p) ≤ 0) ∧
    ((∀ i, i < npart → ∑ p ∈ range nprof, wf p (x i p) ≤ 0) →
      ∀ niter, run sqrt npart nprof nbins x wf niter = ([], .error (.exc .allZero))) := by
  have key : (∀ i, i < npart → ∑ p ∈ range nprof, wf p (x i p) ≤ 0) ↔ ¬ Good true npart nprof nbins x wf 0 := by
    rw [good_zero_iff]
    constructor
    · rintro h ⟨i, hi, h'⟩; exact absurd h' (not_lt.mpr (h i hi))
    · intro h i hi; by_contra hc; exact h ⟨i, hi, not_le.mp hc⟩
  constructor
  · rw [key]
    rcases reconstruct_run sqrt hp hb hx wf 0 with ⟨hg, he⟩ | ⟨hng, he⟩ | ⟨f, hf, _, _, he⟩
    · rw [run, he]; simp [hg]
    · rw [run, he]; simp [hng]
    · omega
  · rw [key]
    intro hng niter
    rcases reconstruct_run sqrt hp hb hx wf niter with ⟨hg, he⟩ | ⟨_, he⟩ | ⟨f, _, hg, _, he⟩
    · exact absurd (fun m hm => hg m (by omega)) hng
    · exact he
    · exact absurd (fun m hm => hg m (by omega)) hng

/-! ## C05 -/

/-- C05: `niter+1` entries; entry `k` is the RMS difference between the measured waterfall and the recreated
waterfall a run of `k` iterations returns (so the last one refers to the returned waterfall), and the history of
a shorter run is a prefix. -/
theorem C05_history (sqrt : K → K) {npart nprof nbins : ℕ} (hp : 0 < nprof) (hb : 0 < nbins)
    {x : ℕ → ℕ → ℕ} (hx : InRange npart nprof nbins x) (wf : ℕ → ℕ → K) (niter : ℕ) {st : RState K}
    (h : (run sqrt npart nprof nbins x wf niter).2 = .ok st) :
    st.discr.length = niter + 1 ∧
    ∀ k, k ≤ niter → ∃ (stk : RState K) (r : ℕ → ℕ → K),
      (run sqrt npart nprof nbins x wf k).2 = .ok stk ∧ stk.flatRec = flat nprof nbins r ∧
      stk.discr = st.discr.take (k + 1) ∧
      st.discr[k]? = some (sqrt ((∑ p ∈ range nprof, ∑ b ∈ range nbins, (wf p b - r p b) ^ 2)
        / ((nprof * nbins : ℕ) : K))) := by
  rcases reconstruct_run sqrt hp hb hx wf niter with ⟨hg, he⟩ | ⟨_, he⟩ | ⟨f, _, _, _, he⟩
  · rw [run, he] at h
    cases h
    refine ⟨by simp, fun k hk => ?_⟩
    rcases reconstruct_run sqrt hp hb hx wf k with ⟨hg', he'⟩ | ⟨hn, _⟩ | ⟨f, hf, _, hn, _⟩
    · refine ⟨_, R true npart nprof nbins x wf (k + 1), by rw [run, he'], rfl, ?_, ?_⟩
      · apply List.ext_getElem?
        intro i
        dsimp only
        rw [List.getElem?_take, getElem?_tab, getElem?_tab]
        by_cases hi : i < k + 1
        · have : i < niter + 1 := by omega
          simp [hi, this]
        · simp [hi]
      · dsimp only
        rw [getElem?_tab, if_pos (by omega)]
        rfl
    · exact absurd (fun m hm => hg m (by omega)) hn
    · exact absurd (fun m hm => hg m (by omega)) hn
  · rw [run, he] at h; cases h
  · rw [run, he] at h; cases h

/-- C05: with a square root (`sqrt a ≥ 0`, `sqrt a ^ 2 = a` for `a ≥ 0`) every entry is non-negative, and the last
is zero exactly when the returned waterfall coincides with the measured one. -/
theorem C05_rms_meaning (sqrt : K → K) (hs : ∀ a, 0 ≤ a → 0 ≤ sqrt a ∧ sqrt a ^ 2 = a)
    {npart nprof nbins : ℕ} (hp : 0 < nprof) (hb : 0 < nbins)
    {x : ℕ → ℕ → ℕ} (hx : InRange npart nprof nbins x) (wf : ℕ → ℕ → K) (niter : ℕ) {st : RState K}
    (h : (run sqrt npart nprof nbins x wf niter).2 = .ok st) :
    (∀ d ∈ st.discr, 0 ≤ d) ∧ (st.discr[niter]? = some 0 ↔ st.flatRec = flat nprof nbins wf) := by
  obtain ⟨hl, hk⟩ := C05_history sqrt hp hb hx wf niter h
  have hN : (0 : K) < ((nprof * nbins : ℕ) : K) := by exact_mod_cast Nat.mul_pos hp hb
  have hnn : ∀ r : ℕ → ℕ → K, 0 ≤ (∑ p ∈ range nprof, ∑ b ∈ range nbins, (wf p b - r p b) ^ 2)
        / ((nprof * nbins : ℕ) : K) := fun r =>
    div_nonneg (sum_nonneg fun p _ => sum_nonneg fun b _ => sq_nonneg _) hN.le
  constructor
  · intro d hd
    obtain ⟨k, hk', rfl⟩ := List.mem_iff_getElem.mp hd
    obtain ⟨stk, r, _, _, _, hd⟩ := hk k (by omega)
    rw [List.getElem?_eq_getElem hk'] at hd
    rw [Option.some.inj hd]
    exact (hs _ (hnn r)).1
  · obtain ⟨stk, r, h1, h2, _, hd⟩ := hk niter le_rfl
    rw [h1] at h
    cases h
    rw [hd, h2]
    constructor
    · intro h0
      have h0 := Option.some.inj h0
      have h0' := (hs _ (hnn r)).2
      rw [h0] at h0'
      have hz : (∑ p ∈ range nprof, ∑ b ∈ range nbins, (wf p b - r p b) ^ 2) = 0 := by
        have : (∑ p ∈ range nprof, ∑ b ∈ range nbins, (wf p b - r p b) ^ 2) / ((nprof * nbins : ℕ) : K) = 0 := by
          rw [← h0']; ring
        rcases div_eq_zero_iff.mp this with h | h
        · exact h
        · exact absurd h hN.ne'
      apply flat_congr
      intro p b hp hb
      rw [sum_eq_zero_iff_of_nonneg (fun p _ => sum_nonneg fun b _ => sq_nonneg _)] at hz
      have := hz p (mem_range.mpr hp)
      rw [sum_eq_zero_iff_of_nonneg (fun b _ => sq_nonneg _)] at this
      have := this b (mem_range.mpr hb)
      have := pow_eq_zero_iff (two_ne_zero) |>.mp this
      linarith [sub_eq_zero.mp this]
    · intro hrw
      have hrw := flat_inj hrw
      have hz : (∑ p ∈ range nprof, ∑ b ∈ range nbins, (wf p b - r p b) ^ 2) = 0 := by
        apply sum_eq_zero; intro p hp
        apply sum_eq_zero; intro b hb
        rw [hrw p b (mem_range.mp hp) (mem_range.mp hb)]; ring
      rw [hz, zero_div]
      have := hs 0 le_rfl
      rw [pow_eq_zero_iff two_ne_zero |>.mp this.2]

-- the hypothesis on `sqrt` is met by the real square root
example : ∀ a : ℝ, 0 ≤ a → 0 ≤ √a ∧ √a ^ 2 = a := fun a h => ⟨Real.sqrt_nonneg a, Real.sq_sqrt h⟩
example : ((run (id : ℚ → ℚ) 3 2 2 x3 wf3 2).2.toOption.map fun s => s.discr.length) = some 3 := by decide +kernel

/-! ## C07 -/

/-- C07: a successful run reports `(1,n), …, (n,n), (n,n)`; a failing run a strict prefix of `(1,n), …, (n,n)`. -/
theorem C07_callbacks (sqrt : K → K) {npart nprof nbins : ℕ} (hp : 0 < nprof) (hb : 0 < nbins)
    {x : ℕ → ℕ → ℕ} (hx : InRange npart nprof nbins x) (wf : ℕ → ℕ → K) (niter : ℕ) :
    (∀ st, (run sqrt npart nprof nbins x wf niter).2 = .ok st →
      (run sqrt npart nprof nbins x wf niter).1
        = (List.range niter).map (fun m => (m + 1, niter)) ++ [(niter, niter)]) ∧
    (∀ e, (run sqrt npart nprof nbins x wf niter).2 = .error e →
      ∃ k, (k < niter ∨ k = 0) ∧
      (run sqrt npart nprof nbins x wf niter).1 = (List.range k).map (fun m => (m + 1, niter))) := by
  rcases reconstruct_run sqrt hp hb hx wf niter with ⟨hg, he⟩ | ⟨_, he⟩ | ⟨f, hf, _, _, he⟩
  · refine ⟨fun st _ => by rw [run, he]; rfl, fun e h => ?_⟩
    rw [run, he] at h; cases h
  · refine ⟨fun st h => ?_, fun e _ => ⟨0, Or.inr rfl, by rw [run, he]; rfl⟩⟩
    rw [run, he] at h; cases h
  · refine ⟨fun st h => ?_, fun e _ => ⟨f, Or.inl hf, by rw [run, he]; rfl⟩⟩
    rw [run, he] at h; cases h

example : (run (id : ℚ → ℚ) 3 2 2 x3 wf3 2).1 = [(1, 2), (2, 2), (2, 2)] := by decide +kernel

/-! ## C08 -/

/-- C08: the factors are (largest count) / (count, empty bins as one); no division by zero. -/
theorem C08_factors {npart nprof nbins : ℕ} {x : ℕ → ℕ → ℕ} (hx : InRange npart nprof nbins x) :
    reciprocalParticles (flat nprof nbins fun _ _ => (0 : K)) (xbuf npart nprof x) nbins nprof npart
      = .ok (flat nprof nbins fun p b =>
          ((range nprof).sup fun q => (range nbins).sup fun c => ((range npart).filter fun i => x i q = c).card : ℕ)
            / ((max 1 ((range npart).filter fun i => x i p = b).card : ℕ) : K)) :=
  reciprocal_ok hx

/-- C08: factors of populated bins are at least one; a most populated bin has factor one. -/
theorem C08_at_least_one {npart nprof nbins : ℕ} {x : ℕ → ℕ → ℕ} :
    (∀ p b, p < nprof → b < nbins → 0 < ((range npart).filter fun i => x i p = b).card →
      1 ≤ recip K npart nprof nbins x p b) ∧
    (0 < npart → 0 < nprof → InRange npart nprof nbins x →
      ∃ p b, p < nprof ∧ b < nbins ∧ recip K npart nprof nbins x p b = 1) := by
  have hle : ∀ p b, p < nprof → b < nbins → count npart x p b ≤ maxCount npart nprof nbins x := by
    intro p b hp hb
    refine le_trans ?_ (le_sup (f := fun q => (range nbins).sup fun c => count npart x q c) (mem_range.mpr hp))
    exact le_sup (f := fun c => count npart x p c) (mem_range.mpr hb)
  constructor
  · intro p b hp hb hc
    have hc' : 0 < count npart x p b := hc
    unfold recip
    rw [max_eq_right hc', one_le_div (by exact_mod_cast hc')]
    exact_mod_cast hle p b hp hb
  · intro hn hpr hx
    have hb : 0 < nbins := by have := hx 0 hn 0 hpr; omega
    obtain ⟨p, hp, h1⟩ := exists_mem_eq_sup (range nprof) ⟨0, mem_range.mpr hpr⟩
      (fun q => (range nbins).sup fun c => count npart x q c)
    obtain ⟨b, hb', h2⟩ := exists_mem_eq_sup (range nbins) ⟨0, mem_range.mpr hb⟩ (fun c => count npart x p c)
    have hm : maxCount npart nprof nbins x = count npart x p b := by
      unfold maxCount; rw [h1]; exact h2
    have h1 : 1 ≤ count npart x p b := by
      rw [← hm]
      refine le_trans ?_ (hle 0 (x 0 0) hpr (hx 0 hn 0 hpr))
      unfold count
      exact card_pos.mpr ⟨0, mem_filter.mpr ⟨mem_range.mpr hn, rfl⟩⟩
    refine ⟨p, b, mem_range.mp hp, mem_range.mp hb', ?_⟩
    unfold recip
    rw [max_eq_right h1, hm, div_self]
    have : (0 : K) < (count npart x p b : K) := by exact_mod_cast h1
    exact this.ne'

example : reciprocalParticles (flat 2 2 fun _ _ => (0 : ℚ)) (xbuf 3 2 x3) 2 2 3 = .ok [1, 2, 2, 1] := by
  decide +kernel

/-! ## C09 -/

/-- C09: each count is the number of particles with that coordinate; each profile's counts sum to `npart`. -/
theorem C09_counts {npart nprof nbins : ℕ} {x : ℕ → ℕ → ℕ} (hx : InRange npart nprof nbins x) :
    ∃ c : ℕ → ℕ → ℕ,
      countParticlesInBin (flat nprof nbins fun _ _ => (0 : K)) (xbuf npart nprof x) nprof npart nbins
        = .ok (flat nprof nbins fun p b => (c p b : K)) ∧
      (∀ p b, c p b = ((range npart).filter fun i => x i p = b).card) ∧
      ∀ p, p < nprof → ∑ b ∈ range nbins, c p b = npart := by
  refine ⟨_, countParticles_ok hx, fun _ _ => rfl, fun p hp => ?_⟩
  have := card_eq_sum_card_fiberwise (f := fun i => x i p) (s := range npart) (t := range nbins)
    (fun i hi => by simpa using hx i (by simpa using hi) p hp)
  rw [card_range] at this
  exact this.symm

/-! ## C14 -/

/-- C14: with accepted coordinates no access leaves a buffer, whatever the iteration count. -/
theorem C14_memory_safe (sqrt : K → K) {npart nprof nbins : ℕ} (hp : 0 < nprof) (hb : 0 < nbins)
    {x : ℕ → ℕ → ℕ} (hx : InRange npart nprof nbins x) (wf : ℕ → ℕ → K) (niter : ℕ) :
    (run sqrt npart nprof nbins x wf niter).2 ≠ .error .oob := by
  rcases C03_no_division_by_zero sqrt hp hb hx wf niter with ⟨st, h⟩ | h <;> rw [h] <;> simp

/-- C14 (converse): for arbitrary integer coordinates the first pass over the coordinates (particle counting)
stays inside its buffer exactly when every `p*nbins + x` is an index of the waterfall; otherwise the whole
reconstruction ends in an access outside the buffer. -/
theorem C14_out_of_image (sqrt : K → K) {npart nprof nbins : ℕ} (xi : ℕ → ℕ → ℤ) (wf : List K) (niter : ℕ)
    (h : ∃ i, i < npart ∧ ∃ p, p < nprof ∧
      ¬ (0 ≤ (p * nbins : ℕ) + xi i p ∧ (p * nbins : ℕ) + xi i p < (nprof * nbins : ℕ))) :
    reconstruct sqrt (flat npart nprof xi) wf niter nbins npart nprof = ([], .error .oob) := by
  unfold reconstruct reconstructOn prepare reciprocalParticles
  rw [(countParticles_total (K := K) xi).2 h]
  rfl

/-- C14 (converse): a coordinate outside the image always addresses another profile or no profile at all. -/
theorem C14_outside_aliases {nbins p : ℕ} {z : ℤ} (h : ¬ (0 ≤ z ∧ z < nbins)) :
    ¬ ((p * nbins : ℕ) ≤ (p * nbins : ℕ) + z ∧ ((p * nbins : ℕ) : ℤ) + z < ((p + 1) * nbins : ℕ)) := by
  rintro ⟨h1, h2⟩
  apply h
  constructor
  · omega
  · push_cast at h2 ⊢
    nlinarith

-- a coordinate one past the image in the last profile: the access leaves the buffer
example : reconstruct (id : ℚ → ℚ) [0, 2] [1, 1, 1, 1] 1 2 1 2 = ([], .error .oob) := by decide +kernel
-- the same in an earlier profile silently aliases bin 0 of the next one
example : countParticlesInBin (tab 4 fun _ => (0 : ℚ)) [2, 0] 2 1 2 = .ok [0, 0, 2, 0] := by decide +kernel

end Verif.Props

import Verif.Props.Recon
import Verif.Lemmas.ReconPerm
import Verif.Lemmas.Nan
import Mathlib.Tactic.IntervalCases

/-!
# Properties of the `Tomography` object (C06, C08, C10–C13)
-/

set_option linter.unusedSectionVars false

namespace Verif.Props
open Finset Verif.Spec Verif.Recon Verif.Tomo

variable {K : Type} [Field K] [LinearOrder K] [IsStrictOrderedRing K]

/-- `Tomography.run_hybrid` on coordinates `x`, (normalised) waterfall `wf`. -/
abbrev hybrid (sqrt : K → K) (npart nprof nbins : ℕ) (x : ℕ → ℕ → ℕ) (wf : ℕ → ℕ → K) (niter : ℕ) : M (RState K) :=
  runHybrid sqrt (xbuf npart nprof x) (flat nprof nbins wf) niter nbins npart nprof

/-! ## C06 -/

/-- C06 for the python reference implementation: the recreated waterfall is the normalised projection of the
returned weights, for every iteration count. -/
theorem C06_hybrid_recreated (sqrt : K → K) {npart nprof nbins : ℕ} (hn : 0 < npart) (hp : 0 < nprof)
    {x : ℕ → ℕ → ℕ} (hx : InRange npart nprof nbins x) (wf : ℕ → ℕ → K) (niter : ℕ) {st : RState K}
    (h : hybrid sqrt npart nprof nbins x wf niter = .ok st) :
    ∃ w : ℕ → K, st.weights = tab npart w ∧ st.flatRec = flat nprof nbins fun p b =>
      (∑ i ∈ range npart, if x i p = b then w i else 0)
        / ∑ c ∈ range nbins, ∑ i ∈ range npart, if x i p = c then w i else 0 := by
  rcases runHybrid_run sqrt hn hp hx wf niter with ⟨_, he⟩ | ⟨_, he⟩
  · rw [hybrid, he] at h
    cases h
    exact ⟨_, rfl, by rw [R_false_succ]; rfl⟩
  · rw [hybrid, he] at h; cases h

/-- the two implementations run through the same states up to the weights of iteration 1 -/
theorem seq_agree_one {npart nprof nbins : ℕ} (x : ℕ → ℕ → ℕ) (wf : ℕ → ℕ → K) :
    seq true npart nprof nbins x wf 1 = seq false npart nprof nbins x wf 1 := by
  simp [seq, seqStep]

/-- C06, part that holds of the C++ code: without iterations both implementations return the same weights,
history and recreated waterfall, which is then the normalised projection; they fail on the same inputs. -/
theorem C06_agree_without_iterations_partial (sqrt : K → K) {npart nprof nbins : ℕ} (hn : 0 < npart) (hp : 0 < nprof)
    {x : ℕ → ℕ → ℕ} (hx : InRange npart nprof nbins x) (wf : ℕ → ℕ → K) (st : RState K) :
    (run sqrt npart nprof nbins x wf 0).2 = .ok st ↔ hybrid sqrt npart nprof nbins x wf 0 = .ok st := by
  have hb : 0 < nbins := by have := hx 0 hn 0 hp; omega
  have hg : Good true npart nprof nbins x wf 0 ↔ Good false npart nprof nbins x wf 0 := by
    constructor
    · intro h m hm
      have : m = 0 := by omega
      subst this; exact h 0 le_rfl
    · intro h m hm
      have : m = 0 := by omega
      subst this; exact h 0 le_rfl
  have hR : R true npart nprof nbins x wf 1 = R false npart nprof nbins x wf 1 := by
    unfold R; rw [seq_agree_one]
  have hm : msq true npart nprof nbins x wf 0 = msq false npart nprof nbins x wf 0 := by
    unfold msq; rw [hR]
  rcases reconstruct_run sqrt hp hb hx wf 0 with ⟨hg', he⟩ | ⟨hg', he⟩ | ⟨f, hf, _⟩
  · rcases runHybrid_run sqrt hn hp hx wf 0 with ⟨_, he'⟩ | ⟨hg'', he'⟩
    · rw [run, he, hybrid, he', hR]
      have : (tab (0 + 1) fun m => sqrt (msq true npart nprof nbins x wf m))
          = tab (0 + 1) fun m => sqrt (msq false npart nprof nbins x wf m) := by
        apply tab_congr; intro m h
        have : m = 0 := by omega
        subst this; rw [hm]
      rw [this]; rfl
    · exact absurd (hg.mp hg') hg''
  · rcases runHybrid_run sqrt hn hp hx wf 0 with ⟨hg'', he'⟩ | ⟨hg'', he'⟩
    · exact absurd (hg.mpr hg'') hg'
    · rw [run, he, hybrid, he']; simp
  · omega

/-- C06, part that holds of the C++ code: after one iteration the weights still agree. -/
theorem C06_agree_first_weights_partial (sqrt : K → K) {npart nprof nbins : ℕ} (hn : 0 < npart) (hp : 0 < nprof)
    {x : ℕ → ℕ → ℕ} (hx : InRange npart nprof nbins x) (wf : ℕ → ℕ → K) {s t : RState K}
    (h1 : (run sqrt npart nprof nbins x wf 1).2 = .ok s) (h2 : hybrid sqrt npart nprof nbins x wf 1 = .ok t) :
    s.weights = t.weights ∧ s.discr[0]? = t.discr[0]? := by
  have hb : 0 < nbins := by have := hx 0 hn 0 hp; omega
  have hR : R true npart nprof nbins x wf 1 = R false npart nprof nbins x wf 1 := by
    unfold R; rw [seq_agree_one]
  rcases reconstruct_run sqrt hp hb hx wf 1 with ⟨_, he⟩ | ⟨_, he⟩ | ⟨f, _, _, _, he⟩
  · rcases runHybrid_run sqrt hn hp hx wf 1 with ⟨_, he'⟩ | ⟨_, he'⟩
    · rw [run, he] at h1
      rw [hybrid, he'] at h2
      cases h1; cases h2
      constructor
      · dsimp only; unfold W; rw [seq_agree_one]
      · simp only [getElem?_tab, msq]; rw [hR]
    · rw [hybrid, he'] at h2; cases h2
  · rw [run, he] at h1; cases h1
  · rw [run, he] at h1; cases h1

/-- What the C++ code returns instead: with `niter ≥ 1` the recreated waterfall is the projection of the returned
weights added on top of the recreated waterfall of the run with one iteration less, divided by `1 + total weight`. -/
theorem C06_cpp_recreated (sqrt : K → K) {npart nprof nbins : ℕ} (hp : 0 < nprof) (hb : 0 < nbins)
    {x : ℕ → ℕ → ℕ} (hx : InRange npart nprof nbins x) (wf : ℕ → ℕ → K) (niter : ℕ) {st : RState K}
    (h : (run sqrt npart nprof nbins x wf (niter + 1)).2 = .ok st) :
    ∃ (w : ℕ → K) (stp : RState K) (r : ℕ → ℕ → K), st.weights = tab npart w ∧
      (run sqrt npart nprof nbins x wf niter).2 = .ok stp ∧ stp.flatRec = flat nprof nbins r ∧
      st.flatRec = flat nprof nbins fun p b =>
        (r p b + ∑ i ∈ range npart, if x i p = b then w i else 0) / (1 + ∑ i ∈ range npart, w i) := by
  rcases reconstruct_run sqrt hp hb hx wf (niter + 1) with ⟨hg, he⟩ | ⟨_, he⟩ | ⟨f, _, _, _, he⟩
  · rw [run, he] at h
    cases h
    rcases reconstruct_run sqrt hp hb hx wf niter with ⟨hg', he'⟩ | ⟨hn, _⟩ | ⟨f, hf, _, hn, _⟩
    · refine ⟨_, _, R true npart nprof nbins x wf (niter + 1), rfl, by rw [run, he'], rfl, ?_⟩
      dsimp only
      rw [R_succ true npart nprof nbins x wf (niter + 1)]
      apply flat_congr
      intro p b hp' _
      simp only [if_true]
      unfold normRows
      rw [rowSum_add, rowSum_proj hx _ hp']
      have := (R_nonneg_rowSum (keep := true) (wf := wf) hx (k := niter + 1) (Or.inr (by simpa using hg'))).2 p hp'
      rw [this, if_neg (by omega)]
      rfl
    · exact absurd (fun m hm => hg m (by omega)) hn
    · exact absurd (fun m hm => hg m (by omega)) hn
  · rw [run, he] at h; cases h
  · rw [run, he] at h; cases h

/-- flat waterfall of the witness -/
def wfHalf : ℕ → ℕ → ℚ := fun _ _ => 1/2

/-- C06 violated: three particles, two profiles of two bins, one iteration.  The C++ run succeeds, but its recreated
waterfall is not the normalised projection of its weights, and it differs from what `run_hybrid` returns (5/8 against
11/18 in the first bin), for every square root function. -/
theorem C06_violated_recreated (sqrt : ℚ → ℚ) :
    ∃ s t : RState ℚ, (run sqrt 3 2 2 x3 wfHalf 1).2 = .ok s ∧ hybrid sqrt 3 2 2 x3 wfHalf 1 = .ok t ∧
      s.weights = [7/6, 2/3, 7/6] ∧ t.weights = s.weights ∧
      s.flatRec = [5/8, 3/8, 3/8, 5/8] ∧ t.flatRec = [11/18, 7/18, 7/18, 11/18] := by
  have g1 : Good true 3 2 2 x3 wfHalf 1 := by
    intro m hm
    interval_cases m <;> decide +kernel
  have g2 : Good false 3 2 2 x3 wfHalf 1 := by
    intro m hm
    interval_cases m <;> decide +kernel
  rcases reconstruct_run sqrt (by norm_num) (by norm_num) x3_inRange wfHalf 1 with ⟨_, he⟩ | ⟨hn, _⟩ | ⟨f, hf, _, hn, _⟩
  · rcases runHybrid_run sqrt (by norm_num) (by norm_num) x3_inRange wfHalf 1 with ⟨_, he'⟩ | ⟨hn, _⟩
    · refine ⟨_, _, by rw [run, he], he', ?_, ?_, ?_, ?_⟩ <;> (dsimp only; decide +kernel)
    · exact absurd g2 hn
  · exact absurd (fun m hm => g1 m (by omega)) hn
  · exact absurd (fun m hm => g1 m (by omega)) hn

/-! ## C08 (python reference) -/

/-- C08: with at least one particle the python `_reciprocal_particles` (stored transposed, shape `(nbins, nprofs)`)
gives the same factors as the C++ routine. -/
theorem C08_python_agrees {npart nprof nbins : ℕ} {x : ℕ → ℕ → ℕ} (hn : 0 < npart) (hp : 0 < nprof)
    (hx : InRange npart nprof nbins x) :
    ∃ f : ℕ → ℕ → K,
      reciprocalParticles (flat nprof nbins fun _ _ => (0 : K)) (xbuf npart nprof x) nbins nprof npart
        = .ok (flat nprof nbins f) ∧
      reciprocalParticlesPy (α := K) (xbuf npart nprof x) nbins nprof npart
        = .ok (flat nbins nprof fun b p => f p b) :=
  ⟨_, reciprocal_ok hx, reciprocalPy_ok hn hp hx⟩

-- without particles they differ (0 against 1)
example : reciprocalParticles (flat 1 2 fun _ _ => (0 : ℚ)) (xbuf 0 1 x3) 2 1 0 = .ok [0, 0] ∧
    reciprocalParticlesPy (α := ℚ) (xbuf 0 1 x3) 2 1 0 = .ok [1, 1] := by decide +kernel

/-! ## C10 -/

/-- C10: permuting the particles permutes the weights; history, recreated waterfall, callbacks and failures are
unchanged. -/
theorem C10_permutation (sqrt : K → K) {npart nprof nbins : ℕ} (hp : 0 < nprof) (hb : 0 < nbins)
    {x : ℕ → ℕ → ℕ} (hx : InRange npart nprof nbins x) (wf : ℕ → ℕ → K) (niter : ℕ)
    (σ : Equiv.Perm ℕ) (hσ : ∀ i, σ i < npart ↔ i < npart) :
    (run sqrt npart nprof nbins (fun i => x (σ i)) wf niter).1 = (run sqrt npart nprof nbins x wf niter).1 ∧
    (∀ st, (run sqrt npart nprof nbins x wf niter).2 = .ok st → ∃ w : ℕ → K, st.weights = tab npart w ∧
      (run sqrt npart nprof nbins (fun i => x (σ i)) wf niter).2
        = .ok ⟨tab npart fun i => w (σ i), st.flatRec, st.discr⟩) ∧
    (∀ e, (run sqrt npart nprof nbins x wf niter).2 = .error e →
      (run sqrt npart nprof nbins (fun i => x (σ i)) wf niter).2 = .error e) := by
  have hx' := inRange_perm σ hσ hx
  have hR : ∀ k, R true npart nprof nbins (fun i => x (σ i)) wf k = R true npart nprof nbins x wf k := by
    intro k; unfold R; rw [seq_perm σ hσ]
  have hW : ∀ k, W true npart nprof nbins (fun i => x (σ i)) wf k = fun i => W true npart nprof nbins x wf k (σ i) := by
    intro k; unfold W; rw [seq_perm σ hσ]
  have hm : ∀ k, msq true npart nprof nbins (fun i => x (σ i)) wf k = msq true npart nprof nbins x wf k := by
    intro k; unfold msq; rw [hR]
  rcases reconstruct_run sqrt hp hb hx wf niter with ⟨hg, he⟩ | ⟨hg, he⟩ | ⟨f, hf, hg, hng, he⟩
  · rcases reconstruct_run sqrt hp hb hx' wf niter with ⟨hg', he'⟩ | ⟨hg', he'⟩ | ⟨f', hf', hg', hng', he'⟩
    · rw [run, run, he, he']
      refine ⟨rfl, fun st h => ?_, fun e h => by cases h⟩
      cases h
      refine ⟨_, rfl, ?_⟩
      dsimp only
      rw [hR, hW]
      simp only [hm]
    · rw [good_perm σ hσ] at hg'
      exact absurd (fun m hm => hg m (by omega)) hg'
    · rw [good_perm σ hσ] at hng'
      exact absurd (fun m hm => hg m (by omega)) hng'
  · rcases reconstruct_run sqrt hp hb hx' wf niter with ⟨hg', he'⟩ | ⟨hg', he'⟩ | ⟨f', hf', hg', hng', he'⟩
    · rw [good_perm σ hσ] at hg'
      exact absurd (fun m hm => hg' m (by omega)) hg
    · rw [run, run, he, he']
      exact ⟨rfl, fun st h => (by cases h), fun e h => h⟩
    · rw [good_perm σ hσ] at hg'
      exact absurd (fun m hm => hg' m (by omega)) hg
  · rcases reconstruct_run sqrt hp hb hx' wf niter with ⟨hg', he'⟩ | ⟨hg', he'⟩ | ⟨f', hf', hg', hng', he'⟩
    · rw [good_perm σ hσ] at hg'
      exact absurd (fun m hm => hg' m (by omega)) hng
    · rw [good_perm σ hσ] at hg'
      exact absurd (fun m hm => hg m (by omega)) hg'
    · rw [good_perm σ hσ] at hg' hng'
      have : f = f' := by
        rcases Nat.lt_trichotomy f f' with h | h | h
        · exact absurd (fun m hm => hg' m (by omega)) hng
        · exact h
        · exact absurd (fun m hm => hg m (by omega)) hng'
      subst this
      rw [run, run, he, he']
      exact ⟨rfl, fun st h => (by cases h), fun e h => h⟩

-- a permutation of three particles meets the hypothesis, and really moves the weights
example : ∀ i, (Equiv.swap 0 1 : Equiv.Perm ℕ) i < 3 ↔ i < 3 := by
  intro i
  rcases Nat.lt_or_ge i 3 with h | h
  · interval_cases i <;> decide
  · rw [Equiv.swap_apply_of_ne_of_ne (by omega) (by omega)]
example : ((run (id : ℚ → ℚ) 3 2 2 x3 wf3 1).2.toOption.map (·.weights)) = some [1321/510, 0, 77/1020] ∧
    ((run (id : ℚ → ℚ) 3 2 2 (fun i => x3 ((Equiv.swap 0 1 : Equiv.Perm ℕ) i)) wf3 1).2.toOption.map (·.weights))
      = some [0, 1321/510, 77/1020] := by decide +kernel

/-! ## C11 -/

/-- the waterfall a `Tomography` object stores -/
theorem initWaterfall_char {nprof nbins : ℕ} (hb : 0 < nbins) (wf : ℕ → ℕ → K) :
    ((∀ p b, p < nprof → b < nbins → wf p b ≤ 0) →
      initWaterfall (flat nprof nbins wf) nprof nbins = .error (.exc .waterfallReducedToZero)) ∧
    ((∃ p b, p < nprof ∧ b < nbins ∧ 0 < wf p b) → (∃ p, p < nprof ∧ ∀ b, b < nbins → wf p b ≤ 0) →
      initWaterfall (flat nprof nbins wf) nprof nbins = .error .nonFinite) ∧
    ((∃ p b, p < nprof ∧ b < nbins ∧ 0 < wf p b) → (∀ p, p < nprof → ∃ b, b < nbins ∧ 0 < wf p b) →
      initWaterfall (flat nprof nbins wf) nprof nbins
        = .ok (flat nprof nbins (normRows nbins fun p b => max (wf p b) 0))) := by
  have hpos : ∀ p, (∃ b, b < nbins ∧ 0 < wf p b) → rowSum nbins (fun p b => max (wf p b) 0) p ≠ 0 := by
    rintro p ⟨b, hb, h⟩
    apply ne_of_gt
    exact sum_pos' (fun b _ => le_max_right _ _) ⟨b, mem_range.mpr hb, lt_max_of_lt_left h⟩
  have hne : ∀ {p b}, 0 < wf p b → max (wf p b) 0 ≠ 0 := fun h => (lt_max_of_lt_left h).ne'
  unfold initWaterfall
  rw [npClip0_flat]
  refine ⟨fun h => ?_, fun h1 h2 => ?_, fun h1 h2 => ?_⟩
  · apply normalizeProfiles_zero
    intro p b hp hb
    exact max_eq_right (h p b hp hb)
  · obtain ⟨p, b, hp, hb', h1⟩ := h1
    obtain ⟨q, hq, h2⟩ := h2
    apply normalizeProfiles_nonFinite hb
    · exact ⟨p, b, hp, hb', hne h1⟩
    · refine ⟨q, hq, ?_⟩
      apply sum_eq_zero
      intro b hb
      exact max_eq_right (h2 b (mem_range.mp hb))
  · obtain ⟨p, b, hp, hb', h1⟩ := h1
    apply normalizeProfiles_ok
    · exact ⟨p, b, hp, hb', hne h1⟩
    · intro p hp
      exact hpos p (h2 p hp)

theorem normRows_scale (nbins : ℕ) {c : K} (hc : c ≠ 0) (f : ℕ → ℕ → K) :
    normRows nbins (fun p b => c * f p b) = normRows nbins f := by
  funext p b
  unfold normRows rowSum
  rw [← mul_sum, mul_div_mul_left _ _ hc]

/-- C11: constructing from `c * waterfall` stores the same profiles (or fails the same way) as from `waterfall`;
everything computed later depends on the stored profiles only. -/
theorem C11_scale_invariant {nprof nbins : ℕ} (hb : 0 < nbins) (wf : ℕ → ℕ → K) {c : K} (hc : 0 < c) :
    initWaterfall (flat nprof nbins fun p b => c * wf p b) nprof nbins
      = initWaterfall (flat nprof nbins wf) nprof nbins := by
  obtain ⟨a1, a2, a3⟩ := initWaterfall_char (nprof := nprof) hb (fun p b => c * wf p b)
  obtain ⟨b1, b2, b3⟩ := initWaterfall_char (nprof := nprof) hb wf
  have hle : ∀ p b, c * wf p b ≤ 0 ↔ wf p b ≤ 0 := fun p b => by
    constructor
    · intro h; by_contra hn; exact absurd h (not_le.mpr (mul_pos hc (not_le.mp hn)))
    · intro h; exact mul_nonpos_of_nonneg_of_nonpos hc.le h
  have hlt : ∀ p b, 0 < c * wf p b ↔ 0 < wf p b := fun p b => by
    rw [← not_le, ← not_le, hle]
  simp only [hle, hlt] at a1 a2 a3
  by_cases h1 : ∀ p b, p < nprof → b < nbins → wf p b ≤ 0
  · rw [a1 h1, b1 h1]
  · have h1' : ∃ p b, p < nprof ∧ b < nbins ∧ 0 < wf p b := by
      push Not at h1
      exact h1
    by_cases h2 : ∃ p, p < nprof ∧ ∀ b, b < nbins → wf p b ≤ 0
    · rw [a2 h1' h2, b2 h1' h2]
    · have h2' : ∀ p, p < nprof → ∃ b, b < nbins ∧ 0 < wf p b := by
        push Not at h2
        exact h2
      rw [a3 h1' h2', b3 h1' h2']
      congr 2
      rw [← normRows_scale nbins hc.ne' (fun p b => max (wf p b) 0)]
      congr 1
      funext p b
      rw [mul_max_of_nonneg _ _ hc.le, mul_zero]

/-- C11: negative samples are treated as zeros. -/
theorem C11_negatives_are_zero {nprof nbins : ℕ} (wf : ℕ → ℕ → K) :
    initWaterfall (flat nprof nbins wf) nprof nbins
      = initWaterfall (flat nprof nbins fun p b => if wf p b < 0 then 0 else wf p b) nprof nbins := by
  unfold initWaterfall
  rw [npClip0_flat, npClip0_flat]
  congr 1
  apply flat_congr; intro p b _ _
  by_cases h : wf p b < 0
  · simp [h, h.le]
  · simp [h]

/-- C11: hence the whole reconstruction (constructor followed by `run`) is scale invariant. -/
theorem C11_run_scale_invariant (sqrt : K → K) {npart nprof nbins : ℕ} (hb : 0 < nbins) (xp : List Int)
    (wf : ℕ → ℕ → K) {c : K} (hc : 0 < c) (niter : ℕ) :
    (initWaterfall (flat nprof nbins fun p b => c * wf p b) nprof nbins >>= fun w =>
        .ok (reconstruct sqrt xp w niter nbins npart nprof))
      = (initWaterfall (flat nprof nbins wf) nprof nbins >>= fun w =>
        .ok (reconstruct sqrt xp w niter nbins npart nprof)) := by
  rw [C11_scale_invariant hb wf hc]

example : initWaterfall (flat 2 2 fun p b => 7 * wf3 p b) 2 2 = .ok [3/4, 1/4, 1, 0] := by decide +kernel

/-! ## C12 -/

/-- C12: the constructor raises WaterfallReducedToZero exactly when nothing positive is left. -/
theorem C12_raises_iff {nprof nbins : ℕ} (hb : 0 < nbins) (wf : ℕ → ℕ → K) :
    initWaterfall (flat nprof nbins wf) nprof nbins = .error (.exc .waterfallReducedToZero) ↔
      ∀ p b, p < nprof → b < nbins → wf p b ≤ 0 := by
  obtain ⟨b1, b2, b3⟩ := initWaterfall_char (nprof := nprof) hb wf
  refine ⟨fun h => ?_, b1⟩
  by_contra h1
  have h1' : ∃ p b, p < nprof ∧ b < nbins ∧ 0 < wf p b := by
    push Not at h1
    exact h1
  by_cases h2 : ∃ p, p < nprof ∧ ∀ b, b < nbins → wf p b ≤ 0
  · rw [b2 h1' h2] at h; cases h
  · have h2' : ∀ p, p < nprof → ∃ b, b < nbins ∧ 0 < wf p b := by
      push Not at h2
      exact h2
    rw [b3 h1' h2'] at h; cases h

/-- C12, part that holds: if every profile has a positive sample, the stored profiles are the clipped ones divided by
their total, non-negative, and each sums to one. (Missing: waterfalls with an empty profile, see below.) -/
theorem C12_normalised_partial {nprof nbins : ℕ} (hp : 0 < nprof) (hb : 0 < nbins) (wf : ℕ → ℕ → K)
    (h : ∀ p, p < nprof → ∃ b, b < nbins ∧ 0 < wf p b) :
    ∃ r : ℕ → ℕ → K, initWaterfall (flat nprof nbins wf) nprof nbins = .ok (flat nprof nbins r) ∧
      (∀ p b, r p b = max (wf p b) 0 / ∑ c ∈ range nbins, max (wf p c) 0) ∧
      (∀ p b, 0 ≤ r p b) ∧ ∀ p, p < nprof → ∑ b ∈ range nbins, r p b = 1 := by
  obtain ⟨_, _, b3⟩ := initWaterfall_char (nprof := nprof) hb wf
  obtain ⟨b, hb', h0⟩ := h 0 hp
  refine ⟨_, b3 ⟨0, b, hp, hb', h0⟩ h, fun _ _ => rfl, fun p b => ?_, fun p hp => ?_⟩
  · exact div_nonneg (le_max_right _ _) (sum_nonneg fun _ _ => le_max_right _ _)
  · apply rowSum_normRows
    apply ne_of_gt
    obtain ⟨b, hb', h0⟩ := h p hp
    exact sum_pos' (fun b _ => le_max_right _ _) ⟨b, mem_range.mpr hb', lt_max_of_lt_left h0⟩

/-- C12 violated (IEEE special values, rational samples): for EVERY waterfall with some positive sample and an empty
profile `p0`, the constructor reports no error and stores NaN in the whole of profile `p0`, and the following
reconstruction, whatever the particles and iteration count, also reports success with every weight NaN. -/
theorem C12_violated_empty_profile {nprof nbins : ℕ} (wf : ℕ → ℕ → ℚ)
    (h1 : ∃ p b, p < nprof ∧ b < nbins ∧ 0 < wf p b) {p0 : ℕ} (hp0 : p0 < nprof)
    (h0 : ∀ b, b < nbins → wf p0 b ≤ 0) :
    ∃ r : ℕ → ℕ → Fl, initWaterfall (flat nprof nbins fun p b => Fl.fin (wf p b)) nprof nbins
        = .ok (flat nprof nbins r) ∧ (∀ b, b < nbins → r p0 b = .nan) ∧
      ∀ (sqrt : Fl → Fl) (npart : ℕ) (x : ℕ → ℕ → ℕ) (niter : ℕ), 0 < npart → InRange npart nprof nbins x →
        ∃ st, (reconstruct sqrt (xbuf npart nprof x) (flat nprof nbins r) niter nbins npart nprof).2 = .ok st ∧
          st.weights = tab npart fun _ => Fl.nan := by
  have hne : ∃ i j, i < nprof ∧ j < nbins ∧ max (wf i j) 0 ≠ 0 := by
    obtain ⟨p, b, hp, hb, h⟩ := h1
    exact ⟨p, b, hp, hb, (lt_max_of_lt_left h).ne'⟩
  have hnan : ∀ b, b < nbins → Fl.div (Fl.fin (max (wf p0 b) 0)) (Fl.fin (rowSum nbins (fun p b => max (wf p b) 0) p0))
      = .nan := by
    intro b hb
    have hz : rowSum nbins (fun p b => max (wf p b) 0) p0 = 0 := by
      apply sum_eq_zero
      intro b hb
      exact max_eq_right (h0 b (mem_range.mp hb))
    rw [hz, max_eq_right (h0 b hb), Fl.div_zero_zero]
  refine ⟨fun p b => Fl.div (Fl.fin (max (wf p b) 0)) (Fl.fin (rowSum nbins (fun p b => max (wf p b) 0) p)),
    ?_, hnan, ?_⟩
  · unfold initWaterfall
    rw [NaN.npClip0_fin]
    exact NaN.normalizeProfiles_fin (fun p b => max (wf p b) 0) hne
  · intro sqrt npart x niter hn hx
    obtain ⟨st, h, hw⟩ := NaN.reconstruct_nan sqrt hn hx
      (fun p b => Fl.div (Fl.fin (max (wf p b) 0)) (Fl.fin (rowSum nbins (fun p b => max (wf p b) 0) p)))
      niter hp0 hnan
    exact ⟨st, by rw [h], hw⟩

-- two profiles, the second one empty
example : initWaterfall [Fl.fin 1, Fl.fin 3, Fl.fin 0, Fl.fin (-2)] 2 2
    = .ok [Fl.fin (1/4), Fl.fin (3/4), .nan, .nan] := by decide +kernel

/-! ## C13 -/

/-- The coordinates held by the object are usable: an `(n, nprofs)` array with entries in `[0, nbins)`. -/
def XpOk (t : Coords) : Prop :=
  (t.xp = none ∧ t.nparts = none) ∨
  ∃ n d, t.xp = some ([n, t.nprofs], d) ∧ t.nparts = some n ∧ d.length = n * t.nprofs ∧
    ∀ v ∈ d, 0 ≤ v ∧ v < (t.nbins : Int)

/-- an array value: as many elements as the shape says, none of them NaN -/
def GoodVal : PyVal → Prop
  | .array shape data => data.length = shape.prod ∧ Fl.nan ∉ data
  | _ => True

def opVal : CoordOp → PyVal
  | .xp v => v
  | .yp v => v

theorem toInt32_inRange {v : Fl} {n : ℕ} (hn : v ≠ .nan) (h0 : ¬ v < 0) (h1 : ¬ (n : Fl) ≤ v) :
    0 ≤ toInt32 v ∧ toInt32 v < (n : Int) := by
  cases v with
  | nan => exact absurd rfl hn
  | pinf => exact absurd rfl h1
  | ninf => exact absurd rfl h0
  | fin q =>
    have h0 : ¬ q < 0 := fun h => h0 ((Fl.fin_lt q 0).mpr h)
    have h1 : ¬ (n : ℚ) ≤ q := fun h => h1 ((Fl.fin_le (n : ℚ) q).mpr h)
    have h0' := not_lt.mp h0
    have h1' := not_le.mp h1
    have e : toInt32 (Fl.fin q) = ⌊q⌋ := by
      unfold toInt32
      dsimp only
      rw [if_pos h0']
      rfl
    rw [e]
    constructor
    · exact Int.floor_nonneg.mpr h0'
    · exact Int.floor_lt.mpr (by exact_mod_cast h1')

theorem setXp_ok {t : Coords} (ht : XpOk t) {v : PyVal} (hv : GoodVal v) : XpOk (setXp t v).1 := by
  cases v with
  | none => exact Or.inl ⟨rfl, rfl⟩
  | scalar => exact ht
  | array shape data =>
    unfold setXp
    dsimp only
    split
    · exact ht
    · split
      · exact ht
      · split
        · exact ht
        · rename_i hl hc hr
          obtain ⟨a, b, rfl⟩ : ∃ a b, shape = [a, b] := by
            match shape, hl with
            | [], hl => simp at hl
            | [_], hl => simp at hl
            | [a, b], _ => exact ⟨a, b, rfl⟩
            | _ :: _ :: _ :: _, hl => simp at hl
          have hb : b = t.nprofs := by simpa using hc
          subst hb
          refine Or.inr ⟨a, data.map toInt32, rfl, rfl, ?_, ?_⟩
          · simpa using hv.1
          · intro z hz
            obtain ⟨f, hf, rfl⟩ := List.mem_map.mp hz
            simp only [Bool.or_eq_true, List.any_eq_true, decide_eq_true_eq, not_or, not_exists, not_and] at hr
            exact toInt32_inRange (fun e => hv.2 (e ▸ hf)) (hr.1 f hf) (hr.2 f hf)

theorem setYp_xp (t : Coords) (v : PyVal) : (setYp t v).1.xp = t.xp ∧ (setYp t v).1.nparts = t.nparts ∧
    (setYp t v).1.nprofs = t.nprofs ∧ (setYp t v).1.nbins = t.nbins := by
  cases v with
  | none => exact ⟨rfl, rfl, rfl, rfl⟩
  | scalar => exact ⟨rfl, rfl, rfl, rfl⟩
  | array shape data =>
    unfold setYp
    dsimp only
    split
    · simp
    · split <;> simp

theorem setYp_ok {t : Coords} (ht : XpOk t) (v : PyVal) : XpOk (setYp t v).1 := by
  obtain ⟨h1, h2, h3, h4⟩ := setYp_xp t v
  unfold XpOk
  rw [h1, h2, h3, h4]
  exact ht

/-- C13: after any history of attempted assignments of NaN-free values the x-coordinates are usable.
(Missing from the full property: NaN values, and the yp clause; see the violations below.) -/
theorem C13_xp_invariant_partial {t : Coords} (ht : XpOk t) (ops : List CoordOp)
    (hops : ∀ op ∈ ops, GoodVal (opVal op)) : XpOk (coordRun t ops) := by
  unfold coordRun
  induction ops generalizing t with
  | nil => exact ht
  | cons op ops ih =>
    rw [List.foldl_cons]
    apply ih
    · cases op with
      | xp v => exact setXp_ok ht (hops (.xp v) (by simp))
      | yp v => exact setYp_ok ht v
    · intro o ho; exact hops o (by simp [ho])

/-- C13: a rejected assignment changes nothing. -/
theorem C13_rejected_changes_nothing (t : Coords) (op : CoordOp) {e : Exn} (h : (coordStep t op).2 = some e) :
    (coordStep t op).1 = t := by
  cases op with
  | xp v =>
    cases v with
    | none => simp [coordStep, setXp] at h
    | scalar => rfl
    | array shape data =>
      unfold coordStep setXp at h ⊢
      dsimp only at h ⊢
      split at h
      · rename_i h1; rw [if_pos h1]
      · rename_i h1; rw [if_neg h1]
        split at h
        · rename_i h2; rw [if_pos h2]
        · rename_i h2; rw [if_neg h2]
          split at h
          · rename_i h3; rw [if_pos h3]
          · simp at h
  | yp v =>
    cases v with
    | none => simp [coordStep, setYp] at h
    | scalar => rfl
    | array shape data =>
      unfold coordStep setYp at h ⊢
      dsimp only at h ⊢
      cases hx : t.xp with
      | none => rfl
      | some q =>
        rw [hx] at h
        dsimp only at h ⊢
        split at h
        · simp at h
        · rename_i h2; rw [if_neg h2]

/-- C13: the exception is determined by the defect of the assigned x-coordinates. -/
theorem C13_xp_exceptions (t : Coords) (shape : List ℕ) (data : List Fl) :
    ((setXp t (.array shape data)).2 = some .coordinateImportError ↔ ¬ ∃ n, shape = [n, t.nprofs]) ∧
    ((setXp t (.array shape data)).2 = some .xpOutOfImageWidth ↔
      (∃ n, shape = [n, t.nprofs]) ∧ ∃ v ∈ data, v < 0 ∨ (t.nbins : Fl) ≤ v) ∧
    (setXp t .scalar).2 = some .coordinateImportError ∧ (setXp t .none).2 = none := by
  have hshape : (∃ n, shape = [n, t.nprofs]) ↔ shape.length = 2 ∧ shape[1]? = some t.nprofs := by
    constructor
    · rintro ⟨n, rfl⟩; simp
    · rintro ⟨h1, h2⟩
      match shape, h1 with
      | [a, b], _ => exact ⟨a, by simpa using h2⟩
  refine ⟨?_, ?_, rfl, rfl⟩
  · rw [hshape]
    unfold setXp
    dsimp only
    split
    · rename_i h; simp [h]
    · rename_i h
      split
      · rename_i h2; simp [h2]
      · rename_i h2
        have h2 := not_not.mp h2
        have hn : ¬ ¬ (shape.length = 2 ∧ shape[1]? = some t.nprofs) := not_not.mpr ⟨not_not.mp h, h2⟩
        split <;> simp only [hn, iff_false] <;> simp
  · rw [hshape]
    unfold setXp
    dsimp only
    split
    · rename_i h; simp [h]
    · rename_i h
      split
      · rename_i h2; simp [h2]
      · rename_i h2
        have h2 := not_not.mp h2
        split
        · rename_i h3
          simp only [not_not.mp h, h2, true_and, true_iff, and_self]
          simp only [Bool.or_eq_true, List.any_eq_true, decide_eq_true_eq] at h3
          rcases h3 with ⟨v, hv, h⟩ | ⟨v, hv, h⟩
          · exact ⟨v, hv, Or.inl h⟩
          · exact ⟨v, hv, Or.inr h⟩
        · rename_i h3
          simp only [reduceCtorEq, false_iff]
          rintro ⟨_, v, hv, h⟩
          apply h3
          simp only [Bool.or_eq_true, List.any_eq_true, decide_eq_true_eq]
          rcases h with h | h
          · exact Or.inl ⟨v, hv, h⟩
          · exact Or.inr ⟨v, hv, h⟩

/-- C13: right after a successful yp assignment the shapes agree. -/
theorem C13_yp_accepted_shape (t : Coords) (shape : List ℕ) (data : List Fl)
    (h : (setYp t (.array shape data)).2 = none) :
    ∃ xd, t.xp = some (shape, xd) ∧ (setYp t (.array shape data)).1.yp = some (shape, data.map toInt32) := by
  unfold setYp at h ⊢
  dsimp only at h ⊢
  cases hx : t.xp with
  | none => rw [hx] at h; simp at h
  | some q =>
    obtain ⟨xs, xd⟩ := q
    rw [hx] at h
    dsimp only at h ⊢
    split at h
    · rename_i h2; subst h2; exact ⟨xd, by simp⟩
    · simp at h

/-- C13 violated: assigning new x-coordinates does not touch y-coordinates of another shape: afterwards `yp` has
2 rows and `xp` has 1. -/
theorem C13_violated_stale_yp :
    let t := coordRun ⟨1, 4, none, none, none⟩
      [.xp (.array [2, 1] [.fin 0, .fin 3]), .yp (.array [2, 1] [.fin 1, .fin 2]), .xp (.array [1, 1] [.fin 2])]
    t.xp = some ([1, 1], [2]) ∧ t.yp = some ([2, 1], [1, 2]) := by decide +kernel

/-- C13 and C14 violated: a NaN coordinate passes the range check and is stored as a huge negative index, for every
object and every position. -/
theorem C13_violated_nan_accepted (t : Coords) (n : ℕ) (data : List Fl) (hn : Fl.nan ∈ data)
    (hr : ∀ v ∈ data, ¬ v < 0 ∧ ¬ (t.nbins : Fl) ≤ v) :
    (setXp t (.array [n, t.nprofs] data)).2 = none ∧
    ∃ d, (setXp t (.array [n, t.nprofs] data)).1.xp = some ([n, t.nprofs], d) ∧ (-2147483648 : Int) ∈ d := by
  unfold setXp
  dsimp only
  have h3 : ¬ ((data.any (fun v => decide (v < 0)) || data.any (fun v => decide ((t.nbins : Fl) ≤ v))) = true) := by
    simp only [Bool.or_eq_true, List.any_eq_true, decide_eq_true_eq, not_or, not_exists, not_and]
    exact ⟨fun v hv => (hr v hv).1, fun v hv => (hr v hv).2⟩
  rw [if_neg (by simp), if_neg (by simp), if_neg h3]
  exact ⟨rfl, _, rfl, List.mem_map.mpr ⟨_, hn, rfl⟩⟩

-- the hypotheses are met: [[NaN]] in a 4-bin image
example : Fl.nan ∈ [Fl.nan] ∧ ∀ v ∈ [Fl.nan], ¬ v < 0 ∧ ¬ ((4 : ℕ) : Fl) ≤ v := by decide +kernel
example : XpOk ⟨1, 4, none, none, none⟩ := Or.inl ⟨rfl, rfl⟩
example : (coordRun ⟨2, 4, none, none, none⟩
    [.xp (.array [1, 2] [.fin 0, .fin (7/2)]), .xp (.array [1, 2] [.fin 0, .fin 4]), .yp .none]).xp
    = some ([1, 2], [0, 3]) := by decide +kernel

end Verif.Props

import Verif.Props.ReconSym
import Verif.Props.Manual
import Verif.Lemmas.Converge

/-!
# C116, C117 — what iterating does to the total of the weights and to the discrepancy

Exact arithmetic.  Positions `x i p` of the particles, measured profiles `wf p b`.
-/

set_option linter.unusedSectionVars false

namespace Verif.Props
open Finset Verif.Spec Verif.Recon Verif.Tomo

variable {K : Type} [Field K] [LinearOrder K] [IsStrictOrderedRing K]

/-! ## C116 -/

/-- C116: if there is a particle wherever there is signal, the reconstruction returns, whatever the number of iterations; in C++ and in
python. -/
theorem C116_returns (sqrt : K → K) {npart nprof nbins : ℕ} (hp : 0 < nprof) {x : ℕ → ℕ → ℕ} (hx : InRange npart nprof nbins x)
    {wf : ℕ → ℕ → K} (hw : Profiled nprof nbins wf) (hc : Covered npart nprof nbins x wf) (niter : ℕ) :
    (∃ st, (run sqrt npart nprof nbins x wf niter).2 = .ok st) ∧ ∃ st, hybrid sqrt npart nprof nbins x wf niter = .ok st := by
  obtain ⟨hn, hb⟩ := covered_pos hp hw hc
  exact ⟨⟨_, (run_ok_iff sqrt hp hb hx niter _).mpr ⟨good_all hp hx hw hc niter, rfl⟩⟩,
    ⟨_, (hybrid_ok_iff sqrt hn hp hx niter _).mpr ⟨good_all hp hx hw hc niter, rfl⟩⟩⟩

/-- C116: the same for the data as measured, negative samples included: a positive sample in every profile, a particle in the bin of every
positive sample. -/
theorem C116_measured (sqrt : K → K) {npart nprof nbins : ℕ} (hp : 0 < nprof) {x : ℕ → ℕ → ℕ} (hx : InRange npart nprof nbins x)
    (m : ℕ → ℕ → K) (hs : ∀ p, p < nprof → ∃ b, b < nbins ∧ 0 < m p b)
    (hc : ∀ p, p < nprof → ∀ b, b < nbins → 0 < m p b → ∃ i, i < npart ∧ x i p = b) :
    ∃ w, initWaterfall (flat nprof nbins m) nprof nbins = .ok w ∧ ∀ niter,
      (∃ st, (reconstruct sqrt (xbuf npart nprof x) w niter nbins npart nprof).2 = .ok st) ∧
      ∃ st, runHybrid sqrt (xbuf npart nprof x) w niter nbins npart nprof = .ok st := by
  obtain ⟨b₀, hb₀, hm₀⟩ := hs 0 hp
  obtain ⟨_, _, h3⟩ := initWaterfall_char (nprof := nprof) (nbins := nbins) (by omega) m
  have hr : ∀ p, p < nprof → 0 < rowSum nbins (fun p b => max (m p b) 0) p := by
    intro p hp
    obtain ⟨b, hb, h⟩ := hs p hp
    exact sum_pos' (fun b _ => le_max_right _ _) ⟨b, mem_range.mpr hb, lt_max_of_lt_left h⟩
  refine ⟨_, h3 ⟨0, b₀, hp, hb₀, hm₀⟩ hs, fun niter => C116_returns sqrt hp hx ⟨fun p hp b hb => ?_, fun p hp => ?_⟩ ?_ niter⟩
  · exact div_nonneg (le_max_right _ _) (hr p hp).le
  · exact rowSum_normRows (hr p hp).ne'
  · intro p hp b hb hne
    apply hc p hp b hb
    by_contra h
    apply hne
    show max (m p b) 0 / _ = (0 : K)
    rw [max_eq_right (not_lt.mp h), zero_div]

/-- C116: with a particle wherever there is signal the total of the weights never falls when more iterations are made, from the start,
where each sample counts as often as there are particles in its bin.  C++. -/
theorem C116_total (sqrt : K → K) {npart nprof nbins : ℕ} (hp : 0 < nprof) (hb : 0 < nbins) {x : ℕ → ℕ → ℕ}
    (hx : InRange npart nprof nbins x) {wf : ℕ → ℕ → K} (hw : Profiled nprof nbins wf) (hc : Covered npart nprof nbins x wf) {k n : ℕ}
    {s t : RState K} (h1 : (run sqrt npart nprof nbins x wf k).2 = .ok s) (h2 : (run sqrt npart nprof nbins x wf (k + n)).2 = .ok t) :
    s.weights.sum ≤ t.weights.sum ∧
    (k = 0 → s.weights.sum = ∑ p ∈ range nprof, ∑ b ∈ range nbins, wf p b * (count npart x p b : K)) := by
  obtain ⟨_, rfl⟩ := (run_ok_iff sqrt hp hb hx k s).mp h1
  obtain ⟨_, rfl⟩ := (run_ok_iff sqrt hp hb hx (k + n) t).mp h2
  dsimp only
  rw [sum_tab, sum_tab]
  refine ⟨total_mono hp hx hw hc k n, fun h => ?_⟩
  subst h
  exact total_zero hx hw

/-- C116, the python routine. -/
theorem C116_total_hybrid (sqrt : K → K) {npart nprof nbins : ℕ} (hn : 0 < npart) (hp : 0 < nprof) {x : ℕ → ℕ → ℕ}
    (hx : InRange npart nprof nbins x) {wf : ℕ → ℕ → K} (hw : Profiled nprof nbins wf) (hc : Covered npart nprof nbins x wf) {k n : ℕ}
    {s t : RState K} (h1 : hybrid sqrt npart nprof nbins x wf k = .ok s) (h2 : hybrid sqrt npart nprof nbins x wf (k + n) = .ok t) :
    s.weights.sum ≤ t.weights.sum ∧
    (k = 0 → s.weights.sum = ∑ p ∈ range nprof, ∑ b ∈ range nbins, wf p b * (count npart x p b : K)) := by
  obtain ⟨_, rfl⟩ := (hybrid_ok_iff sqrt hn hp hx k s).mp h1
  obtain ⟨_, rfl⟩ := (hybrid_ok_iff sqrt hn hp hx (k + n) t).mp h2
  dsimp only
  rw [sum_tab, sum_tab]
  refine ⟨total_mono hp hx hw hc k n, fun h => ?_⟩
  subst h
  exact total_zero hx hw

/-- C116: one more iteration keeps the total exactly if no weight had to be set to zero: weight plus the compensated differences the
particle visits is nowhere negative (and is then the new weight). -/
theorem C116_total_kept_iff (sqrt : K → K) {npart nprof nbins : ℕ} (hp : 0 < nprof) (hb : 0 < nbins) {x : ℕ → ℕ → ℕ}
    (hx : InRange npart nprof nbins x) {wf : ℕ → ℕ → K} (hw : Profiled nprof nbins wf) (hc : Covered npart nprof nbins x wf) {k : ℕ}
    {s t : RState K} (h1 : (run sqrt npart nprof nbins x wf k).2 = .ok s) (h2 : (run sqrt npart nprof nbins x wf (k + 1)).2 = .ok t) :
    ∃ (w : ℕ → K) (r : ℕ → ℕ → K), s.weights = tab npart w ∧ s.flatRec = flat nprof nbins r ∧
      (t.weights = tab npart fun i => max (w i + ∑ p ∈ range nprof,
        (wf p (x i p) - r p (x i p)) * recip K npart nprof nbins x p (x i p)) 0) ∧
      (s.weights.sum = t.weights.sum ↔ ∀ i, i < npart → 0 ≤ w i + ∑ p ∈ range nprof,
        (wf p (x i p) - r p (x i p)) * recip K npart nprof nbins x p (x i p)) := by
  obtain ⟨hg, rfl⟩ := (run_ok_iff sqrt hp hb hx k s).mp h1
  obtain ⟨_, rfl⟩ := (run_ok_iff sqrt hp hb hx (k + 1) t).mp h2
  refine ⟨_, _, rfl, rfl, rfl, ?_⟩
  dsimp only
  rw [sum_tab, sum_tab]
  exact total_eq_iff hx hw hc hg

/-- profiles that three particles cover -/
def wfCov : ℕ → ℕ → ℚ := fun p b => if p = 0 then (if b = 0 then 3 / 4 else 1 / 4) else if b = 0 then 1 / 5 else 4 / 5

theorem wfCov_profiled : Profiled 2 2 wfCov := by
  refine ⟨fun p hp b hb => ?_, fun p hp => ?_⟩
  · interval_cases p <;> interval_cases b <;> decide +kernel
  · interval_cases p <;> decide +kernel

theorem x3_covered : Covered 3 2 2 x3 wfCov := by
  intro p hp b hb _
  interval_cases p <;> interval_cases b
  · exact ⟨0, by norm_num, rfl⟩
  · exact ⟨2, by norm_num, rfl⟩
  · exact ⟨0, by norm_num, rfl⟩
  · exact ⟨1, by norm_num, rfl⟩

example : (run (id : ℚ → ℚ) 3 2 2 x3 wfCov 0).2.toOption.map (·.weights.sum) = some (71 / 20) ∧
    (run (id : ℚ → ℚ) 3 2 2 x3 wfCov 3).2.toOption.map (·.weights.sum) = some (71 / 20) := by decide +kernel

/-- C116 violated where signal lies in a bin without particles.  One profile with two equal samples, one particle, in the first bin: without
iterations the reconstruction returns, with one iteration the weight is gone and both routines raise, although there is signal and the
particle collects half of it. -/
theorem C116_violated_uncovered (sqrt : ℚ → ℚ) :
    (run sqrt 1 1 2 (fun _ _ => 0) (fun _ _ => 1 / 2) 0).2.toOption.map (·.weights) = some [1 / 2] ∧
    (run sqrt 1 1 2 (fun _ _ => 0) (fun _ _ => 1 / 2) 1).2 = .error (.exc .allZero) ∧
    (hybrid sqrt 1 1 2 (fun _ _ => 0) (fun _ _ => 1 / 2) 1).toOption = none := by
  have hx : InRange 1 1 2 fun _ _ => 0 := fun _ _ _ _ => by norm_num
  have g0 : ∀ keep, Good keep 1 1 2 (fun _ _ => 0) (fun _ _ => (1 / 2 : ℚ)) 0 := by
    intro keep m hm
    have : m = 0 := by omega
    subst this
    cases keep <;> decide +kernel
  have g1 : ∀ keep, ¬ Good keep 1 1 2 (fun _ _ => 0) (fun _ _ => (1 / 2 : ℚ)) 1 := by
    intro keep h
    have := h 1 le_rfl
    cases keep <;> exact absurd this (by decide +kernel)
  refine ⟨?_, ?_, ?_⟩
  · rw [(run_ok_iff sqrt (by norm_num) (by norm_num) hx 0 _).mpr ⟨g0 true, rfl⟩]
    show some (tab 1 (W true 1 1 2 (fun _ _ => 0) (fun _ _ => (1 / 2 : ℚ)) 0)) = _
    decide +kernel
  · rcases C03_no_division_by_zero sqrt (by norm_num) (by norm_num) hx (fun _ _ => (1 / 2 : ℚ)) 1 with ⟨st, h⟩ | h
    · exact absurd ((run_ok_iff sqrt (by norm_num) (by norm_num) hx 1 st).mp h).1 (g1 true)
    · exact h
  · cases h : hybrid sqrt 1 1 2 (fun _ _ => 0) (fun _ _ => (1 / 2 : ℚ)) 1 with
    | error e => rfl
    | ok st => exact absurd ((hybrid_ok_iff sqrt (by norm_num) (by norm_num) hx 1 st).mp h).1 (g1 false)

/-! ## C06 -/

/-- C06 (partial: how far the recreated waterfall of the C++ routine can be from the normalised projection of the returned weights).  No
entry differs by more than one over one plus the total of the weights; that total is at least the number of profiles if there is a particle
wherever there is signal (`C116_total`). -/
theorem C06_close_partial (sqrt : K → K) {npart nprof nbins : ℕ} (hp : 0 < nprof) (hb : 0 < nbins) {x : ℕ → ℕ → ℕ}
    (hx : InRange npart nprof nbins x) (wf : ℕ → ℕ → K) (niter : ℕ) {st : RState K}
    (h : (run sqrt npart nprof nbins x wf niter).2 = .ok st) :
    ∃ (w : ℕ → K) (r : ℕ → ℕ → K), st.weights = tab npart w ∧ st.flatRec = flat nprof nbins r ∧
      (∀ p b, p < nprof → b < nbins → |r p b - (∑ i ∈ range npart, if x i p = b then w i else 0) / ∑ i ∈ range npart, w i| ≤
        1 / (1 + ∑ i ∈ range npart, w i)) ∧
      (Profiled nprof nbins wf → Covered npart nprof nbins x wf → (nprof : K) ≤ ∑ i ∈ range npart, w i) := by
  obtain ⟨hg, rfl⟩ := (run_ok_iff sqrt hp hb hx niter st).mp h
  refine ⟨_, _, rfl, rfl, fun p b hp' hb' => ?_, fun hw hc => ?_⟩
  · set w := W true npart nprof nbins x wf niter with hW
    set S := ∑ i ∈ range npart, w i with hS
    have hS0 : 0 < S := hg niter le_rfl
    have hq0 : ∀ b, 0 ≤ proj npart x w p b := fun b => proj_nonneg (fun i _ => W_nonneg ..) p b
    have hq1 : proj npart x w p b ≤ S := by
      have h1 := rowSum_proj hx w hp'
      rw [hS, ← h1]
      exact single_le_sum (f := fun b => proj npart x w p b) (fun b _ => hq0 b) (mem_range.mpr hb')
    obtain ⟨a1, a2⟩ := R_nonneg_rowSum (keep := true) (wf := wf) hx (k := niter) (by
      rcases Nat.eq_zero_or_pos niter with h0 | h0
      · exact Or.inl h0
      · exact Or.inr fun m hm => hg m (by omega))
    have a3 := a2 p hp'
    have hr1 : R true npart nprof nbins x wf niter p b ≤ 1 := by
      have : R true npart nprof nbins x wf niter p b ≤ rowSum nbins (R true npart nprof nbins x wf niter) p :=
        single_le_sum (f := fun b => R true npart nprof nbins x wf niter p b) (fun b _ => a1 p b) (mem_range.mpr hb')
      rw [a3] at this
      split at this <;> linarith
    have hq : ∑ i ∈ range npart, (if x i p = b then w i else 0) = proj npart x w p b := rfl
    have hR : R true npart nprof nbins x wf (niter + 1) p b = (R true npart nprof nbins x wf niter p b + proj npart x w p b) /
        ((if niter = 0 then 0 else 1) + S) := by
      rw [R_succ]
      simp only [if_true]
      unfold normRows
      rw [rowSum_add, rowSum_proj hx _ hp', a3]
    rw [hq, hR]
    have e0 : 0 ≤ proj npart x w p b / S := div_nonneg (hq0 b) hS0.le
    have e1 : proj npart x w p b / S ≤ 1 := (div_le_one hS0).mpr hq1
    by_cases h0 : niter = 0
    · have hz : R true npart nprof nbins x wf niter p b = 0 := by subst h0; rfl
      rw [if_pos h0, hz, zero_add, zero_add, sub_self, abs_zero]
      positivity
    · rw [if_neg h0]
      have : (R true npart nprof nbins x wf niter p b + proj npart x w p b) / (1 + S) - proj npart x w p b / S =
          (R true npart nprof nbins x wf niter p b - proj npart x w p b / S) / (1 + S) := by
        field_simp
        ring
      rw [this, abs_div, abs_of_pos (by linarith : (0 : K) < 1 + S)]
      apply div_le_div_of_nonneg_right _ (by linarith)
      rw [abs_le]
      have := a1 p b
      constructor <;> linarith
  · have := total_mono (keep := true) hp hx hw hc 0 niter
    rw [zero_add] at this
    exact (total_zero_ge hx hw hc).trans this

example : (run (id : ℚ → ℚ) 3 2 2 x3 wfCov 2).2.toOption.isSome = true := by decide +kernel

/-! ## C117 -/

/-- C117 (partial: python, and where there is signal the bins hold on average at least half of the largest number of particles).  Let `v` be
weights, none negative, that explain the measured profiles exactly, scaled to the total of the weights after `k` iterations.  The next
iteration does not move the weights away from them. -/
theorem C117_distance_partial (sqrt : K → K) {npart nprof nbins : ℕ} (hn : 0 < npart) (hp : 0 < nprof) {x : ℕ → ℕ → ℕ}
    (hx : InRange npart nprof nbins x) {wf : ℕ → ℕ → K} (hw : Profiled nprof nbins wf) (hc : Covered npart nprof nbins x wf)
    (hh : (nprof : K) * (maxCount npart nprof nbins x : K) ≤ 2 * ∑ p ∈ range nprof, ∑ b ∈ range nbins, wf p b * (count npart x p b : K))
    {k : ℕ} {s t : RState K} (h1 : hybrid sqrt npart nprof nbins x wf k = .ok s) (h2 : hybrid sqrt npart nprof nbins x wf (k + 1) = .ok t)
    {v : ℕ → K} (hv : Explains npart nprof nbins x wf v) (h0 : ∀ i, i < npart → 0 ≤ v i)
    (ht : ∑ i ∈ range npart, v i = s.weights.sum) :
    ∃ w w' : ℕ → K, s.weights = tab npart w ∧ t.weights = tab npart w' ∧ sqDist npart w' v ≤ sqDist npart w v := by
  obtain ⟨hg, rfl⟩ := (hybrid_ok_iff sqrt hn hp hx k s).mp h1
  obtain ⟨_, rfl⟩ := (hybrid_ok_iff sqrt hn hp hx (k + 1) t).mp h2
  dsimp only at ht ⊢
  rw [sum_tab] at ht
  refine ⟨_, _, rfl, rfl, (clip_dist h0).trans ((raw_dist hx hg hv ht).trans ?_)⟩
  have hm := total_mono (keep := false) hp hx hw hc 0 k
  rw [total_zero hx hw, zero_add] at hm
  have := mul_nonneg (sub_nonneg.mpr (hh.trans (mul_le_mul_of_nonneg_left hm (by norm_num : (0 : K) ≤ 2))))
    (sparse_nonneg (npart := npart) (nprof := nprof) (nbins := nbins) (x := x) (resid npart nprof nbins x wf k))
  linarith

/-- C117 (partial: python, the same condition, and an iteration in which no weight is set to zero – the total stays, C116).  The squared
differences between data and recreated profiles, those of sparsely filled bins counted more (as in the compensation), do not grow. -/
theorem C117_squares_partial (sqrt : K → K) {npart nprof nbins : ℕ} (hn : 0 < npart) (hp : 0 < nprof) {x : ℕ → ℕ → ℕ}
    (hx : InRange npart nprof nbins x) {wf : ℕ → ℕ → K} (hw : Profiled nprof nbins wf) (hc : Covered npart nprof nbins x wf)
    (hh : (nprof : K) * (maxCount npart nprof nbins x : K) ≤ 2 * ∑ p ∈ range nprof, ∑ b ∈ range nbins, wf p b * (count npart x p b : K))
    {k : ℕ} {s t : RState K} (h1 : hybrid sqrt npart nprof nbins x wf k = .ok s) (h2 : hybrid sqrt npart nprof nbins x wf (k + 1) = .ok t)
    (ht : s.weights.sum = t.weights.sum) :
    ∃ r r' : ℕ → ℕ → K, s.flatRec = flat nprof nbins r ∧ t.flatRec = flat nprof nbins r' ∧
      sparseSquares npart nprof nbins x (fun p b => wf p b - r' p b) ≤ sparseSquares npart nprof nbins x (fun p b => wf p b - r p b) := by
  obtain ⟨hg, rfl⟩ := (hybrid_ok_iff sqrt hn hp hx k s).mp h1
  obtain ⟨_, rfl⟩ := (hybrid_ok_iff sqrt hn hp hx (k + 1) t).mp h2
  dsimp only at ht ⊢
  rw [sum_tab, sum_tab] at ht
  have hm := total_mono (keep := false) hp hx hw hc 0 k
  rw [total_zero hx hw, zero_add] at hm
  exact ⟨_, _, rfl, rfl, squares_step hx hw hc hg ((total_eq_iff hx hw hc hg).mp ht)
    (hh.trans (mul_le_mul_of_nonneg_left hm (by norm_num : (0 : K) ≤ 2)))⟩

/-- evenly filled bins meet the condition of the two theorems above -/
theorem even_condition {npart nprof nbins : ℕ} (hp : 0 < nprof) (hb : 0 < nbins) {x : ℕ → ℕ → ℕ} (hx : InRange npart nprof nbins x)
    {wf : ℕ → ℕ → K} (hw : Profiled nprof nbins wf) {c : ℕ} (h : ∀ p, p < nprof → ∀ b, b < nbins → count npart x p b = c) :
    (nprof : K) * (maxCount npart nprof nbins x : K) = ∑ p ∈ range nprof, ∑ b ∈ range nbins, wf p b * (count npart x p b : K) := by
  rw [even_max hp hb h, ← even_total (keep := false) hx hw h, total_zero hx hw]

theorem even_step {npart nprof nbins : ℕ} (hp : 0 < nprof) (hb : 0 < nbins) {x : ℕ → ℕ → ℕ} (hx : InRange npart nprof nbins x)
    {wf : ℕ → ℕ → K} (hw : Profiled nprof nbins wf) {c : ℕ} (hc : 0 < c) (h : ∀ p, p < nprof → ∀ b, b < nbins → count npart x p b = c)
    {k : ℕ} (hu : ∑ i ∈ range npart, W false npart nprof nbins x wf k i = ∑ i ∈ range npart, W false npart nprof nbins x wf (k + 1) i) :
    msq false npart nprof nbins x wf (k + 1) ≤ msq false npart nprof nbins x wf k := by
  have hcov : Covered npart nprof nbins x wf := even_covered hc h
  have hg := good_all (keep := false) hp hx hw hcov k
  have hm := total_mono (keep := false) hp hx hw hcov 0 k
  rw [total_zero hx hw, zero_add, ← even_condition hp hb hx hw h] at hm
  have hpos := hg k le_rfl
  have := squares_step hx hw hcov hg ((total_eq_iff hx hw hcov hg).mp hu) (by linarith)
  rw [even_squares hc hp hb h, even_squares hc hp hb h] at this
  exact le_of_mul_le_mul_left this (by exact_mod_cast Nat.mul_pos hp hb)

/-- C117 (partial: python, the same number of particles in every bin, no weight set to zero).  One more iteration does not make the
discrepancy larger.  For every data, whether weights explain it or not. -/
theorem C117_discrepancy_partial (sqrt : K → K) (hs : ∀ a, 0 ≤ a → 0 ≤ sqrt a ∧ sqrt a ^ 2 = a) {npart nprof nbins : ℕ} (hn : 0 < npart)
    (hp : 0 < nprof) {x : ℕ → ℕ → ℕ} (hx : InRange npart nprof nbins x) (he : EvenlyFilled npart nprof nbins x) {wf : ℕ → ℕ → K}
    (hw : Profiled nprof nbins wf) {k : ℕ} {s t : RState K} (h1 : hybrid sqrt npart nprof nbins x wf k = .ok s)
    (h2 : hybrid sqrt npart nprof nbins x wf (k + 1) = .ok t) (ht : s.weights.sum = t.weights.sum) :
    ∃ d d' : K, t.discr[k]? = some d ∧ t.discr[k + 1]? = some d' ∧ d' ≤ d := by
  obtain ⟨c, hc, h⟩ := he
  have hb : 0 < nbins := by have := hx 0 hn 0 hp; omega
  obtain ⟨hg, rfl⟩ := (hybrid_ok_iff sqrt hn hp hx k s).mp h1
  obtain ⟨_, rfl⟩ := (hybrid_ok_iff sqrt hn hp hx (k + 1) t).mp h2
  dsimp only at ht ⊢
  rw [sum_tab, sum_tab] at ht
  refine ⟨_, _, (getElem?_tab ..).trans (if_pos (by omega)), (getElem?_tab ..).trans (if_pos (by omega)), ?_⟩
  have hnn : ∀ m, 0 ≤ msq false npart nprof nbins x wf m := fun m =>
    div_nonneg (sum_nonneg fun p _ => sum_nonneg fun b _ => sq_nonneg _) (Nat.cast_nonneg _)
  apply (pow_le_pow_iff_left₀ (hs _ (hnn (k + 1))).1 (hs _ (hnn k)).1 two_ne_zero).mp
  rw [(hs _ (hnn k)).2, (hs _ (hnn (k + 1))).2]
  exact even_step hp hb hx hw hc h ht

/-- C117 (partial: python, evenly filled bins, no weight set to zero in `n` iterations – the total is that of the start).  If some weights
explain the data, the discrepancy after `n` iterations goes to zero at least like `1/√n`: its square times `n` is bounded by the squared
distance of the first weights from those weights, over the product of their total and the number of samples. -/
theorem C117_rate_partial (sqrt : K → K) (hs : ∀ a, 0 ≤ a → 0 ≤ sqrt a ∧ sqrt a ^ 2 = a) {npart nprof nbins : ℕ} (hn : 0 < npart)
    (hp : 0 < nprof) {x : ℕ → ℕ → ℕ} (hx : InRange npart nprof nbins x) (he : EvenlyFilled npart nprof nbins x) {wf : ℕ → ℕ → K}
    (hw : Profiled nprof nbins wf) {n : ℕ} {s t : RState K} (h1 : hybrid sqrt npart nprof nbins x wf 0 = .ok s)
    (h2 : hybrid sqrt npart nprof nbins x wf n = .ok t) (ht : s.weights.sum = t.weights.sum) {v : ℕ → K}
    (hv : Explains npart nprof nbins x wf v) (hvt : ∑ i ∈ range npart, v i = s.weights.sum) :
    ∃ d, t.discr[n]? = some d ∧ (n : K) * d ^ 2 * (s.weights.sum * ((nprof * nbins : ℕ) : K)) ≤
      sqDist npart (fun i => ∑ p ∈ range nprof, wf p (x i p)) v := by
  obtain ⟨c, hc, h⟩ := he
  have hb : 0 < nbins := by have := hx 0 hn 0 hp; omega
  obtain ⟨hg, rfl⟩ := (hybrid_ok_iff sqrt hn hp hx 0 s).mp h1
  obtain ⟨hgn, rfl⟩ := (hybrid_ok_iff sqrt hn hp hx n t).mp h2
  dsimp only at ht hvt ⊢
  rw [sum_tab] at ht hvt
  rw [sum_tab] at ht
  have hcov : Covered npart nprof nbins x wf := even_covered hc h
  refine ⟨_, (getElem?_tab ..).trans (if_pos (by omega)), ?_⟩
  have hnn : ∀ m, 0 ≤ msq false npart nprof nbins x wf m := fun m =>
    div_nonneg (sum_nonneg fun p _ => sum_nonneg fun b _ => sq_nonneg _) (Nat.cast_nonneg _)
  rw [(hs _ (hnn n)).2, sum_tab]
  -- the total is the same in all rounds
  have hS : ∀ k, k ≤ n → ∑ i ∈ range npart, W false npart nprof nbins x wf k i = ∑ i ∈ range npart, W false npart nprof nbins x wf 0 i := by
    intro k hk
    have a := total_mono (keep := false) hp hx hw hcov 0 k
    have b := total_mono (keep := false) hp hx hw hcov k (n - k)
    rw [zero_add] at a
    rw [show k + (n - k) = n by omega, ← ht] at b
    exact le_antisymm b a
  set S := ∑ i ∈ range npart, W false npart nprof nbins x wf 0 i with hSdef
  have hSm : S = (nprof : K) * (maxCount npart nprof nbins x : K) := by
    rw [even_condition hp hb hx hw h, hSdef, total_zero hx hw]
  have hN : (0 : K) ≤ ((nprof * nbins : ℕ) : K) := Nat.cast_nonneg _
  -- the mean squares fall
  have hanti : ∀ j k, k + j ≤ n → msq false npart nprof nbins x wf (k + j) ≤ msq false npart nprof nbins x wf k := by
    intro j
    induction j with
    | zero => intro k _; exact le_rfl
    | succ j ih =>
      intro k hk
      refine le_trans (even_step (k := k + j) hp hb hx hw hc h ?_) (ih k (by omega))
      rw [hS _ (by omega), hS (k + j + 1) (by omega)]
  -- distances
  have hd : ∀ k, k ≤ n → sqDist npart (W false npart nprof nbins x wf k) v +
      (k : K) * (S * (((nprof * nbins : ℕ) : K) * msq false npart nprof nbins x wf n)) ≤
        sqDist npart (W false npart nprof nbins x wf 0) v := by
    intro k
    induction k with
    | zero => intro _; simp
    | succ k ih =>
      intro hk
      have i1 := ih (by omega)
      have hgk : Good false npart nprof nbins x wf k := fun m hm => hgn m (by omega)
      have hu := (total_eq_iff hx hw hcov hgk).mp (by rw [hS k (by omega), hS (k + 1) hk])
      have i2 := raw_dist hx hgk hv (by rw [hvt, hS k (by omega)])
      have i3 : sqDist npart (W false npart nprof nbins x wf (k + 1)) v = sqDist npart (raw false npart nprof nbins x wf k) v :=
        sum_congr rfl fun i hi => by rw [unclipped_W hu (mem_range.mp hi)]
      rw [hS k (by omega), ← hSm, even_squares hc hp hb h] at i2
      have i4 := hanti (n - k) k (by omega)
      rw [show k + (n - k) = n by omega] at i4
      have hS0 : 0 < S := hg 0 le_rfl
      have i5 : S * (((nprof * nbins : ℕ) : K) * msq false npart nprof nbins x wf n) ≤
          S * (((nprof * nbins : ℕ) : K) * msq false npart nprof nbins x wf k) :=
        mul_le_mul_of_nonneg_left (mul_le_mul_of_nonneg_left i4 hN) hS0.le
      rw [i3]
      push_cast at i1 i2 i5 ⊢
      linarith
  have h3 := hd n le_rfl
  have h4 : 0 ≤ sqDist npart (W false npart nprof nbins x wf n) v := sum_nonneg fun i _ => sq_nonneg _
  have h5 : sqDist npart (W false npart nprof nbins x wf 0) v = sqDist npart (fun i => ∑ p ∈ range nprof, wf p (x i p)) v :=
    sum_congr rfl fun i hi => by rw [W_zero hx hw (mem_range.mp hi)]; rfl
  rw [h5] at h3
  linarith

/-- C117 (partial: python, the condition above, no weight set to zero in `n` iterations; the bins may be filled unevenly).  If some weights
explain the data, the squares of all discrepancies together stay below a bound that does not depend on `n`: the discrepancy goes to zero. -/
theorem C117_sum_partial (sqrt : K → K) (hs : ∀ a, 0 ≤ a → 0 ≤ sqrt a ∧ sqrt a ^ 2 = a) {npart nprof nbins : ℕ} (hn : 0 < npart)
    (hp : 0 < nprof) {x : ℕ → ℕ → ℕ} (hx : InRange npart nprof nbins x) {wf : ℕ → ℕ → K} (hw : Profiled nprof nbins wf)
    (hc : Covered npart nprof nbins x wf) {n : ℕ} {s t : RState K} (h1 : hybrid sqrt npart nprof nbins x wf 0 = .ok s)
    (h2 : hybrid sqrt npart nprof nbins x wf n = .ok t) (ht : s.weights.sum = t.weights.sum)
    (hh : (nprof : K) * (maxCount npart nprof nbins x : K) ≤ 2 * s.weights.sum) {v : ℕ → K}
    (hv : Explains npart nprof nbins x wf v) (hvt : ∑ i ∈ range npart, v i = s.weights.sum) :
    ∃ d : ℕ → K, t.discr = tab (n + 1) d ∧
      (2 * s.weights.sum - (nprof : K) * (maxCount npart nprof nbins x : K)) * (((nprof * nbins : ℕ) : K) * ∑ m ∈ range n, d m ^ 2) ≤
        sqDist npart (fun i => ∑ p ∈ range nprof, wf p (x i p)) v := by
  have hb : 0 < nbins := by have := hx 0 hn 0 hp; omega
  obtain ⟨hg, rfl⟩ := (hybrid_ok_iff sqrt hn hp hx 0 s).mp h1
  obtain ⟨hgn, rfl⟩ := (hybrid_ok_iff sqrt hn hp hx n t).mp h2
  dsimp only at ht hvt hh ⊢
  rw [sum_tab] at ht hvt hh ⊢
  rw [sum_tab] at ht
  refine ⟨_, rfl, ?_⟩
  have hN : ((nprof * nbins : ℕ) : K) ≠ 0 := by exact_mod_cast (Nat.mul_pos hp hb).ne'
  have hnn : ∀ m, 0 ≤ msq false npart nprof nbins x wf m := fun m =>
    div_nonneg (sum_nonneg fun p _ => sum_nonneg fun b _ => sq_nonneg _) (Nat.cast_nonneg _)
  have hS : ∀ k, k ≤ n → _ := fun k hk => total_const hp hx hw hc ht hk
  set S := ∑ i ∈ range npart, W false npart nprof nbins x wf 0 i with hSdef
  set A := 2 * S - (nprof : K) * (maxCount npart nprof nbins x : K) with hA
  have hA0 : 0 ≤ A := by rw [hA]; linarith
  have hm : ∀ m, ((nprof * nbins : ℕ) : K) * sqrt (msq false npart nprof nbins x wf m) ^ 2 ≤
      sparseSquares npart nprof nbins x (resid npart nprof nbins x wf m) := by
    intro m
    rw [(hs _ (hnn m)).2]
    unfold msq meanSquare
    rw [mul_div_cancel₀ _ hN]
    exact squares_le_sparse hn hp hx _
  have hd : ∀ k, k ≤ n → sqDist npart (W false npart nprof nbins x wf k) v +
      A * (((nprof * nbins : ℕ) : K) * ∑ m ∈ range k, sqrt (msq false npart nprof nbins x wf m) ^ 2) ≤
        sqDist npart (W false npart nprof nbins x wf 0) v := by
    intro k
    induction k with
    | zero => intro _; simp
    | succ k ih =>
      intro hk
      have i1 := ih (by omega)
      have hgk : Good false npart nprof nbins x wf k := fun m hm => hgn m (by omega)
      have hu := (total_eq_iff hx hw hc hgk).mp (by rw [hS k (by omega), hS (k + 1) hk])
      have i2 := raw_dist hx hgk hv (by rw [hvt, hS k (by omega)])
      rw [hS k (by omega), ← hA] at i2
      have i3 := mul_le_mul_of_nonneg_left (hm k) hA0
      rw [unclipped_dist hu, sum_range_succ, mul_add, mul_add]
      linarith
  have h3 := hd n le_rfl
  have h4 : 0 ≤ sqDist npart (W false npart nprof nbins x wf n) v := sum_nonneg fun i _ => sq_nonneg _
  have h5 : sqDist npart (W false npart nprof nbins x wf 0) v = sqDist npart (fun i => ∑ p ∈ range nprof, wf p (x i p)) v :=
    sum_congr rfl fun i hi => by rw [W_zero hx hw (mem_range.mp hi)]; rfl
  rw [h5] at h3
  linarith

/-- C117 for the C++ routine (partial: the same condition on the bins).  There the squared distance to weights that explain the data can
grow, and so can the discrepancy (`C117_violated_cpp`); what does not grow from the second iteration on is the squared distance plus the
squared differences of the profiles recreated by the iteration before (those of sparsely filled bins counted more).  Weights set to zero
or not. -/
theorem C117_cpp_distance_partial (sqrt : K → K) {npart nprof nbins : ℕ} (hp : 0 < nprof) {x : ℕ → ℕ → ℕ}
    (hx : InRange npart nprof nbins x) {wf : ℕ → ℕ → K} (hw : Profiled nprof nbins wf) (hc : Covered npart nprof nbins x wf)
    (hh : (nprof : K) * (maxCount npart nprof nbins x : K) ≤ 2 * ∑ p ∈ range nprof, ∑ b ∈ range nbins, wf p b * (count npart x p b : K))
    {k : ℕ} {q s t : RState K} (h0 : (run sqrt npart nprof nbins x wf k).2 = .ok q)
    (h1 : (run sqrt npart nprof nbins x wf (k + 1)).2 = .ok s) (h2 : (run sqrt npart nprof nbins x wf (k + 2)).2 = .ok t)
    {v : ℕ → K} (hv : Explains npart nprof nbins x wf v) (hv0 : ∀ i, i < npart → 0 ≤ v i)
    (ht : ∑ i ∈ range npart, v i = s.weights.sum) :
    ∃ (w w' : ℕ → K) (r r' : ℕ → ℕ → K), s.weights = tab npart w ∧ t.weights = tab npart w' ∧
      q.flatRec = flat nprof nbins r ∧ s.flatRec = flat nprof nbins r' ∧
      sqDist npart w' v + sparseSquares npart nprof nbins x (fun p b => wf p b - r' p b) ≤
        sqDist npart w v + sparseSquares npart nprof nbins x (fun p b => wf p b - r p b) := by
  obtain ⟨hn, hb⟩ := covered_pos hp hw hc
  obtain ⟨_, rfl⟩ := (run_ok_iff sqrt hp hb hx k q).mp h0
  obtain ⟨hg, rfl⟩ := (run_ok_iff sqrt hp hb hx (k + 1) s).mp h1
  obtain ⟨_, rfl⟩ := (run_ok_iff sqrt hp hb hx (k + 2) t).mp h2
  dsimp only at ht ⊢
  rw [sum_tab] at ht
  refine ⟨_, _, _, _, rfl, rfl, rfl, rfl, ?_⟩
  have e1 := clip_distAny (keep := true) (nprof := nprof) (nbins := nbins) (x := x) (wf := wf) (k := k + 1) hv0
  have e2 := raw_distC hx (Nat.succ_pos k) hg hv ht
  have hm := total_mono (keep := true) hp hx hw hc 0 (k + 1)
  rw [total_zero hx hw, zero_add] at hm
  have e3 := mul_nonneg (sub_nonneg.mpr (hh.trans (mul_le_mul_of_nonneg_left hm (by norm_num : (0 : K) ≤ 2))))
    (sparse_nonneg (npart := npart) (nprof := nprof) (nbins := nbins) (x := x) (residC npart nprof nbins x wf (k + 2)))
  have e4 : sqDist npart (W true npart nprof nbins x wf (k + 2)) v +
      sparseSquares npart nprof nbins x (residC npart nprof nbins x wf (k + 2)) ≤
        sqDist npart (W true npart nprof nbins x wf (k + 1)) v +
          sparseSquares npart nprof nbins x (residC npart nprof nbins x wf (k + 1)) := by
    linarith
  exact e4

/-- C117 for the C++ routine (partial: the condition on the bins, no weight set to zero in `n` iterations).  If some weights explain the
data, the discrepancy goes to zero although it need not fall from one iteration to the next: the squares of all discrepancies together stay
below a bound that does not depend on `n`. -/
theorem C117_cpp_sum_partial (sqrt : K → K) (hs : ∀ a, 0 ≤ a → 0 ≤ sqrt a ∧ sqrt a ^ 2 = a) {npart nprof nbins : ℕ}
    (hp : 0 < nprof) {x : ℕ → ℕ → ℕ} (hx : InRange npart nprof nbins x) {wf : ℕ → ℕ → K} (hw : Profiled nprof nbins wf)
    (hc : Covered npart nprof nbins x wf) {n : ℕ} {s t : RState K} (h1 : (run sqrt npart nprof nbins x wf 0).2 = .ok s)
    (h2 : (run sqrt npart nprof nbins x wf n).2 = .ok t) (ht : s.weights.sum = t.weights.sum)
    (hh : (nprof : K) * (maxCount npart nprof nbins x : K) ≤ 2 * s.weights.sum) {v : ℕ → K}
    (hv : Explains npart nprof nbins x wf v) (hvt : ∑ i ∈ range npart, v i = s.weights.sum) :
    ∃ (d : ℕ → K) (r : ℕ → ℕ → K), t.discr = tab (n + 1) d ∧ s.flatRec = flat nprof nbins r ∧
      (2 * s.weights.sum - (nprof : K) * (maxCount npart nprof nbins x : K)) * (((nprof * nbins : ℕ) : K) * ∑ m ∈ range n, d m ^ 2) ≤
        sqDist npart (fun i => ∑ p ∈ range nprof, wf p (x i p)) v + sparseSquares npart nprof nbins x (fun p b => wf p b - r p b) := by
  obtain ⟨hn, hb⟩ := covered_pos hp hw hc
  obtain ⟨hg, rfl⟩ := (run_ok_iff sqrt hp hb hx 0 s).mp h1
  obtain ⟨hgn, rfl⟩ := (run_ok_iff sqrt hp hb hx n t).mp h2
  dsimp only at ht hvt hh ⊢
  rw [sum_tab] at ht hvt hh ⊢
  rw [sum_tab] at ht
  refine ⟨_, _, rfl, rfl, ?_⟩
  have hN : ((nprof * nbins : ℕ) : K) ≠ 0 := by exact_mod_cast (Nat.mul_pos hp hb).ne'
  have hnn : ∀ m, 0 ≤ msq true npart nprof nbins x wf m := fun m =>
    div_nonneg (sum_nonneg fun p _ => sum_nonneg fun b _ => sq_nonneg _) (Nat.cast_nonneg _)
  have hS : ∀ k, k ≤ n → _ := fun k hk => total_const hp hx hw hc ht hk
  set S := ∑ i ∈ range npart, W true npart nprof nbins x wf 0 i with hSdef
  set A := 2 * S - (nprof : K) * (maxCount npart nprof nbins x : K) with hA
  have hA0 : 0 ≤ A := by rw [hA]; linarith
  have hm : ∀ m, ((nprof * nbins : ℕ) : K) * sqrt (msq true npart nprof nbins x wf m) ^ 2 ≤
      sparseSquares npart nprof nbins x (residC npart nprof nbins x wf (m + 1)) := by
    intro m
    rw [(hs _ (hnn m)).2]
    unfold msq meanSquare
    rw [mul_div_cancel₀ _ hN]
    exact squares_le_sparse hn hp hx _
  have h5 : sqDist npart (W true npart nprof nbins x wf 0) v = sqDist npart (fun i => ∑ p ∈ range nprof, wf p (x i p)) v :=
    sum_congr rfl fun i hi => by rw [W_zero hx hw (mem_range.mp hi)]; rfl
  show _ ≤ _ + sparseSquares npart nprof nbins x (residC npart nprof nbins x wf 1)
  have hd : ∀ k, k + 1 ≤ n → sqDist npart (W true npart nprof nbins x wf (k + 1)) v +
      sparseSquares npart nprof nbins x (residC npart nprof nbins x wf (k + 1)) +
      A * (((nprof * nbins : ℕ) : K) * ∑ m ∈ range (k + 1), sqrt (msq true npart nprof nbins x wf m) ^ 2) ≤
        sqDist npart (W true npart nprof nbins x wf 0) v + sparseSquares npart nprof nbins x (residC npart nprof nbins x wf 1) := by
    intro k
    induction k with
    | zero =>
      intro hk
      have hgk : Good true npart nprof nbins x wf 0 := fun m hm => hgn m (by omega)
      have hgf : Good false npart nprof nbins x wf 0 := good_all hp hx hw hc 0
      have hu := (total_eq_iff hx hw hc hgk).mp (by rw [hS 1 hk])
      have i2 := raw_dist hx hgf hv (by rw [hvt, hSdef, W_zero_eq])
      have i3 := mul_le_mul_of_nonneg_left (hm 0) hA0
      have i4 : sqDist npart (raw true npart nprof nbins x wf 0) v = sqDist npart (raw false npart nprof nbins x wf 0) v :=
        sum_congr rfl fun i _ => by rw [raw_zero]
      rw [← W_zero_eq, ← hSdef, ← hA, ← residC_one] at i2
      rw [unclipped_dist hu, i4]
      simp only [zero_add, sum_range_one] at i2 i3 ⊢
      linarith
    | succ k ih =>
      intro hk
      have i1 := ih (by omega)
      have hgk : Good true npart nprof nbins x wf (k + 1) := fun m hm => hgn m (by omega)
      have hu := (total_eq_iff hx hw hc hgk).mp (by rw [hS (k + 1) (by omega), hS (k + 1 + 1) hk])
      have i2 := raw_distC hx (Nat.succ_pos k) hgk hv (by rw [hvt, hS (k + 1) (by omega)])
      rw [hS (k + 1) (by omega), ← hA] at i2
      have i3 := mul_le_mul_of_nonneg_left (hm (k + 1)) hA0
      rw [unclipped_dist hu, sum_range_succ, mul_add, mul_add]
      linarith
  have h6 := sparse_nonneg (K := K) (npart := npart) (nprof := nprof) (nbins := nbins) (x := x)
  have h4 : ∀ k, 0 ≤ sqDist npart (W true npart nprof nbins x wf k) v := fun k => sum_nonneg fun i _ => sq_nonneg _
  rw [← h5]
  rcases n with _ | n
  · simp only [range_zero, sum_empty, mul_zero]
    exact add_nonneg (h4 0) (h6 _)
  · have h3 := hd n le_rfl
    have := h4 (n + 1)
    have := h6 (residC npart nprof nbins x wf (n + 1))
    linarith

theorem xEven_counts : ∀ p, p < 2 → ∀ b, b < 2 → count 4 xEven p b = 2 := by
  intro p hp b hb
  interval_cases p <;> interval_cases b <;> decide +kernel

/-- weights that explain `wfCov` for four particles, one in each pair of bins -/
def vEven : ℕ → ℚ := fun i => 4 * (wfCov 0 (xEven i 0) * wfCov 1 (xEven i 1))

/-- four evenly spread particles: the hypotheses of the four theorems are met, two iterations cut no weight, the discrepancy falls -/
example : InRange 4 2 2 xEven ∧ Profiled 2 2 wfCov ∧ EvenlyFilled 4 2 2 xEven ∧ Explains 4 2 2 xEven wfCov vEven ∧
    (∀ i, i < 4 → 0 ≤ vEven i) ∧ ∑ i ∈ range 4, vEven i = 4 ∧
    (hybrid (id : ℚ → ℚ) 4 2 2 xEven wfCov 0).toOption.map (·.weights.sum) = some 4 ∧
    (hybrid (id : ℚ → ℚ) 4 2 2 xEven wfCov 2).toOption.map (fun s => (s.weights.sum, s.discr)) =
      some (4, [61 / 3200, 61 / 12800, 61 / 51200]) := by
  refine ⟨xEven_inRange, wfCov_profiled, ⟨2, by norm_num, xEven_counts⟩, fun p hp b hb => ?_, fun i hi => ?_, ?_, ?_, ?_⟩
  · interval_cases p <;> interval_cases b <;> decide +kernel
  · interval_cases i <;> decide +kernel
  all_goals decide +kernel

/-- the same for the C++ routine: two iterations cut no weight -/
example : (run (id : ℚ → ℚ) 4 2 2 xEven wfCov 0).2.toOption.map (·.weights.sum) = some 4 ∧
    (run (id : ℚ → ℚ) 4 2 2 xEven wfCov 2).2.toOption.map (fun s => s.weights.sum) = some 4 ∧
    (2 : ℚ) * (maxCount 4 2 2 xEven : ℚ) ≤ 2 * 4 := by
  refine ⟨?_, ?_, ?_⟩ <;> decide +kernel

/-- three particles in the first bin and one in the second -/
def x31 : ℕ → ℕ → ℕ := fun i _ => if i = 3 then 1 else 0

/-- a profile with most of its signal where there are few particles -/
def wf31 : ℕ → ℕ → ℚ := fun _ b => if b = 0 then 1 / 5 else 4 / 5

theorem x31_inRange : InRange 4 1 2 x31 := by
  intro i _ p _; unfold x31; split <;> omega

/-- C117 violated where the signal lies in sparsely filled bins.  One profile, three particles in the bin with a fifth of the signal, one in
the bin with the rest; there are weights that explain the data exactly, and a particle wherever there is signal.  The second iteration of
`run_hybrid` makes the discrepancy larger than the first left it, without setting any weight to zero. -/
theorem C117_violated_uneven (sqrt : ℚ → ℚ) :
    Profiled 1 2 wf31 ∧ Covered 4 1 2 x31 wf31 ∧ Explains 4 1 2 x31 wf31 (fun i => if i = 3 then 12 else 1) ∧
    ∃ s t, hybrid sqrt 4 1 2 x31 wf31 1 = .ok s ∧ hybrid sqrt 4 1 2 x31 wf31 2 = .ok t ∧ s.weights.sum = t.weights.sum ∧
      t.discr[1]? = some (sqrt (2704 / 67600)) ∧ t.discr[2]? = some (sqrt (2809 / 67600)) := by
  have g : Good false 4 1 2 x31 wf31 2 := by
    intro m hm
    interval_cases m <;> decide +kernel
  refine ⟨⟨fun p hp b hb => ?_, fun p hp => ?_⟩, fun p hp b hb _ => ?_, fun p hp b hb => ?_, _, _,
    (hybrid_ok_iff sqrt (by norm_num) (by norm_num) x31_inRange 1 _).mpr ⟨fun m hm => g m (by omega), rfl⟩,
    (hybrid_ok_iff sqrt (by norm_num) (by norm_num) x31_inRange 2 _).mpr ⟨g, rfl⟩, ?_, ?_, ?_⟩
  · interval_cases p; interval_cases b <;> decide +kernel
  · interval_cases p; decide +kernel
  · interval_cases p; interval_cases b
    · exact ⟨0, by norm_num, rfl⟩
    · exact ⟨3, by norm_num, rfl⟩
  · interval_cases p; interval_cases b <;> decide +kernel
  · dsimp only; decide +kernel
  · have : msq false 4 1 2 x31 wf31 1 = 2704 / 67600 := by decide +kernel
    simp only [getElem?_tab]
    rw [this]; rfl
  · have : msq false 4 1 2 x31 wf31 2 = 2809 / 67600 := by decide +kernel
    simp only [getElem?_tab]
    rw [this]; rfl

/-- six particles, two of them in every bin -/
def x6 : ℕ → ℕ → ℕ := fun i p => ((([[2, 2], [0, 1], [1, 2], [2, 1], [1, 0], [0, 0]] : List (List ℕ)).getD i []).getD p 0)

/-- profiles that no weights explain -/
def wf6 : ℕ → ℕ → ℚ := fun p b => (([[0, 1, 0], [2 / 7, 4 / 7, 1 / 7]] : List (List ℚ)).getD p []).getD b 0

theorem x6_inRange : InRange 6 2 3 x6 := by
  intro i hi p hp
  interval_cases i <;> interval_cases p <;> decide +kernel

/-- C117 violated when weights are set to zero: two particles in every bin of every profile, data that no weights explain.  The second
iteration of `run_hybrid` sets weights to zero (the total grows) and makes the discrepancy larger. -/
theorem C117_violated_cut (sqrt : ℚ → ℚ) :
    EvenlyFilled 6 2 3 x6 ∧ Profiled 2 3 wf6 ∧ (254 / 6069 : ℚ) < 4629158 / 110607525 ∧
    ∃ t, hybrid sqrt 6 2 3 x6 wf6 2 = .ok t ∧ t.discr[1]? = some (sqrt (254 / 6069)) ∧
      t.discr[2]? = some (sqrt (4629158 / 110607525)) := by
  have g : Good false 6 2 3 x6 wf6 2 := by
    intro m hm
    interval_cases m <;> decide +kernel
  refine ⟨⟨2, by norm_num, fun p hp b hb => ?_⟩, ⟨fun p hp b hb => ?_, fun p hp => ?_⟩, by norm_num, _,
    (hybrid_ok_iff sqrt (by norm_num) (by norm_num) x6_inRange 2 _).mpr ⟨g, rfl⟩, ?_, ?_⟩
  · interval_cases p <;> interval_cases b <;> decide +kernel
  · interval_cases p <;> interval_cases b <;> decide +kernel
  · interval_cases p <;> decide +kernel
  · have : msq false 6 2 3 x6 wf6 1 = 254 / 6069 := by decide +kernel
    simp only [getElem?_tab]
    rw [this]; rfl
  · have : msq false 6 2 3 x6 wf6 2 = 4629158 / 110607525 := by decide +kernel
    simp only [getElem?_tab]
    rw [this]; rfl

/-- six particles, two of them in every bin -/
def x6b : ℕ → ℕ → ℕ := fun i p => ((([[1, 2], [2, 2], [1, 0], [0, 1], [0, 0], [2, 1]] : List (List ℕ)).getD i []).getD p 0)

/-- two equal profiles -/
def wf6b : ℕ → ℕ → ℚ := fun _ b => ([1 / 2, 1 / 3, 1 / 6] : List ℚ).getD b 0

theorem x6b_inRange : InRange 6 2 3 x6b := by
  intro i hi p hp
  interval_cases i <;> interval_cases p <;> decide +kernel

/-- C117 violated in C++, under conditions that are sufficient in python (`C117_discrepancy_partial`): two particles in every bin of every
profile, data that some weights explain exactly, no weight set to zero (the total stays).  The third iteration makes the discrepancy
larger, because each projection is added to the profiles of the iteration before. -/
theorem C117_violated_cpp (sqrt : ℚ → ℚ) :
    EvenlyFilled 6 2 3 x6b ∧ Profiled 2 3 wf6b ∧
    Explains 6 2 3 x6b wf6b (fun i => ([0, 1, 2, 2, 1, 0] : List ℚ).getD i 0) ∧
    ∃ s t, (run sqrt 6 2 3 x6b wf6b 0).2 = .ok s ∧ (run sqrt 6 2 3 x6b wf6b 3).2 = .ok t ∧ s.weights.sum = t.weights.sum ∧
      t.discr[2]? = some (sqrt (25 / 13500000)) ∧ t.discr[3]? = some (sqrt (49 / 13500000)) := by
  have g : Good true 6 2 3 x6b wf6b 3 := by
    intro m hm
    interval_cases m <;> decide +kernel
  refine ⟨⟨2, by norm_num, fun p hp b hb => ?_⟩, ⟨fun p hp b hb => ?_, fun p hp => ?_⟩, fun p hp b hb => ?_, _, _,
    (run_ok_iff sqrt (by norm_num) (by norm_num) x6b_inRange 0 _).mpr ⟨fun m hm => g m (by omega), rfl⟩,
    (run_ok_iff sqrt (by norm_num) (by norm_num) x6b_inRange 3 _).mpr ⟨g, rfl⟩, ?_, ?_, ?_⟩
  · interval_cases p <;> interval_cases b <;> decide +kernel
  · interval_cases p <;> interval_cases b <;> decide +kernel
  · interval_cases p <;> decide +kernel
  · interval_cases p <;> interval_cases b <;> decide +kernel
  · dsimp only; decide +kernel
  · have : msq true 6 2 3 x6b wf6b 2 = 25 / 13500000 := by decide +kernel
    simp only [getElem?_tab]
    rw [this]; rfl
  · have : msq true 6 2 3 x6b wf6b 3 = 49 / 13500000 := by decide +kernel
    simp only [getElem?_tab]
    rw [this]; rfl

end Verif.Props

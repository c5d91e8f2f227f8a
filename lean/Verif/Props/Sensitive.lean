import Verif.Props.Converge
import Verif.Lemmas.Sensitive

/-!
# C120 — what a change of the measured data does to the result

Exact arithmetic.  `wf` is one measurement, `wf'` another one, of the same sizes and with the same tracked particles.
-/

set_option linter.unusedSectionVars false

namespace Verif.Props
open Finset Verif.Spec Verif.Recon Verif.Tomo

variable {K : Type} [Field K] [LinearOrder K] [IsStrictOrderedRing K]
variable {npart nprof nbins : ℕ} {x : ℕ → ℕ → ℕ} {wf wf' : ℕ → ℕ → K}

/-- weights, shares and recreated profiles of two reconstructions are as near as the bound for `niter` iterations says -/
def Within (npart nprof nbins : ℕ) (x : ℕ → ℕ → ℕ) (wf wf' : ℕ → ℕ → K) (niter : ℕ) (s t : RState K) : Prop :=
  ∃ (w w' : ℕ → K) (r r' : ℕ → ℕ → K), s.weights = tab npart w ∧ t.weights = tab npart w' ∧
    s.flatRec = flat nprof nbins r ∧ t.flatRec = flat nprof nbins r' ∧
    weightDist npart w w' ≤ sensitivity npart nprof nbins x wf niter * waterfallDist nprof nbins wf wf' ∧
    weightDist npart (fun i => w i / ∑ j ∈ range npart, w j) (fun i => w' i / ∑ j ∈ range npart, w' j) ≤
      2 * (sensitivity npart nprof nbins x wf niter * waterfallDist nprof nbins wf wf') / startTotal npart nprof nbins x wf ∧
    waterfallDist nprof nbins r r' ≤
      (nprof : K) * (2 * (sensitivity npart nprof nbins x wf niter * waterfallDist nprof nbins wf wf') / startTotal npart nprof nbins x wf)

theorem rec_within {keep : Bool} (hp : 0 < nprof) (hx : InRange npart nprof nbins x) (hw : Profiled nprof nbins wf)
    (hc : Covered npart nprof nbins x wf) {k : ℕ} (hg' : Good keep npart nprof nbins x wf' k) :
    waterfallDist nprof nbins (R keep npart nprof nbins x wf (k + 1)) (R keep npart nprof nbins x wf' (k + 1)) ≤
      (nprof : K) * (2 * (sensitivity npart nprof nbins x wf k * waterfallDist nprof nbins wf wf') / startTotal npart nprof nbins x wf) := by
  have hT := startTotal_pos hp hx hw hc
  have ht : startTotal npart nprof nbins x wf ≤ ∑ i ∈ range npart, W keep npart nprof nbins x wf k i := by
    have := total_mono (keep := keep) hp hx hw hc 0 k
    rw [total_zero hx hw, zero_add] at this
    exact this
  have h1 := rec_dist hx (good_all hp hx hw hc k) hg' hT ht
  have h2 := both_dist hp hx hw hc k hg'
  refine h1.trans ?_
  rw [← mul_div_assoc]
  exact div_le_div_of_nonneg_right (by linarith) hT.le

theorem within_any {keep : Bool} (hp : 0 < nprof) (hx : InRange npart nprof nbins x) (hw : Profiled nprof nbins wf)
    (hc : Covered npart nprof nbins x wf) {niter : ℕ} (hg' : Good keep npart nprof nbins x wf' niter) (d d' : List K) :
    Within npart nprof nbins x wf wf' niter
      ⟨tab npart (W keep npart nprof nbins x wf niter), flat nprof nbins (R keep npart nprof nbins x wf (niter + 1)), d⟩
      ⟨tab npart (W keep npart nprof nbins x wf' niter), flat nprof nbins (R keep npart nprof nbins x wf' (niter + 1)), d'⟩ := by
  have hT := startTotal_pos hp hx hw hc
  have hP : (0 : K) < (nprof : K) := by exact_mod_cast hp
  have ht : startTotal npart nprof nbins x wf ≤ ∑ i ∈ range npart, W keep npart nprof nbins x wf niter i := by
    have := total_mono (keep := keep) hp hx hw hc 0 niter
    rw [total_zero hx hw, zero_add] at this
    exact this
  have h2 := both_dist hp hx hw hc niter hg'
  have h3 : weightDist npart (W keep npart nprof nbins x wf niter) (W keep npart nprof nbins x wf' niter) ≤
      sensitivity npart nprof nbins x wf niter * waterfallDist nprof nbins wf wf' := by
    refine le_of_mul_le_mul_left (le_trans ?_ h2) hP
    exact le_add_of_nonneg_right (waterfallDist_nonneg _ _)
  refine ⟨_, _, _, _, rfl, rfl, rfl, rfl, h3, ?_, rec_within hp hx hw hc hg'⟩
  have h4 := norm_dist (s := range npart) (a := W keep npart nprof nbins x wf niter) (a' := W keep npart nprof nbins x wf' niter)
    (fun i _ => W_nonneg ..) (hT.trans_le ht) (hg' niter le_rfl)
  refine h4.trans ?_
  have h5 : 0 ≤ weightDist npart (W keep npart nprof nbins x wf niter) (W keep npart nprof nbins x wf' niter) := weightDist_nonneg _ _
  exact div_le_div₀ (by linarith) (mul_le_mul_of_nonneg_left h3 (by norm_num)) hT ht

/-- C120: if there is a particle wherever there is signal, the C++ reconstruction of `wf` returns, and whenever that of another measurement
`wf'` returns too, weights, shares of the weights and recreated profiles differ by at most a constant times the difference of the
measurements; the constant depends on the number of iterations and on how the particles fill the bins. -/
theorem C120_run (sqrt : K → K) (hp : 0 < nprof) (hx : InRange npart nprof nbins x) (hw : Profiled nprof nbins wf)
    (hc : Covered npart nprof nbins x wf) (niter : ℕ) {t : RState K} (ht : (run sqrt npart nprof nbins x wf' niter).2 = .ok t) :
    ∃ s, (run sqrt npart nprof nbins x wf niter).2 = .ok s ∧ Within npart nprof nbins x wf wf' niter s t := by
  obtain ⟨hn, hb⟩ := covered_pos hp hw hc
  obtain ⟨hg', rfl⟩ := (run_ok_iff sqrt hp hb hx niter t).mp ht
  exact ⟨_, (run_ok_iff sqrt hp hb hx niter _).mpr ⟨good_all hp hx hw hc niter, rfl⟩, within_any hp hx hw hc hg' _ _⟩

/-- C120, the python routine. -/
theorem C120_hybrid (sqrt : K → K) (hp : 0 < nprof) (hx : InRange npart nprof nbins x) (hw : Profiled nprof nbins wf)
    (hc : Covered npart nprof nbins x wf) (niter : ℕ) {t : RState K} (ht : hybrid sqrt npart nprof nbins x wf' niter = .ok t) :
    ∃ s, hybrid sqrt npart nprof nbins x wf niter = .ok s ∧ Within npart nprof nbins x wf wf' niter s t := by
  obtain ⟨hn, hb⟩ := covered_pos hp hw hc
  obtain ⟨hg', rfl⟩ := (hybrid_ok_iff sqrt hn hp hx niter t).mp ht
  exact ⟨_, (hybrid_ok_iff sqrt hn hp hx niter _).mpr ⟨good_all hp hx hw hc niter, rfl⟩, within_any hp hx hw hc hg' _ _⟩

theorem msq_dist {keep : Bool} {sqrt : K → K} (hs : ∀ a, 0 ≤ a → 0 ≤ sqrt a ∧ sqrt a ^ 2 = a) (hp : 0 < nprof)
    (hx : InRange npart nprof nbins x) (hw : Profiled nprof nbins wf) (hc : Covered npart nprof nbins x wf) {k : ℕ}
    (hg' : Good keep npart nprof nbins x wf' k) :
    (sqrt (msq keep npart nprof nbins x wf k) - sqrt (msq keep npart nprof nbins x wf' k)) ^ 2 * ((nprof * nbins : ℕ) : K) ≤
      (waterfallDist nprof nbins wf wf' + (nprof : K) * (2 * (sensitivity npart nprof nbins x wf k * waterfallDist nprof nbins wf wf') /
        startTotal npart nprof nbins x wf)) ^ 2 := by
  obtain ⟨hn, hb⟩ := covered_pos hp hw hc
  refine (rms_dist hs (Nat.mul_pos hp hb)).trans ?_
  apply pow_le_pow_left₀ (waterfallDist_nonneg _ _)
  refine le_trans ?_ (add_le_add_right (rec_within hp hx hw hc hg') _)
  unfold waterfallDist
  rw [← sum_add_distrib]
  apply sum_le_sum
  intro p _
  rw [← sum_add_distrib]
  apply sum_le_sum
  intro b _
  rw [sub_sub_sub_comm]
  exact abs_sub _ _

/-- C120: the discrepancies reported for the two measurements, at every iteration: `√(number of samples)` times their difference is at most the
difference of the measurements plus that of the recreated profiles. -/
theorem C120_discrepancy {sqrt : K → K} (hs : ∀ a, 0 ≤ a → 0 ≤ sqrt a ∧ sqrt a ^ 2 = a) (hp : 0 < nprof)
    (hx : InRange npart nprof nbins x) (hw : Profiled nprof nbins wf) (hc : Covered npart nprof nbins x wf) {niter : ℕ} {s t : RState K}
    (h : ((run sqrt npart nprof nbins x wf niter).2 = .ok s ∧ (run sqrt npart nprof nbins x wf' niter).2 = .ok t) ∨
      (hybrid sqrt npart nprof nbins x wf niter = .ok s ∧ hybrid sqrt npart nprof nbins x wf' niter = .ok t)) :
    ∃ d d' : ℕ → K, s.discr = tab (niter + 1) d ∧ t.discr = tab (niter + 1) d' ∧ ∀ k, k ≤ niter →
      (d k - d' k) ^ 2 * ((nprof * nbins : ℕ) : K) ≤ (waterfallDist nprof nbins wf wf' + (nprof : K) *
        (2 * (sensitivity npart nprof nbins x wf k * waterfallDist nprof nbins wf wf') / startTotal npart nprof nbins x wf)) ^ 2 := by
  obtain ⟨hn, hb⟩ := covered_pos hp hw hc
  rcases h with ⟨h1, h2⟩ | ⟨h1, h2⟩
  · obtain ⟨_, rfl⟩ := (run_ok_iff sqrt hp hb hx niter s).mp h1
    obtain ⟨hg', rfl⟩ := (run_ok_iff sqrt hp hb hx niter t).mp h2
    exact ⟨_, _, rfl, rfl, fun k hk => msq_dist hs hp hx hw hc fun m hm => hg' m (by omega)⟩
  · obtain ⟨_, rfl⟩ := (hybrid_ok_iff sqrt hn hp hx niter s).mp h1
    obtain ⟨hg', rfl⟩ := (hybrid_ok_iff sqrt hn hp hx niter t).mp h2
    exact ⟨_, _, rfl, rfl, fun k hk => msq_dist hs hp hx hw hc fun m hm => hg' m (by omega)⟩

/-- C120: with the same number of particles in every bin an iteration enlarges differences at most fivefold, whatever the number of particles,
profiles and bins: the shares of the weights differ by at most `2 (1 + 5 + … + 5^niter)` times the mean difference of a profile. -/
theorem C120_even (sqrt : K → K) (hp : 0 < nprof) (hx : InRange npart nprof nbins x) (he : EvenlyFilled npart nprof nbins x)
    (hw : Profiled nprof nbins wf) (niter : ℕ) {t : RState K} (ht : (run sqrt npart nprof nbins x wf' niter).2 = .ok t) :
    ∃ s, (run sqrt npart nprof nbins x wf niter).2 = .ok s ∧ ∃ w w' : ℕ → K, s.weights = tab npart w ∧ t.weights = tab npart w' ∧
      weightDist npart (fun i => w i / ∑ j ∈ range npart, w j) (fun i => w' i / ∑ j ∈ range npart, w' j) ≤
        2 * (∑ j ∈ range (niter + 1), 5 ^ j) * (waterfallDist nprof nbins wf wf' / (nprof : K)) := by
  obtain ⟨c, hc0, hcc⟩ := he
  have hc : Covered npart nprof nbins x wf := even_covered hc0 hcc
  obtain ⟨hn, hb⟩ := covered_pos hp hw hc
  obtain ⟨s, hs, w, w', r, r', h1, h2, -, -, -, h3, -⟩ := C120_run sqrt hp hx hw hc niter ht
  refine ⟨s, hs, w, w', h1, h2, h3.trans ?_⟩
  have hP : (1 : K) ≤ (nprof : K) := by exact_mod_cast hp
  have hC : (1 : K) ≤ (c : K) := by exact_mod_cast hc0
  have eM : (maxCount npart nprof nbins x : K) = (c : K) := by rw [even_max hp hb hcc]
  have eT : startTotal npart nprof nbins x wf = (nprof : K) * (c : K) := by
    rw [← even_total (keep := true) hx hw hcc, total_zero hx hw]
    rfl
  have hPC : (1 : K) ≤ (nprof : K) * (c : K) := by nlinarith
  have hg : spread npart nprof nbins x wf ≤ 5 := by
    unfold spread
    rw [eM, eT]
    have : 2 * ((nprof : K) * (c : K) + 1) / ((nprof : K) * (c : K)) ≤ 4 := by
      rw [div_le_iff₀ (by linarith)]
      linarith
    linarith
  have hg0 := (spread_pos hp hx hw hc).le
  have hD : 0 ≤ waterfallDist nprof nbins wf wf' := waterfallDist_nonneg _ _
  have hsum : ∑ j ∈ range (niter + 1), spread npart nprof nbins x wf ^ j ≤ ∑ j ∈ range (niter + 1), (5 : K) ^ j :=
    sum_le_sum fun j _ => pow_le_pow_left₀ hg0 hg j
  unfold sensitivity
  rw [eM, eT]
  have e : 2 * ((c : K) * (∑ j ∈ range (niter + 1), spread npart nprof nbins x wf ^ j) * waterfallDist nprof nbins wf wf') /
      ((nprof : K) * (c : K)) = 2 * (∑ j ∈ range (niter + 1), spread npart nprof nbins x wf ^ j) *
        (waterfallDist nprof nbins wf wf' / (nprof : K)) := by
    field_simp
  rw [e]
  apply mul_le_mul_of_nonneg_right (by linarith)
  exact div_nonneg hD (by linarith)

/-- C120: in terms of the data as measured, negative samples included.  The normalised waterfalls of two measurements differ, in every
profile, by at most twice the difference of the samples in relation to the (positive) signal of the profile. -/
theorem C120_measured (m m' : ℕ → ℕ → K) (hs : ∀ p, p < nprof → ∃ b, b < nbins ∧ 0 < m p b)
    (hs' : ∀ p, p < nprof → ∃ b, b < nbins ∧ 0 < m' p b) (hp : 0 < nprof) :
    ∃ w w' : ℕ → ℕ → K, initWaterfall (flat nprof nbins m) nprof nbins = .ok (flat nprof nbins w) ∧
      initWaterfall (flat nprof nbins m') nprof nbins = .ok (flat nprof nbins w') ∧ Profiled nprof nbins w ∧ Profiled nprof nbins w' ∧
      waterfallDist nprof nbins w w' ≤
        ∑ p ∈ range nprof, 2 * (∑ b ∈ range nbins, |m p b - m' p b|) / ∑ b ∈ range nbins, max (m p b) 0 := by
  have pos : ∀ v : ℕ → ℕ → K, (∀ p, p < nprof → ∃ b, b < nbins ∧ 0 < v p b) → ∀ p, p < nprof →
      0 < rowSum nbins (fun p b => max (v p b) 0) p := by
    intro v hv p hp
    obtain ⟨b, hb, h⟩ := hv p hp
    exact sum_pos' (fun b _ => le_max_right _ _) ⟨b, mem_range.mpr hb, lt_max_of_lt_left h⟩
  have made : ∀ v : ℕ → ℕ → K, (∀ p, p < nprof → ∃ b, b < nbins ∧ 0 < v p b) →
      initWaterfall (flat nprof nbins v) nprof nbins = .ok (flat nprof nbins (normRows nbins fun p b => max (v p b) 0)) ∧
      Profiled nprof nbins (normRows nbins fun p b => max (v p b) 0) := by
    intro v hv
    obtain ⟨b₀, hb₀, hm₀⟩ := hv 0 hp
    obtain ⟨_, _, h3⟩ := initWaterfall_char (nprof := nprof) (nbins := nbins) (by omega) v
    exact ⟨h3 ⟨0, b₀, hp, hb₀, hm₀⟩ hv, fun p hp b hb => div_nonneg (le_max_right _ _) (pos v hv p hp).le,
      fun p hp => rowSum_normRows (pos v hv p hp).ne'⟩
  refine ⟨_, _, (made m hs).1, (made m' hs').1, (made m hs).2, (made m' hs').2, ?_⟩
  unfold waterfallDist
  apply sum_le_sum
  intro p hp
  have hp := mem_range.mp hp
  refine (norm_dist (s := range nbins) (a := fun b => max (m p b) 0) (a' := fun b => max (m' p b) 0) (fun b _ => le_max_right _ _)
    (pos m hs p hp) (pos m' hs' p hp)).trans ?_
  apply div_le_div_of_nonneg_right _ (pos m hs p hp).le
  apply mul_le_mul_of_nonneg_left _ (by norm_num)
  exact sum_le_sum fun b _ => abs_max_sub_max_le_abs _ _ _

/-- a second measurement beside `wfCov`: an eighth of the first profile moved to the first bin -/
def wfCov2 : ℕ → ℕ → ℚ := fun p b => if p = 0 then (if b = 0 then 7 / 8 else 1 / 8) else if b = 0 then 1 / 5 else 4 / 5

theorem wfCov2_profiled : Profiled 2 2 wfCov2 := by
  refine ⟨fun p hp b hb => ?_, fun p hp => ?_⟩
  · interval_cases p <;> interval_cases b <;> decide +kernel
  · interval_cases p <;> decide +kernel

/-- four particles, two in every bin -/
example (niter : ℕ) : ∃ s t, (run (id : ℚ → ℚ) 4 2 2 xEven wfCov niter).2 = .ok s ∧ (run (id : ℚ → ℚ) 4 2 2 xEven wfCov2 niter).2 = .ok t ∧
    Within 4 2 2 xEven wfCov wfCov2 niter s t := by
  obtain ⟨t, ht⟩ := (C116_returns (id : ℚ → ℚ) (by decide) xEven_inRange wfCov2_profiled (even_covered (by decide) xEven_counts) niter).1
  obtain ⟨s, hs, h⟩ := C120_run (id : ℚ → ℚ) (by decide) xEven_inRange wfCov_profiled (even_covered (by decide) xEven_counts) niter ht
  exact ⟨s, t, hs, ht, h⟩

/-- their measurements differ by a quarter, which is at most doubled before the first iteration; after two iterations the weights differ -/
example : waterfallDist 2 2 wfCov wfCov2 = 1 / 4 ∧ sensitivity 4 2 2 xEven wfCov 0 = 2 ∧ spread 4 2 2 xEven wfCov = 7 / 2 ∧
    (run (id : ℚ → ℚ) 4 2 2 xEven wfCov 2).2.toOption.map (·.weights) ≠ (run (id : ℚ → ℚ) 4 2 2 xEven wfCov2 2).2.toOption.map (·.weights) := by
  refine ⟨by decide +kernel, by decide +kernel, by decide +kernel, by decide +kernel⟩

/-- one profile with two samples that add up to one -/
def wfNear (ε : K) : ℕ → ℕ → K := fun _ b => if b = 0 then 1 / 2 + ε else 1 / 2 - ε

/-- C120 is violated where signal lies in a bin without particles: the reconstruction of `(1/2, 1/2)` with one particle, in the first bin, raises
after one iteration, that of `(1/2 + ε, 1/2 - ε)` returns the weight `2 ε`, however small `ε` is. -/
theorem C120_violated_uncovered (sqrt : K → K) {ε : K} (h0 : 0 < ε) (h1 : ε ≤ 1 / 2) :
    Profiled 1 2 (wfNear ε) ∧ waterfallDist 1 2 (wfNear 0) (wfNear ε) = 2 * ε ∧
    (run sqrt 1 1 2 (fun _ _ => 0) (wfNear 0) 1).2 = .error (.exc .allZero) ∧
    (run sqrt 1 1 2 (fun _ _ => 0) (wfNear ε) 1).2.toOption.map (·.weights) = some [2 * ε] := by
  have hx : InRange 1 1 2 fun _ _ => 0 := fun _ _ _ _ => by norm_num
  have hr : recip K 1 1 2 (fun _ _ => 0) 0 0 = 1 := by
    have e1 : maxCount 1 1 2 (fun _ _ => 0) = 1 := by decide
    have e2 : count 1 (fun _ _ => 0) 0 0 = 1 := by decide
    unfold recip
    rw [e1, e2]
    simp
  have w0 : ∀ δ : K, 0 ≤ δ → W true 1 1 2 (fun _ _ => 0) (wfNear δ) 0 0 = 1 / 2 + δ := by
    intro δ hδ
    show max (backProj 1 (fun _ _ => 0) (wfNear δ) 0) 0 = _
    unfold backProj wfNear
    rw [sum_range_one, if_pos rfl]
    exact max_eq_left (by positivity)
  have w1 : ∀ δ : K, 0 ≤ δ → W true 1 1 2 (fun _ _ => 0) (wfNear δ) 1 0 = 2 * δ := by
    intro δ hδ
    have hR : R true 1 1 2 (fun _ _ => 0) (wfNear δ) 1 0 0 = 1 := by
      rw [R_succ]
      unfold normRows rowSum
      rw [sum_range_succ, sum_range_one]
      have ha : proj 1 (fun _ _ => 0) (W true 1 1 2 (fun _ _ => 0) (wfNear δ) 0) 0 0 = 1 / 2 + δ := by
        unfold proj
        rw [sum_range_one, if_pos rfl, w0 δ hδ]
      have hb : proj 1 (fun _ _ => 0) (W true 1 1 2 (fun _ _ => 0) (wfNear δ) 0) 0 1 = 0 := by
        unfold proj
        rw [sum_range_one, if_neg (by decide)]
      have hz : ∀ p b, R true 1 1 2 (fun _ _ => 0) (wfNear δ) 0 p b = 0 := fun _ _ => rfl
      simp only [if_true, hz, ha, hb, zero_add, add_zero]
      exact div_self (by positivity)
    rw [W_succ]
    unfold raw backProj
    rw [w0 δ hδ, sum_range_one]
    show max (1 / 2 + δ + (wfNear δ 0 0 - R true 1 1 2 (fun _ _ => 0) (wfNear δ) 1 0 0) * recip K 1 1 2 (fun _ _ => 0) 0 0) 0 = _
    rw [hR, hr]
    have : wfNear δ 0 0 = 1 / 2 + δ := if_pos rfl
    rw [this]
    have e : 1 / 2 + δ + (1 / 2 + δ - 1) * 1 = 2 * δ := by ring
    rw [e]
    exact max_eq_left (by positivity)
  refine ⟨⟨fun p _ b _ => ?_, fun p _ => ?_⟩, ?_, ?_, ?_⟩
  · unfold wfNear
    split <;> linarith
  · unfold rowSum wfNear
    rw [sum_range_succ, sum_range_one, if_pos rfl, if_neg (by decide)]
    ring
  · unfold waterfallDist wfNear
    rw [sum_range_one, sum_range_succ, sum_range_one, if_pos rfl, if_pos rfl, if_neg (by decide), if_neg (by decide)]
    have e1 : |(1 / 2 + 0 - (1 / 2 + ε) : K)| = ε := by rw [show (1 / 2 + 0 - (1 / 2 + ε) : K) = -ε by ring, abs_neg, abs_of_pos h0]
    have e2 : |(1 / 2 - 0 - (1 / 2 - ε) : K)| = ε := by rw [show (1 / 2 - 0 - (1 / 2 - ε) : K) = ε by ring, abs_of_pos h0]
    rw [e1, e2]
    ring
  · rcases C03_no_division_by_zero sqrt (by norm_num) (by norm_num) hx (wfNear (0 : K)) 1 with ⟨st, h⟩ | h
    · have := ((run_ok_iff sqrt (by norm_num) (by norm_num) hx 1 st).mp h).1 1 le_rfl
      rw [sum_range_one, w1 0 le_rfl, mul_zero] at this
      exact absurd this (lt_irrefl _)
    · exact h
  · have hg : Good true 1 1 2 (fun _ _ => 0) (wfNear ε) 1 := by
      intro m hm
      have : m = 0 ∨ m = 1 := by omega
      rw [sum_range_one]
      rcases this with rfl | rfl
      · rw [w0 ε h0.le]; positivity
      · rw [w1 ε h0.le]; positivity
    rw [(run_ok_iff sqrt (by norm_num) (by norm_num) hx 1 _).mpr ⟨hg, rfl⟩]
    show some (tab 1 (W true 1 1 2 (fun _ _ => 0) (wfNear ε) 1)) = some [2 * ε]
    rw [show tab 1 (W true 1 1 2 (fun _ _ => 0) (wfNear ε) 1) = [W true 1 1 2 (fun _ _ => 0) (wfNear ε) 1 0] from rfl, w1 ε h0.le]

end Verif.Props

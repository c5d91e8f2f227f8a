import Verif.Props.Identical
import Mathlib.Analysis.Real.Sqrt
import Mathlib.Data.Rat.BigOperators

/-!
# C125 — discrepancies of bunches of the same shape
-/

set_option linter.unusedSectionVars false

namespace Verif.Props
open Finset Verif.Spec Verif.Recon Verif.Multi

variable {K : Type} [Field K] [LinearOrder K] [IsStrictOrderedRing K]
variable {S : Setup} {m : ℕ} {a : ℕ → ℕ} {s : ℕ → K} {f wf : ℕ → ℕ → K}

/-- the bins of the image that belong to no bunch -/
def between (S : Setup) (m : ℕ) (a : ℕ → ℕ) : Finset ℕ :=
  (range S.nbins).filter fun b => ∀ c, c < S.nc → b < a c ∨ a c + m ≤ b

theorem identical_bins (h : Identical S m a s f wf) (g : ℕ → K) :
    ∑ b ∈ range S.nbins, g b = ∑ c ∈ range S.nc, ∑ b ∈ range m, g (a c + b) + ∑ b ∈ between S m a, g b := by
  have hin : (range S.nbins).filter (fun b => ¬ ∀ c, c < S.nc → b < a c ∨ a c + m ≤ b) =
      (range S.nc).biUnion fun c => (range m).image fun b => a c + b := by
    ext b
    simp only [mem_filter, mem_range, mem_biUnion, mem_image]
    constructor
    · rintro ⟨_, hb⟩
      push Not at hb
      obtain ⟨c, hc, h1, h2⟩ := hb
      exact ⟨c, hc, b - a c, by omega, by omega⟩
    · rintro ⟨c, hc, b', hb', rfl⟩
      have := h.image c hc
      refine ⟨by omega, fun hno => ?_⟩
      have := hno c hc
      omega
  rw [← sum_filter_not_add_sum_filter (range S.nbins) (fun b => ∀ c, c < S.nc → b < a c ∨ a c + m ≤ b), hin, sum_biUnion]
  · congr 1
    apply sum_congr rfl
    intro c _
    rw [sum_image]
    intro x _ y _ e
    have e : a c + x = a c + y := e
    omega
  · intro c hc c' hc' hne
    rw [Function.onFun, disjoint_left]
    intro b hb hb'
    simp only [mem_image, mem_range] at hb hb'
    obtain ⟨x, hx, e⟩ := hb
    obtain ⟨y, hy, e'⟩ := hb'
    have := h.apart c (by simpa using hc) c' (by simpa using hc') hne
    omega

/-- nothing is recreated between the bunches -/
theorem identical_between (h : Identical S m a s f wf) (k : ℕ) {p b : ℕ} (hp : p < S.nprof) (hb : b ∈ between S m a) :
    RM S wf k p b = 0 := by
  induction k with
  | zero => rfl
  | succ k ih =>
    have : projAll S.nc S.npart S.x S.ctr (WM S wf k) p b = 0 := by
      unfold projAll
      apply sum_eq_zero
      intro c hc
      unfold proj
      apply sum_eq_zero
      intro i hi
      rw [if_neg]
      intro e
      rw [identical_moved h (mem_range.mp hc)] at e
      have := (mem_filter.mp hb).2 c (mem_range.mp hc)
      have := h.cloud i (mem_range.mp hi) p hp
      omega
    rw [RM_succ]
    show (RM S wf k p b + projAll S.nc S.npart S.x S.ctr (WM S wf k) p b) / _ = 0
    rw [ih, this, add_zero, zero_div]

theorem identical_square (h : Identical S m a s f wf) {k : ℕ} (hs : Shared S m a s f wf (k + 1)) :
    ∑ p ∈ range S.nprof, ∑ b ∈ range S.nbins, diffM S wf k p b ^ 2 =
      (∑ c ∈ range S.nc, s c ^ 2) * (∑ p ∈ range S.nprof, ∑ b ∈ range m, (f p b - R true S.npart S.nprof m S.x f (k + 1) p b) ^ 2) +
      ∑ p ∈ range S.nprof, ∑ b ∈ between S m a, wf p b ^ 2 := by
  rw [mul_sum, ← sum_add_distrib]
  apply sum_congr rfl
  intro p hp
  have hp := mem_range.mp hp
  rw [identical_bins h]
  congr 1
  · rw [sum_mul]
    apply sum_congr rfl
    intro c hc
    rw [mul_sum]
    apply sum_congr rfl
    intro b hb
    unfold diffM
    rw [h.data c (mem_range.mp hc) p hp b (mem_range.mp hb), hs.2 c (mem_range.mp hc) p hp b (mem_range.mp hb)]
    ring
  · apply sum_congr rfl
    intro b hb
    unfold diffM
    rw [identical_between h _ hp hb, sub_zero]

/-- C125: the discrepancies reported for all bunches together, at every iteration.  The sum of squares is that of the single bunch times the
sum of the squares of the shares, plus the squares of what is measured between the bunches. -/
theorem C125_discrepancy {sqrt : K → K} (hsq : ∀ v, 0 ≤ v → sqrt v ^ 2 = v) (junk : K) (h : Identical S m a s f wf) (hok : S.Ok)
    (hm : 0 < m) (hpos : ∀ p b, 0 ≤ wf p b) (hf : ∀ p b, 0 ≤ f p b) (niter : ℕ) {t : RState K}
    (hr : (run sqrt S.npart S.nprof m S.x f niter).2 = .ok t) :
    ∃ (u : MState K) (d D : ℕ → K), (multi sqrt junk S wf niter).2 = .ok u ∧ t.discr = tab (niter + 1) d ∧ u.discr = tab (niter + 1) D ∧
      ∀ k, k ≤ niter → D k ^ 2 * ((S.nprof * S.nbins : ℕ) : K) =
        (∑ c ∈ range S.nc, s c ^ 2) * (d k ^ 2 * ((S.nprof * m : ℕ) : K)) + ∑ p ∈ range S.nprof, ∑ b ∈ between S m a, wf p b ^ 2 := by
  obtain ⟨hg, rfl⟩ := (run_ok_iff sqrt hok.nprof hm h.cloud niter t).mp hr
  have hG' : GoodM S wf niter := by simpa using (shared_all h hok hpos hf (k := niter + 1) (Or.inr hg)).2
  have hne : ∀ {j : ℕ}, 0 < j → ((S.nprof * j : ℕ) : K) ≠ 0 := fun hj => Nat.cast_ne_zero.mpr (Nat.mul_pos hok.nprof hj).ne'
  have hms : ∀ (j : ℕ) (g : ℕ → ℕ → K), 0 ≤ meanSquare S.nprof j g := fun j g =>
    div_nonneg (sum_nonneg fun p _ => sum_nonneg fun b _ => sq_nonneg _) (Nat.cast_nonneg _)
  rcases multi_run sqrt junk hok hpos niter with ⟨_, he⟩ | ⟨hn, _⟩ | ⟨e, hfe, _, hn, _⟩
  · refine ⟨outM sqrt S wf niter, _, _, by rw [multi, he], rfl, rfl, ?_⟩
    intro k hk
    have hs := (shared_all h hok hpos hf (k := k + 1) (Or.inr fun j hj => hg j (by omega))).1
    unfold msq
    rw [hsq _ (hms _ _), hsq _ (hms _ _)]
    unfold meanSquare
    rw [div_mul_cancel₀ _ (hne hok.nbins), div_mul_cancel₀ _ (hne hm), identical_square h hs]
  · exact absurd (fun j hj => hG' j (by omega)) hn
  · exact absurd (fun j hj => hG' j (by omega)) hn

/-- `twoClouds` over the reals, with the real square root: all hypotheses are met, for every number of iterations -/
example (niter : ℕ) : ∃ (d D : ℕ → ℝ) (t : RState ℝ) (u : MState ℝ),
    (run Real.sqrt 3 2 2 twoClouds.x (fun p b => (fOne p b : ℝ)) niter).2 = .ok t ∧
    (multi Real.sqrt 0 twoClouds (fun p b => (wfShares p b : ℝ)) niter).2 = .ok u ∧
    t.discr = tab (niter + 1) d ∧ u.discr = tab (niter + 1) D ∧ ∀ k, k ≤ niter → D k ^ 2 * 8 = 5 / 8 * (d k ^ 2 * 4) := by
  have h := twoClouds_identical
  have hr : Identical twoClouds 2 (fun c => 2 * c) (fun c => ((if c = 0 then 1/4 else 3/4 : ℚ) : ℝ)) (fun p b => (fOne p b : ℝ))
      (fun p b => (wfShares p b : ℝ)) :=
    ⟨h.start, h.image, h.apart, h.cloud, h.inside, fun c hc p hp b hb => by exact_mod_cast h.data c hc p hp b hb,
      fun c => by exact_mod_cast h.share c, by exact_mod_cast h.first, by rw [← Rat.cast_sum, h.shares, Rat.cast_one]⟩
  have hf : ∀ p b, (0 : ℝ) ≤ fOne p b := fun p b => by exact_mod_cast fOne_nonneg p b
  have hw : Profiled 2 2 fun p b => (fOne p b : ℝ) := by
    refine ⟨fun p _ b _ => hf p b, ?_⟩
    have : ∀ p, p < 2 → rowSum 2 fOne p = 1 := by decide +kernel
    intro p hp
    have := this p hp
    unfold rowSum at this ⊢
    rw [← Rat.cast_sum, this, Rat.cast_one]
  have hc : Covered 3 2 2 twoClouds.x fun p b => (fOne p b : ℝ) := by
    intro p hp b hb _
    have : ∀ p, p < 2 → ∀ b, b < 2 → ∃ i, i < 3 ∧ twoClouds.x i p = b := by decide +kernel
    exact this p hp b hb
  obtain ⟨t, ht⟩ : ∃ t, (run Real.sqrt 3 2 2 twoClouds.x (fun p b => (fOne p b : ℝ)) niter).2 = .ok t :=
    (C116_returns Real.sqrt (nprof := 2) (by norm_num) h.cloud hw hc niter).1
  obtain ⟨u, d, D, h1, h2, h3, h4⟩ := C125_discrepancy (fun v hv => Real.sq_sqrt hv) 0 hr twoClouds_ok (by norm_num)
    (fun p b => by
      have : 0 ≤ wfShares p b := by
        unfold wfShares
        split
        · exact mul_nonneg (by norm_num) (fOne_nonneg _ _)
        · exact mul_nonneg (by norm_num) (fOne_nonneg _ _)
      exact_mod_cast this) hf niter ht
  refine ⟨d, D, t, u, ht, h1, h2, h3, fun k hk => ?_⟩
  have h5 := h4 k hk
  have e1 : between twoClouds 2 (fun c => 2 * c) = ∅ := by decide +kernel
  have e2 : ∑ c ∈ range twoClouds.nc, ((if c = 0 then 1/4 else 3/4 : ℚ) : ℝ) ^ 2 = 5 / 8 := by
    have : ∑ c ∈ range twoClouds.nc, (if c = 0 then 1/4 else 3/4 : ℚ) ^ 2 = 5 / 8 := by decide +kernel
    simp only [← Rat.cast_pow]
    rw [← Rat.cast_sum, this]
    norm_num
  rw [e1, e2] at h5
  simp only [sum_empty, sum_const_zero, add_zero] at h5
  have e3 : ((twoClouds.nprof * twoClouds.nbins : ℕ) : ℝ) = 8 := by norm_num [twoClouds]
  have e4 : ((twoClouds.nprof * 2 : ℕ) : ℝ) = 4 := by norm_num [twoClouds]
  rw [e3, e4] at h5
  exact h5

end Verif.Props

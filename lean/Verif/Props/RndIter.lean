import Verif.Props.RndTotal
import Verif.Props.Sensitive
import Verif.Lemmas.RndIter

/-!
# C121 — rounding errors of the reconstruction with iterations

From the data as measured: constructor and C++ reconstruction, once in exact and once in floating point arithmetic of relative accuracy `u`.
-/

namespace Verif.Props
open Finset Verif.Spec Verif.Recon Verif.Rounded

variable {n P nb : ℕ} {x : ℕ → ℕ → ℕ}

/-- The exact computation from the measured profiles `m` and the one in the floating point arithmetic `w` both return.  `f` are the exact
prepared profiles; `a` and `r` exact weights and recreated profiles, `v` and `q` those in floating point. -/
structure Twice (w : World) (n P nb : ℕ) (x : ℕ → ℕ → ℕ) (m : ℕ → ℕ → ℝ) (niter : ℕ) (f : ℕ → ℕ → ℝ) (a : ℕ → ℝ) (r : ℕ → ℕ → ℝ)
    (v : ℕ → ℝ) (q : ℕ → ℕ → ℝ) : Prop where
  prepared : Tomo.initWaterfall (flat P nb m) P nb = .ok (flat P nb f)
  exact : ∃ s : RState ℝ, (run Real.sqrt n P nb x f niter).2 = .ok s ∧ s.weights = tab n a ∧ s.flatRec = flat P nb r
  floating : ∃ (F : List ℝ) (t : RState ℝ), Tomo.initWaterfall (α := Rn w) (flat P nb m) P nb = .ok F ∧
    (reconstruct (α := Rn w) w.sqrt (xbuf n P x) F niter nb n P).2 = .ok t ∧ t.weights = tab n v ∧ t.flatRec = flat P nb q

/-- both computations, with all that is returned -/
theorem both_run {w : World} {u : ℝ} (hw : w.Accurate u) (h0 : 0 ≤ u) (hP : 0 < P) (hx : InRange n P nb x) (m : ℕ → ℕ → ℝ)
    (hs : ∀ p, p < P → ∃ b, b < nb ∧ 0 < m p b) (hc : ∀ p, p < P → ∀ b, b < nb → 0 < m p b → ∃ i, i < n ∧ x i p = b)
    (hn : ((2 * n + nb + 1 : ℕ) : ℝ) * u ≤ 1 / 2) (hu : (2 * (nb : ℝ) + 16 * P + 30) * u ≤ 1 / 2) {niter : ℕ}
    (hk : 8 * (niter : ℝ) * (maxCount n P nb x * ((4 * (nb : ℝ) + 16 * P + 32) * u)) ≤ 1) :
    ∃ (f : ℕ → ℕ → ℝ) (F : List ℝ) (s t : RState ℝ) (V : ℕ → ℝ) (Q : ℕ → ℕ → ℝ) (D : ℕ → ℝ), Profiled P nb f ∧ Covered n P nb x f ∧
      Tomo.initWaterfall (flat P nb m) P nb = .ok (flat P nb f) ∧ (run Real.sqrt n P nb x f niter).2 = .ok s ∧
      s = ⟨tab n (W true n P nb x f niter), flat P nb (R true n P nb x f (niter + 1)),
        tab (niter + 1) (fun k => Real.sqrt (msq true n P nb x f k))⟩ ∧
      Tomo.initWaterfall (α := Rn w) (flat P nb m) P nb = .ok F ∧
      (reconstruct (α := Rn w) w.sqrt (xbuf n P x) F niter nb n P).2 = .ok t ∧ t.weights = tab n V ∧ t.flatRec = flat P nb Q ∧
      t.discr = tab (niter + 1) D ∧
      weightDist n (W true n P nb x f niter) V ≤ weightError u n P nb x f niter niter ∧
      weightDist n (fun i => W true n P nb x f niter i / ∑ j ∈ range n, W true n P nb x f niter j) (fun i => V i / ∑ j ∈ range n, V j) ≤
        2 * weightError u n P nb x f niter niter / startTotal n P nb x f ∧
      waterfallDist P nb (R true n P nb x f (niter + 1)) Q ≤
        P * (2 * weightError u n P nb x f niter niter / startTotal n P nb x f + 2 * (((2 * n + nb + 1 : ℕ) : ℝ) * u)) ∧
      (((P * nb + 4 : ℕ) : ℝ) * u ≤ 1 / 2 → ∀ k, k ≤ niter →
        |D k - Real.sqrt (msq true n P nb x f k)| * Real.sqrt ((P * nb : ℕ) : ℝ) ≤
          P * (2 * weightError u n P nb x f niter k / startTotal n P nb x f + (4 * n + 4 * nb + 7 * (P * nb) + 36) * u)) := by
  have a1 : 0 ≤ (nb : ℝ) * u := mul_nonneg (Nat.cast_nonneg _) h0
  have a2 : 0 ≤ (P : ℝ) * u := mul_nonneg (Nat.cast_nonneg _) h0
  have a3 : 0 ≤ (n : ℝ) * u := mul_nonneg (Nat.cast_nonneg _) h0
  obtain ⟨φ, h1, h2, h3, h4, h5⟩ := waterfall_r hw h0 hP (by nlinarith) (by nlinarith) m hs
  set g : ℕ → ℕ → ℝ := normRows nb fun p b => max (m p b) 0 with hg
  have hrow : ∀ p, p < P → 0 < rowSum nb (fun p b => max (m p b) 0) p := by
    intro p hp
    obtain ⟨b, hb, h⟩ := hs p hp
    exact sum_pos' (fun b _ => le_max_right _ _) ⟨b, mem_range.mpr hb, lt_max_of_lt_left h⟩
  have hgp : Profiled P nb g := ⟨fun p hp b hb => div_nonneg (le_max_right _ _) (hrow p hp).le, fun p hp => rowSum_normRows (hrow p hp).ne'⟩
  have hgc : Covered n P nb x g := by
    intro p hp b hb hne
    apply hc p hp b hb
    by_contra h
    apply hne
    show max (m p b) 0 / _ = _
    rw [max_eq_right (not_lt.mp h), zero_div]
  obtain ⟨b₀, hb₀, hm₀⟩ := hs 0 hP
  have hb : 0 < nb := by omega
  have hn' : (n : ℝ) * u ≤ 1 := by
    push_cast at hn
    nlinarith
  have hb1 : ((nb + 1 : ℕ) : ℝ) * u ≤ 1 / 2 := by
    push_cast at hn ⊢
    nlinarith
  have hD : waterfallDist P nb g φ ≤ P * (2 * (nb + 1) * u) := by
    have : ∀ p ∈ range P, ∑ b ∈ range nb, |g p b - φ p b| ≤ 2 * (nb + 1) * u := by
      intro p hp
      have hp := mem_range.mp hp
      have h6 : ∑ b ∈ range nb, |g p b - φ p b| ≤ ∑ b ∈ range nb, 2 * (((nb + 1 : ℕ) : ℝ) * u) * g p b := sum_le_sum fun b hb => by
        rw [abs_sub_comm]
        exact (h5 p hp b (mem_range.mp hb)).abs_le h0 hb1
      rw [← mul_sum] at h6
      have h7 := hgp.2 p hp
      unfold rowSum at h7
      rw [h7] at h6
      push_cast at h6
      linarith
    refine (sum_le_sum this).trans (le_of_eq ?_)
    rw [sum_const, card_range, nsmul_eq_mul]
  have F : Fit w u (2 * (nb + 1) * u) n P nb x φ :=
    ⟨hw, h0, hP, hb, hx, h2, h3, by nlinarith, fun p hp b hb h => hc p hp b hb (h4 p hp b hb h), hn', hu⟩
  have e : 2 * ((nb : ℝ) + 1) * u + (2 * (nb : ℝ) + 16 * P + 30) * u = (4 * (nb : ℝ) + 16 * P + 32) * u := by ring
  obtain ⟨st, V, Q, e1, e2, e3, v0, v1, d1, d2, D, e4, d3⟩ := F.accurate hgp hgc hD hn (niter := niter) (by rw [e]; exact hk)
  have hok := (run_ok_iff Real.sqrt hP hb hx niter _).mpr ⟨good_all hP hx hgp hgc niter, rfl⟩
  refine ⟨g, _, _, st, V, Q, D, hgp, hgc, ?_, hok, rfl, h1, e1, e2, e3, e4, d1, ?_, d2, d3⟩
  · exact (initWaterfall_char (nprof := P) (nbins := nb) hb m).2.2 ⟨0, b₀, hP, hb₀, hm₀⟩ hs
  · have hT := startTotal_pos hP hx hgp hgc
    have ht : startTotal n P nb x g ≤ ∑ i ∈ range n, W true n P nb x g niter i := by
      have := total_mono (keep := true) hP hx hgp hgc 0 niter
      rw [total_zero hx hgp, zero_add] at this
      exact this
    have h6 := norm_dist (s := range n) (a := W true n P nb x g niter) (a' := V) (fun i hi => v0 i (mem_range.mp hi)) (hT.trans_le ht) v1
    refine h6.trans ?_
    have h7 : 0 ≤ weightDist n (W true n P nb x g niter) V := weightDist_nonneg _ _
    exact div_le_div₀ (by linarith) (mul_le_mul_of_nonneg_left d1 (by norm_num)) hT ht

/-- C121: a particle wherever there is signal.  Both computations return; the weights differ in total by at most `weightError`, that is
`(P M + 1) (4 n + 4 nb + P (4 niter + 10) + 26) u (1 + A + … + A^niter)` with `n` particles, at most `M` in a bin, `P` profiles, `nb` bins and
`A = 1 + 2 (P M + 1) / T + 2 P u`, `T` the starting total; the shares of the weights and the recreated profiles accordingly. -/
theorem C121_run {w : World} {u : ℝ} (hw : w.Accurate u) (h0 : 0 ≤ u) (hP : 0 < P) (hx : InRange n P nb x) (m : ℕ → ℕ → ℝ)
    (hs : ∀ p, p < P → ∃ b, b < nb ∧ 0 < m p b) (hc : ∀ p, p < P → ∀ b, b < nb → 0 < m p b → ∃ i, i < n ∧ x i p = b)
    (hn : ((2 * n + nb + 1 : ℕ) : ℝ) * u ≤ 1 / 2) (hu : (2 * (nb : ℝ) + 16 * P + 30) * u ≤ 1 / 2) {niter : ℕ}
    (hk : 8 * (niter : ℝ) * (maxCount n P nb x * ((4 * (nb : ℝ) + 16 * P + 32) * u)) ≤ 1) :
    ∃ (f : ℕ → ℕ → ℝ) (a : ℕ → ℝ) (r : ℕ → ℕ → ℝ) (v : ℕ → ℝ) (q : ℕ → ℕ → ℝ), Profiled P nb f ∧ Twice w n P nb x m niter f a r v q ∧
      weightDist n a v ≤ weightError u n P nb x f niter niter ∧
      weightDist n (fun i => a i / ∑ j ∈ range n, a j) (fun i => v i / ∑ j ∈ range n, v j) ≤
        2 * weightError u n P nb x f niter niter / startTotal n P nb x f ∧
      waterfallDist P nb r q ≤
        P * (2 * weightError u n P nb x f niter niter / startTotal n P nb x f + 2 * (((2 * n + nb + 1 : ℕ) : ℝ) * u)) := by
  obtain ⟨f, F, s, t, V, Q, D, hf, -, e1, e2, rfl, e3, e4, e5, e6, -, d1, d2, d3, -⟩ := both_run hw h0 hP hx m hs hc hn hu hk
  exact ⟨f, _, _, V, Q, hf, ⟨e1, ⟨_, e2, rfl, rfl⟩, ⟨F, t, e3, e4, e5, e6⟩⟩, d1, d2, d3⟩

/-- C121: the reported discrepancies.  For every iteration the one in floating point differs from the exact one by at most
`P (2 weightError / T + (4 n + 4 nb + 7 P nb + 36) u) / √(P nb)`, where `weightError` is that after as many iterations. -/
theorem C121_discrepancy {w : World} {u : ℝ} (hw : w.Accurate u) (h0 : 0 ≤ u) (hP : 0 < P) (hx : InRange n P nb x) (m : ℕ → ℕ → ℝ)
    (hs : ∀ p, p < P → ∃ b, b < nb ∧ 0 < m p b) (hc : ∀ p, p < P → ∀ b, b < nb → 0 < m p b → ∃ i, i < n ∧ x i p = b)
    (hn : ((2 * n + nb + 1 : ℕ) : ℝ) * u ≤ 1 / 2) (hu : (2 * (nb : ℝ) + 16 * P + 30) * u ≤ 1 / 2) {niter : ℕ}
    (hk : 8 * (niter : ℝ) * (maxCount n P nb x * ((4 * (nb : ℝ) + 16 * P + 32) * u)) ≤ 1)
    (hd : ((P * nb + 4 : ℕ) : ℝ) * u ≤ 1 / 2) :
    ∃ (f : ℕ → ℕ → ℝ) (F : List ℝ) (s t : RState ℝ) (d D : ℕ → ℝ), Profiled P nb f ∧ Covered n P nb x f ∧
      Tomo.initWaterfall (flat P nb m) P nb = .ok (flat P nb f) ∧ (run Real.sqrt n P nb x f niter).2 = .ok s ∧
      Tomo.initWaterfall (α := Rn w) (flat P nb m) P nb = .ok F ∧
      (reconstruct (α := Rn w) w.sqrt (xbuf n P x) F niter nb n P).2 = .ok t ∧
      s.discr = tab (niter + 1) d ∧ t.discr = tab (niter + 1) D ∧
      ∀ k, k ≤ niter → |D k - d k| * Real.sqrt ((P * nb : ℕ) : ℝ) ≤
        P * (2 * weightError u n P nb x f niter k / startTotal n P nb x f + (4 * n + 4 * nb + 7 * (P * nb) + 36) * u) := by
  obtain ⟨f, F, s, t, V, Q, D, hf, hcf, e1, e2, rfl, e3, e4, e5, e6, e7, -, -, -, d4⟩ := both_run hw h0 hP hx m hs hc hn hu hk
  exact ⟨f, F, _, t, _, D, hf, hcf, e1, e2, e3, e4, rfl, e7, d4 hd⟩

/-- C121: with the same number of particles in every bin, the shares of the weights are right up to
`4 (4 n + 4 nb + P (4 niter + 10) + 26) u (1 + A + … + A^niter)` in total, where `A = 5 + 2 P u`. -/
theorem C121_even {w : World} {u : ℝ} (hw : w.Accurate u) (h0 : 0 ≤ u) (hP : 0 < P) (hx : InRange n P nb x) (he : EvenlyFilled n P nb x)
    (m : ℕ → ℕ → ℝ) (hs : ∀ p, p < P → ∃ b, b < nb ∧ 0 < m p b) (hn : ((2 * n + nb + 1 : ℕ) : ℝ) * u ≤ 1 / 2)
    (hu : (2 * (nb : ℝ) + 16 * P + 30) * u ≤ 1 / 2) {niter : ℕ}
    (hk : 8 * (niter : ℝ) * (maxCount n P nb x * ((4 * (nb : ℝ) + 16 * P + 32) * u)) ≤ 1) :
    ∃ (f : ℕ → ℕ → ℝ) (a : ℕ → ℝ) (r : ℕ → ℕ → ℝ) (v : ℕ → ℝ) (q : ℕ → ℕ → ℝ), Twice w n P nb x m niter f a r v q ∧
      weightDist n (fun i => a i / ∑ j ∈ range n, a j) (fun i => v i / ∑ j ∈ range n, v j) ≤
        4 * ((4 * n + 4 * nb + P * (4 * niter + 10) + 26) * u) * ∑ j ∈ range (niter + 1), (5 + 2 * (P * u)) ^ j := by
  obtain ⟨c, hc0, hcc⟩ := he
  have hcov : ∀ p, p < P → ∀ b, b < nb → 0 < m p b → ∃ i, i < n ∧ x i p = b := fun p hp b hb h =>
    even_covered (wf := m) hc0 hcc p hp b hb h.ne'
  obtain ⟨f, a, r, v, q, hf, ht, -, h1, -⟩ := C121_run hw h0 hP hx m hs hcov hn hu hk
  refine ⟨f, a, r, v, q, ht, h1.trans ?_⟩
  have hb : 0 < nb := by
    obtain ⟨b, hb, _⟩ := hs 0 hP
    omega
  have hP1 : (1 : ℝ) ≤ (P : ℝ) := by exact_mod_cast hP
  have hC : (1 : ℝ) ≤ (c : ℝ) := by exact_mod_cast hc0
  have eM : (maxCount n P nb x : ℝ) = (c : ℝ) := by rw [even_max hP hb hcc]
  have eT : startTotal n P nb x f = (P : ℝ) * (c : ℝ) := by
    rw [← even_total (keep := true) hx hf hcc, total_zero hx hf]
    rfl
  have hPC : (1 : ℝ) ≤ (P : ℝ) * (c : ℝ) := by nlinarith
  have hcf : Covered n P nb x f := even_covered hc0 hcc
  have hg : spread n P nb x f ≤ 5 := by
    unfold spread
    rw [eM, eT]
    have : 2 * ((P : ℝ) * (c : ℝ) + 1) / ((P : ℝ) * (c : ℝ)) ≤ 4 := by
      rw [div_le_iff₀ (by linarith)]
      linarith
    linarith
  have hg0 := (spread_pos hP hx hf hcf).le
  have hPu : 0 ≤ 2 * ((P : ℝ) * u) := by positivity
  have hsum : ∑ j ∈ range (niter + 1), (spread n P nb x f + 2 * (P * u)) ^ j ≤ ∑ j ∈ range (niter + 1), (5 + 2 * (P * u)) ^ j :=
    sum_le_sum fun j _ => pow_le_pow_left₀ (by linarith) (by linarith) j
  have hsum0 : 0 ≤ ∑ j ∈ range (niter + 1), (spread n P nb x f + 2 * (P * u)) ^ j := sum_nonneg fun j _ => pow_nonneg (by linarith) j
  unfold weightError noise
  rw [eM, eT, div_le_iff₀ (by linarith)]
  set B := (4 * (n : ℝ) + 4 * nb + P * (4 * niter + 10) + 26) * u with hB
  have hB0 : 0 ≤ B := mul_nonneg (by positivity) h0
  calc 2 * (((P : ℝ) * c + 1) * B * ∑ j ∈ range (niter + 1), (spread n P nb x f + 2 * (P * u)) ^ j)
      ≤ 2 * (((P : ℝ) * c + P * c) * B * ∑ j ∈ range (niter + 1), (5 + 2 * (P * u)) ^ j) := by
        apply mul_le_mul_of_nonneg_left _ (by norm_num)
        exact mul_le_mul (mul_le_mul_of_nonneg_right (by linarith) hB0) hsum hsum0 (by positivity)
    _ = _ := by ring

/-- C121 for doubles: up to a million particles, evenly filled, a thousand profiles of a thousand bins, five iterations: the shares of the
weights are right up to `10⁻⁵` in total. -/
theorem C121_doubles (hn : n ≤ 10 ^ 6) (hP : 0 < P) (hP' : P ≤ 10 ^ 3) (hb : nb ≤ 10 ^ 3) (hx : InRange n P nb x)
    (he : EvenlyFilled n P nb x) (m : ℕ → ℕ → ℝ) (hs : ∀ p, p < P → ∃ b, b < nb ∧ 0 < m p b) {niter : ℕ} (hk : niter ≤ 5) :
    ∃ (f : ℕ → ℕ → ℝ) (a : ℕ → ℝ) (r : ℕ → ℕ → ℝ) (v : ℕ → ℝ) (q : ℕ → ℕ → ℝ), Twice (binary 53) n P nb x m niter f a r v q ∧
      weightDist n (fun i => a i / ∑ j ∈ range n, a j) (fun i => v i / ∑ j ∈ range n, v j) ≤ 1 / 10 ^ 5 := by
  have h0 : (0 : ℝ) ≤ 2 ^ (-(53 : ℤ)) := by positivity
  have b1 : (n : ℝ) ≤ 10 ^ 6 := by exact_mod_cast hn
  have b2 : (P : ℝ) ≤ 10 ^ 3 := by exact_mod_cast hP'
  have b3 : (nb : ℝ) ≤ 10 ^ 3 := by exact_mod_cast hb
  have b4 : (niter : ℝ) ≤ 5 := by exact_mod_cast hk
  have b0 : (0 : ℝ) ≤ (P : ℝ) := Nat.cast_nonneg _
  have b6 : (0 : ℝ) ≤ (niter : ℝ) := Nat.cast_nonneg _
  have b5 : (maxCount n P nb x : ℝ) ≤ 10 ^ 6 := by
    have : maxCount n P nb x ≤ n := Finset.sup_le fun p _ => Finset.sup_le fun b _ => count_le n x p b
    exact_mod_cast this.trans hn
  obtain ⟨f, a, r, v, q, h1, h2⟩ := C121_even (binary_accurate (p := 53) (by norm_num)) h0 hP hx he m hs (niter := niter) (by
      push_cast
      calc (2 * (n : ℝ) + nb + 1) * 2 ^ (-(53 : ℤ)) ≤ (2 * 10 ^ 6 + 10 ^ 3 + 1) * 2 ^ (-(53 : ℤ)) := mul_le_mul_of_nonneg_right (by linarith) h0
        _ ≤ 1 / 2 := by norm_num) (by
      calc (2 * (nb : ℝ) + 16 * P + 30) * 2 ^ (-(53 : ℤ)) ≤ (2 * 10 ^ 3 + 16 * 10 ^ 3 + 30) * 2 ^ (-(53 : ℤ)) :=
          mul_le_mul_of_nonneg_right (by linarith) h0
        _ ≤ 1 / 2 := by norm_num) (by
      have c1 : (4 * (nb : ℝ) + 16 * P + 32) * 2 ^ (-(53 : ℤ)) ≤ (4 * 10 ^ 3 + 16 * 10 ^ 3 + 32) * 2 ^ (-(53 : ℤ)) :=
        mul_le_mul_of_nonneg_right (by linarith) h0
      have c2 : (maxCount n P nb x : ℝ) * ((4 * (nb : ℝ) + 16 * P + 32) * 2 ^ (-(53 : ℤ))) ≤
          10 ^ 6 * ((4 * 10 ^ 3 + 16 * 10 ^ 3 + 32) * 2 ^ (-(53 : ℤ))) :=
        mul_le_mul b5 c1 (mul_nonneg (by positivity) h0) (by norm_num)
      calc _ ≤ 8 * 5 * (10 ^ 6 * ((4 * 10 ^ 3 + 16 * 10 ^ 3 + 32) * (2 : ℝ) ^ (-(53 : ℤ)))) :=
          mul_le_mul (by linarith) c2 (mul_nonneg (Nat.cast_nonneg _) (mul_nonneg (by positivity) h0)) (by norm_num)
        _ ≤ 1 := by norm_num)
  refine ⟨f, a, r, v, q, h1, h2.trans ?_⟩
  have hp : (P : ℝ) * (4 * niter + 10) ≤ 10 ^ 3 * 30 := mul_le_mul b2 (by linarith) (by linarith) (by norm_num)
  have c1 : 4 * ((4 * (n : ℝ) + 4 * nb + P * (4 * niter + 10) + 26) * 2 ^ (-(53 : ℤ))) ≤ 4 * ((4 * 10 ^ 6 + 4 * 10 ^ 3 + 10 ^ 3 * 30 + 26) * 2 ^ (-(53 : ℤ))) :=
    mul_le_mul_of_nonneg_left (mul_le_mul_of_nonneg_right (by linarith) h0) (by norm_num)
  have c2 : 5 + 2 * ((P : ℝ) * 2 ^ (-(53 : ℤ))) ≤ 5 + 1 / 100 := by
    have : (P : ℝ) * 2 ^ (-(53 : ℤ)) ≤ 10 ^ 3 * 2 ^ (-(53 : ℤ)) := mul_le_mul_of_nonneg_right b2 h0
    have : (10 : ℝ) ^ 3 * 2 ^ (-(53 : ℤ)) ≤ 1 / 200 := by norm_num
    linarith
  have c3 : (0 : ℝ) ≤ 5 + 2 * ((P : ℝ) * 2 ^ (-(53 : ℤ))) := by positivity
  have c4 : ∑ j ∈ range (niter + 1), (5 + 2 * ((P : ℝ) * 2 ^ (-(53 : ℤ)))) ^ j ≤ ∑ j ∈ range 6, (5 + 1 / 100 : ℝ) ^ j :=
    (sum_le_sum fun j _ => pow_le_pow_left₀ c3 c2 j).trans
      (sum_le_sum_of_subset_of_nonneg (range_mono (by omega)) fun j _ _ => by positivity)
  calc _ ≤ 4 * ((4 * 10 ^ 6 + 4 * 10 ^ 3 + 10 ^ 3 * 30 + 26) * (2 : ℝ) ^ (-(53 : ℤ))) * ∑ j ∈ range 6, (5 + 1 / 100 : ℝ) ^ j :=
      mul_le_mul c1 c4 (sum_nonneg fun j _ => pow_nonneg c3 j) (by positivity)
    _ ≤ 1 / 10 ^ 5 := by
      simp only [sum_range_succ, sum_range_zero]
      norm_num

/-- four particles, two in every bin; two measured profiles of two samples, one sample negative -/
example : ∃ (f : ℕ → ℕ → ℝ) (a : ℕ → ℝ) (r : ℕ → ℕ → ℝ) (v : ℕ → ℝ) (q : ℕ → ℕ → ℝ),
    Twice (binary 53) 4 2 2 (fun i p => if p = 0 then i % 2 else i / 2) mTotal 5 f a r v q ∧
      weightDist 4 (fun i => a i / ∑ j ∈ range 4, a j) (fun i => v i / ∑ j ∈ range 4, v j) ≤ 1 / 10 ^ 5 := by
  refine C121_doubles (by norm_num) (by norm_num) (by norm_num) (by norm_num) ?_ ⟨2, by norm_num, ?_⟩ _ ?_ le_rfl
  · intro i hi p hp
    interval_cases i <;> interval_cases p <;> norm_num
  · intro p hp b hb
    interval_cases p <;> interval_cases b <;> decide
  · intro p hp
    refine ⟨0, by norm_num, ?_⟩
    interval_cases p <;> norm_num [mTotal]

/-- the same measurement: the last of the six discrepancies -/
example : ∃ (f : ℕ → ℕ → ℝ) (F : List ℝ) (s t : RState ℝ) (d D : ℕ → ℝ),
    (run Real.sqrt 4 2 2 (fun i p => if p = 0 then i % 2 else i / 2) f 5).2 = .ok s ∧
    (reconstruct (α := Rn (binary 53)) (binary 53).sqrt (xbuf 4 2 fun i p => if p = 0 then i % 2 else i / 2) F 5 2 4 2).2 = .ok t ∧
    s.discr = tab 6 d ∧ t.discr = tab 6 D ∧ |D 5 - d 5| * Real.sqrt ((2 * 2 : ℕ) : ℝ) ≤
      (2 : ℕ) * (2 * weightError (2 ^ (-(53 : ℤ))) 4 2 2 (fun i p => if p = 0 then i % 2 else i / 2) f 5 5 /
        startTotal 4 2 2 (fun i p => if p = 0 then i % 2 else i / 2) f +
        (4 * (4 : ℕ) + 4 * (2 : ℕ) + 7 * ((2 : ℕ) * (2 : ℕ)) + 36) * 2 ^ (-(53 : ℤ))) := by
  have hx : InRange 4 2 2 (fun i p => if p = 0 then i % 2 else i / 2) := by
    intro i hi p hp
    interval_cases i <;> interval_cases p <;> norm_num
  have hm : maxCount 4 2 2 (fun i p => if p = 0 then i % 2 else i / 2) = 2 := by decide
  obtain ⟨f, F, s, t, d, D, -, -, -, h1, -, h2, h3, h4, h5⟩ := C121_discrepancy (n := 4) (P := 2) (nb := 2) (niter := 5)
    (binary_accurate (p := 53) (by norm_num)) (by positivity) (by norm_num) hx mTotal
    (by
      intro p hp
      refine ⟨0, by norm_num, ?_⟩
      interval_cases p <;> norm_num [mTotal])
    (by
      intro p hp b hb _
      interval_cases p <;> interval_cases b
      · exact ⟨0, by norm_num, rfl⟩
      · exact ⟨1, by norm_num, rfl⟩
      · exact ⟨0, by norm_num, rfl⟩
      · exact ⟨2, by norm_num, rfl⟩)
    (by norm_num) (by norm_num) (by rw [hm]; norm_num) (by norm_num)
  exact ⟨f, F, s, t, d, D, h1, h2, h3, h4, h5 5 le_rfl⟩

end Verif.Props

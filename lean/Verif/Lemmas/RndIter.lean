import Verif.Spec.RndIter
import Verif.Lemmas.Sensitive
import Verif.Lemmas.RndTotal

/-!
# Rounding errors with iterations (helper lemmas)
-/

set_option linter.unusedSectionVars false

namespace Verif.Rounded
open Finset Verif.Spec Verif.Recon

variable {w : World} {u : ℝ} {n P nb : ℕ} {x : ℕ → ℕ → ℕ}

/-- few roundings as an absolute error -/
theorem Near.abs_le {k : ℕ} {a b : ℝ} (h : Near u k a b) (h0 : 0 ≤ u) (hk : (k : ℝ) * u ≤ 1 / 2) : |a - b| ≤ 2 * (k * u) * b := by
  have h1 := (pow_small h0 hk).2
  have h2 : (1 - k * u) * b ≤ a := (mul_le_mul_of_nonneg_right h1 h.nonneg').trans h.lower
  have h3 : (1 - k * u) * a ≤ b := (mul_le_mul_of_nonneg_right h1 h.nonneg).trans h.upper
  have hk0 : 0 ≤ (k : ℝ) * u := mul_nonneg k.cast_nonneg h0
  have hb := h.nonneg'
  have h4 : a ≤ (1 + 2 * (k * u)) * b := by
    have h5 : (0 : ℝ) < 1 - k * u := by linarith
    refine le_of_mul_le_mul_left (h3.trans ?_) h5
    have : 0 ≤ (k : ℝ) * u * (1 - 2 * (k * u)) * b := mul_nonneg (mul_nonneg hk0 (by linarith)) hb
    nlinarith
  rw [_root_.abs_le]
  constructor
  · nlinarith [mul_nonneg hk0 hb]
  · linarith

/-- recreated profiles: rounding, and the difference of what is normalised -/
theorem rec_float (h0 : 0 ≤ u) (hP : 0 < P) (hx : InRange n P nb x) {g : ℕ → ℕ → ℝ} (hg : Profiled P nb g) (hc : Covered n P nb x g)
    (hc' : ((2 * n + nb + 1 : ℕ) : ℝ) * u ≤ 1 / 2) (k : ℕ) {V : ℕ → ℝ} {Q Q' : ℕ → ℕ → ℝ} (hV : ∀ i, i < n → 0 ≤ V i)
    (hQ : ∀ p, p < P → ∀ b, b < nb → 0 ≤ Q p b) (hpos : 0 < ∑ i ∈ range n, V i) (hr : Recreated u n P nb x V Q Q') :
    waterfallDist P nb (R true n P nb x g (k + 1)) Q' ≤
      2 * (waterfallDist P nb (R true n P nb x g k) Q + P * weightDist n (W true n P nb x g k) V) / startTotal n P nb x g +
      P * (2 * (((2 * n + nb + 1 : ℕ) : ℝ) * u)) := by
  have hT := startTotal_pos hP hx hg hc
  have ht : startTotal n P nb x g ≤ ∑ i ∈ range n, W true n P nb x g k i := by
    have := total_mono (keep := true) hP hx hg hc 0 k
    rw [total_zero hx hg, zero_add] at this
    exact this
  have hG := good_all (keep := true) hP hx hg hc k
  have key : ∀ p ∈ range P, ∑ b ∈ range nb, |R true n P nb x g (k + 1) p b - Q' p b| ≤
      2 * ((∑ b ∈ range nb, |R true n P nb x g k p b - Q p b|) + weightDist n (W true n P nb x g k) V) / startTotal n P nb x g +
        2 * (((2 * n + nb + 1 : ℕ) : ℝ) * u) := by
    intro p hp
    have hp := mem_range.mp hp
    set a : ℕ → ℝ := fun b => R true n P nb x g k p b + proj n x (W true n P nb x g k) p b with ha
    set a' : ℕ → ℝ := fun b => Q p b + proj n x V p b with ha'
    have hR := R_nonneg_rowSum (keep := true) (wf := g) hx (k := k) (by
      rcases k with _ | k
      · exact Or.inl rfl
      · exact Or.inr fun m hm => hG m (by simp at hm; omega))
    have tA : startTotal n P nb x g ≤ ∑ b ∈ range nb, a b := by
      rw [ha, sum_add_distrib]
      have e := rowSum_proj hx (W true n P nb x g k) hp
      unfold rowSum at e
      rw [e]
      exact ht.trans (le_add_of_nonneg_left (sum_nonneg fun b _ => hR.1 p b))
    have nA' : ∀ b ∈ range nb, 0 ≤ a' b := fun b hb =>
      add_nonneg (hQ p hp b (mem_range.mp hb)) (proj_nonneg hV p b)
    have tA' : 0 < ∑ b ∈ range nb, a' b := by
      rw [ha', sum_add_distrib]
      have e := rowSum_proj hx V hp
      unfold rowSum at e
      rw [e]
      exact add_pos_of_nonneg_of_pos (sum_nonneg fun b hb => hQ p hp b (mem_range.mp hb)) hpos
    have h1 := norm_dist (s := range nb) (a := a) (a' := a') nA' (hT.trans_le tA) tA'
    have h2 : ∑ b ∈ range nb, |Q' p b - a' b / ∑ c ∈ range nb, a' c| ≤ 2 * (((2 * n + nb + 1 : ℕ) : ℝ) * u) := by
      have : ∀ b ∈ range nb, |Q' p b - a' b / ∑ c ∈ range nb, a' c| ≤
          2 * (((2 * n + nb + 1 : ℕ) : ℝ) * u) * (a' b / ∑ c ∈ range nb, a' c) := fun b hb =>
        (hr.2.2 p hp b (mem_range.mp hb)).abs_le h0 hc'
      refine (sum_le_sum this).trans ?_
      rw [← mul_sum, ← sum_div, div_self tA'.ne', mul_one]
    have h3 : ∑ b ∈ range nb, |a b - a' b| ≤ (∑ b ∈ range nb, |R true n P nb x g k p b - Q p b|) + weightDist n (W true n P nb x g k) V := by
      refine le_trans ?_ (add_le_add_right (proj_dist hx hp (W true n P nb x g k) V) _)
      rw [← sum_add_distrib]
      refine sum_le_sum fun b _ => ?_
      show |R true n P nb x g k p b + proj n x (W true n P nb x g k) p b - (Q p b + proj n x V p b)| ≤ _
      rw [add_sub_add_comm]
      exact abs_add_le _ _
    have h4 : ∑ b ∈ range nb, |R true n P nb x g (k + 1) p b - Q' p b| ≤
        (∑ b ∈ range nb, |a b / ∑ c ∈ range nb, a c - a' b / ∑ c ∈ range nb, a' c|) +
        ∑ b ∈ range nb, |Q' p b - a' b / ∑ c ∈ range nb, a' c| := by
      rw [← sum_add_distrib]
      refine sum_le_sum fun b _ => ?_
      have e : R true n P nb x g (k + 1) p b = a b / ∑ c ∈ range nb, a c := rfl
      rw [e, abs_sub_comm (Q' p b)]
      have := abs_add_le (a b / ∑ c ∈ range nb, a c - a' b / ∑ c ∈ range nb, a' c) (a' b / ∑ c ∈ range nb, a' c - Q' p b)
      rwa [sub_add_sub_cancel] at this
    refine h4.trans (add_le_add (h1.trans ?_) h2)
    exact div_le_div₀ (mul_nonneg (by norm_num) ((sum_nonneg fun _ _ => abs_nonneg _).trans h3)) (by linarith) hT tA
  refine (sum_le_sum key).trans (le_of_eq ?_)
  rw [sum_add_distrib, ← sum_div, ← mul_sum, sum_add_distrib, sum_const, card_range, nsmul_eq_mul, sum_const, card_range, nsmul_eq_mul]
  rfl

/-- sums over the particles of what a bin gives to each of its particles -/
theorem sum_back_abs (hx : InRange n P nb x) (d : ℕ → ℕ → ℝ) :
    ∑ i ∈ range n, ∑ p ∈ range P, |d p (x i p)| * recip ℝ n P nb x p (x i p) ≤
      (maxCount n P nb x : ℝ) * ∑ p ∈ range P, ∑ b ∈ range nb, |d p b| := by
  have h := back_dist (K := ℝ) hx (fun p b => |d p b|)
  have e : ∀ i ∈ range n, |backProj P x (fun p b => |d p b| * recip ℝ n P nb x p b) i| =
      ∑ p ∈ range P, |d p (x i p)| * recip ℝ n P nb x p (x i p) := fun i _ =>
    abs_of_nonneg (sum_nonneg fun p _ => mul_nonneg (abs_nonneg _) (recip_nonneg p _))
  rw [sum_congr rfl e] at h
  simpa only [abs_abs] using h

/-- the total of the exact weights grows by at most two units per profile and particle of a bin -/
theorem total_le (hP : 0 < P) (hx : InRange n P nb x) {g : ℕ → ℕ → ℝ} (hg : Profiled P nb g) (hc : Covered n P nb x g) (k : ℕ) :
    ∑ i ∈ range n, W true n P nb x g k i ≤ P * (maxCount n P nb x : ℝ) * (2 * k + 1) := by
  induction k with
  | zero =>
    rw [total_zero hx hg]
    have : ∀ p ∈ range P, ∑ b ∈ range nb, g p b * (count n x p b : ℝ) ≤ (maxCount n P nb x : ℝ) := by
      intro p hp
      have hp := mem_range.mp hp
      have h1 : ∑ b ∈ range nb, g p b * (count n x p b : ℝ) ≤ ∑ b ∈ range nb, g p b * (maxCount n P nb x : ℝ) :=
        sum_le_sum fun b hb => mul_le_mul_of_nonneg_left (by exact_mod_cast count_le_max hp (mem_range.mp hb)) (hg.1 p hp b (mem_range.mp hb))
      rw [← sum_mul] at h1
      have h2 := hg.2 p hp
      unfold rowSum at h2
      rw [h2, one_mul] at h1
      exact h1
    refine (sum_le_sum this).trans (le_of_eq ?_)
    rw [sum_const, card_range, nsmul_eq_mul]
    push_cast
    ring
  | succ k ih =>
    have hG := good_all (keep := true) hP hx hg hc k
    have hR := R_nonneg_rowSum (keep := true) (wf := g) hx (k := k + 1) (Or.inr (by simpa using hG))
    have hb := back_dist (K := ℝ) hx (fun p b => g p b - R true n P nb x g (k + 1) p b)
    have h1 : ∀ i ∈ range n, W true n P nb x g (k + 1) i ≤ W true n P nb x g k i +
        |backProj P x (fun p b => (g p b - R true n P nb x g (k + 1) p b) * recip ℝ n P nb x p b) i| := by
      intro i _
      rw [W_succ]
      refine max_le ?_ (add_nonneg (W_nonneg ..) (abs_nonneg _))
      exact add_le_add_right (le_abs_self _) _
    have h2 : ∑ p ∈ range P, ∑ b ∈ range nb, |g p b - R true n P nb x g (k + 1) p b| ≤ P * 2 := by
      have : ∀ p ∈ range P, ∑ b ∈ range nb, |g p b - R true n P nb x g (k + 1) p b| ≤ 2 := by
        intro p hp
        have hp := mem_range.mp hp
        have a1 : ∑ b ∈ range nb, |g p b - R true n P nb x g (k + 1) p b| ≤ ∑ b ∈ range nb, (g p b + R true n P nb x g (k + 1) p b) :=
          sum_le_sum fun b hb => by
            have := abs_sub (g p b) (R true n P nb x g (k + 1) p b)
            rwa [abs_of_nonneg (hg.1 p hp b (mem_range.mp hb)), abs_of_nonneg (hR.1 p b)] at this
        have a2 := hg.2 p hp
        have a3 := hR.2 p hp
        rw [if_neg (by omega)] at a3
        unfold rowSum at a2 a3
        rw [sum_add_distrib, a2, a3] at a1
        linarith
      refine (sum_le_sum this).trans (le_of_eq ?_)
      rw [sum_const, card_range, nsmul_eq_mul]
    have h3 := sum_le_sum h1
    rw [sum_add_distrib] at h3
    have h4 := mul_le_mul_of_nonneg_left h2 (Nat.cast_nonneg (α := ℝ) (maxCount n P nb x))
    push_cast
    linarith

/-- weights after the next iteration -/
theorem step_float (hw : w.Accurate u) (h0 : 0 ≤ u) (hu : u ≤ 1) (hx : InRange n P nb x) {g f : ℕ → ℕ → ℝ} (k : ℕ) {V V' : ℕ → ℝ}
    {Q' : ℕ → ℕ → ℝ} (hV : ∀ i, i < n → 0 ≤ V i) (hr : Reweighted w n P nb x f V Q' V') :
    weightDist n (W true n P nb x g (k + 1)) V' ≤ weightDist n (W true n P nb x g k) V +
      (maxCount n P nb x : ℝ) * (waterfallDist P nb g f + waterfallDist P nb (R true n P nb x g (k + 1)) Q') +
      (((1 + u) ^ P - 1) * (∑ i ∈ range n, V i) +
        (7 * u + ((1 + u) ^ P - 1) * (1 + 7 * u)) * ((maxCount n P nb x : ℝ) * waterfallDist P nb f Q')) := by
  set γ := (1 + u) ^ P - 1 with hγ
  have hγ0 : 0 ≤ γ := sub_nonneg.mpr (one_le_pow₀ (by linarith))
  set d : ℕ → ℕ → ℝ := fun p b => f p b - Q' p b with hd
  set D : ℕ → ℕ → ℝ := fun p b => w.rnd (w.rnd (d p b) * w.rnd (recip ℝ n P nb x p b)) with hD
  set e : ℕ → ℕ → ℝ := fun p b => (g p b - R true n P nb x g (k + 1) p b) - d p b with he
  have hi : ∀ i ∈ range n, |W true n P nb x g (k + 1) i - V' i| ≤ (|W true n P nb x g k i - V i| +
      |backProj P x (fun p b => e p b * recip ℝ n P nb x p b) i|) +
      (γ * V i + (7 * u + γ * (1 + 7 * u)) * ∑ p ∈ range P, |d p (x i p)| * recip ℝ n P nb x p (x i p)) := by
    intro i hi
    have hi := mem_range.mp hi
    rw [W_succ, hr i hi]
    refine (abs_max_sub_max_le_abs _ _ _).trans ?_
    have hra := racc_error hw h0 (V i) (fun p => D p (x i p)) P
    rw [abs_of_nonneg (hV i hi), ← hγ] at hra
    have hpe : ∀ p ∈ range P, |D p (x i p) - d p (x i p) * recip ℝ n P nb x p (x i p)| ≤
        7 * u * (|d p (x i p)| * recip ℝ n P nb x p (x i p)) := fun p _ => prod_error hw h0 hu _ (recip_nonneg p _)
    have hs1 : |∑ p ∈ range P, D p (x i p) - ∑ p ∈ range P, d p (x i p) * recip ℝ n P nb x p (x i p)| ≤
        7 * u * ∑ p ∈ range P, |d p (x i p)| * recip ℝ n P nb x p (x i p) := by
      rw [← sum_sub_distrib, mul_sum]
      exact (abs_sum_le_sum_abs _ _).trans (sum_le_sum hpe)
    have hs2 : ∑ p ∈ range P, |D p (x i p)| ≤ (1 + 7 * u) * ∑ p ∈ range P, |d p (x i p)| * recip ℝ n P nb x p (x i p) := by
      rw [mul_sum]
      refine sum_le_sum fun p hp => ?_
      have h1 := hpe p hp
      have h2 := abs_add_le (D p (x i p) - d p (x i p) * recip ℝ n P nb x p (x i p)) (d p (x i p) * recip ℝ n P nb x p (x i p))
      rw [sub_add_cancel, abs_mul (d p (x i p)), abs_of_nonneg (a := recip ℝ n P nb x p (x i p)) (recip_nonneg p _)] at h2
      linarith
    have hb : backProj P x (fun p b => e p b * recip ℝ n P nb x p b) i =
        backProj P x (fun p b => (g p b - R true n P nb x g (k + 1) p b) * recip ℝ n P nb x p b) i -
        ∑ p ∈ range P, d p (x i p) * recip ℝ n P nb x p (x i p) := by
      unfold backProj
      rw [← sum_sub_distrib]
      exact sum_congr rfl fun p _ => by rw [he]; ring
    rw [hb]
    unfold raw
    set B := backProj P x (fun p b => (g p b - R true n P nb x g (k + 1) p b) * recip ℝ n P nb x p b) i
    set S := ∑ p ∈ range P, d p (x i p) * recip ℝ n P nb x p (x i p)
    set Sa := ∑ p ∈ range P, |d p (x i p)| * recip ℝ n P nb x p (x i p)
    set SD := ∑ p ∈ range P, D p (x i p)
    show |W true n P nb x g k i + B - racc w (V i) (fun p => D p (x i p)) P| ≤ _
    set rc := racc w (V i) (fun p => D p (x i p)) P
    have t : W true n P nb x g k i + B - rc = (W true n P nb x g k i - V i) + (B - S) + (-(SD - S)) + (-(rc - (V i + SD))) := by ring
    rw [t]
    have u1 := abs_add_le ((W true n P nb x g k i - V i) + (B - S) + (-(SD - S))) (-(rc - (V i + SD)))
    have u2 := abs_add_le ((W true n P nb x g k i - V i) + (B - S)) (-(SD - S))
    have u3 := abs_add_le (W true n P nb x g k i - V i) (B - S)
    rw [abs_neg] at u1 u2
    have u4 : γ * (V i + ∑ p ∈ range P, |D p (x i p)|) ≤ γ * (V i + (1 + 7 * u) * Sa) :=
      mul_le_mul_of_nonneg_left (by linarith) hγ0
    have u5 : γ * (V i + (1 + 7 * u) * Sa) = γ * V i + γ * (1 + 7 * u) * Sa := by ring
    linarith
  refine (sum_le_sum hi).trans ?_
  rw [sum_add_distrib, sum_add_distrib, sum_add_distrib, ← mul_sum, ← mul_sum]
  have b1 := back_dist (K := ℝ) hx e
  have b2 := sum_back_abs hx d
  have b3 : ∑ p ∈ range P, ∑ b ∈ range nb, |e p b| ≤ waterfallDist P nb g f + waterfallDist P nb (R true n P nb x g (k + 1)) Q' := by
    unfold waterfallDist
    rw [← sum_add_distrib]
    refine sum_le_sum fun p _ => ?_
    rw [← sum_add_distrib]
    refine sum_le_sum fun b _ => ?_
    show |(g p b - R true n P nb x g (k + 1) p b) - (f p b - Q' p b)| ≤ _
    rw [sub_sub_sub_comm]
    exact abs_sub _ _
  have hM : (0 : ℝ) ≤ (maxCount n P nb x : ℝ) := Nat.cast_nonneg _
  have b4 := mul_le_mul_of_nonneg_left b3 hM
  have b5 := mul_le_mul_of_nonneg_left b2 (show 0 ≤ 7 * u + γ * (1 + 7 * u) by positivity)
  have e1 : ∑ i ∈ range n, |W true n P nb x g k i - V i| = weightDist n (W true n P nb x g k) V := rfl
  have e2 : ∑ p ∈ range P, ∑ b ∈ range nb, |d p b| = waterfallDist P nb f Q' := rfl
  rw [e2] at b5
  rw [e1]
  linarith

/-- weights before the first iteration -/
theorem start_float (hw : w.Accurate u) (h0 : 0 ≤ u) (hx : InRange n P nb x) {g f : ℕ → ℕ → ℝ} 
    (hf : ∀ p, p < P → ∀ b, b < nb → 0 ≤ f p b) {V : ℕ → ℝ} (hV : ∀ i, i < n → V i = max (racc w 0 (fun p => f p (x i p)) P) 0) :
    weightDist n (W true n P nb x g 0) V ≤ (maxCount n P nb x : ℝ) * waterfallDist P nb g f +
      ((1 + u) ^ P - 1) * ((maxCount n P nb x : ℝ) * ∑ p ∈ range P, rowSum nb f p) := by
  set γ := (1 + u) ^ P - 1 with hγ
  have hγ0 : 0 ≤ γ := sub_nonneg.mpr (one_le_pow₀ (by linarith))
  have hi : ∀ i ∈ range n, |W true n P nb x g 0 i - V i| ≤ (∑ p ∈ range P, |g p (x i p) - f p (x i p)|) + γ * ∑ p ∈ range P, f p (x i p) := by
    intro i hi
    have hi := mem_range.mp hi
    rw [hV i hi]
    show |max (backProj P x g i) 0 - max (racc w 0 (fun p => f p (x i p)) P) 0| ≤ _
    refine (abs_max_sub_max_le_abs _ _ _).trans ?_
    have hra := racc_error hw h0 0 (fun p => f p (x i p)) P
    rw [abs_zero, zero_add, zero_add, ← hγ, sum_congr rfl fun p hp => abs_of_nonneg (hf p (mem_range.mp hp) _ (hx i hi p (mem_range.mp hp)))] at hra
    have h1 : |backProj P x g i - ∑ p ∈ range P, f p (x i p)| ≤ ∑ p ∈ range P, |g p (x i p) - f p (x i p)| := by
      unfold backProj
      rw [← sum_sub_distrib]
      exact abs_sum_le_sum_abs _ _
    have h2 := abs_sub_le (backProj P x g i) (∑ p ∈ range P, f p (x i p)) (racc w 0 (fun p => f p (x i p)) P)
    rw [abs_sub_comm (∑ p ∈ range P, f p (x i p))] at h2
    linarith
  refine (sum_le_sum hi).trans ?_
  rw [sum_add_distrib, ← mul_sum]
  have part : ∀ q : ℕ → ℕ → ℝ, (∀ p, p < P → ∀ b, b < nb → 0 ≤ q p b) →
      ∑ i ∈ range n, ∑ p ∈ range P, q p (x i p) ≤ (maxCount n P nb x : ℝ) * ∑ p ∈ range P, ∑ b ∈ range nb, q p b := by
    intro q hq
    rw [sum_comm, mul_sum]
    refine sum_le_sum fun p hp => ?_
    have hp := mem_range.mp hp
    rw [sum_count hx hp (q p), mul_sum]
    refine sum_le_sum fun b hb => ?_
    rw [mul_comm]
    exact mul_le_mul_of_nonneg_right (by exact_mod_cast count_le_max hp (mem_range.mp hb)) (hq p hp b (mem_range.mp hb))
  exact add_le_add (part (fun p b => |g p b - f p b|) fun _ _ _ _ => abs_nonneg _) (mul_le_mul_of_nonneg_left (part f hf) hγ0)

theorem weightError_succ (g : ℕ → ℕ → ℝ) (niter k : ℕ) : weightError u n P nb x g niter (k + 1) =
    noise u n P nb x niter + (spread n P nb x g + 2 * (P * u)) * weightError u n P nb x g niter k := by
  unfold weightError
  set a := spread n P nb x g + 2 * (P * u)
  have : ∑ j ∈ range (k + 1), a ^ (j + 1) = a * ∑ j ∈ range (k + 1), a ^ j := by
    rw [mul_sum]
    exact sum_congr rfl fun j _ => pow_succ' _ _
  rw [sum_range_succ', pow_zero, this]
  ring

/-- all rounding errors of one iteration together -/
theorem noise_ge {γ D : ℝ} (h0 : 0 ≤ u) (hu : u ≤ 1 / 60) {niter k : ℕ} (hk : k ≤ niter) (hγ0 : 0 ≤ γ) (hγ : γ ≤ 2 * (P * u))
    (hD : D ≤ P * (2 * (nb + 1) * u)) (M : ℕ) (hM : M = maxCount n P nb x) :
    (M : ℝ) * D + (γ * (P * M * (2 * k + 1)) + (7 * u + γ * (1 + 7 * u)) * (M * (P * 3.1))) +
      (P * M + 1) * (2 * (((2 * n + nb + 1 : ℕ) : ℝ) * u)) ≤ noise u n P nb x niter := by
  unfold noise
  rw [← hM]
  have hP0 : (0 : ℝ) ≤ P := Nat.cast_nonneg _
  have hM0 : (0 : ℝ) ≤ M := Nat.cast_nonneg _
  have hb0 : (0 : ℝ) ≤ nb := Nat.cast_nonneg _
  have hPM : (0 : ℝ) ≤ P * M := mul_nonneg hP0 hM0
  have hkn : (k : ℝ) ≤ niter := by exact_mod_cast hk
  have hk0 : (0 : ℝ) ≤ k := Nat.cast_nonneg _
  have hPu : (0 : ℝ) ≤ P * u := mul_nonneg hP0 h0
  have p1 : (M : ℝ) * D ≤ (P * M + 1) * ((2 * nb + 2) * u) := by
    have h1 := mul_le_mul_of_nonneg_left hD hM0
    have h2 : 0 ≤ (2 * (nb : ℝ) + 2) * u := mul_nonneg (by linarith) h0
    nlinarith
  have p2 : γ * (P * M * (2 * k + 1)) ≤ (P * M + 1) * (P * (4 * niter + 2) * u) := by
    have h1 : γ * (P * M * (2 * k + 1)) ≤ 2 * (P * u) * (P * M * (2 * k + 1)) :=
      mul_le_mul_of_nonneg_right hγ (mul_nonneg hPM (by linarith))
    have h2 : (P * M : ℝ) * ((P * u) * (4 * k + 2)) ≤ (P * M + 1) * ((P * u) * (4 * niter + 2)) := by
      apply mul_le_mul (by linarith) (mul_le_mul_of_nonneg_left (by linarith) hPu) (mul_nonneg hPu (by linarith)) (by linarith)
    have e1 : 2 * (P * u) * (P * M * (2 * k + 1)) = (P * M : ℝ) * ((P * u) * (4 * k + 2)) := by ring
    have e2 : (P * M + 1) * (P * (4 * niter + 2) * u) = (P * M + 1 : ℝ) * ((P * u) * (4 * niter + 2)) := by ring
    rw [e2]
    linarith
  have p3 : (7 * u + γ * (1 + 7 * u)) * (M * (P * 3.1)) ≤ (P * M + 1) * ((22 + 8 * P) * u) := by
    have h1 : 7 * u + γ * (1 + 7 * u) ≤ 7 * u + 2 * (P * u) * 1.2 :=
      add_le_add_right (mul_le_mul hγ (by linarith) (by linarith) (by linarith)) _
    have h2 := mul_le_mul_of_nonneg_right h1 (show 0 ≤ (M : ℝ) * (P * 3.1) by positivity)
    refine h2.trans ?_
    have e1 : (7 * u + 2 * (P * u) * 1.2) * (M * (P * 3.1)) = (P * M : ℝ) * ((21.7 + 7.44 * P) * u) := by ring
    rw [e1]
    exact mul_le_mul (by linarith) (mul_le_mul_of_nonneg_right (by linarith) h0) (mul_nonneg (by positivity) h0) (by linarith)
  have e : (P * M + 1 : ℝ) * ((4 * n + 4 * nb + P * (4 * niter + 10) + 26) * u) = (P * M + 1) * ((2 * nb + 2) * u) +
      ((P * M + 1) * (P * (4 * niter + 2) * u) + (P * M + 1) * ((22 + 8 * P) * u)) +
      (P * M + 1) * (2 * (((2 * n + nb + 1 : ℕ) : ℝ) * u)) := by
    push_cast
    ring
  rw [e]
  linarith

/-- the discrepancy reported for recreated profiles `Q`, against the exact one for recreated profiles `r` -/
theorem discr_float (hw : w.Accurate u) (h0 : 0 ≤ u) (hu : u ≤ 1 / 60) (hP : 0 < P) (hb : 0 < nb) (hN : ((P * nb + 4 : ℕ) : ℝ) * u ≤ 1 / 2)
    {f g r Q : ℕ → ℕ → ℝ} {e : ℝ} (he : Reported w P nb f Q e) (hfQ : waterfallDist P nb f Q ≤ P * 3.1) :
    |e - Real.sqrt (meanSquare P nb fun p b => g p b - r p b)| * Real.sqrt ((P * nb : ℕ) : ℝ) ≤
      waterfallDist P nb g f + waterfallDist P nb r Q + P * ((7 * (P * nb) + 32) * u) := by
  have hPb : 0 < P * nb := Nat.mul_pos hP hb
  have hN0 : (0 : ℝ) < ((P * nb : ℕ) : ℝ) := by exact_mod_cast hPb
  have hP0 : (0 : ℝ) ≤ (P : ℝ) := Nat.cast_nonneg _
  have hs : ∀ a : ℝ, 0 ≤ a → 0 ≤ Real.sqrt a ∧ Real.sqrt a ^ 2 = a := fun a ha => ⟨Real.sqrt_nonneg _, Real.sq_sqrt ha⟩
  set S := Real.sqrt ((P * nb : ℕ) : ℝ) with hS
  have hS0 : 0 ≤ S := Real.sqrt_nonneg _
  have hS2 : S ^ 2 = ((P * nb : ℕ) : ℝ) := Real.sq_sqrt hN0.le
  have root : ∀ {a b : ℕ → ℕ → ℝ}, |Real.sqrt (meanSquare P nb a) - Real.sqrt (meanSquare P nb b)| * S ≤ waterfallDist P nb a b := by
    intro a b
    have h := rms_dist hs (f := a) (g := b) hPb
    apply abs_le_of_sq_le_sq _ (waterfallDist_nonneg _ _) |> fun h' => (le_abs_self _).trans h'
    rw [mul_pow, sq_abs, hS2]
    exact h
  set d : ℕ → ℕ → ℝ := fun p b => w.rnd (f p b - Q p b) with hd
  have near := near_discrepancy (u := u) h0 (by linarith) hw (flat P nb d) P nb
  rw [discrepancy_ok Real.sqrt hP hb d] at near
  obtain ⟨e', n1, n2⟩ := near.ok_inv
  have near : Near u (P * nb + 4) e (Real.sqrt (meanSquare P nb d)) := by
    have : e' = e := Except.ok.inj (n1.symm.trans he)
    rw [← this]
    exact n2
  have h1 := near.abs_le h0 hN
  have hrnd : ∀ p b, |d p b - (f p b - Q p b)| ≤ u * |f p b - Q p b| := fun p b => hw.rnd _
  have h2 : waterfallDist P nb d (fun p b => f p b - Q p b) ≤ u * (P * 3.1) := by
    refine le_trans ?_ (mul_le_mul_of_nonneg_left hfQ h0)
    unfold waterfallDist
    rw [mul_sum]
    refine sum_le_sum fun p _ => ?_
    rw [mul_sum]
    exact sum_le_sum fun b _ => hrnd p b
  have h3 : waterfallDist P nb (fun p b => f p b - Q p b) (fun p b => g p b - r p b) ≤ waterfallDist P nb g f + waterfallDist P nb r Q := by
    unfold waterfallDist
    rw [← sum_add_distrib]
    refine sum_le_sum fun p _ => ?_
    rw [← sum_add_distrib]
    refine sum_le_sum fun b _ => ?_
    have e : f p b - Q p b - (g p b - r p b) = (r p b - Q p b) - (g p b - f p b) := by ring
    rw [e, add_comm]
    exact abs_sub _ _
  have h4 : Real.sqrt (meanSquare P nb d) * S ≤ P * 3.2 := by
    have z : Real.sqrt (meanSquare P nb fun _ _ => (0 : ℝ)) = 0 := by
      unfold meanSquare
      simp
    have h := root (a := d) (b := fun _ _ => 0)
    rw [z, sub_zero, abs_of_nonneg (Real.sqrt_nonneg _)] at h
    refine h.trans ?_
    have h5 : waterfallDist P nb d (fun _ _ => 0) ≤ (1 + u) * waterfallDist P nb f Q := by
      unfold waterfallDist
      rw [mul_sum]
      refine sum_le_sum fun p _ => ?_
      rw [mul_sum]
      refine sum_le_sum fun b _ => ?_
      have h6 := abs_sub_abs_le_abs_sub (d p b) (f p b - Q p b)
      have h7 := hrnd p b
      rw [sub_zero]
      linarith
    have h8 : (1 + u) * waterfallDist P nb f Q ≤ (1 + u) * (P * 3.1) := mul_le_mul_of_nonneg_left hfQ (by linarith)
    have h9 : u * (P * 3.1) ≤ 1 / 60 * (P * 3.1) := mul_le_mul_of_nonneg_right hu (by positivity)
    linarith
  have r1 := root (a := d) (b := fun p b => f p b - Q p b)
  have r2 := root (a := fun p b => f p b - Q p b) (b := fun p b => g p b - r p b)
  have r0 : |e - Real.sqrt (meanSquare P nb d)| * S ≤ 2 * (((P * nb + 4 : ℕ) : ℝ) * u) * (P * 3.2) := by
    calc _ ≤ 2 * (((P * nb + 4 : ℕ) : ℝ) * u) * Real.sqrt (meanSquare P nb d) * S := mul_le_mul_of_nonneg_right h1 hS0
      _ = 2 * (((P * nb + 4 : ℕ) : ℝ) * u) * (Real.sqrt (meanSquare P nb d) * S) := by ring
      _ ≤ _ := mul_le_mul_of_nonneg_left h4 (by positivity)
  have t1 := abs_sub_le e (Real.sqrt (meanSquare P nb d)) (Real.sqrt (meanSquare P nb fun p b => g p b - r p b))
  have t2 := abs_sub_le (Real.sqrt (meanSquare P nb d)) (Real.sqrt (meanSquare P nb fun p b => f p b - Q p b))
    (Real.sqrt (meanSquare P nb fun p b => g p b - r p b))
  have t3 := mul_le_mul_of_nonneg_right (t1.trans (add_le_add_right t2 _)) hS0
  rw [add_mul, add_mul] at t3
  refine t3.trans ?_
  have c1 : 2 * (((P * nb + 4 : ℕ) : ℝ) * u) * (P * 3.2) + u * (P * 3.1) ≤ P * ((7 * (P * nb) + 32) * u) := by
    push_cast
    have : 0 ≤ (P : ℝ) * nb * u * P := by positivity
    have : 0 ≤ (P : ℝ) * u := by positivity
    nlinarith
  linarith

/-- floating point beside exact arithmetic: weights and recreated profiles after all iterations -/
theorem Fit.accurate {η : ℝ} {f g : ℕ → ℕ → ℝ} (F : Fit w u η n P nb x f) (hg : Profiled P nb g) (hc : Covered n P nb x g)
    (hD : waterfallDist P nb g f ≤ P * (2 * (nb + 1) * u)) (hr : ((2 * n + nb + 1 : ℕ) : ℝ) * u ≤ 1 / 2) {niter : ℕ}
    (hk : 8 * (niter : ℝ) * (maxCount n P nb x * (η + (2 * (nb : ℝ) + 16 * P + 30) * u)) ≤ 1) :
    ∃ (st : RState ℝ) (V : ℕ → ℝ) (Q : ℕ → ℕ → ℝ), (reconstruct (α := Rn w) w.sqrt (xbuf n P x) (flat P nb f) niter nb n P).2 = .ok st ∧
      st.weights = tab n V ∧ st.flatRec = flat P nb Q ∧ (∀ i, i < n → 0 ≤ V i) ∧ 0 < ∑ i ∈ range n, V i ∧
      weightDist n (W true n P nb x g niter) V ≤ weightError u n P nb x g niter niter ∧
      waterfallDist P nb (R true n P nb x g (niter + 1)) Q ≤
        P * (2 * weightError u n P nb x g niter niter / startTotal n P nb x g + 2 * (((2 * n + nb + 1 : ℕ) : ℝ) * u)) ∧
      ∃ D : ℕ → ℝ, st.discr = tab (niter + 1) D ∧ (((P * nb + 4 : ℕ) : ℝ) * u ≤ 1 / 2 → ∀ k, k ≤ niter →
        |D k - Real.sqrt (msq true n P nb x g k)| * Real.sqrt ((P * nb : ℕ) : ℝ) ≤
          P * (2 * weightError u n P nb x g niter k / startTotal n P nb x g + (4 * n + 4 * nb + 7 * (P * nb) + 36) * u)) := by
  obtain ⟨s1, s2, s3⟩ := F.small
  have h0 := F.h0
  have hP0 : (0 : ℝ) < (P : ℝ) := Nat.cast_pos.mpr F.hP
  have hM0 : (0 : ℝ) ≤ (maxCount n P nb x : ℝ) := Nat.cast_nonneg _
  have hT := startTotal_pos F.hP F.hx hg hc
  set γ := (1 + u) ^ P - 1 with hγ
  have hγ0 : 0 ≤ γ := sub_nonneg.mpr (one_le_pow₀ (by linarith))
  have hγ1 : γ ≤ 2 * (P * u) := (pow_small h0 (by linarith)).1
  have hη := F.hη
  have hbu : 0 ≤ (nb : ℝ) * u := mul_nonneg (Nat.cast_nonneg _) h0
  have hfs : ∀ p ∈ range P, rowSum nb f p ≤ 1.5 := fun p hp => by
    have := (_root_.abs_le.mp (F.f1 p (mem_range.mp hp))).2
    linarith
  have hfQ : ∀ {V : ℕ → ℝ} {Q Q' : ℕ → ℕ → ℝ}, Recreated u n P nb x V Q Q' → waterfallDist P nb f Q' ≤ P * 3.1 := by
    intro V Q Q' hrec
    have : ∀ p ∈ range P, ∑ b ∈ range nb, |f p b - Q' p b| ≤ 3.1 := by
      intro p hp
      have a1 : ∑ b ∈ range nb, |f p b - Q' p b| ≤ ∑ b ∈ range nb, (f p b + Q' p b) := sum_le_sum fun b hb => by
        have := abs_sub (f p b) (Q' p b)
        rwa [abs_of_nonneg (F.f0 p (mem_range.mp hp) b (mem_range.mp hb)), abs_of_nonneg (hrec.1 p (mem_range.mp hp) b (mem_range.mp hb))] at this
      have a2 := hfs p hp
      have a3 := hrec.2.1 p (mem_range.mp hp)
      unfold rowSum at a2 a3
      rw [sum_add_distrib] at a1
      have a4 : 2 * ((nb : ℝ) + 1) * u = 2 * nb * u + 2 * u := by ring
      linarith
    refine (sum_le_sum this).trans (le_of_eq ?_)
    rw [sum_const, card_range, nsmul_eq_mul]
  have hT2 : ∀ (k : ℕ) {E G : ℝ}, 0 ≤ E → 0 ≤ G → P * E + G ≤ P * weightError u n P nb x g niter k → ∀ c : ℝ,
      2 * (G + P * E) / startTotal n P nb x g + P * c ≤ P * (2 * weightError u n P nb x g niter k / startTotal n P nb x g + c) := by
    intro k E G _ _ h c
    have e : (P : ℝ) * (2 * weightError u n P nb x g niter k / startTotal n P nb x g + c) =
        2 * (P * weightError u n P nb x g niter k) / startTotal n P nb x g + P * c := by ring
    rw [e]
    exact add_le_add_left (div_le_div_of_nonneg_right (by linarith) hT.le) _
  have run := F.run_keeps hk (fun k V Q => P * weightDist n (W true n P nb x g k) V +
      waterfallDist P nb (R true n P nb x g k) Q ≤ P * weightError u n P nb x g niter k) ?_ ?_
    (fun k e => ((P * nb + 4 : ℕ) : ℝ) * u ≤ 1 / 2 → |e - Real.sqrt (msq true n P nb x g k)| * Real.sqrt ((P * nb : ℕ) : ℝ) ≤
      P * (2 * weightError u n P nb x g niter k / startTotal n P nb x g + (4 * n + 4 * nb + 7 * (P * nb) + 36) * u)) ?_
  · obtain ⟨st, V, Q, Q', e1, e2, e3, v0, v1, q0, hI, hrec, D, eD, hD'⟩ := run
    have hX : 0 ≤ waterfallDist P nb (R true n P nb x g niter) Q := waterfallDist_nonneg _ _
    refine ⟨st, V, Q', e1, e2, e3, v0, lt_of_lt_of_le (by linarith) v1, le_of_mul_le_mul_left (by linarith) hP0, ?_, D, eD,
      fun h k hk => hD' k hk h⟩
    refine (rec_float h0 F.hP F.hx hg hc hr niter v0 q0 (lt_of_lt_of_le (by linarith) v1) hrec).trans ?_
    exact hT2 niter (weightDist_nonneg _ _) hX hI _
  · intro V hV
    have h1 := start_float F.acc h0 F.hx (g := g) F.f0 hV
    have e : waterfallDist P nb (R true n P nb x g 0) (fun _ _ => 0) = 0 := by
      unfold waterfallDist
      exact sum_eq_zero fun p _ => sum_eq_zero fun b _ => by
        show |(0 : ℝ) - 0| = 0
        simp
    rw [e, add_zero]
    apply mul_le_mul_of_nonneg_left _ hP0.le
    have h2 : ∑ p ∈ range P, rowSum nb f p ≤ P * 3.1 := by
      refine (sum_le_sum hfs).trans ?_
      rw [sum_const, card_range, nsmul_eq_mul]
      exact mul_le_mul_of_nonneg_left (by norm_num) hP0.le
    have h3 := noise_ge (n := n) (x := x) h0 s1 (Nat.zero_le niter) hγ0 hγ1 hD (maxCount n P nb x) rfl
    have h4 : γ * ((maxCount n P nb x : ℝ) * ∑ p ∈ range P, rowSum nb f p) ≤ γ * (maxCount n P nb x * (P * 3.1)) :=
      mul_le_mul_of_nonneg_left (mul_le_mul_of_nonneg_left h2 hM0) hγ0
    have h5 : 0 ≤ γ * (P * (maxCount n P nb x : ℝ) * (2 * (0 : ℕ) + 1)) := by positivity
    have h6 : 0 ≤ (7 * u + γ * (7 * u)) * ((maxCount n P nb x : ℝ) * (P * 3.1)) := by positivity
    have h7 : 0 ≤ ((P : ℝ) * (maxCount n P nb x : ℝ) + 1) * (2 * (((2 * n + nb + 1 : ℕ) : ℝ) * u)) := by positivity
    unfold weightError
    rw [zero_add, sum_range_one, pow_zero, mul_one]
    rw [← hγ] at h1
    have h8 : (7 * u + γ * (1 + 7 * u)) * ((maxCount n P nb x : ℝ) * (P * 3.1)) =
        (7 * u + γ * (7 * u)) * ((maxCount n P nb x : ℝ) * (P * 3.1)) + γ * (maxCount n P nb x * (P * 3.1)) := by ring
    rw [h8] at h3
    refine (h1.trans (add_le_add_right h4 _)).trans (le_trans ?_ h3)
    generalize γ * ((maxCount n P nb x : ℝ) * (P * 3.1)) = Z
    generalize γ * (P * (maxCount n P nb x : ℝ) * (2 * (0 : ℕ) + 1)) = A at h5 ⊢
    generalize (7 * u + γ * (7 * u)) * ((maxCount n P nb x : ℝ) * (P * 3.1)) = B at h6 ⊢
    linarith
  · intro k hk' V Q V' Q' ih v0 q0 vpos hrec hwt
    have f1 := rec_float h0 F.hP F.hx hg hc hr k v0 q0 vpos hrec
    have f2 := step_float F.acc h0 (by linarith) F.hx (g := g) (f := f) k v0 hwt
    rw [← hγ] at f2
    have f3 := noise_ge (n := n) (x := x) h0 s1 hk'.le hγ0 hγ1 hD (maxCount n P nb x) rfl
    have hV : ∑ i ∈ range n, V i ≤ P * (maxCount n P nb x : ℝ) * (2 * k + 1) + weightDist n (W true n P nb x g k) V := by
      have h1 := total_le F.hP F.hx hg hc k
      have h2 : ∑ i ∈ range n, V i ≤ ∑ i ∈ range n, (W true n P nb x g k i + |W true n P nb x g k i - V i|) :=
        sum_le_sum fun i _ => by linarith [neg_abs_le (W true n P nb x g k i - V i)]
      rw [sum_add_distrib] at h2
      exact h2.trans (add_le_add_left h1 _)
    have hfQ := hfQ hrec
    rw [weightError_succ]
    set E := weightDist n (W true n P nb x g k) V
    set G := waterfallDist P nb (R true n P nb x g k) Q
    set E' := weightDist n (W true n P nb x g (k + 1)) V'
    set G' := waterfallDist P nb (R true n P nb x g (k + 1)) Q'
    set M := (maxCount n P nb x : ℝ)
    set ρ := 2 * (((2 * n + nb + 1 : ℕ) : ℝ) * u)
    set T := startTotal n P nb x g
    set D := waterfallDist P nb g f
    set X := P * E + G with hX
    set Y := weightError u n P nb x g niter k
    have hE0 : 0 ≤ E := weightDist_nonneg _ _
    have hG0 : 0 ≤ G := waterfallDist_nonneg _ _
    have g1 : γ * ∑ i ∈ range n, V i ≤ γ * (P * M * (2 * k + 1)) + γ * E := by
      have := mul_le_mul_of_nonneg_left hV hγ0
      rwa [mul_add] at this
    have g2 : (7 * u + γ * (1 + 7 * u)) * (M * waterfallDist P nb f Q') ≤ (7 * u + γ * (1 + 7 * u)) * (M * (P * 3.1)) :=
      mul_le_mul_of_nonneg_left (mul_le_mul_of_nonneg_left hfQ hM0) (by positivity)
    have g3 : G' ≤ 2 * X / T + P * ρ := by
      have : G + P * E = X := by rw [hX]; ring
      rw [this] at f1
      exact f1
    have g4 : E' ≤ E + γ * E + M * G' + (noise u n P nb x niter - (P * M + 1) * ρ) := by linarith
    have hPM : 0 ≤ (P : ℝ) * M + 1 := by positivity
    have g5 : ((P : ℝ) * M + 1) * G' ≤ (P * M + 1) * (2 * X / T) + (P * M + 1) * (P * ρ) := by
      rw [← mul_add]; exact mul_le_mul_of_nonneg_left g3 hPM
    have g6 := mul_le_mul_of_nonneg_left g4 hP0.le
    have hs : spread n P nb x g = 1 + 2 * (P * M + 1) / T := rfl
    have g7 : ((P : ℝ) * M + 1) * (2 * X / T) = (spread n P nb x g - 1) * X := by rw [hs]; ring
    have g8 : γ * (P * E) ≤ 2 * (P * u) * X := by
      have : P * E ≤ X := by rw [hX]; linarith
      exact mul_le_mul hγ1 this (mul_nonneg hP0.le hE0) (by positivity)
    have hsp : 0 ≤ spread n P nb x g + 2 * (P * u) := add_nonneg (spread_pos F.hP F.hx hg hc).le (by positivity)
    have g9 := mul_le_mul_of_nonneg_left ih hsp
    calc P * E' + G' ≤ (P * E + γ * (P * E) + P * noise u n P nb x niter) + (((P : ℝ) * M + 1) * G' - (P * M + 1) * (P * ρ)) := by
            linarith
      _ ≤ (P * E + 2 * (P * u) * X + P * noise u n P nb x niter) + (spread n P nb x g - 1) * X := by linarith
      _ ≤ P * noise u n P nb x niter + (spread n P nb x g + 2 * (P * u)) * X := by rw [hX] at *; linarith
      _ ≤ P * noise u n P nb x niter + (spread n P nb x g + 2 * (P * u)) * (P * Y) := by linarith
      _ = _ := by ring
  · intro k hk' V Q Q' e hI v0 q0 vpos hrec hrep hN
    have f1 := rec_float h0 F.hP F.hx hg hc hr k v0 q0 vpos hrec
    have f2 := discr_float F.acc h0 s1 F.hP F.hb hN (g := g) (r := R true n P nb x g (k + 1)) hrep (hfQ hrec)
    have f3 := hT2 k (weightDist_nonneg (npart := n) (W true n P nb x g k) V) (waterfallDist_nonneg (R true n P nb x g k) Q) hI
      ((4 * n + 4 * nb + 7 * (P * nb) + 36) * u)
    unfold msq
    refine f2.trans (le_trans ?_ f3)
    have e : (P : ℝ) * ((4 * n + 4 * nb + 7 * (P * nb) + 36) * u) = P * (2 * (nb + 1) * u) + P * (2 * (((2 * n + nb + 1 : ℕ) : ℝ) * u)) +
        P * ((7 * (P * nb) + 32) * u) := by
      push_cast
      ring
    rw [e]
    linarith

end Verif.Rounded

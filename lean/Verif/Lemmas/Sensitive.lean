import Verif.Spec.Sensitive
import Verif.Lemmas.Converge
import Mathlib.Algebra.Order.BigOperators.Ring.Finset
import Mathlib.Algebra.Order.Group.MinMax

/-!
# How a difference in the data grows with the iterations (helper lemmas)
-/

set_option linter.unusedSectionVars false

namespace Verif.Recon
open Finset Verif.Spec

variable {K : Type} [Field K] [LinearOrder K] [IsStrictOrderedRing K]
variable {npart nprof nbins : ℕ} {x : ℕ → ℕ → ℕ} {wf wf' : ℕ → ℕ → K} {keep : Bool}

/-- dividing by the total at most doubles the relative difference -/
theorem norm_dist {s : Finset ℕ} {a a' : ℕ → K} (h' : ∀ b ∈ s, 0 ≤ a' b) (hA : 0 < ∑ b ∈ s, a b) (hA' : 0 < ∑ b ∈ s, a' b) :
    ∑ b ∈ s, |a b / ∑ c ∈ s, a c - a' b / ∑ c ∈ s, a' c| ≤ 2 * (∑ b ∈ s, |a b - a' b|) / ∑ b ∈ s, a b := by
  set A := ∑ b ∈ s, a b
  set A' := ∑ b ∈ s, a' b
  have hd : |A' - A| ≤ ∑ b ∈ s, |a b - a' b| := by
    have : A' - A = ∑ b ∈ s, (a' b - a b) := by rw [sum_sub_distrib]
    rw [this]
    refine (abs_sum_le_sum_abs _ _).trans (sum_le_sum fun b _ => ?_)
    rw [abs_sub_comm]
  have h1 : ∀ b ∈ s, |a b / A - a' b / A'| ≤ |a b - a' b| / A + a' b * (|A' - A| / (A * A')) := by
    intro b hb
    have e : a b / A - a' b / A' = (a b - a' b) / A + a' b * ((A' - A) / (A * A')) := by
      field_simp
      ring
    rw [e]
    refine (abs_add_le _ _).trans ?_
    rw [abs_div, abs_of_pos hA, abs_mul, abs_of_nonneg (h' b hb), abs_div, abs_of_pos (mul_pos hA hA')]
  refine (sum_le_sum h1).trans ?_
  rw [sum_add_distrib, ← sum_div, ← sum_mul]
  have e2 : A' * (|A' - A| / (A * A')) = |A' - A| / A := by field_simp
  change _ + A' * (|A' - A| / (A * A')) ≤ _
  rw [e2, ← add_div]
  exact div_le_div_of_nonneg_right (by linarith) hA.le

/-- projections differ by no more than the weights -/
theorem proj_dist (hx : InRange npart nprof nbins x) {p : ℕ} (hp : p < nprof) (w w' : ℕ → K) :
    ∑ b ∈ range nbins, |proj npart x w p b - proj npart x w' p b| ≤ weightDist npart w w' := by
  have h1 : ∀ b ∈ range nbins, |proj npart x w p b - proj npart x w' p b| ≤ proj npart x (fun i => |w i - w' i|) p b := by
    intro b _
    rw [← proj_sub]
    unfold proj
    refine (abs_sum_le_sum_abs _ _).trans (sum_le_sum fun i _ => ?_)
    split
    · exact le_rfl
    · rw [abs_zero]
  refine (sum_le_sum h1).trans ?_
  exact (rowSum_proj hx (fun i => |w i - w' i|) hp).le

/-- what the particles collect differs by no more than the largest count times the differences -/
theorem back_dist (hx : InRange npart nprof nbins x) (d : ℕ → ℕ → K) :
    ∑ i ∈ range npart, |backProj nprof x (fun p b => d p b * recip K npart nprof nbins x p b) i| ≤
      (maxCount npart nprof nbins x : K) * ∑ p ∈ range nprof, ∑ b ∈ range nbins, |d p b| := by
  have h1 : ∀ i ∈ range npart, |backProj nprof x (fun p b => d p b * recip K npart nprof nbins x p b) i| ≤
      ∑ p ∈ range nprof, |d p (x i p)| * recip K npart nprof nbins x p (x i p) := by
    intro i _
    unfold backProj
    refine (abs_sum_le_sum_abs _ _).trans (sum_le_sum fun p _ => ?_)
    rw [abs_mul, abs_of_nonneg (a := recip K npart nprof nbins x p (x i p)) (recip_nonneg p _)]
  refine (sum_le_sum h1).trans ?_
  rw [sum_comm, mul_sum]
  apply sum_le_sum
  intro p hp
  rw [sum_count hx (mem_range.mp hp) (fun b => |d p b| * recip K npart nprof nbins x p b), mul_sum]
  apply sum_le_sum
  intro b _
  have h2 := recip_count_le (K := K) (npart := npart) (nprof := nprof) (nbins := nbins) (x := x) p b
  calc |d p b| * recip K npart nprof nbins x p b * (count npart x p b : K)
      = (recip K npart nprof nbins x p b * (count npart x p b : K)) * |d p b| := by ring
    _ ≤ _ := mul_le_mul_of_nonneg_right h2 (abs_nonneg _)

theorem start_dist (hx : InRange npart nprof nbins x) :
    weightDist npart (W keep npart nprof nbins x wf 0) (W keep npart nprof nbins x wf' 0) ≤
      (maxCount npart nprof nbins x : K) * waterfallDist nprof nbins wf wf' := by
  have h1 : ∀ i ∈ range npart, |W keep npart nprof nbins x wf 0 i - W keep npart nprof nbins x wf' 0 i| ≤
      ∑ p ∈ range nprof, |wf p (x i p) - wf' p (x i p)| := by
    intro i _
    show |max (backProj nprof x wf i) 0 - max (backProj nprof x wf' i) 0| ≤ _
    refine (abs_max_sub_max_le_abs _ _ _).trans ?_
    unfold backProj
    rw [← sum_sub_distrib]
    exact abs_sum_le_sum_abs _ _
  refine (sum_le_sum h1).trans ?_
  unfold waterfallDist
  rw [sum_comm, mul_sum]
  apply sum_le_sum
  intro p hp
  rw [sum_count hx (mem_range.mp hp) (fun b => |wf p b - wf' p b|), mul_sum]
  apply sum_le_sum
  intro b hb
  rw [mul_comm]
  apply mul_le_mul_of_nonneg_right _ (abs_nonneg _)
  exact_mod_cast count_le_max (mem_range.mp hp) (mem_range.mp hb)

/-- recreated profiles after the next projection -/
theorem rec_dist (hx : InRange npart nprof nbins x) {k : ℕ} (hg : Good keep npart nprof nbins x wf k)
    (hg' : Good keep npart nprof nbins x wf' k) {T : K} (hT : 0 < T) (h : T ≤ ∑ i ∈ range npart, W keep npart nprof nbins x wf k i) :
    waterfallDist nprof nbins (R keep npart nprof nbins x wf (k + 1)) (R keep npart nprof nbins x wf' (k + 1)) ≤
      2 * (waterfallDist nprof nbins (R keep npart nprof nbins x wf k) (R keep npart nprof nbins x wf' k) +
        (nprof : K) * weightDist npart (W keep npart nprof nbins x wf k) (W keep npart nprof nbins x wf' k)) / T := by
  have key : ∀ p ∈ range nprof, ∑ b ∈ range nbins, |R keep npart nprof nbins x wf (k + 1) p b - R keep npart nprof nbins x wf' (k + 1) p b|
      ≤ 2 * ((∑ b ∈ range nbins, |R keep npart nprof nbins x wf k p b - R keep npart nprof nbins x wf' k p b|) +
        weightDist npart (W keep npart nprof nbins x wf k) (W keep npart nprof nbins x wf' k)) / T := by
    intro p hp
    have hp := mem_range.mp hp
    have tot : ∀ {v : ℕ → ℕ → K}, Good keep npart nprof nbins x v k →
        (∀ b, 0 ≤ (if keep then R keep npart nprof nbins x v k p b else 0) + proj npart x (W keep npart nprof nbins x v k) p b) ∧
        ∑ i ∈ range npart, W keep npart nprof nbins x v k i ≤ ∑ b ∈ range nbins,
          ((if keep then R keep npart nprof nbins x v k p b else 0) + proj npart x (W keep npart nprof nbins x v k) p b) := by
      intro v hv
      have hR := R_nonneg_rowSum (keep := keep) (wf := v) hx (k := k) (by
        rcases k with _ | k
        · exact Or.inl rfl
        · exact Or.inr fun m hm => hv m (by simp at hm; omega))
      have hr : ∀ b, 0 ≤ (if keep then R keep npart nprof nbins x v k p b else 0) := by
        intro b
        split
        · exact hR.1 p b
        · exact le_rfl
      refine ⟨fun b => add_nonneg (hr b) (proj_nonneg (fun i _ => W_nonneg ..) p b), ?_⟩
      rw [sum_add_distrib]
      have e := rowSum_proj hx (W keep npart nprof nbins x v k) hp
      unfold rowSum at e
      rw [e]
      exact le_add_of_nonneg_left (sum_nonneg fun b _ => hr b)
    obtain ⟨n1, t1⟩ := tot hg
    obtain ⟨n2, t2⟩ := tot hg'
    have p1 := (hg k le_rfl).trans_le t1
    have p2 := (hg' k le_rfl).trans_le t2
    have := norm_dist (s := range nbins) (a := fun b => (if keep then R keep npart nprof nbins x wf k p b else 0) +
        proj npart x (W keep npart nprof nbins x wf k) p b) (a' := fun b => (if keep then R keep npart nprof nbins x wf' k p b else 0) +
        proj npart x (W keep npart nprof nbins x wf' k) p b) (fun b _ => n2 b) p1 p2
    refine this.trans ?_
    have hd : ∑ b ∈ range nbins, |((if keep then R keep npart nprof nbins x wf k p b else 0) +
        proj npart x (W keep npart nprof nbins x wf k) p b) - ((if keep then R keep npart nprof nbins x wf' k p b else 0) +
        proj npart x (W keep npart nprof nbins x wf' k) p b)| ≤
        (∑ b ∈ range nbins, |R keep npart nprof nbins x wf k p b - R keep npart nprof nbins x wf' k p b|) +
        weightDist npart (W keep npart nprof nbins x wf k) (W keep npart nprof nbins x wf' k) := by
      refine le_trans ?_ (add_le_add_right (proj_dist hx hp (W keep npart nprof nbins x wf k) (W keep npart nprof nbins x wf' k)) _)
      rw [← sum_add_distrib]
      apply sum_le_sum
      intro b _
      rw [add_sub_add_comm]
      refine (abs_add_le _ _).trans (add_le_add_left ?_ _)
      cases keep
      · simp
      · exact le_rfl
    have hnn : 0 ≤ ∑ b ∈ range nbins, |((if keep then R keep npart nprof nbins x wf k p b else 0) +
        proj npart x (W keep npart nprof nbins x wf k) p b) - ((if keep then R keep npart nprof nbins x wf' k p b else 0) +
        proj npart x (W keep npart nprof nbins x wf' k) p b)| := sum_nonneg fun _ _ => abs_nonneg _
    exact div_le_div₀ (by linarith) (by linarith) hT (h.trans t1)
  refine (sum_le_sum key).trans ?_
  rw [← sum_div, ← mul_sum, sum_add_distrib, sum_const, card_range, nsmul_eq_mul]
  exact le_rfl

/-- weights after the next iteration -/
theorem step_dist (hx : InRange npart nprof nbins x) (k : ℕ) :
    weightDist npart (W keep npart nprof nbins x wf (k + 1)) (W keep npart nprof nbins x wf' (k + 1)) ≤
      weightDist npart (W keep npart nprof nbins x wf k) (W keep npart nprof nbins x wf' k) +
      (maxCount npart nprof nbins x : K) * (waterfallDist nprof nbins wf wf' +
        waterfallDist nprof nbins (R keep npart nprof nbins x wf (k + 1)) (R keep npart nprof nbins x wf' (k + 1))) := by
  have hb := back_dist (K := K) hx (fun p b => (wf p b - R keep npart nprof nbins x wf (k + 1) p b) -
    (wf' p b - R keep npart nprof nbins x wf' (k + 1) p b))
  have hd : ∑ p ∈ range nprof, ∑ b ∈ range nbins, |(wf p b - R keep npart nprof nbins x wf (k + 1) p b) -
      (wf' p b - R keep npart nprof nbins x wf' (k + 1) p b)| ≤ waterfallDist nprof nbins wf wf' +
        waterfallDist nprof nbins (R keep npart nprof nbins x wf (k + 1)) (R keep npart nprof nbins x wf' (k + 1)) := by
    unfold waterfallDist
    rw [← sum_add_distrib]
    apply sum_le_sum
    intro p _
    rw [← sum_add_distrib]
    apply sum_le_sum
    intro b _
    rw [sub_sub_sub_comm]
    exact abs_sub _ _
  have hm : (0 : K) ≤ (maxCount npart nprof nbins x : K) := Nat.cast_nonneg _
  refine le_trans ?_ (add_le_add_right (hb.trans (mul_le_mul_of_nonneg_left hd hm)) _)
  unfold weightDist
  rw [← sum_add_distrib]
  apply sum_le_sum
  intro i _
  rw [W_succ, W_succ]
  refine (abs_max_sub_max_le_abs _ _ _).trans ?_
  unfold raw
  rw [add_sub_add_comm]
  refine (abs_add_le _ _).trans (add_le_add_right (le_of_eq ?_) _)
  congr 1
  unfold backProj
  rw [← sum_sub_distrib]
  apply sum_congr rfl
  intro p _
  ring

theorem waterfallDist_nonneg (f g : ℕ → ℕ → K) : 0 ≤ waterfallDist nprof nbins f g :=
  sum_nonneg fun _ _ => sum_nonneg fun _ _ => abs_nonneg _

theorem weightDist_nonneg (f g : ℕ → K) : 0 ≤ weightDist npart f g := sum_nonneg fun _ _ => abs_nonneg _

theorem startTotal_pos (hp : 0 < nprof) (hx : InRange npart nprof nbins x) (hw : Profiled nprof nbins wf)
    (hc : Covered npart nprof nbins x wf) : 0 < startTotal npart nprof nbins x wf := by
  have := total_zero_ge (keep := true) hx hw hc
  rw [total_zero hx hw] at this
  have h0 : (0 : K) < (nprof : K) := by exact_mod_cast hp
  exact h0.trans_le this

theorem spread_pos (hp : 0 < nprof) (hx : InRange npart nprof nbins x) (hw : Profiled nprof nbins wf)
    (hc : Covered npart nprof nbins x wf) : 0 < spread npart nprof nbins x wf := by
  have := startTotal_pos hp hx hw hc
  unfold spread
  positivity

/-- weights and recreated profiles together -/
theorem both_dist (hp : 0 < nprof) (hx : InRange npart nprof nbins x) (hw : Profiled nprof nbins wf)
    (hc : Covered npart nprof nbins x wf) (k : ℕ) (hg' : Good keep npart nprof nbins x wf' k) :
    (nprof : K) * weightDist npart (W keep npart nprof nbins x wf k) (W keep npart nprof nbins x wf' k) +
      waterfallDist nprof nbins (R keep npart nprof nbins x wf k) (R keep npart nprof nbins x wf' k) ≤
      (nprof : K) * (sensitivity npart nprof nbins x wf k * waterfallDist nprof nbins wf wf') := by
  have hP : (0 : K) ≤ (nprof : K) := Nat.cast_nonneg _
  have hM : (0 : K) ≤ (maxCount npart nprof nbins x : K) := Nat.cast_nonneg _
  have hT := startTotal_pos hp hx hw hc
  induction k with
  | zero =>
    have e : waterfallDist nprof nbins (R keep npart nprof nbins x wf 0) (R keep npart nprof nbins x wf' 0) = 0 := by
      unfold waterfallDist
      exact sum_eq_zero fun p _ => sum_eq_zero fun b _ => by
        show |(0 : K) - 0| = 0
        simp
    rw [e, add_zero]
    apply mul_le_mul_of_nonneg_left _ hP
    unfold sensitivity
    rw [zero_add, sum_range_one, pow_zero, mul_one]
    exact start_dist hx
  | succ k ih =>
    have hg : Good keep npart nprof nbins x wf k := good_all hp hx hw hc k
    have ih := ih fun m hm => hg' m (by omega)
    have ht : startTotal npart nprof nbins x wf ≤ ∑ i ∈ range npart, W keep npart nprof nbins x wf k i := by
      have := total_mono (keep := keep) hp hx hw hc 0 k
      rw [total_zero hx hw, zero_add] at this
      exact this
    have h1 := rec_dist hx hg (fun m hm => hg' m (by omega)) hT ht
    have h2 := step_dist (keep := keep) (wf := wf) (wf' := wf') hx k
    have hs : sensitivity npart nprof nbins x wf (k + 1) =
        (maxCount npart nprof nbins x : K) + spread npart nprof nbins x wf * sensitivity npart nprof nbins x wf k := by
      unfold sensitivity
      rw [sum_range_succ', pow_zero, mul_add, mul_one, add_comm]
      congr 1
      rw [mul_sum, mul_sum, mul_sum]
      exact sum_congr rfl fun j _ => by ring
    rw [hs]
    set E := weightDist npart (W keep npart nprof nbins x wf k) (W keep npart nprof nbins x wf' k)
    set F := waterfallDist nprof nbins (R keep npart nprof nbins x wf k) (R keep npart nprof nbins x wf' k)
    set E' := weightDist npart (W keep npart nprof nbins x wf (k + 1)) (W keep npart nprof nbins x wf' (k + 1))
    set F' := waterfallDist nprof nbins (R keep npart nprof nbins x wf (k + 1)) (R keep npart nprof nbins x wf' (k + 1))
    set D := waterfallDist nprof nbins wf wf'
    set S := sensitivity npart nprof nbins x wf k
    set M := (maxCount npart nprof nbins x : K)
    set P := (nprof : K)
    have h3 : P * E' ≤ P * E + P * M * (D + F') := by
      calc P * E' ≤ P * (E + M * (D + F')) := mul_le_mul_of_nonneg_left h2 hP
        _ = _ := by ring
    have h4 : (P * M + 1) * F' ≤ (P * M + 1) * (2 * (F + P * E) / startTotal npart nprof nbins x wf) :=
      mul_le_mul_of_nonneg_left h1 (by positivity)
    have h5 : (P * M + 1) * (2 * (F + P * E) / startTotal npart nprof nbins x wf) + (P * E + F) =
        spread npart nprof nbins x wf * (P * E + F) := by
      unfold spread
      ring
    have hF : 0 ≤ F := waterfallDist_nonneg _ _
    have h6 := mul_le_mul_of_nonneg_left ih (spread_pos hp hx hw hc).le
    calc P * E' + F' ≤ P * M * D + (P * M + 1) * F' + (P * E + F) := by linarith
      _ ≤ P * M * D + spread npart nprof nbins x wf * (P * E + F) := by linarith
      _ ≤ P * M * D + spread npart nprof nbins x wf * (P * (S * D)) := by linarith
      _ = _ := by ring

/-- roots of mean squares differ by no more than the differences -/
theorem rms_dist {sqrt : K → K} (hs : ∀ a, 0 ≤ a → 0 ≤ sqrt a ∧ sqrt a ^ 2 = a) {f g : ℕ → ℕ → K} (h : 0 < nprof * nbins) :
    (sqrt (meanSquare nprof nbins f) - sqrt (meanSquare nprof nbins g)) ^ 2 * ((nprof * nbins : ℕ) : K) ≤
      waterfallDist nprof nbins f g ^ 2 := by
  have hN : (0 : K) < ((nprof * nbins : ℕ) : K) := by exact_mod_cast h
  have nn : ∀ d : ℕ → ℕ → K, 0 ≤ meanSquare nprof nbins d := fun d =>
    div_nonneg (sum_nonneg fun _ _ => sum_nonneg fun _ _ => sq_nonneg _) hN.le
  obtain ⟨a0, a2⟩ := hs _ (nn f)
  obtain ⟨b0, b2⟩ := hs _ (nn g)
  set a := sqrt (meanSquare nprof nbins f)
  set b := sqrt (meanSquare nprof nbins g)
  set N := ((nprof * nbins : ℕ) : K)
  have prod : ∀ d : ℕ → ℕ → K, ∑ p ∈ range nprof, ∑ b ∈ range nbins, d p b = ∑ c ∈ range nprof ×ˢ range nbins, d c.1 c.2 := fun d =>
    (sum_product' (range nprof) (range nbins) d).symm
  have ea : a ^ 2 * N = ∑ c ∈ range nprof ×ˢ range nbins, f c.1 c.2 ^ 2 := by
    rw [a2, ← prod fun p b => f p b ^ 2]
    unfold meanSquare
    field_simp
    rfl
  have eb : b ^ 2 * N = ∑ c ∈ range nprof ×ˢ range nbins, g c.1 c.2 ^ 2 := by
    rw [b2, ← prod fun p b => g p b ^ 2]
    unfold meanSquare
    field_simp
    rfl
  have cs := sum_mul_sq_le_sq_mul_sq (range nprof ×ˢ range nbins) (fun c => f c.1 c.2) (fun c => g c.1 c.2)
  rw [← ea, ← eb] at cs
  have hab : ∑ c ∈ range nprof ×ˢ range nbins, f c.1 c.2 * g c.1 c.2 ≤ a * b * N := by
    apply le_of_abs_le
    apply abs_le_of_sq_le_sq _ (by positivity)
    calc _ ≤ _ := cs
      _ = _ := by ring
  have hd : (a - b) ^ 2 * N ≤ ∑ c ∈ range nprof ×ˢ range nbins, (f c.1 c.2 - g c.1 c.2) ^ 2 := by
    have e : ∑ c ∈ range nprof ×ˢ range nbins, (f c.1 c.2 - g c.1 c.2) ^ 2 = a ^ 2 * N + b ^ 2 * N -
        2 * ∑ c ∈ range nprof ×ˢ range nbins, f c.1 c.2 * g c.1 c.2 := by
      rw [ea, eb, mul_sum, ← sum_add_distrib, ← sum_sub_distrib]
      exact sum_congr rfl fun c _ => by ring
    rw [e]
    nlinarith
  refine hd.trans ?_
  unfold waterfallDist
  rw [prod fun p b => |f p b - g p b|]
  rw [sq (∑ c ∈ range nprof ×ˢ range nbins, |f c.1 c.2 - g c.1 c.2|), sum_mul]
  apply sum_le_sum
  intro c hc
  rw [← sq_abs, sq]
  exact mul_le_mul_of_nonneg_left (single_le_sum (f := fun c : ℕ × ℕ => |f c.1 c.2 - g c.1 c.2|) (fun _ _ => abs_nonneg _) hc) (abs_nonneg _)

end Verif.Recon

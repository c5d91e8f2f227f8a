import Verif.Lemmas.RndTurn

namespace Verif.RTurn
open Verif.Spec

/-! ## How far a particle can go -/

theorem gain_size {R : Program ℝ} {T : ℕ} {s κ V G F : ℝ} (hs : 0 < s) (hT : Tame R T s κ V G F) {t : ℕ} (ht : t ≤ T) (φ : ℝ) :
    s * |gain Real.sin R t φ| ≤ V + G := by
  have h2 := hT.volt t ht
  have h3 := hT.acc t ht
  have e : |gain Real.sin R t φ| ≤ |R.rf1 t| + |R.rf2 t| + |R.dE t| := by
    unfold gain
    refine (abs_sub _ _).trans (add_le_add ((abs_add_le _ _).trans (add_le_add ?_ ?_)) le_rfl)
    · rw [abs_mul]; exact mul_le_of_le_one_right (abs_nonneg _) (Real.abs_sin_le_one _)
    · rw [abs_mul]; exact mul_le_of_le_one_right (abs_nonneg _) (Real.abs_sin_le_one _)
  have := mul_le_mul_of_nonneg_left e hs.le
  linarith

theorem slip_size {s κ X c e : ℝ} (hc : |c| ≤ κ * s) (hκ : 0 ≤ κ) (he : s * |e| ≤ X) : |c * e| ≤ κ * X := by
  rw [abs_mul]
  calc |c| * |e| ≤ κ * s * |e| := mul_le_mul_of_nonneg_right hc (abs_nonneg _)
    _ = κ * (s * |e|) := by ring
    _ ≤ κ * X := mul_le_mul_of_nonneg_left he hκ

/-- bound for a particle that starts within `a`, `k` turns later -/
def reach (κ b a : ℝ) (k : ℕ) : ℝ := (1 + κ) ^ k * (a + k * b)

theorem reach_step {κ b a : ℝ} (hκ : 0 ≤ κ) (hb : 0 ≤ b) (k : ℕ) : (1 + κ) * (reach κ b a k + b) ≤ reach κ b a (k + 1) := by
  have h1 : 1 ≤ (1 + κ) ^ k := one_le_pow₀ (by linarith)
  unfold reach
  push_cast
  rw [pow_succ]
  nlinarith [mul_nonneg (by linarith : (0:ℝ) ≤ 1 + κ) (mul_nonneg hb (by linarith : (0:ℝ) ≤ (1 + κ) ^ k - 1))]

theorem fwd_held {R : Program ℝ} {T : ℕ} {s κ V G F X : ℝ} (hs : 0 < s) (hκ : 0 ≤ κ) (hT : Tame R T s κ V G F) {t : ℕ} (ht : t < T)
    {x : ℝ × ℝ} (hx : Held s X x) : Held s ((1 + κ) * (X + (V + G))) (fwd Real.sin R t x) := by
  have hX : 0 ≤ X := (abs_nonneg _).trans hx.1
  have g := gain_size hs hT (t := t + 1) ht (x.1 - R.coef t * x.2)
  have hb : 0 ≤ V + G := le_trans (by positivity) g
  have h1 := slip_size (hT.slip t ht) hκ hx.2
  have k := mul_nonneg hκ hb
  have k' := mul_nonneg hκ hX
  refine ⟨?_, ?_⟩
  · show |x.1 - R.coef t * x.2| ≤ _
    have := abs_sub x.1 (R.coef t * x.2)
    nlinarith [hx.1]
  · show s * |x.2 + gain Real.sin R (t + 1) (x.1 - R.coef t * x.2)| ≤ _
    have := mul_le_mul_of_nonneg_left (abs_add_le x.2 (gain Real.sin R (t + 1) (x.1 - R.coef t * x.2))) hs.le
    nlinarith [hx.2]

theorem bwd_held {R : Program ℝ} {T : ℕ} {s κ V G F X : ℝ} (hs : 0 < s) (hκ : 0 ≤ κ) (hT : Tame R T s κ V G F) {t : ℕ} (ht : t < T)
    {x : ℝ × ℝ} (hx : Held s X x) : Held s ((1 + κ) * (X + (V + G))) (bwd Real.sin R t x) := by
  have hX : 0 ≤ X := (abs_nonneg _).trans hx.1
  have g := gain_size hs hT (t := t + 1) ht x.1
  have hb : 0 ≤ V + G := le_trans (by positivity) g
  have k := mul_nonneg hκ hb
  have k' := mul_nonneg hκ hX
  have he : s * |x.2 - gain Real.sin R (t + 1) x.1| ≤ X + (V + G) := by
    have := mul_le_mul_of_nonneg_left (abs_sub x.2 (gain Real.sin R (t + 1) x.1)) hs.le
    linarith [hx.2]
  have h1 := slip_size (hT.slip t ht) hκ he
  refine ⟨?_, ?_⟩
  · show |x.1 + R.coef t * (x.2 - gain Real.sin R (t + 1) x.1)| ≤ _
    have := abs_add_le x.1 (R.coef t * (x.2 - gain Real.sin R (t + 1) x.1))
    nlinarith [hx.1]
  · show s * |x.2 - gain Real.sin R (t + 1) x.1| ≤ _
    nlinarith

theorem held_mono {s X Y : ℝ} {x : ℝ × ℝ} (h : Held s X x) (hXY : X ≤ Y) : Held s Y x := ⟨h.1.trans hXY, h.2.trans hXY⟩

theorem up_held {R : Program ℝ} {T : ℕ} {s κ V G F a : ℝ} (hs : 0 < s) (hκ : 0 ≤ κ) (hT : Tame R T s κ V G F) {t k : ℕ}
    (ht : t + k ≤ T) {x : ℝ × ℝ} (hx : Held s a x) : Held s (reach κ (V + G) a k) (up Real.sin R t k x) := by
  have hb : 0 ≤ V + G := le_trans (by positivity) (gain_size hs hT (t := 0) (Nat.zero_le _) 0)
  induction k with
  | zero => simpa [reach, up] using hx
  | succ k ih => exact held_mono (fwd_held hs hκ hT (t := t + k) (by omega) (ih (by omega))) (reach_step hκ hb k)

theorem down_held {R : Program ℝ} {T : ℕ} {s κ V G F a : ℝ} (hs : 0 < s) (hκ : 0 ≤ κ) (hT : Tame R T s κ V G F) {t k : ℕ}
    (ht : t ≤ T) (hk : k ≤ t) {x : ℝ × ℝ} (hx : Held s a x) : Held s (reach κ (V + G) a k) (down Real.sin R t k x) := by
  have hb : 0 ≤ V + G := le_trans (by positivity) (gain_size hs hT (t := 0) (Nat.zero_le _) 0)
  induction k with
  | zero => simpa [reach, down] using hx
  | succ k ih => exact held_mono (bwd_held hs hκ hT (t := t - (k + 1)) (by omega) (ih (by omega))) (reach_step hκ hb k)

theorem reach_mono {κ b a : ℝ} (hκ : 0 ≤ κ) (hb : 0 ≤ b) (ha : 0 ≤ a) {k l : ℕ} (h : k ≤ l) : reach κ b a k ≤ reach κ b a l := by
  unfold reach
  have h2 : (k : ℝ) ≤ l := by exact_mod_cast h
  have h3 : (k : ℝ) * b ≤ l * b := mul_le_mul_of_nonneg_right h2 hb
  exact mul_le_mul (pow_le_pow_right₀ (by linarith) h) (by linarith) (by positivity) (by positivity)

theorem transport_held {R : Program ℝ} {T : ℕ} {s κ V G F a : ℝ} (hs : 0 < s) (hκ : 0 ≤ κ) (hT : Tame R T s κ V G F) {t t' : ℕ}
    (ht : t ≤ T) (ht' : t' ≤ T) {x : ℝ × ℝ} (hx : Held s a x) : Held s (reach κ (V + G) a T) (transport Real.sin R t t' x) := by
  have hb : 0 ≤ V + G := le_trans (by positivity) (gain_size hs hT (t := 0) (Nat.zero_le _) 0)
  have ha : 0 ≤ a := (abs_nonneg _).trans hx.1
  unfold transport
  split
  · exact held_mono (up_held (k := t' - t) hs hκ hT (by omega) hx) (reach_mono hκ hb ha (by omega))
  · exact held_mono (down_held (k := t - t') hs hκ hT ht (by omega) hx) (reach_mono hκ hb ha (by omega))

end Verif.RTurn

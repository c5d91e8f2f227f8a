import Verif.Lemmas.Newton
import Mathlib.Analysis.Calculus.Deriv.MeanValue
import Mathlib.Topology.Order.IntermediateValue

/-!
# What a finished Newton iteration guarantees for any smooth function
-/

namespace Verif.Mch
open Set

/-- the tangent is as near as the change of the slope allows, on one side -/
theorem tangent_le {f f' : ℝ → ℝ} {M : ℝ} (hf : ∀ x, HasDerivAt f (f' x) x) (hM : ∀ x y, |f' x - f' y| ≤ M * |x - y|) (x d : ℝ) :
    f (x + d) - f x - d * f' x ≤ M / 2 * d ^ 2 := by
  let g : ℝ → ℝ := fun t => f (x + t * d) - t * (d * f' x) - M / 2 * d ^ 2 * t ^ 2
  have hg : ∀ t, HasDerivAt g (f' (x + t * d) * d - d * f' x - M / 2 * d ^ 2 * (2 * t)) t := by
    intro t
    have h1 : HasDerivAt (fun t => x + t * d) d t := by
      simpa using ((hasDerivAt_id t).mul_const d).const_add x
    have h2 := (hf (x + t * d)).comp t h1
    have h3 : HasDerivAt (fun t => t * (d * f' x)) (d * f' x) t := by simpa using (hasDerivAt_id t).mul_const (d * f' x)
    have h4 : HasDerivAt (fun t : ℝ => M / 2 * d ^ 2 * t ^ 2) (M / 2 * d ^ 2 * (2 * t)) t := by
      have := (hasDerivAt_pow 2 t).const_mul (M / 2 * d ^ 2)
      simpa using this
    exact (h2.sub h3).sub h4
  have hanti : AntitoneOn g (Icc 0 1) := by
    refine antitoneOn_of_deriv_nonpos (convex_Icc 0 1) (fun t _ => (hg t).continuousAt.continuousWithinAt)
      (fun t _ => (hg t).differentiableAt.differentiableWithinAt) ?_
    intro t ht
    rw [interior_Icc] at ht
    rw [(hg t).deriv]
    have h := hM (x + t * d) x
    rw [add_sub_cancel_left, abs_mul, abs_of_pos ht.1] at h
    have h' : (f' (x + t * d) - f' x) * d ≤ M * (t * |d|) * |d| :=
      le_trans (le_abs_self _) (by rw [abs_mul]; exact mul_le_mul_of_nonneg_right h (abs_nonneg d))
    have e : M * (t * |d|) * |d| = M * t * d ^ 2 := by rw [← sq_abs d]; ring
    nlinarith
  have := hanti (left_mem_Icc.mpr zero_le_one) (right_mem_Icc.mpr zero_le_one) zero_le_one
  simp only [g, one_mul, zero_mul, add_zero, one_pow, mul_one, sub_zero] at this
  have h0 : (0 : ℝ) ^ 2 = 0 := by norm_num
  rw [h0, mul_zero, sub_zero] at this
  linarith

/-- the tangent is as near as the change of the slope allows -/
theorem tangent_near {f f' : ℝ → ℝ} {M : ℝ} (hf : ∀ x, HasDerivAt f (f' x) x) (hM : ∀ x y, |f' x - f' y| ≤ M * |x - y|) (x d : ℝ) :
    |f (x + d) - f x - d * f' x| ≤ M / 2 * d ^ 2 := by
  refine abs_le.mpr ⟨?_, tangent_le hf hM x d⟩
  have := tangent_le (f := fun x => -f x) (f' := fun x => -f' x) (M := M) (fun x => (hf x).neg) (fun x y => by
    rw [show -f' x - -f' y = -(f' x - f' y) by ring, abs_neg]; exact hM x y) x d
  linarith

/-- A search that ends leaves at most `M/2 tol²` of the function, wherever it started and however many steps it took. -/
theorem newton_residual {f f' : ℝ → ℝ} {M tol : ℝ} (hM0 : 0 ≤ M) (hf : ∀ x, HasDerivAt f (f' x) x)
    (hM : ∀ x y, |f' x - f' y| ≤ M * |x - y|) (n : ℕ) (x : ℝ) {p : ℝ} (h : scipyNewton f f' tol n x = some p) :
    |f p| ≤ M / 2 * tol ^ 2 := by
  induction n generalizing x with
  | zero => simp [scipyNewton] at h
  | succ n ih =>
    unfold scipyNewton at h
    split at h
    · rename_i h0
      cases h
      rw [h0, abs_zero]
      positivity
    · split at h
      · cases h
      · rename_i h1
        dsimp only at h
        split at h
        · rename_i h2
          cases h
          have hd := tangent_near hf hM x (-(f x / f' x))
          have e : f (x + -(f x / f' x)) - f x - -(f x / f' x) * f' x = f (x - f x / f' x) := by
            rw [← sub_eq_add_neg]; field_simp; ring
          rw [e] at hd
          rw [sub_sub_cancel_left] at h2
          refine hd.trans (mul_le_mul_of_nonneg_left ?_ (by linarith))
          exact sq_le_sq' (by linarith [(abs_le.mp h2).1]) (abs_le.mp h2).2
        · exact ih _ h

/-- Where the slope is at least `M tol`, a small value of the function means that an exact root is near. -/
theorem root_near {f f' : ℝ → ℝ} {M tol : ℝ} (ht : 0 ≤ tol) (hf : ∀ x, HasDerivAt f (f' x) x)
    (hM : ∀ x y, |f' x - f' y| ≤ M * |x - y|) {x : ℝ} (hr : |f x| ≤ M / 2 * tol ^ 2) (hs : M * tol ≤ |f' x|) :
    ∃ z, f z = 0 ∧ |z - x| ≤ tol := by
  have hc : ContinuousOn f (uIcc (x - tol) (x + tol)) := fun y _ => (hf y).continuousAt.continuousWithinAt
  have h1 := abs_le.mp (tangent_near hf hM x tol)
  have h2 := abs_le.mp (tangent_near hf hM x (-tol))
  have hr' := abs_le.mp hr
  have hm : M * tol * tol ≤ |f' x| * tol := mul_le_mul_of_nonneg_right hs ht
  rw [← sub_eq_add_neg] at h2
  have key : (0 : ℝ) ∈ uIcc (f (x - tol)) (f (x + tol)) := by
    rw [mem_uIcc]
    rcases le_total 0 (f' x) with h | h
    · rw [abs_of_nonneg h] at hm
      left; constructor <;> nlinarith
    · rw [abs_of_nonpos h] at hm
      right; constructor <;> nlinarith
  obtain ⟨z, hz, e⟩ := intermediate_value_uIcc hc key
  rw [uIcc_of_le (by linarith)] at hz
  exact ⟨z, e, abs_le.mpr ⟨by linarith [hz.1], by linarith [hz.2]⟩⟩

/-- slope of the voltage of two rf systems -/
theorem volt_deriv (v1 v2 h φ12 w x : ℝ) :
    HasDerivAt (fun φ => v1 * Real.sin φ + v2 * Real.sin (h * (φ - φ12)) - w) (v1 * Real.cos x + h * v2 * Real.cos (h * (x - φ12))) x := by
  have h1 := (Real.hasDerivAt_sin x).const_mul v1
  have h2 : HasDerivAt (fun φ => h * (φ - φ12)) h x := by
    simpa using ((hasDerivAt_id x).sub_const φ12).const_mul h
  have h3 := ((Real.hasDerivAt_sin (h * (x - φ12))).comp x h2).const_mul v2
  have := (h1.add h3).sub_const w
  refine this.congr_deriv ?_
  ring

/-- how fast the slope changes -/
theorem volt_deriv_lipschitz (v1 v2 h φ12 x y : ℝ) :
    |v1 * Real.cos x + h * v2 * Real.cos (h * (x - φ12)) - (v1 * Real.cos y + h * v2 * Real.cos (h * (y - φ12)))| ≤
      (|v1| + h ^ 2 * |v2|) * |x - y| := by
  have a := Real.abs_cos_sub_cos_le x y
  have b := Real.abs_cos_sub_cos_le (h * (x - φ12)) (h * (y - φ12))
  rw [show h * (x - φ12) - h * (y - φ12) = h * (x - y) by ring, abs_mul] at b
  rw [show v1 * Real.cos x + h * v2 * Real.cos (h * (x - φ12)) - (v1 * Real.cos y + h * v2 * Real.cos (h * (y - φ12))) =
    v1 * (Real.cos x - Real.cos y) + h * v2 * (Real.cos (h * (x - φ12)) - Real.cos (h * (y - φ12))) by ring]
  refine (abs_add_le _ _).trans ?_
  rw [abs_mul, abs_mul, abs_mul, ← sq_abs h]
  have c := mul_le_mul_of_nonneg_left a (abs_nonneg v1)
  have d := mul_le_mul_of_nonneg_left b (mul_nonneg (abs_nonneg h) (abs_nonneg v2))
  nlinarith

end Verif.Mch

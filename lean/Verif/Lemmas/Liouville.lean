import Verif.Lemmas.TrackingLaws
import Mathlib.MeasureTheory.Measure.Prod
import Mathlib.MeasureTheory.Measure.Lebesgue.Basic
import Mathlib.MeasureTheory.Group.Measure

/-! # Area preservation of the one-turn map -/

namespace Verif.Track
open Spec MeasureTheory

/-- a vertical shear preserves area -/
theorem shear_snd {g : ℝ → ℝ} (hg : Measurable g) :
    MeasurePreserving (fun x : ℝ × ℝ => (x.1, x.2 + g x.1)) volume volume := by
  refine MeasurePreserving.skew_product (μb := volume) (μd := volume) (f := fun x : ℝ => x)
    (g := fun a b => b + g a) (MeasurePreserving.id _) ?_ ?_
  · exact measurable_snd.add (hg.comp measurable_fst)
  · exact Filter.Eventually.of_forall fun a => map_add_right_eq_self volume (g a)

/-- a horizontal shear preserves area -/
theorem shear_fst {g : ℝ → ℝ} (hg : Measurable g) :
    MeasurePreserving (fun x : ℝ × ℝ => (x.1 + g x.2, x.2)) volume volume := by
  have hs : MeasurePreserving (Prod.swap : ℝ × ℝ → ℝ × ℝ) volume volume := Measure.measurePreserving_swap
  exact (hs.comp (shear_snd hg)).comp hs

theorem measurable_gain {sin : ℝ → ℝ} (hsin : Measurable sin) (R : Program ℝ) (t : ℕ) :
    Measurable (gain sin R t) := by
  unfold gain
  refine Measurable.sub (Measurable.add ?_ ?_) measurable_const
  · exact measurable_const.mul (hsin.comp (measurable_id.add measurable_const))
  · exact measurable_const.mul (hsin.comp (measurable_const.mul
      ((measurable_id.add measurable_const).sub measurable_const)))

theorem fwd_preserving {sin : ℝ → ℝ} (hsin : Measurable sin) (R : Program ℝ) (t : ℕ) :
    MeasurePreserving (fwd sin R t) volume volume := by
  have h1 := shear_fst (g := fun e => -(R.coef t * e)) (measurable_const.mul measurable_id).neg
  have h2 := shear_snd (measurable_gain hsin R (t + 1))
  have := h2.comp h1
  have e : fwd sin R t = (fun x : ℝ × ℝ => (x.1, x.2 + gain sin R (t + 1) x.1))
      ∘ fun x : ℝ × ℝ => (x.1 + -(R.coef t * x.2), x.2) := by
    funext x; simp [fwd, sub_eq_add_neg]
  rw [e]; exact this

theorem bwd_preserving {sin : ℝ → ℝ} (hsin : Measurable sin) (R : Program ℝ) (t : ℕ) :
    MeasurePreserving (bwd sin R t) volume volume := by
  have h1 := shear_fst (g := fun e => R.coef t * e) (measurable_const.mul measurable_id)
  have h2 := shear_snd (g := fun p => -(gain sin R (t + 1) p)) (measurable_gain hsin R (t + 1)).neg
  have := h1.comp h2
  have e : bwd sin R t = (fun x : ℝ × ℝ => (x.1 + R.coef t * x.2, x.2))
      ∘ fun x : ℝ × ℝ => (x.1, x.2 + -(gain sin R (t + 1) x.1)) := by
    funext x; simp [bwd, sub_eq_add_neg]
  rw [e]; exact this

theorem up_preserving {sin : ℝ → ℝ} (hsin : Measurable sin) (R : Program ℝ) (s k : ℕ) :
    MeasurePreserving (up sin R s k) volume volume := by
  induction k with
  | zero => exact MeasurePreserving.id _
  | succ k ih => exact (fwd_preserving hsin R (s + k)).comp ih

theorem down_preserving {sin : ℝ → ℝ} (hsin : Measurable sin) (R : Program ℝ) (s k : ℕ) :
    MeasurePreserving (down sin R s k) volume volume := by
  induction k with
  | zero => exact MeasurePreserving.id _
  | succ k ih => exact (bwd_preserving hsin R (s - (k + 1))).comp ih

theorem outRow_preserving {sin : ℝ → ℝ} (hsin : Measurable sin) (R : Program ℝ) (d r s : ℕ) (neg : Prop)
    [Decidable neg] (p : ℕ) : MeasurePreserving (fun x => outRow sin R d r s neg x p) volume volume := by
  unfold outRow baseOf
  by_cases h : r < p
  · simp only [if_pos h]; exact up_preserving hsin R _ _
  · simp only [if_neg h]
    refine (down_preserving hsin R _ _).comp ?_
    by_cases hn : neg
    · simp only [if_pos hn]; exact up_preserving hsin R _ _
    · simp only [if_neg hn]; exact MeasurePreserving.id _

end Verif.Track

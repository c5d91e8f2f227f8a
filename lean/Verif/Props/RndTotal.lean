import Verif.Lemmas.RndTotal
import Verif.Lemmas.Binary
import Verif.Spec.Rnd
import Verif.Props.Recon
import Mathlib.Tactic.IntervalCases

/-!
# C116 in floating point

The exact total of the weights never falls (`C116_total`).  Rounding makes it fall a little in each iteration; here is how many iterations
can be made before that matters.
-/

namespace Verif.Props
open Finset Verif.Spec Verif.Recon Verif.Rounded

/-- C116 in floating point: a particle wherever there is signal, profiles whose sums are one up to `η`.  The C++ reconstruction returns, and
the total of the weights is at least a quarter of the number of profiles, after any number of iterations up to
`1 / (8 c (η + (2 nb + 16 P + 30) u))`, where `c` is the largest number of particles in a bin and `u` the accuracy of the arithmetic. -/
theorem C116_floating {w : World} {u η : ℝ} (hw : w.Accurate u) (h0 : 0 ≤ u) {n P nb : ℕ} (hP : 0 < P) {x : ℕ → ℕ → ℕ}
    (hx : InRange n P nb x) {f : ℕ → ℕ → ℝ} (hf : ∀ p, p < P → ∀ b, b < nb → 0 ≤ f p b) (hf1 : ∀ p, p < P → |rowSum nb f p - 1| ≤ η)
    (hη : η ≤ 1 / 2) (hc : Covered n P nb x f) (hn : (n : ℝ) * u ≤ 1) (hs : (2 * (nb : ℝ) + 16 * P + 30) * u ≤ 1 / 2) {niter : ℕ}
    (hk : 8 * (niter : ℝ) * (maxCount n P nb x * (η + (2 * (nb : ℝ) + 16 * P + 30) * u)) ≤ 1) :
    ∃ st : RState ℝ, (reconstruct (α := Rn w) w.sqrt (xbuf n P x) (flat P nb f) niter nb n P).2 = .ok st ∧
      (∀ v ∈ st.weights, 0 ≤ v) ∧ (P : ℝ) / 4 ≤ st.weights.sum := by
  have hb : 0 < nb := by
    refine Nat.pos_of_ne_zero fun h => ?_
    subst h
    have := hf1 0 hP
    simp only [rowSum, range_zero, sum_empty] at this
    norm_num at this
    linarith
  obtain ⟨st, W, h1, h2, h3, h4⟩ := Fit.run ⟨hw, h0, hP, hb, hx, hf, hf1, hη, hc, hn, hs⟩ hk
  refine ⟨st, h1, fun v hv => ?_, ?_⟩
  · rw [h2] at hv
    unfold tab at hv
    obtain ⟨i, hi, rfl⟩ := List.mem_map.mp hv
    exact h3 i (List.mem_range.mp hi)
  · rw [h2, sum_tab]; exact h4

/-- C116 in floating point, from the data as measured: the profiles the constructor prepares (negative samples set to zero, each profile
divided by its sum) also have rounding errors. -/
theorem C116_floating_measured {w : World} {u : ℝ} (hw : w.Accurate u) (h0 : 0 ≤ u) {n P nb : ℕ} (hP : 0 < P) {x : ℕ → ℕ → ℕ}
    (hx : InRange n P nb x) (m : ℕ → ℕ → ℝ) (hs : ∀ p, p < P → ∃ b, b < nb ∧ 0 < m p b)
    (hc : ∀ p, p < P → ∀ b, b < nb → 0 < m p b → ∃ i, i < n ∧ x i p = b) (hn : (n : ℝ) * u ≤ 1)
    (hu : (2 * (nb : ℝ) + 16 * P + 30) * u ≤ 1 / 2) {niter : ℕ}
    (hk : 8 * (niter : ℝ) * (maxCount n P nb x * ((4 * (nb : ℝ) + 16 * P + 32) * u)) ≤ 1) :
    ∃ wf : List ℝ, Tomo.initWaterfall (α := Rn w) (flat P nb m) P nb = .ok wf ∧
      ∃ st : RState ℝ, (reconstruct (α := Rn w) w.sqrt (xbuf n P x) wf niter nb n P).2 = .ok st ∧
        (∀ v ∈ st.weights, 0 ≤ v) ∧ (P : ℝ) / 4 ≤ st.weights.sum := by
  have a1 : 0 ≤ (nb : ℝ) * u := mul_nonneg (Nat.cast_nonneg _) h0
  have a2 : 0 ≤ (P : ℝ) * u := mul_nonneg (Nat.cast_nonneg _) h0
  obtain ⟨f, h1, h2, h3, h4, _⟩ := waterfall_r hw h0 hP (by nlinarith) (by nlinarith) m hs
  refine ⟨_, h1, C116_floating hw h0 hP hx h2 h3 (by nlinarith) (fun p hp b hb h => hc p hp b hb (h4 p hp b hb h)) hn hu ?_⟩
  have e : 2 * ((nb : ℝ) + 1) * u + (2 * (nb : ℝ) + 16 * P + 30) * u = (4 * (nb : ℝ) + 16 * P + 32) * u := by ring
  rw [e]; exact hk

/-- C116 for doubles: up to a million particles, a thousand profiles of a thousand bins, fifty thousand iterations. -/
theorem C116_floating_doubles {n P nb : ℕ} (hn : n ≤ 10 ^ 6) (hP : 0 < P) (hP' : P ≤ 10 ^ 3) (hb : nb ≤ 10 ^ 3) {x : ℕ → ℕ → ℕ}
    (hx : InRange n P nb x) (m : ℕ → ℕ → ℝ) (hs : ∀ p, p < P → ∃ b, b < nb ∧ 0 < m p b)
    (hc : ∀ p, p < P → ∀ b, b < nb → 0 < m p b → ∃ i, i < n ∧ x i p = b) {niter : ℕ} (hk : niter ≤ 5 * 10 ^ 4) :
    ∃ wf : List ℝ, Tomo.initWaterfall (α := Rn (binary 53)) (flat P nb m) P nb = .ok wf ∧
      ∃ st : RState ℝ, (reconstruct (α := Rn (binary 53)) (binary 53).sqrt (xbuf n P x) wf niter nb n P).2 = .ok st ∧
        (∀ v ∈ st.weights, 0 ≤ v) ∧ (P : ℝ) / 4 ≤ st.weights.sum := by
  have h0 : (0 : ℝ) ≤ 2 ^ (-(53 : ℤ)) := by positivity
  have b1 : (n : ℝ) ≤ 10 ^ 6 := by exact_mod_cast hn
  have b2 : (P : ℝ) ≤ 10 ^ 3 := by exact_mod_cast hP'
  have b3 : (nb : ℝ) ≤ 10 ^ 3 := by exact_mod_cast hb
  have b4 : (niter : ℝ) ≤ 5 * 10 ^ 4 := by exact_mod_cast hk
  have b5 : (maxCount n P nb x : ℝ) ≤ 10 ^ 6 := by
    have : maxCount n P nb x ≤ n := Finset.sup_le fun p _ => Finset.sup_le fun b _ => count_le n x p b
    exact_mod_cast this.trans hn
  refine C116_floating_measured (binary_accurate (by norm_num)) h0 hP hx m hs hc ?_ ?_ ?_
  · calc (n : ℝ) * 2 ^ (-(53 : ℤ)) ≤ 10 ^ 6 * 2 ^ (-(53 : ℤ)) := mul_le_mul_of_nonneg_right b1 h0
      _ ≤ 1 := by norm_num
  · calc (2 * (nb : ℝ) + 16 * P + 30) * 2 ^ (-(53 : ℤ)) ≤ (2 * 10 ^ 3 + 16 * 10 ^ 3 + 30) * 2 ^ (-(53 : ℤ)) :=
        mul_le_mul_of_nonneg_right (by linarith) h0
      _ ≤ 1 / 2 := by norm_num
  · have c1 : (4 * (nb : ℝ) + 16 * P + 32) * 2 ^ (-(53 : ℤ)) ≤ (4 * 10 ^ 3 + 16 * 10 ^ 3 + 32) * 2 ^ (-(53 : ℤ)) :=
      mul_le_mul_of_nonneg_right (by linarith) h0
    have c2 : (maxCount n P nb x : ℝ) * ((4 * (nb : ℝ) + 16 * P + 32) * 2 ^ (-(53 : ℤ))) ≤
        10 ^ 6 * ((4 * 10 ^ 3 + 16 * 10 ^ 3 + 32) * 2 ^ (-(53 : ℤ))) :=
      mul_le_mul b5 c1 (mul_nonneg (by positivity) h0) (by norm_num)
    calc _ ≤ 8 * (5 * 10 ^ 4) * (10 ^ 6 * ((4 * 10 ^ 3 + 16 * 10 ^ 3 + 32) * (2 : ℝ) ^ (-(53 : ℤ)))) :=
        mul_le_mul (by linarith) c2 (mul_nonneg (Nat.cast_nonneg _) (mul_nonneg (by positivity) h0)) (by norm_num)
      _ ≤ 1 := by norm_num

/-- two measured profiles of two samples, one sample negative -/
noncomputable def mTotal : ℕ → ℕ → ℝ := fun p b => if p = 0 then 3 - 4 * b else 1 + b

/-- four particles, one in each pair of bins; two profiles of two samples -/
example : ∃ wf : List ℝ, Tomo.initWaterfall (α := Rn (binary 53)) (flat 2 2 mTotal) 2 2 = .ok wf ∧
    ∃ st : RState ℝ, (reconstruct (α := Rn (binary 53)) (binary 53).sqrt (xbuf 4 2 fun i p => if p = 0 then i % 2 else i / 2) wf 1000 2 4 2).2 = .ok st ∧
      (∀ v ∈ st.weights, 0 ≤ v) ∧ ((2 : ℕ) : ℝ) / 4 ≤ st.weights.sum := by
  refine C116_floating_doubles (by norm_num) (by norm_num) (by norm_num) (by norm_num) ?_ _ ?_ ?_ (by norm_num)
  · intro i hi p hp
    interval_cases i <;> interval_cases p <;> norm_num
  · intro p hp
    refine ⟨0, by norm_num, ?_⟩
    interval_cases p <;> norm_num [mTotal]
  · intro p hp b hb _
    interval_cases p <;> interval_cases b
    · exact ⟨0, by norm_num, by norm_num⟩
    · exact ⟨1, by norm_num, by norm_num⟩
    · exact ⟨0, by norm_num, by norm_num⟩
    · exact ⟨2, by norm_num, by norm_num⟩

end Verif.Props

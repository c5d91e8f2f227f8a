import Verif.Lemmas.RndNear
import Verif.Lemmas.Converge
import Verif.Model.Tomography

/-!
# The reconstruction in rounded arithmetic, one run by itself: its values, and a lower bound on the total of the weights
-/

set_option linter.unusedSectionVars false

namespace Verif.Rounded
open Finset Verif.Recon Verif.Spec

/-- `s + f 0 + f 1 + … + f (j-1)`, from left to right -/
def gacc {α : Type} [Add α] (s : α) (f : ℕ → α) : ℕ → α
  | 0 => s
  | j + 1 => gacc s f j + f j

section generic
variable {α : Type} [Add α] [Sub α] [Mul α] [Zero α] [LT α] [DecidableLT α]

theorem back_g {n P nb : ℕ} {x : ℕ → ℕ → ℕ} (hx : InRange n P nb x) (W : ℕ → α) (d : ℕ → ℕ → α) :
    backProject (tab n W) (fpbuf n P nb x) (flat P nb d) n P = .ok (tab n fun i => gacc (W i) (fun p => d p (x i p)) P) := by
  unfold backProject
  apply pointLoop_eq
  intro i hi g hg
  rw [forN_eq (g := fun j => tab n (fun k => if k = i then gacc (W i) (fun p => d p (x i p)) j else g k))]
  · apply tab_congr; intro k _
    by_cases h : k = i
    · subst h; simp [hg, gacc]
    · simp [h]
  · intro j hj
    rw [rd_fp hi hj, bind_ok, rd_flat _ hj (hx i hi j hj) rfl, bind_ok, rd_tab _ hi, bind_ok, upd_tab _ _ hi]
    congr 1; apply tab_congr; intro k _
    by_cases h : k = i
    · subst h; simp only [if_true]; rfl
    · simp [h]

theorem clip_g (n : ℕ) (W : ℕ → α) : clip (tab n W) n 0 = .ok (tab n fun i => if W i < 0 then 0 else W i) := by
  unfold clip
  apply pointLoop_eq
  intro i hi g hg
  rw [rd_tab g hi, bind_ok, hg]
  by_cases h : W i < 0
  · rw [if_pos h, upd_tab g _ hi, if_pos h]
  · rw [if_neg h, if_neg h, pure_eq_ok]
    congr 1; apply tab_congr; intro k _
    by_cases hk : k = i
    · rw [if_pos hk, hk, hg]
    · rw [if_neg hk]

theorem sum_g (n : ℕ) (W : ℕ → α) : Recon.sum (tab n W) n = .ok (gacc 0 W n) := by
  unfold Recon.sum
  rw [forN_eq (g := fun i => gacc 0 W i)]
  · rfl
  · intro i hi
    rw [rd_tab _ hi, bind_ok]; rfl

theorem diff_g (P nb : ℕ) (d r f : ℕ → ℕ → α) :
    findDifferenceProfile (flat P nb d) (flat P nb r) (flat P nb f) (P * nb) = .ok (flat P nb fun p b => f p b - r p b) := by
  unfold findDifferenceProfile flat
  apply pointLoop_eq
  intro i hi g _
  rw [rd_tab _ hi, bind_ok, rd_tab _ hi, bind_ok, upd_tab _ _ hi]

theorem comp_g (P nb : ℕ) (d r : ℕ → ℕ → α) :
    compensate (flat P nb d) (flat P nb r) P nb = .ok (flat P nb fun p b => d p b * r p b) := by
  unfold compensate
  apply gridLoop_eq
  intro i j hi hj g hg
  rw [rd_flat g hi hj rfl, bind_ok, rd_flat _ hi hj rfl, bind_ok, upd_flat g _ hi hj rfl, hg]

end generic

variable {w : World} {u : ℝ}

/-- `s + f 0 + f 1 + … + f (j-1)`, rounded after every addition -/
def racc (w : World) (s : ℝ) (f : ℕ → ℝ) (j : ℕ) : ℝ := gacc (α := Rn w) s f j

theorem racc_succ (s : ℝ) (f : ℕ → ℝ) (j : ℕ) : racc w s f (j + 1) = w.rnd (racc w s f j + f j) := rfl

/-- a natural number as a number of the floating point unit, not rounded -/
def nat (w : World) (n : ℕ) : Rn w := ((n : ℕ) : ℝ)

theorem nat_succ (hw : w.Accurate u) {c : ℕ} (h : ((c + 1 : ℕ) : ℝ) * u ≤ 1) : nat w c + (1 : Rn w) = nat w (c + 1) := by
  have := hw.exact (c + 1) h
  show w.rnd ((c : ℝ) + 1) = ((c + 1 : ℕ) : ℝ)
  rw [← this]
  push_cast
  rfl

theorem nat_zero : nat w 0 = (0 : Rn w) := by
  show ((0 : ℕ) : ℝ) = (0 : ℝ)
  simp

theorem nat_one : nat w 1 = (1 : Rn w) := by
  show ((1 : ℕ) : ℝ) = (1 : ℝ)
  simp

theorem count_le (n : ℕ) (x : ℕ → ℕ → ℕ) (p b : ℕ) : count n x p b ≤ n := by
  unfold count
  exact (card_filter_le _ _).trans (by simp)

theorem count_r (hw : w.Accurate u) (h0 : 0 ≤ u) {n P nb : ℕ} (hn : (n : ℝ) * u ≤ 1) {x : ℕ → ℕ → ℕ} (hx : InRange n P nb x) :
    countParticlesInBin (α := Rn w) (flat P nb fun _ _ => 0) (xbuf n P x) P n nb = .ok (flat P nb fun p b => nat w (count n x p b)) := by
  unfold countParticlesInBin xbuf
  rw [forN_eq (g := fun i => flat P nb (fun p b => nat w (count i x p b)))]
  · apply flat_congr; intro p b _ _; simp [count, nat_zero]
  · intro i hi
    rw [forN_eq (g := fun j => flat P nb (fun p b => nat w (count i x p b + if p < j ∧ x i p = b then 1 else 0)))]
    · congr 1; apply flat_congr; intro p b hp _
      rw [count_succ]; simp [hp]
    · apply flat_congr; intro p b _ _; simp
    · intro j hj
      have hb := hx i hi j hj
      rw [rd_flat _ hi hj rfl, bind_ok, rd_flat _ hj hb (by push_cast; ring), bind_ok,
        upd_flat _ _ hj hb (by push_cast; ring)]
      congr 1; apply flat_congr; intro p b _ _
      unfold upd2
      by_cases h : p = j ∧ b = x i j
      · obtain ⟨rfl, rfl⟩ := h
        rw [if_pos ⟨rfl, rfl⟩]
        simp only [lt_self_iff_false, false_and, if_false, add_zero, Nat.lt_succ_self, and_self, if_true]
        apply nat_succ hw
        refine le_trans (mul_le_mul_of_nonneg_right ?_ h0) hn
        have := count_le i x p (x i p)
        exact_mod_cast (by omega : count i x p (x i p) + 1 ≤ n)
      · rw [if_neg h]
        refine congrArg (fun t => nat w (count i x p b + t)) ?_
        apply if_congr _ rfl rfl
        constructor
        · rintro ⟨h1, h2⟩; exact ⟨by omega, h2⟩
        · rintro ⟨h1, h2⟩
          refine ⟨?_, h2⟩
          by_contra hc
          exact h ⟨by omega, by rw [← h2]; congr 1; omega⟩

theorem max_r (n : ℕ) (c : ℕ → ℕ) : max1d (α := Rn w) (tab n fun i => nat w (c i)) n = .ok (nat w ((range n).sup c)) := by
  unfold max1d
  rw [forN_eq (g := fun i => nat w ((range i).sup c))]
  · simp [nat_zero]
  · intro i hi
    rw [rd_tab _ hi, bind_ok, range_add_one, sup_insert]
    by_cases h : (range i).sup c < c i
    · have h' : nat w ((range i).sup c) < nat w (c i) := by
        show (((range i).sup c : ℕ) : ℝ) < ((c i : ℕ) : ℝ)
        exact_mod_cast h
      rw [if_pos h', pure_eq_ok]
      congr 2
      exact (max_eq_left h.le).symm
    · have h' : ¬ nat w ((range i).sup c) < nat w (c i) := by
        show ¬ (((range i).sup c : ℕ) : ℝ) < ((c i : ℕ) : ℝ)
        exact_mod_cast h
      rw [if_neg h', pure_eq_ok]
      congr 2
      exact (max_eq_right (not_lt.mp h)).symm

/-- the rounded factors of the compensation -/
noncomputable def rrecip (w : World) (n P nb : ℕ) (x : ℕ → ℕ → ℕ) (p b : ℕ) : Rn w := w.rnd (recip ℝ n P nb x p b)

theorem recip_r (hw : w.Accurate u) (h0 : 0 ≤ u) {n P nb : ℕ} (hn : (n : ℝ) * u ≤ 1) {x : ℕ → ℕ → ℕ} (hx : InRange n P nb x) :
    reciprocalParticles (α := Rn w) (flat P nb fun _ _ => 0) (xbuf n P x) nb P n = .ok (flat (α := Rn w) P nb (rrecip w n P nb x)) := by
  unfold reciprocalParticles
  rw [count_r hw h0 hn hx, bind_ok]
  have hm : max1d (α := Rn w) (flat P nb fun p b => nat w (count n x p b)) (P * nb) = .ok (nat w (maxCount n P nb x)) := by
    unfold flat
    rw [max_r (P * nb) (fun k => count n x (k / nb) (k % nb)), sup_flat_range P nb (count n x)]
    rfl
  have hz : zerosToOnes (α := Rn w) (flat P nb fun p b => nat w (count n x p b)) (P * nb)
      = .ok (flat P nb fun p b => nat w (max 1 (count n x p b))) := by
    unfold zerosToOnes flat
    apply pointLoop_eq
    intro i hi g hg
    rw [rd_tab g hi, bind_ok, hg]
    by_cases h : count n x (i / nb) (i % nb) = 0
    · rw [if_pos (by simp [h, nat_zero]), upd_tab g _ hi]
      simp [h, nat_one]
    · have h' : ¬ nat w (count n x (i / nb) (i % nb)) = (0 : Rn w) := by
        show ¬ ((count n x (i / nb) (i % nb) : ℕ) : ℝ) = 0
        exact_mod_cast h
      rw [if_neg h']
      have : max 1 (count n x (i / nb) (i % nb)) = count n x (i / nb) (i % nb) := by omega
      simp only [pure_eq_ok, this]
      congr 1; apply tab_congr; intro k _
      by_cases hk : k = i
      · subst hk; simp [hg]
      · simp [hk]
  rw [hm, bind_ok, hz, bind_ok]
  unfold takeReciprocal
  apply gridLoop_eq
  intro i j hi hj g hg
  have hne : ((max 1 (count n x i j) : ℕ) : ℝ) ≠ 0 := by
    have : max 1 (count n x i j) ≠ 0 := by omega
    exact_mod_cast this
  have hd : FDiv.fdiv (nat w (maxCount n P nb x)) (nat w (max 1 (count n x i j))) = .ok (rrecip w n P nb x i j) := if_neg hne
  rw [rd_flat g hi hj rfl, bind_ok, hg, hd, bind_ok, upd_flat g _ hi hj rfl]

/-! ## sums -/

theorem racc_error (hw : w.Accurate u) (h0 : 0 ≤ u) (s : ℝ) (f : ℕ → ℝ) (j : ℕ) :
    |racc w s f j - (s + ∑ k ∈ range j, f k)| ≤ ((1 + u) ^ j - 1) * (|s| + ∑ k ∈ range j, |f k|) := by
  induction j with
  | zero => simp [racc, gacc]
  | succ j ih =>
    rw [racc_succ, sum_range_succ, sum_range_succ]
    set T := s + ∑ k ∈ range j, f k with hT
    set A := |s| + ∑ k ∈ range j, |f k| with hA
    set q := racc w s f j with hq
    have hTA : |T| ≤ A := (abs_add_le _ _).trans (add_le_add le_rfl (abs_sum_le_sum_abs _ _))
    have hA0 : 0 ≤ A := (abs_nonneg _).trans hTA
    have hg : 1 ≤ (1 + u) ^ j := one_le_pow₀ (by linarith)
    have h1 := hw.rnd (q + f j)
    have h2 : |q + f j| ≤ (1 + u) ^ j * A + |f j| := by
      have : |q| ≤ |q - T| + |T| := by
        have := abs_add_le (q - T) T
        rwa [sub_add_cancel] at this
      have h3 := abs_add_le q (f j)
      nlinarith
    have h3 : |w.rnd (q + f j) - (T + f j)| ≤ |w.rnd (q + f j) - (q + f j)| + |q - T| := by
      have := abs_add_le (w.rnd (q + f j) - (q + f j)) (q - T)
      refine le_trans (le_of_eq ?_) this
      congr 1; ring
    have h4 : |w.rnd (q + f j) - (q + f j)| ≤ u * ((1 + u) ^ j * A + |f j|) := h1.trans (mul_le_mul_of_nonneg_left h2 h0)
    have e1 : w.rnd (q + f j) - (s + (∑ k ∈ range j, f k + f j)) = w.rnd (q + f j) - (T + f j) := by rw [hT]; ring
    have e2 : |s| + (∑ k ∈ range j, |f k| + |f j|) = A + |f j| := by rw [hA]; ring
    rw [e1, e2]
    have h5 : u * |f j| ≤ ((1 + u) ^ (j + 1) - 1) * |f j| := by
      apply mul_le_mul_of_nonneg_right _ (abs_nonneg _)
      rw [pow_succ]
      nlinarith
    calc _ ≤ u * ((1 + u) ^ j * A + |f j|) + ((1 + u) ^ j - 1) * A := by linarith
      _ = ((1 + u) ^ (j + 1) - 1) * A + u * |f j| := by rw [pow_succ]; ring
      _ ≤ _ := by linarith

theorem racc_near (hw : w.Accurate u) (h0 : 0 ≤ u) (hu : u < 1) {s : ℝ} (hs : 0 ≤ s) {f : ℕ → ℝ} {j : ℕ} (hf : ∀ k, k < j → 0 ≤ f k) :
    Near u j (racc w s f j) (s + ∑ k ∈ range j, f k) := by
  induction j with
  | zero => simpa [racc, gacc] using Near.refl h0 hu hs
  | succ j ih =>
    rw [racc_succ, sum_range_succ, ← add_assoc]
    exact Near.rnd hw h0 hu ((ih fun k hk => hf k (by omega)).add (Near.refl h0 hu (hf j (by omega))))

/-- few roundings -/
theorem pow_small (h0 : 0 ≤ u) {k : ℕ} (h : (k : ℝ) * u ≤ 1 / 2) : (1 + u) ^ k - 1 ≤ 2 * (k * u) ∧ 1 - k * u ≤ (1 - u) ^ k := by
  have hk0 : 0 ≤ (k : ℝ) * u := mul_nonneg k.cast_nonneg h0
  by_cases hk : k = 0
  · subst hk; simp
  have h1 : u ≤ 1 / 2 := by
    have : (1 : ℝ) ≤ k := by exact_mod_cast Nat.one_le_iff_ne_zero.mpr hk
    nlinarith
  have hB : 1 - k * u ≤ (1 - u) ^ k := by
    have := one_add_mul_le_pow (a := -u) (by linarith) k
    have e : (1 : ℝ) + -u = 1 - u := by ring
    rw [e] at this
    linarith
  refine ⟨?_, hB⟩
  have h2 : (1 + u) ^ k * (1 - u) ^ k ≤ 1 := by
    rw [← mul_pow]
    exact pow_le_one₀ (by nlinarith) (by nlinarith)
  have h3 : 0 ≤ (1 + u) ^ k := pow_nonneg (by linarith) k
  have h4 : (1 + u) ^ k * (1 - k * u) ≤ 1 := (mul_le_mul_of_nonneg_left hB h3).trans h2
  nlinarith

/-- difference, factor, product: three roundings -/
theorem prod_error (hw : w.Accurate u) (h0 : 0 ≤ u) (hu : u ≤ 1) (a : ℝ) {ρ : ℝ} (hρ : 0 ≤ ρ) :
    |w.rnd (w.rnd a * w.rnd ρ) - a * ρ| ≤ 7 * u * (|a| * ρ) := by
  have h1 := hw.rnd a
  have h2 := hw.rnd ρ
  have h3 := hw.rnd (w.rnd a * w.rnd ρ)
  rw [abs_of_nonneg hρ] at h2
  have hB : |w.rnd ρ| ≤ (1 + u) * ρ := by
    have := abs_add_le (w.rnd ρ - ρ) ρ
    rw [sub_add_cancel, abs_of_nonneg hρ] at this
    linarith
  have hA : |w.rnd a| ≤ (1 + u) * |a| := by
    have := abs_add_le (w.rnd a - a) a
    rw [sub_add_cancel] at this
    linarith
  have ha := abs_nonneg a
  have hAB : |w.rnd a * w.rnd ρ| ≤ (1 + u) ^ 2 * (|a| * ρ) := by
    rw [abs_mul]
    calc _ ≤ ((1 + u) * |a|) * ((1 + u) * ρ) := mul_le_mul hA hB (abs_nonneg _) (by positivity)
      _ = _ := by ring
  have h4 : |w.rnd a * w.rnd ρ - a * ρ| ≤ (2 * u + u ^ 2) * (|a| * ρ) := by
    have e : w.rnd a * w.rnd ρ - a * ρ = (w.rnd a - a) * w.rnd ρ + a * (w.rnd ρ - ρ) := by ring
    rw [e]
    refine (abs_add_le _ _).trans ?_
    rw [abs_mul, abs_mul]
    have g1 : |w.rnd a - a| * |w.rnd ρ| ≤ (u * |a|) * ((1 + u) * ρ) := mul_le_mul h1 hB (abs_nonneg _) (by positivity)
    have g2 : |a| * |w.rnd ρ - ρ| ≤ |a| * (u * ρ) := mul_le_mul_of_nonneg_left h2 ha
    calc _ ≤ _ := add_le_add g1 g2
      _ = _ := by ring
  have h5 := abs_add_le (w.rnd (w.rnd a * w.rnd ρ) - w.rnd a * w.rnd ρ) (w.rnd a * w.rnd ρ - a * ρ)
  rw [sub_add_sub_cancel] at h5
  have h6 : u * |w.rnd a * w.rnd ρ| ≤ u * ((1 + u) ^ 2 * (|a| * ρ)) := mul_le_mul_of_nonneg_left hAB h0
  have h7 : 0 ≤ |a| * ρ := mul_nonneg ha hρ
  have h8 : (3 * u + 3 * u ^ 2 + u ^ 3) * (|a| * ρ) ≤ 7 * u * (|a| * ρ) := by
    apply mul_le_mul_of_nonneg_right _ h7
    have : u ^ 2 ≤ u := by nlinarith
    have : u ^ 3 ≤ u := by nlinarith
    linarith
  calc _ ≤ _ := h5
    _ ≤ u * ((1 + u) ^ 2 * (|a| * ρ)) + (2 * u + u ^ 2) * (|a| * ρ) := by linarith
    _ = (3 * u + 3 * u ^ 2 + u ^ 3) * (|a| * ρ) := by ring
    _ ≤ _ := h8

/-- the new weights, when the profile that is projected back has a given sum and sum of absolute values over the particles -/
theorem weights_step (hw : w.Accurate u) (h0 : 0 ≤ u) {n P : ℕ} {x : ℕ → ℕ → ℕ} {W : ℕ → ℝ} (hW : ∀ i, i < n → 0 ≤ W i) {D : ℕ → ℕ → ℝ}
    {A B : ℝ} (hA : -A ≤ ∑ i ∈ range n, ∑ p ∈ range P, D p (x i p)) (hB : ∑ i ∈ range n, ∑ p ∈ range P, |D p (x i p)| ≤ B) :
    (1 - ((1 + u) ^ P - 1)) * ∑ i ∈ range n, W i - A - ((1 + u) ^ P - 1) * B ≤
      ∑ i ∈ range n, max (racc w (W i) (fun p => D p (x i p)) P) 0 := by
  have hg : 0 ≤ (1 + u) ^ P - 1 := sub_nonneg.mpr (one_le_pow₀ (by linarith))
  have h1 : ∑ i ∈ range n, (W i + ∑ p ∈ range P, D p (x i p) - ((1 + u) ^ P - 1) * (W i + ∑ p ∈ range P, |D p (x i p)|)) ≤
      ∑ i ∈ range n, max (racc w (W i) (fun p => D p (x i p)) P) 0 := by
    apply sum_le_sum
    intro i hi
    refine le_trans ?_ (le_max_left _ _)
    have := (abs_le.mp (racc_error hw h0 (W i) (fun p => D p (x i p)) P)).1
    rw [abs_of_nonneg (hW i (mem_range.mp hi))] at this
    linarith
  refine le_trans ?_ h1
  rw [sum_sub_distrib, ← mul_sum, sum_add_distrib, sum_add_distrib]
  nlinarith [mul_le_mul_of_nonneg_left hB hg]

/-- what the compensated differences add to the weights, in sum and in absolute value -/
theorem comp_sums (hw : w.Accurate u) (h0 : 0 ≤ u) (hu : u ≤ 1) {n P nb : ℕ} {x : ℕ → ℕ → ℕ} (hx : InRange n P nb x) {f r : ℕ → ℕ → ℝ}
    (hf : ∀ p, p < P → ∀ b, b < nb → 0 ≤ f p b) (hr : ∀ p, p < P → ∀ b, b < nb → 0 ≤ r p b)
    (he : ∀ p, p < P → ∀ b, b < nb → count n x p b = 0 → f p b = 0 ∧ r p b = 0) {φ σ ψ : ℝ}
    (h1 : ∀ p, p < P → φ ≤ rowSum nb f p ∧ rowSum nb f p ≤ ψ) (h2 : ∀ p, p < P → rowSum nb r p ≤ σ) {D : ℕ → ℕ → ℝ}
    (hD : D = fun p b => w.rnd (w.rnd (f p b - r p b) * w.rnd (recip ℝ n P nb x p b))) :
    (P : ℝ) * (maxCount n P nb x * (φ - σ - 7 * u * (ψ + σ))) ≤ ∑ i ∈ range n, ∑ p ∈ range P, D p (x i p) ∧
      ∑ i ∈ range n, ∑ p ∈ range P, |D p (x i p)| ≤ (P : ℝ) * (maxCount n P nb x * ((1 + 7 * u) * (ψ + σ))) := by
  have hcell : ∀ p, p < P → ∀ b, b < nb →
      (maxCount n P nb x : ℝ) * (f p b - r p b - 7 * u * (f p b + r p b)) ≤ D p b * (count n x p b : ℝ) ∧
        |D p b| * (count n x p b : ℝ) ≤ (maxCount n P nb x : ℝ) * ((1 + 7 * u) * (f p b + r p b)) := by
    intro p hp b hb
    by_cases hc : count n x p b = 0
    · obtain ⟨e1, e2⟩ := he p hp b hb hc
      rw [hc, e1, e2]
      simp
    · have hρ := recip_nonneg (K := ℝ) (npart := n) (nprof := P) (nbins := nb) (x := x) p b
      have hρc := recip_count (K := ℝ) (npart := n) (nprof := P) (nbins := nb) (x := x) hc
      have hc0 : (0 : ℝ) ≤ (count n x p b : ℝ) := Nat.cast_nonneg _
      have hm0 : (0 : ℝ) ≤ (maxCount n P nb x : ℝ) := Nat.cast_nonneg _
      have hab : |f p b - r p b| ≤ f p b + r p b := by
        have := hf p hp b hb
        have := hr p hp b hb
        rw [abs_le]; constructor <;> linarith
      have key := prod_error hw h0 hu (f p b - r p b) hρ
      have eD : D p b = w.rnd (w.rnd (f p b - r p b) * w.rnd (recip ℝ n P nb x p b)) := by rw [hD]
      rw [← eD] at key
      set ρ := recip ℝ n P nb x p b
      set c := (count n x p b : ℝ)
      set m := (maxCount n P nb x : ℝ)
      have hlow : (f p b - r p b) * ρ - 7 * u * (|f p b - r p b| * ρ) ≤ D p b := by linarith [(abs_le.mp key).1]
      have hup : |D p b| ≤ |f p b - r p b| * ρ + 7 * u * (|f p b - r p b| * ρ) := by
        have := abs_add_le (D p b - (f p b - r p b) * ρ) ((f p b - r p b) * ρ)
        rw [sub_add_cancel, abs_mul (f p b - r p b), abs_of_nonneg hρ] at this
        linarith
      constructor
      · have q := mul_le_mul_of_nonneg_right hlow hc0
        have e : ((f p b - r p b) * ρ - 7 * u * (|f p b - r p b| * ρ)) * c = m * (f p b - r p b - 7 * u * |f p b - r p b|) := by
          rw [← hρc]; ring
        rw [e] at q
        refine le_trans (mul_le_mul_of_nonneg_left ?_ hm0) q
        nlinarith
      · have q := mul_le_mul_of_nonneg_right hup hc0
        have e : (|f p b - r p b| * ρ + 7 * u * (|f p b - r p b| * ρ)) * c = m * ((1 + 7 * u) * |f p b - r p b|) := by
          rw [← hρc]; ring
        rw [e] at q
        refine le_trans q (mul_le_mul_of_nonneg_left (mul_le_mul_of_nonneg_left hab (by linarith)) hm0)
  have hm0 : (0 : ℝ) ≤ (maxCount n P nb x : ℝ) := Nat.cast_nonneg _
  constructor
  · rw [sum_comm, ← nsmul_eq_mul, ← card_range P, ← sum_const, card_range]
    apply sum_le_sum
    intro p hp
    have hp := mem_range.mp hp
    rw [sum_count hx hp (D p)]
    refine le_trans ?_ (sum_le_sum fun b hb => (hcell p hp b (mem_range.mp hb)).1)
    rw [← mul_sum, sum_sub_distrib, sum_sub_distrib, ← mul_sum, sum_add_distrib]
    apply mul_le_mul_of_nonneg_left _ hm0
    have a1 := h1 p hp
    have a2 := h2 p hp
    unfold rowSum at a1 a2
    nlinarith
  · rw [sum_comm, ← nsmul_eq_mul, ← card_range P, ← sum_const, card_range]
    apply sum_le_sum
    intro p hp
    have hp := mem_range.mp hp
    rw [sum_count hx hp fun b => |D p b|]
    refine le_trans (sum_le_sum fun b hb => (hcell p hp b (mem_range.mp hb)).2) ?_
    rw [← mul_sum, ← mul_sum, sum_add_distrib]
    apply mul_le_mul_of_nonneg_left _ hm0
    have a1 := h1 p hp
    have a2 := h2 p hp
    unfold rowSum at a1 a2
    apply mul_le_mul_of_nonneg_left _ (by linarith)
    linarith

/-! ## one step of the run -/

theorem chain {A B : Type} {x : Verif.M A} {a : A} {f : A → Verif.M B} {y : Verif.M B} (h : x = .ok a) (h' : f a = y) : (x >>= f) = y := by
  rw [h]; exact h'

theorem flat_getD {P nb : ℕ} {l : List ℝ} (h : l.length = P * nb) : l = flat P nb fun p b => l.getD (p * nb + b) 0 := by
  apply List.ext_getElem?
  intro k
  unfold flat
  rw [getElem?_tab]
  split
  · next hk =>
    have e : k / nb * nb + k % nb = k := by rw [mul_comm]; exact Nat.div_add_mod k nb
    show l[k]? = some (l.getD (k / nb * nb + k % nb) 0)
    rw [e, List.getD_eq_getElem?_getD, List.getElem?_eq_getElem (by omega)]
    rfl
  · next hk => exact List.getElem?_eq_none (by omega)

theorem getD_flat {P nb : ℕ} (f : ℕ → ℕ → ℝ) {p b : ℕ} (hp : p < P) (hb : b < nb) : (flat P nb f).getD (p * nb + b) 0 = f p b := by
  unfold flat
  rw [List.getD_eq_getElem?_getD, getElem?_tab, if_pos (idx_lt hp hb)]
  have e1 : (p * nb + b) / nb = p := by rw [mul_comm, Nat.mul_add_div (by omega), Nat.div_eq_of_lt hb, add_zero]
  have e2 : (p * nb + b) % nb = b := by rw [mul_comm, Nat.mul_add_mod, Nat.mod_eq_of_lt hb]
  rw [e1, e2]; rfl

theorem flat_nonneg {P nb : ℕ} {f : ℕ → ℕ → ℝ} (hf : ∀ p, p < P → ∀ b, b < nb → 0 ≤ f p b) (i : ℕ) : 0 ≤ (flat P nb f).getD i 0 := by
  unfold flat
  rw [List.getD_eq_getElem?_getD, getElem?_tab]
  split
  · next hi =>
    have hnb : 0 < nb := Nat.pos_of_ne_zero fun h => by subst h; simp at hi
    exact hf _ (Nat.div_lt_of_lt_mul (by rwa [mul_comm] at hi)) _ (Nat.mod_lt i hnb)
  · simp

theorem tab_nonneg {n : ℕ} {f : ℕ → ℝ} (hf : ∀ i, i < n → 0 ≤ f i) (i : ℕ) : 0 ≤ (tab n f).getD i 0 := by
  rw [List.getD_eq_getElem?_getD, getElem?_tab]
  split
  · next hi => exact hf i hi
  · simp

/-- the weights projected on the profiles of the iteration before, and these divided by their sums -/
theorem projnorm (hw : w.Accurate u) (h0 : 0 ≤ u) (hu : u < 1) {n P nb : ℕ} (hP : 0 < P) (hb : 0 < nb) {x : ℕ → ℕ → ℕ}
    (hx : InRange n P nb x) {W : ℕ → ℝ} {R : ℕ → ℕ → ℝ} (hW : ∀ i, i < n → 0 ≤ W i) (hR : ∀ p, p < P → ∀ b, b < nb → 0 ≤ R p b)
    (hS : 0 < ∑ i ∈ range n, W i) :
    ∃ (l : List (Rn w)) (r : ℕ → ℕ → ℝ), project (α := Rn w) (flat P nb R) (fpbuf n P nb x) (tab n W) n P = .ok l ∧
      Recon.normalize (α := Rn w) l P nb = .ok (flat P nb r) ∧ (∀ p, p < P → ∀ b, b < nb → 0 ≤ r p b) ∧
      (∀ p, p < P → SumsToOne u nb (rowSum nb r p)) ∧
      (∀ p, p < P → ∀ b, b < nb → count n x p b = 0 → R p b = 0 → r p b = 0) ∧
      ∀ p, p < P → ∀ b, b < nb → Near u (2 * n + nb + 1) (r p b)
        ((R p b + proj n x W p b) / rowSum nb (fun p b => R p b + proj n x W p b) p) := by
  have hfp : ∀ i j v, i < n → j < P → Verif.rd (fpbuf n P nb x) ((i * P + j : ℕ) : Int) = .ok v → v.toNat / nb = j := by
    intro i j v hi hj hv
    unfold fpbuf at hv
    rw [rd_flat _ hi hj rfl] at hv
    cases hv
    have h1 := hx i hi j hj
    have e : ((x i j : Int) + ((nb * j : ℕ) : Int)).toNat = x i j + nb * j := by omega
    rw [e, Nat.add_mul_div_left _ _ (by omega), Nat.div_eq_of_lt h1, zero_add]
  have h1 := near_project (w := w) (m := 0) hw h0 hu (nb := nb) (NearL.refl (k := fun _ => 0) h0 hu (tab_nonneg hW)) hfp
    (NearL.refl (k := fun _ => 0) h0 hu (flat_nonneg hR))
  rw [project_ok hx W R] at h1
  obtain ⟨l, e1, h2⟩ := h1.ok_inv
  have h3 := near_normalize (w := w) (P := P) (nb := nb) hw h0 hu h2
  have hrow : ∀ p, p < P → 0 < rowSum nb (fun p b => R p b + proj n x W p b) p := by
    intro p hp
    rw [rowSum_add, rowSum_proj hx W hp]
    have : 0 ≤ rowSum nb R p := sum_nonneg fun b hb => hR p hp b (mem_range.mp hb)
    linarith
  rw [normalize_ok hP _ hrow] at h3
  obtain ⟨l2, e2, h4⟩ := h3.ok_inv
  obtain ⟨g1, g2, g3⟩ := normalize_rows_one hw h0 hu (fun i => (h2.2 i).nonneg) hb e2
  have hlen : l2.length = P * nb := by rw [h4.1]; unfold flat; exact length_tab _ _
  refine ⟨l, fun p b => l2.getD (p * nb + b) 0, e1, ?_, fun p _ b _ => g2 _, fun p hp => g3 p hp, fun p hp b hb' hc hR0 => ?_,
    fun p hp b hb' => ?_⟩
  · exact e2.trans (congrArg Except.ok (flat_getD hlen))
  · have := (h4.2 (p * nb + b)).zero_iff hu
    rw [getD_flat _ hp hb'] at this
    refine this.mpr ?_
    show (R p b + proj n x W p b) / _ = (0 : ℝ)
    rw [hR0, count_zero_proj hc, add_zero, zero_div]
  · have := h4.2 (p * nb + b)
    rw [getD_flat _ hp hb', zero_add] at this
    exact this

theorem row_le (h0 : 0 ≤ u) {nb : ℕ} (h : 2 * (nb : ℝ) * u ≤ 1 / 2) (hu : u ≤ 1 / 2) {S : ℝ} (hS : SumsToOne u nb S) (hS0 : 0 ≤ S) :
    S ≤ 1 + 2 * (nb + 1) * u := by
  have h1 := (pow_small h0 (k := nb) (by nlinarith [mul_nonneg (Nat.cast_nonneg (α := ℝ) nb) h0])).2
  have h2 := hS.2
  have h3 : (1 - nb * u) * S ≤ 1 + u := (mul_le_mul_of_nonneg_right h1 hS0).trans h2
  have hn : (0 : ℝ) ≤ nb := nb.cast_nonneg
  have h4 : 1 + u ≤ (1 - nb * u) * (1 + 2 * (nb + 1) * u) := by
    have : 0 ≤ (nb + 1) * u * (1 - 2 * nb * u) := mul_nonneg (mul_nonneg (by linarith) h0) (by linarith)
    nlinarith
  have h5 : 0 < 1 - nb * u := by linarith
  exact le_of_mul_le_mul_left (h3.trans h4) h5

theorem discr_ok (hw : w.Accurate u) (h0 : 0 ≤ u) (hu : u < 1) {P nb : ℕ} (hP : 0 < P) (hb : 0 < nb) (d : ℕ → ℕ → ℝ) :
    ∃ e : ℝ, discrepancy (α := Rn w) w.sqrt (flat P nb d) P nb = .ok e := by
  have h := near_discrepancy (u := u) h0 hu hw (flat P nb d) P nb
  rw [discrepancy_ok Real.sqrt hP hb d] at h
  obtain ⟨e, h1, _⟩ := h.ok_inv
  exact ⟨e, h1⟩

/-- what holds between the iterations -/
structure Kept (n P nb niter : ℕ) (x : ℕ → ℕ → ℕ) (L : ℝ) (st : RState ℝ) (W : ℕ → ℝ) (R : ℕ → ℕ → ℝ) : Prop where
  weights : st.weights = tab n W
  rec' : st.flatRec = flat P nb R
  discr : st.discr.length = niter + 1
  wnn : ∀ i, i < n → 0 ≤ W i
  rnn : ∀ p, p < P → ∀ b, b < nb → 0 ≤ R p b
  empty : ∀ p, p < P → ∀ b, b < nb → count n x p b = 0 → R p b = 0
  total : L ≤ ∑ i ∈ range n, W i

/-- the data, and how accurate the arithmetic has to be for them -/
structure Fit (w : World) (u η : ℝ) (n P nb : ℕ) (x : ℕ → ℕ → ℕ) (f : ℕ → ℕ → ℝ) : Prop where
  acc : w.Accurate u
  h0 : 0 ≤ u
  hP : 0 < P
  hb : 0 < nb
  hx : InRange n P nb x
  f0 : ∀ p, p < P → ∀ b, b < nb → 0 ≤ f p b
  f1 : ∀ p, p < P → |rowSum nb f p - 1| ≤ η
  hη : η ≤ 1 / 2
  cov : Covered n P nb x f
  hn : (n : ℝ) * u ≤ 1
  hs : (2 * (nb : ℝ) + 16 * P + 30) * u ≤ 1 / 2

theorem upd_len {l : List ℝ} {k : ℕ} (h : k < l.length) (v : ℝ) : ∃ l', Verif.upd l (k : Int) v = .ok l' ∧ l' = l.set k v :=
  ⟨l.set k v, by unfold Verif.upd; simp [h], rfl⟩

theorem racc_total_pos (hw : w.Accurate u) (h0 : 0 ≤ u) (hu : u < 1) {n : ℕ} {W : ℕ → ℝ} (hW : ∀ i, i < n → 0 ≤ W i)
    (h : 0 < ∑ i ∈ range n, W i) : 0 < racc w 0 W n := by
  have hn := racc_near hw h0 hu (s := 0) le_rfl hW
  rw [zero_add] at hn
  refine lt_of_le_of_ne hn.nonneg fun h' => ?_
  have := (hn.zero_iff hu).mp h'.symm
  linarith

theorem clip_tab_max (n : ℕ) (W : ℕ → ℝ) : (tab n fun i => if W i < 0 then 0 else W i) = tab n fun i => max (W i) 0 :=
  tab_congr fun i _ => by
    split
    · next h => exact (max_eq_right h.le).symm
    · next h => exact (max_eq_left (not_lt.mp h)).symm

/-- back projection, clipping and the test on the sum -/
theorem back_clip (hw : w.Accurate u) (h0 : 0 ≤ u) (hu : u < 1) {n P nb : ℕ} {x : ℕ → ℕ → ℕ} (hx : InRange n P nb x) (W : ℕ → ℝ)
    (d : ℕ → ℕ → ℝ) (hS : 0 < ∑ i ∈ range n, max (racc w (W i) (fun p => d p (x i p)) P) 0) {B : Type} (k : List ℝ → Verif.M B) :
    (backProject (α := Rn w) (tab n W) (fpbuf n P nb x) (flat P nb d) n P >>= fun a =>
      clip (α := Rn w) a n 0 >>= fun a => Recon.sum (α := Rn w) a n >>= fun s => if s ≤ 0 then .error (.exc .allZero) else k a)
      = k (tab n fun i => max (racc w (W i) (fun p => d p (x i p)) P) 0) := by
  refine chain (back_g (α := Rn w) hx W d) ?_
  refine chain ((clip_g (α := Rn w) n _).trans (congrArg Except.ok (clip_tab_max n fun i => racc w (W i) (fun p => d p (x i p)) P))) ?_
  refine chain (sum_g (α := Rn w) n _) ?_
  have := racc_total_pos hw h0 hu (fun i _ => le_max_right (racc w (W i) (fun p => d p (x i p)) P) 0) hS
  exact if_neg (not_le.mpr this)

theorem Fit.small {η : ℝ} {n P nb : ℕ} {x : ℕ → ℕ → ℕ} {f : ℕ → ℕ → ℝ} (F : Fit w u η n P nb x f) :
    u ≤ 1 / 60 ∧ 2 * (nb : ℝ) * u ≤ 1 / 2 ∧ (P : ℝ) * u ≤ 1 / 32 := by
  have h0 := F.h0
  have := F.hs
  have a1 : 0 ≤ (nb : ℝ) * u := mul_nonneg (Nat.cast_nonneg _) h0
  have a2 : 0 ≤ (P : ℝ) * u := mul_nonneg (Nat.cast_nonneg _) h0
  refine ⟨by nlinarith, by nlinarith, by nlinarith⟩

/-- what an iteration may lose -/
noncomputable def loss (u η : ℝ) (n P nb : ℕ) (x : ℕ → ℕ → ℕ) : ℝ :=
  P * (maxCount n P nb x * (η + (2 * (nb : ℝ) + 16 * P + 30) * u))

/-- the new recreated profiles: the old ones plus the projection, normalised, up to roundings -/
def Recreated (u : ℝ) (n P nb : ℕ) (x : ℕ → ℕ → ℕ) (W : ℕ → ℝ) (R R' : ℕ → ℕ → ℝ) : Prop :=
  (∀ p, p < P → ∀ b, b < nb → 0 ≤ R' p b) ∧ (∀ p, p < P → rowSum nb R' p ≤ 1 + 2 * (nb + 1) * u) ∧
  ∀ p, p < P → ∀ b, b < nb → Near u (2 * n + nb + 1) (R' p b)
    ((R p b + proj n x W p b) / rowSum nb (fun p b => R p b + proj n x W p b) p)

/-- the new weights, with every operation rounded -/
def Reweighted (w : World) (n P nb : ℕ) (x : ℕ → ℕ → ℕ) (f : ℕ → ℕ → ℝ) (W : ℕ → ℝ) (R' : ℕ → ℕ → ℝ) (W' : ℕ → ℝ) : Prop :=
  ∀ i, i < n → W' i = max (racc w (W i) (fun p => w.rnd (w.rnd (f p (x i p) - R' p (x i p)) * w.rnd (recip ℝ n P nb x p (x i p)))) P) 0

/-- the discrepancy reported for the recreated profiles `R'` -/
def Reported (w : World) (P nb : ℕ) (f R' : ℕ → ℕ → ℝ) (e : ℝ) : Prop :=
  discrepancy (α := Rn w) w.sqrt (flat P nb fun p b => w.rnd (f p b - R' p b)) P nb = .ok e

theorem Fit.step {η : ℝ} {n P nb : ℕ} {x : ℕ → ℕ → ℕ} {f : ℕ → ℕ → ℝ} (F : Fit w u η n P nb x f) {niter k : ℕ} (hk : k < niter + 1)
    {L : ℝ} {st : RState ℝ} {W : ℕ → ℝ} {R : ℕ → ℕ → ℝ} (K : Kept n P nb niter x L st W R) (hL : 0 ≤ L) 
    (hpos : 0 < ∑ i ∈ range n, W i) (hL' : 0 < (1 - 2 * (P * u)) * L - loss u η n P nb x) :
    ∃ (st' : RState ℝ) (W' : ℕ → ℝ) (R' : ℕ → ℕ → ℝ),
      iterBody (α := Rn w) w.sqrt (fpbuf n P nb x) (flat P nb f) (flat (α := Rn w) P nb (rrecip w n P nb x)) nb n P k st = .ok st' ∧
      Kept n P nb niter x ((1 - 2 * (P * u)) * L - loss u η n P nb x) st' W' R' ∧ Recreated u n P nb x W R R' ∧
      Reweighted w n P nb x f W R' W' ∧ ∃ e, st'.discr = st.discr.set k e ∧ Reported w P nb f R' e := by
  obtain ⟨s1, s2, s3⟩ := F.small
  have hu : u < 1 := by linarith
  have h0 := F.h0
  obtain ⟨l, r, e1, e2, r0, r1, rz, rn⟩ := projnorm F.acc h0 hu F.hP F.hb F.hx K.wnn K.rnn hpos
  obtain ⟨e, e3⟩ := discr_ok F.acc h0 hu F.hP F.hb (fun p b => w.rnd (f p b - r p b))
  obtain ⟨ds, e4, e5⟩ := upd_len (by rw [K.discr]; exact hk) e
  set D : ℕ → ℕ → ℝ := fun p b => w.rnd (w.rnd (f p b - r p b) * w.rnd (recip ℝ n P nb x p b)) with hD
  have hru : ∀ p, p < P → rowSum nb r p ≤ 1 + 2 * (nb + 1) * u := fun p hp =>
    row_le h0 s2 (by linarith) (r1 p hp) (sum_nonneg fun b hb => r0 p hp b (mem_range.mp hb))
  have hfu : ∀ p, p < P → 1 - η ≤ rowSum nb f p ∧ rowSum nb f p ≤ 1 + η := fun p hp => by
    have := abs_le.mp (F.f1 p hp)
    constructor <;> linarith [this.1, this.2]
  obtain ⟨c1, c2⟩ := comp_sums F.acc h0 hu.le F.hx F.f0 r0
    (fun p hp b hb hc => ⟨covered_zero F.cov hp hb hc, rz p hp b hb hc (K.empty p hp b hb hc)⟩) hfu hru hD
  have hstep := weights_step F.acc h0 K.wnn (D := D) (A := -((P : ℝ) * (maxCount n P nb x * (1 - η - (1 + 2 * (nb + 1) * u) - 7 * u * (1 + η + (1 + 2 * (nb + 1) * u))))))
    (by rw [neg_neg]; exact c1) c2
  set γ := (1 + u) ^ P - 1 with hγ
  have hγ0 : 0 ≤ γ := sub_nonneg.mpr (one_le_pow₀ (by linarith))
  have hγ1 : γ ≤ 2 * (P * u) := (pow_small h0 (by linarith)).1
  have hc0 : (0 : ℝ) ≤ (maxCount n P nb x : ℝ) := Nat.cast_nonneg _
  have hP0 : (0 : ℝ) ≤ (P : ℝ) := Nat.cast_nonneg _
  have hn0 : (0 : ℝ) ≤ (nb : ℝ) := Nat.cast_nonneg _
  have hPu : 0 ≤ (P : ℝ) * u := mul_nonneg hP0 h0
  have hbu : 0 ≤ (nb : ℝ) * u := mul_nonneg hn0 h0
  have hη := F.hη
  have hη0 : 0 ≤ η := (abs_nonneg _).trans (F.f1 0 F.hP)
  have hsum : 1 + η + (1 + 2 * (nb + 1) * u) ≤ 3.1 := by nlinarith
  have hsum0 : 0 ≤ 1 + η + (1 + 2 * (nb + 1) * u) := by nlinarith
  have key : (1 - 2 * (P * u)) * L - loss u η n P nb x ≤ ∑ i ∈ range n, max (racc w (W i) (fun p => D p (x i p)) P) 0 := by
    refine le_trans ?_ hstep
    have q1 : (1 - 2 * (P * u)) * L ≤ (1 - γ) * ∑ i ∈ range n, W i := by
      have := K.total
      have : (1 - 2 * (P * u)) * L ≤ (1 - γ) * L := mul_le_mul_of_nonneg_right (by linarith) hL
      have : (1 - γ) * L ≤ (1 - γ) * ∑ i ∈ range n, W i := mul_le_mul_of_nonneg_left K.total (by linarith)
      linarith
    have q2 : (P : ℝ) * (maxCount n P nb x * (-(1 - η - (1 + 2 * (nb + 1) * u) - 7 * u * (1 + η + (1 + 2 * (nb + 1) * u)))
        + γ * ((1 + 7 * u) * (1 + η + (1 + 2 * (nb + 1) * u))))) ≤ loss u η n P nb x := by
      unfold loss
      apply mul_le_mul_of_nonneg_left _ hP0
      apply mul_le_mul_of_nonneg_left _ hc0
      have a1 : 7 * u * (1 + η + (1 + 2 * (nb + 1) * u)) ≤ 7 * u * 3.1 := mul_le_mul_of_nonneg_left hsum (by linarith)
      have a2 : γ * ((1 + 7 * u) * (1 + η + (1 + 2 * (nb + 1) * u))) ≤ 2 * (P * u) * (1.2 * 3.1) := by
        apply mul_le_mul hγ1 _ (mul_nonneg (by linarith) hsum0) (by linarith)
        exact mul_le_mul (by linarith) hsum hsum0 (by norm_num)
      nlinarith
    nlinarith
  refine ⟨⟨tab n fun i => max (racc w (W i) (fun p => D p (x i p)) P) 0, flat P nb r, ds⟩, _, r, ?_,
    ⟨rfl, rfl, by rw [e5, List.length_set]; exact K.discr, fun i _ => le_max_right _ _, r0, fun p hp b hb hc => rz p hp b hb hc (K.empty p hp b hb hc), key⟩,
    ⟨r0, hru, rn⟩, fun i _ => rfl, e, e5, e3⟩
  unfold iterBody
  rw [K.weights, K.rec']
  refine chain e1 (chain e2 ?_)
  refine chain (diff_g (α := Rn w) P nb (fun _ _ => 0) r f) ?_
  refine chain e3 (chain e4 ?_)
  refine chain (comp_g (α := Rn w) P nb _ _) ?_
  exact back_clip F.acc h0 hu F.hx W D (hL'.trans_le key) fun a => .ok (⟨a, flat P nb r, ds⟩ : RState ℝ)

/-! ## the whole run -/

theorem Fit.max_pos {η : ℝ} {n P nb : ℕ} {x : ℕ → ℕ → ℕ} {f : ℕ → ℕ → ℝ} (F : Fit w u η n P nb x f) : 1 ≤ maxCount n P nb x := by
  have h1 := (abs_le.mp (F.f1 0 F.hP)).1
  have h2 := F.hη
  have h3 : ∃ b, b < nb ∧ f 0 b ≠ 0 := by
    by_contra hc
    have : rowSum nb f 0 = 0 := sum_eq_zero fun b hb => by
      by_contra h
      exact hc ⟨b, mem_range.mp hb, h⟩
    rw [this] at h1
    linarith
  obtain ⟨b, hb, hne⟩ := h3
  refine le_trans ?_ (count_le_max F.hP hb)
  by_contra hc
  exact hne (covered_zero F.cov F.hP hb (by omega))

/-- what the particles collect in the first back projection -/
theorem Fit.start {η : ℝ} {n P nb : ℕ} {x : ℕ → ℕ → ℕ} {f : ℕ → ℕ → ℝ} (F : Fit w u η n P nb x f) (niter : ℕ) :
    ∃ W : ℕ → ℝ, firstStep (α := Rn w) (tab n fun _ => 0) (fpbuf n P nb x) (flat P nb f) n P = .ok (tab n W) ∧
      (Kept n P nb niter x (12 / 25 * P) ⟨tab n W, tab (P * nb) fun _ => 0, tab (niter + 1) fun _ => 0⟩ W fun _ _ => 0) ∧
      ∀ i, i < n → W i = max (racc w 0 (fun p => f p (x i p)) P) 0 := by
  obtain ⟨s1, s2, s3⟩ := F.small
  have hu : u < 1 := by linarith
  have h0 := F.h0
  have hP0 : (0 : ℝ) < (P : ℝ) := Nat.cast_pos.mpr F.hP
  have hη := F.hη
  have hq : (P : ℝ) * (1 / 2) ≤ ∑ i ∈ range n, ∑ p ∈ range P, f p (x i p) := by
    rw [sum_comm, ← nsmul_eq_mul, ← card_range P, ← sum_const, card_range]
    apply sum_le_sum
    intro p hp
    have hp := mem_range.mp hp
    rw [sum_count F.hx hp (f p)]
    have h1 := (abs_le.mp (F.f1 p hp)).1
    refine le_trans (by linarith : (1 / 2 : ℝ) ≤ rowSum nb f p) (sum_le_sum fun b hb => ?_)
    have hb := mem_range.mp hb
    by_cases hc : count n x p b = 0
    · rw [covered_zero F.cov hp hb hc, zero_mul]
    · have : (1 : ℝ) ≤ (count n x p b : ℝ) := by exact_mod_cast Nat.one_le_iff_ne_zero.mpr hc
      nlinarith [F.f0 p hp b hb]
  have hlow : 12 / 25 * (P : ℝ) ≤ ∑ i ∈ range n, max (racc w 0 (fun p => f p (x i p)) P) 0 := by
    have h1 : ∑ i ∈ range n, (1 - u) ^ P * ∑ p ∈ range P, f p (x i p) ≤ ∑ i ∈ range n, max (racc w 0 (fun p => f p (x i p)) P) 0 := by
      apply sum_le_sum
      intro i hi
      have := (racc_near F.acc h0 hu (s := 0) le_rfl (f := fun p => f p (x i p)) (j := P)
        fun p hp => F.f0 p hp _ (F.hx i (mem_range.mp hi) p hp)).lower
      rw [zero_add] at this
      exact this.trans (le_max_left _ _)
    rw [← mul_sum] at h1
    have h2 := (pow_small h0 (k := P) (by linarith)).2
    have h3 : (1 - P * u) * (P * (1 / 2)) ≤ (1 - u) ^ P * ∑ i ∈ range n, ∑ p ∈ range P, f p (x i p) :=
      mul_le_mul h2 hq (by linarith) (le_trans (by linarith) h2)
    nlinarith
  refine ⟨_, ?_, ⟨rfl, rfl, length_tab _ _, fun i _ => le_max_right _ _, fun _ _ _ _ => le_rfl, fun _ _ _ _ _ => rfl, hlow⟩,
    fun i _ => rfl⟩
  unfold firstStep
  exact back_clip F.acc h0 hu F.hx (fun _ => 0) f (lt_of_lt_of_le (by linarith) hlow) fun a => .ok a

/-- how far the total can have fallen after `k` iterations -/
noncomputable def floor' (u η : ℝ) (n P nb : ℕ) (x : ℕ → ℕ → ℕ) : ℕ → ℝ
  | 0 => 12 / 25 * P
  | k + 1 => (1 - 2 * (P * u)) * floor' u η n P nb x k - loss u η n P nb x

theorem Fit.floor_ge {η : ℝ} {n P nb : ℕ} {x : ℕ → ℕ → ℕ} {f : ℕ → ℕ → ℝ} (F : Fit w u η n P nb x f) {niter : ℕ}
    (hk : 8 * (niter : ℝ) * (maxCount n P nb x * (η + (2 * (nb : ℝ) + 16 * P + 30) * u)) ≤ 1) {k : ℕ} (h : k ≤ niter) :
    (P : ℝ) / 4 ≤ floor' u η n P nb x k := by
  obtain ⟨s1, s2, s3⟩ := F.small
  have h0 := F.h0
  have hP0 : (0 : ℝ) < (P : ℝ) := Nat.cast_pos.mpr F.hP
  have hPu : 0 ≤ (P : ℝ) * u := mul_nonneg hP0.le h0
  have hbu : 0 ≤ (nb : ℝ) * u := mul_nonneg (Nat.cast_nonneg _) h0
  have hη0 : 0 ≤ η := (abs_nonneg _).trans (F.f1 0 F.hP)
  set c := (maxCount n P nb x : ℝ) * (η + (2 * (nb : ℝ) + 16 * P + 30) * u) with hc
  have hm : (1 : ℝ) ≤ (maxCount n P nb x : ℝ) := by exact_mod_cast F.max_pos
  have hc1 : 16 * (P * u) ≤ c := by
    have : η + (2 * (nb : ℝ) + 16 * P + 30) * u ≤ c := by
      rw [hc]; exact le_mul_of_one_le_left (by nlinarith) hm
    nlinarith
  have hc0 : 0 ≤ c := by linarith
  have hl : loss u η n P nb x = P * c := rfl
  have key : ∀ k : ℕ, (1 - 2 * (P * u)) ^ k * (12 / 25 * P) - k * (P * c) ≤ floor' u η n P nb x k := by
    intro k
    induction k with
    | zero => simp [floor']
    | succ k ih =>
      show _ ≤ (1 - 2 * (P * u)) * floor' u η n P nb x k - loss u η n P nb x
      rw [hl]
      have := mul_le_mul_of_nonneg_left ih (by linarith : 0 ≤ 1 - 2 * ((P : ℝ) * u))
      rw [pow_succ]
      push_cast
      have hk0 : 0 ≤ (k : ℝ) * (P * c) * (2 * (P * u)) := by positivity
      nlinarith
  refine le_trans ?_ (key k)
  have hB := one_add_mul_le_pow (a := -(2 * ((P : ℝ) * u))) (by linarith) k
  have e : 1 + -(2 * ((P : ℝ) * u)) = 1 - 2 * (P * u) := by ring
  rw [e] at hB
  have hkn : (k : ℝ) ≤ niter := by exact_mod_cast h
  have hkc : (k : ℝ) * c ≤ 1 / 8 := by
    have := mul_le_mul_of_nonneg_right hkn hc0
    linarith
  have hkP : (k : ℝ) * (P * u) ≤ 1 / 128 := by
    have := mul_le_mul_of_nonneg_left hc1 (Nat.cast_nonneg (α := ℝ) k)
    nlinarith
  have h1 : (1 - 1 / 64) * (12 / 25 * (P : ℝ)) ≤ (1 - 2 * (P * u)) ^ k * (12 / 25 * P) :=
    mul_le_mul_of_nonneg_right (by linarith) (by linarith)
  have h2 : (k : ℝ) * (P * c) ≤ 1 / 8 * P := by
    have := mul_le_mul_of_nonneg_right hkc hP0.le
    linarith
  linarith

/-- the run, with whatever else is kept by the first back projection and the iterations -/
theorem Fit.run_keeps {η : ℝ} {n P nb : ℕ} {x : ℕ → ℕ → ℕ} {f : ℕ → ℕ → ℝ} (F : Fit w u η n P nb x f) {niter : ℕ}
    (hk : 8 * (niter : ℝ) * (maxCount n P nb x * (η + (2 * (nb : ℝ) + 16 * P + 30) * u)) ≤ 1)
    (I : ℕ → (ℕ → ℝ) → (ℕ → ℕ → ℝ) → Prop)
    (hI : ∀ W : ℕ → ℝ, (∀ i, i < n → W i = max (racc w 0 (fun p => f p (x i p)) P) 0) → I 0 W fun _ _ => 0)
    (hS : ∀ k, k < niter → ∀ (W : ℕ → ℝ) (R : ℕ → ℕ → ℝ) (W' : ℕ → ℝ) (R' : ℕ → ℕ → ℝ), I k W R → (∀ i, i < n → 0 ≤ W i) →
      (∀ p, p < P → ∀ b, b < nb → 0 ≤ R p b) → 0 < ∑ i ∈ range n, W i → Recreated u n P nb x W R R' → Reweighted w n P nb x f W R' W' →
      I (k + 1) W' R')
    (J : ℕ → ℝ → Prop)
    (hJ : ∀ k, k ≤ niter → ∀ (W : ℕ → ℝ) (R R' : ℕ → ℕ → ℝ) (e : ℝ), I k W R → (∀ i, i < n → 0 ≤ W i) →
      (∀ p, p < P → ∀ b, b < nb → 0 ≤ R p b) → 0 < ∑ i ∈ range n, W i → Recreated u n P nb x W R R' → Reported w P nb f R' e → J k e) :
    ∃ (st : RState ℝ) (W : ℕ → ℝ) (R R' : ℕ → ℕ → ℝ), (reconstruct (α := Rn w) w.sqrt (xbuf n P x) (flat P nb f) niter nb n P).2 = .ok st ∧
      st.weights = tab n W ∧ st.flatRec = flat P nb R' ∧ (∀ i, i < n → 0 ≤ W i) ∧ (P : ℝ) / 4 ≤ ∑ i ∈ range n, W i ∧
      (∀ p, p < P → ∀ b, b < nb → 0 ≤ R p b) ∧ I niter W R ∧ Recreated u n P nb x W R R' ∧
      ∃ D : ℕ → ℝ, st.discr = tab (niter + 1) D ∧ ∀ k, k ≤ niter → J k (D k) := by
  obtain ⟨s1, s2, s3⟩ := F.small
  have hu : u < 1 := by linarith
  have h0 := F.h0
  have hP0 : (0 : ℝ) < (P : ℝ) := Nat.cast_pos.mpr F.hP
  obtain ⟨W, e1, K, hW⟩ := F.start niter
  have hloop : ∀ k, k ≤ niter → ∃ (st : RState ℝ) (W' : ℕ → ℝ) (R' : ℕ → ℕ → ℝ),
      forN (σ := RState ℝ) k (iterBody (α := Rn w) w.sqrt (fpbuf n P nb x) (flat P nb f) (flat (α := Rn w) P nb (rrecip w n P nb x)) nb n P)
        ⟨tab n W, tab (P * nb) fun _ => 0, tab (niter + 1) fun _ => 0⟩ = .ok st ∧ Kept n P nb niter x (floor' u η n P nb x k) st W' R' ∧
      I k W' R' ∧ ∀ m, m < k → ∃ e, st.discr[m]? = some e ∧ J m e := by
    intro k
    induction k with
    | zero => exact fun _ => ⟨_, W, _, rfl, K, hI W hW, fun m hm => absurd hm (Nat.not_lt_zero m)⟩
    | succ k ih =>
      intro hk'
      obtain ⟨st, W', R', g1, g2, g0, gJ⟩ := ih (by omega)
      have q1 := F.floor_ge hk (k := k) (by omega)
      have q2 := F.floor_ge hk (k := k + 1) hk'
      have q3 : 0 < ∑ i ∈ range n, W' i := lt_of_lt_of_le (by linarith) g2.total
      obtain ⟨st', W'', R'', g3, g4, g5, g6, e, g7, g8⟩ := F.step (k := k) (by omega) g2 (by linarith) q3 (lt_of_lt_of_le (by linarith) q2)
      refine ⟨st', W'', R'', ?_, g4, hS k (by omega) W' R' W'' R'' g0 g2.wnn g2.rnn q3 g5 g6, fun m hm => ?_⟩
      · exact (forN_succ (σ := RState ℝ) ..).trans (chain g1 g3)
      · rw [g7]
        rcases Nat.lt_succ_iff_lt_or_eq.mp hm with h | rfl
        · rw [List.getElem?_set_ne (by omega)]
          exact gJ m h
        · exact ⟨e, List.getElem?_set_self (by rw [g2.discr]; omega), hJ m (by omega) W' R' R'' e g0 g2.wnn g2.rnn q3 g5 g8⟩
  obtain ⟨st, W', R', g1, g2, g0, gJ⟩ := hloop niter le_rfl
  have q := (F.floor_ge hk (k := niter) le_rfl).trans g2.total
  obtain ⟨l, r, d1, d2, r0, r1, _, rn⟩ := projnorm F.acc h0 hu F.hP F.hb F.hx g2.wnn g2.rnn (lt_of_lt_of_le (by linarith) q)
  obtain ⟨e, d3⟩ := discr_ok F.acc h0 hu F.hP F.hb (fun p b => w.rnd (f p b - r p b))
  obtain ⟨ds, d4, d5⟩ := upd_len (l := st.discr) (k := niter) (by rw [g2.discr]; omega) e
  have hrec : Recreated u n P nb x W' R' r := ⟨r0, fun p hp =>
    row_le h0 s2 (by linarith) (r1 p hp) (sum_nonneg fun b hb => r0 p hp b (mem_range.mp hb)), rn⟩
  refine ⟨⟨st.weights, flat P nb r, ds⟩, W', R', r, ?_, g2.weights, rfl, g2.wnn, q, g2.rnn, g0, hrec, fun k => ds.getD k 0, ?_, ?_⟩
  · unfold reconstruct
    refine (reconstructOn_result (α := Rn w) _ _ _ _ _ _ _ _).trans ?_
    refine chain (recip_r F.acc h0 F.hn F.hx) ?_
    refine chain (createFlatPoints_ok n P nb x) ?_
    refine chain e1 (chain g1 ?_)
    unfold finalStep
    rw [g2.weights, g2.rec']
    refine chain d1 (chain d2 ?_)
    refine chain (diff_g (α := Rn w) P nb (fun _ _ => 0) r f) ?_
    exact chain d3 (chain d4 rfl)
  · have hl : ds.length = niter + 1 := by rw [d5, List.length_set]; exact g2.discr
    show ds = _
    apply List.ext_getElem?
    intro i
    rw [getElem?_tab]
    split
    · rename_i hi
      rw [List.getD_eq_getElem?_getD, List.getElem?_eq_getElem (by omega)]
      rfl
    · exact List.getElem?_eq_none (by omega)
  · intro k hk'
    show J k (ds.getD k 0)
    rw [List.getD_eq_getElem?_getD, d5]
    rcases Nat.lt_or_eq_of_le hk' with h | rfl
    · obtain ⟨v, hv, hj⟩ := gJ k h
      rw [List.getElem?_set_ne (by omega), hv]
      exact hj
    · rw [List.getElem?_set_self (by rw [g2.discr]; omega)]
      exact hJ k le_rfl W' R' r e g0 g2.wnn g2.rnn (lt_of_lt_of_le (by linarith) q) hrec d3

theorem Fit.run {η : ℝ} {n P nb : ℕ} {x : ℕ → ℕ → ℕ} {f : ℕ → ℕ → ℝ} (F : Fit w u η n P nb x f) {niter : ℕ}
    (hk : 8 * (niter : ℝ) * (maxCount n P nb x * (η + (2 * (nb : ℝ) + 16 * P + 30) * u)) ≤ 1) :
    ∃ (st : RState ℝ) (W : ℕ → ℝ), (reconstruct (α := Rn w) w.sqrt (xbuf n P x) (flat P nb f) niter nb n P).2 = .ok st ∧
      st.weights = tab n W ∧ (∀ i, i < n → 0 ≤ W i) ∧ (P : ℝ) / 4 ≤ ∑ i ∈ range n, W i := by
  obtain ⟨st, W, _, _, h1, h2, _, h3, h4, _⟩ := F.run_keeps hk (fun _ _ _ => True) (fun _ _ => trivial) (fun _ _ _ _ _ _ _ _ _ _ _ _ => trivial)
    (fun _ _ => True) fun _ _ _ _ _ _ _ _ _ _ _ _ => trivial
  exact ⟨st, W, h1, h2, h3, h4⟩

/-! ## the profiles the constructor prepares -/

section generic
variable {α : Type} [Add α] [Sub α] [Mul α] [Zero α] [LT α] [DecidableLT α] [DecidableEq α] [FDiv α]

theorem rowSums_g (P nb : ℕ) (g : ℕ → ℕ → α) : Tomo.rowSums (flat P nb g) P nb = .ok (tab P fun p => gacc 0 (g p) nb) := by
  unfold Tomo.rowSums
  rw [forN_eq (g := fun i => tab i fun p => gacc 0 (g p) nb)]
  · rfl
  · intro i hi
    rw [forN_eq (g := fun j => gacc 0 (g i) j), bind_ok, pure_eq_ok]
    · unfold tab
      rw [List.range_succ, List.map_append]; rfl
    · rfl
    · intro j hj
      rw [rd_flat _ hi hj rfl, bind_ok]; rfl

theorem normalize_g {P nb : ℕ} {g q : ℕ → ℕ → α} (hne : ∃ p b, p < P ∧ b < nb ∧ g p b ≠ 0)
    (hq : ∀ p, p < P → ∀ b, b < nb → FDiv.fdiv (g p b) (gacc 0 (g p) nb) = .ok (q p b)) :
    Tomo.normalizeProfiles (flat P nb g) P nb = .ok (flat P nb q) := by
  obtain ⟨p, b, hp, hb, h⟩ := hne
  have hany : ((flat P nb g).any fun v => decide (v ≠ 0)) = true := by
    rw [List.any_eq_true]
    refine ⟨g p b, ?_, by simpa using h⟩
    unfold flat tab
    refine List.mem_map.mpr ⟨p * nb + b, List.mem_range.mpr (idx_lt hp hb), ?_⟩
    have e1 : (p * nb + b) / nb = p := by rw [mul_comm, Nat.mul_add_div (by omega), Nat.div_eq_of_lt hb, add_zero]
    have e2 : (p * nb + b) % nb = b := by rw [mul_comm, Nat.mul_add_mod, Nat.mod_eq_of_lt hb]
    rw [e1, e2]
  unfold Tomo.normalizeProfiles
  rw [if_pos hany, rowSums_g, bind_ok]
  apply gridLoop_eq
  intro i j hi hj f hf
  rw [rd_flat f hi hj rfl, bind_ok, rd_tab _ hi, bind_ok, hf, hq i hi j hj, bind_ok, upd_flat f _ hi hj rfl]

theorem clip0_g (P nb : ℕ) (m : ℕ → ℕ → α) : Tomo.npClip0 (flat P nb m) = flat P nb fun p b => if m p b < 0 then 0 else m p b := by
  unfold Tomo.npClip0 flat tab
  rw [List.map_map]; rfl

end generic

theorem row_ge (h0 : 0 ≤ u) {nb : ℕ} (h : 2 * (nb : ℝ) * u ≤ 1 / 2) {S : ℝ} (hS : SumsToOne u nb S) (hS0 : 0 ≤ S) :
    1 - 2 * (nb + 1) * u ≤ S := by
  have h1 := (pow_small h0 (k := nb) (by nlinarith [mul_nonneg (Nat.cast_nonneg (α := ℝ) nb) h0])).1
  have h2 : 1 - u ≤ (1 + 2 * (nb * u)) * S := hS.1.trans (mul_le_mul_of_nonneg_right (by linarith) hS0)
  have hn : 0 ≤ (nb : ℝ) * u := mul_nonneg nb.cast_nonneg h0
  by_contra hc
  nlinarith [not_le.mp hc]

/-- the measured profiles, negative samples set to zero, each divided by its sum, in floating point -/
theorem waterfall_r (hw : w.Accurate u) (h0 : 0 ≤ u) {P nb : ℕ} (hP : 0 < P) (hu : u ≤ 1 / 2) (hs : 2 * (nb : ℝ) * u ≤ 1 / 2) (m : ℕ → ℕ → ℝ)
    (hm : ∀ p, p < P → ∃ b, b < nb ∧ 0 < m p b) :
    ∃ f : ℕ → ℕ → ℝ, Tomo.initWaterfall (α := Rn w) (flat P nb m) P nb = .ok (flat P nb f) ∧
      (∀ p, p < P → ∀ b, b < nb → 0 ≤ f p b) ∧ (∀ p, p < P → |rowSum nb f p - 1| ≤ 2 * (nb + 1) * u) ∧
      (∀ p, p < P → ∀ b, b < nb → f p b ≠ 0 → 0 < m p b) ∧
      ∀ p, p < P → ∀ b, b < nb → Near u (nb + 1) (f p b) (normRows nb (fun p b => max (m p b) 0) p b) := by
  have hu1 : u < 1 := by linarith
  set g : ℕ → ℕ → ℝ := fun p b => if m p b < 0 then 0 else m p b with hg
  have hg0 : ∀ p b, 0 ≤ g p b := by
    intro p b
    show 0 ≤ if m p b < 0 then 0 else m p b
    split
    · exact le_rfl
    · next h => exact not_lt.mp h
  have hS : ∀ p, p < P → 0 < racc w 0 (g p) nb := by
    intro p hp
    apply racc_total_pos hw h0 hu1 fun b _ => hg0 p b
    obtain ⟨b, hb, hb'⟩ := hm p hp
    refine sum_pos' (fun b _ => hg0 p b) ⟨b, mem_range.mpr hb, ?_⟩
    show 0 < if m p b < 0 then 0 else m p b
    rw [if_neg (not_lt.mpr hb'.le)]
    exact hb'
  have hrow : ∀ p, p < P → SumsToOne u nb (rowSum nb (fun p b => w.rnd (g p b / racc w 0 (g p) nb)) p) := by
    intro p hp
    have hn := racc_near hw h0 hu1 (s := 0) le_rfl (f := g p) (j := nb) fun b _ => hg0 p b
    have he := (abs_le.mp (racc_error hw h0 0 (g p) nb)).2
    have hab : ∑ b ∈ range nb, |g p b| = ∑ b ∈ range nb, g p b := sum_congr rfl fun b _ => abs_of_nonneg (hg0 p b)
    rw [hab, abs_zero, zero_add] at he
    rw [zero_add] at hn
    have hget : ∀ j, j < nb → (tab nb (g p)).getD (0 * nb + j) 0 = g p j := fun j hj => by
      rw [zero_mul, zero_add, List.getD_eq_getElem?_getD, getElem?_tab, if_pos hj]; rfl
    have ht : rowTotal (tab nb (g p)) nb 0 = ∑ b ∈ range nb, g p b := sum_congr rfl fun b hb => hget b (mem_range.mp hb)
    have := row_sumsToOne hw h0 hu1 (l := tab nb (g p)) (nbins := nb) (i := 0) (S := racc w 0 (g p) nb)
      (tab_nonneg fun b _ => hg0 p b) ⟨by rw [ht]; exact hn.lower, by rw [ht]; linarith⟩ (hS p hp).ne'
    rw [sum_congr rfl fun b hb => by rw [hget b (mem_range.mp hb)]] at this
    exact this
  have hf0 : ∀ p, p < P → ∀ b, b < nb → 0 ≤ w.rnd (g p b / racc w 0 (g p) nb) := fun p hp b _ =>
    rnd_nonneg hw hu1.le (div_nonneg (hg0 p b) (hS p hp).le)
  refine ⟨fun p b => w.rnd (g p b / racc w 0 (g p) nb), ?_, hf0, fun p hp => ?_, fun p hp b hb hne => ?_, fun p hp b hb => ?_⟩
  · unfold Tomo.initWaterfall
    refine (congrArg (fun l => Tomo.normalizeProfiles (α := Rn w) l P nb) (clip0_g (α := Rn w) P nb m)).trans ?_
    obtain ⟨b, hb, hb'⟩ := hm 0 hP
    refine normalize_g (α := Rn w) (g := g) ⟨0, b, hP, hb, ?_⟩ fun p hp b hb => if_neg (hS p hp).ne'
    show ¬ (if m 0 b < 0 then 0 else m 0 b) = (0 : ℝ)
    rw [if_neg (not_lt.mpr hb'.le)]
    exact hb'.ne'
  · have hr0 : 0 ≤ rowSum nb (fun p b => w.rnd (g p b / racc w 0 (g p) nb)) p := sum_nonneg fun b hb => hf0 p hp b (mem_range.mp hb)
    rw [abs_le]
    constructor
    · linarith [row_ge h0 hs (hrow p hp) hr0]
    · linarith [row_le h0 hs hu (hrow p hp) hr0]
  · by_contra hc
    apply hne
    have : g p b = 0 := by
      show (if m p b < 0 then 0 else m p b) = (0 : ℝ)
      split
      · rfl
      · next h => exact le_antisymm (not_lt.mp hc) (not_lt.mp h)
    show w.rnd (g p b / racc w 0 (g p) nb) = 0
    rw [this, zero_div]
    have := hw.rnd 0
    simpa using this
  · have hn := racc_near hw h0 hu1 (s := 0) le_rfl (f := g p) (j := nb) fun b _ => hg0 p b
    rw [zero_add] at hn
    have hgm : g = fun p b => max (m p b) 0 := by
      funext p b
      show (if m p b < 0 then 0 else m p b) = _
      split
      · next h => exact (max_eq_right h.le).symm
      · next h => exact (max_eq_left (not_lt.mp h)).symm
    have := ((Near.refl (k := 0) h0 hu1 (hg0 p b)).div hu1 hn fun e => (hS p hp).ne' ((hn.zero_iff hu1).mpr e)).rnd hw h0 hu1
    rw [zero_add] at this
    rw [← hgm]
    exact this

end Verif.Rounded

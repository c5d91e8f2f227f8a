import Verif.Model.Reconstruct
import Verif.Spec.Recon
import Verif.Spec.Buffers
import Mathlib.Tactic.FieldSimp
import Mathlib.Tactic.Positivity

/-!
# The routines of `reconstruct.cpp` compute their specifications (helper lemmas)
-/

set_option linter.unusedSectionVars false

namespace Verif.Recon
open Finset Verif.Spec

variable {K : Type _} [Field K] [LinearOrder K] [IsStrictOrderedRing K]

theorem createFlatPoints_ok (npart nprof nbins : ℕ) (x : ℕ → ℕ → ℕ) :
    createFlatPoints (xbuf npart nprof x) npart nprof nbins = .ok (fpbuf npart nprof nbins x) := by
  unfold createFlatPoints xbuf fpbuf
  apply gridLoop_eq
  intro i j hi hj g hg
  rw [rd_flat g hi hj rfl, bind_ok, upd_flat g _ hi hj rfl, hg]

theorem rd_fp {npart nprof nbins : ℕ} {x : ℕ → ℕ → ℕ} {i j : ℕ} (hi : i < npart) (hj : j < nprof) :
    rd (fpbuf npart nprof nbins x) ((i * nprof + j : ℕ) : Int)
      = .ok (((j * nbins + x i j : ℕ)) : Int) := by
  unfold fpbuf
  rw [rd_flat _ hi hj rfl]
  congr 1
  push_cast; ring

theorem sum_ok (n : ℕ) (w : ℕ → K) : sum (tab n w) n = .ok (∑ i ∈ range n, w i) := by
  unfold sum
  rw [forN_eq (g := fun i => ∑ k ∈ range i, w k)]
  · simp
  · intro i hi
    rw [rd_tab w hi, bind_ok, sum_range_succ]; rfl

theorem backProject_ok {npart nprof nbins : ℕ} {x : ℕ → ℕ → ℕ} (hx : InRange npart nprof nbins x)
    (w : ℕ → K) (f : ℕ → ℕ → K) :
    backProject (tab npart w) (fpbuf npart nprof nbins x) (flat nprof nbins f) npart nprof
      = .ok (tab npart (fun i => w i + backProj nprof x f i)) := by
  unfold backProject
  apply pointLoop_eq
  intro i hi g hg
  rw [forN_eq (g := fun j => tab npart (fun k => if k = i then w i + ∑ p ∈ range j, f p (x i p) else g k))]
  · rfl
  · apply tab_congr; intro k _
    by_cases h : k = i
    · subst h; simp [hg]
    · simp [h]
  · intro j hj
    rw [rd_fp hi hj, bind_ok, rd_flat f hj (hx i hi j hj) rfl, bind_ok, rd_tab _ hi, bind_ok,
      upd_tab _ _ hi]
    congr 1; apply tab_congr; intro k _
    by_cases h : k = i
    · subst h; simp [sum_range_succ, add_assoc]
    · simp [h]

theorem project_ok {npart nprof nbins : ℕ} {x : ℕ → ℕ → ℕ} (hx : InRange npart nprof nbins x)
    (w : ℕ → K) (r : ℕ → ℕ → K) :
    project (flat nprof nbins r) (fpbuf npart nprof nbins x) (tab npart w) npart nprof
      = .ok (flat nprof nbins (fun p b => r p b + proj npart x w p b)) := by
  unfold project
  rw [forN_eq (g := fun i => flat nprof nbins (fun p b => r p b + proj i x w p b))]
  · apply flat_congr; intro p b _ _; simp [proj]
  · intro i hi
    rw [forN_eq (g := fun j => flat nprof nbins
      (fun p b => r p b + proj i x w p b + if p < j ∧ x i p = b then w i else 0))]
    · congr 1; apply flat_congr; intro p b hp _
      simp [proj, sum_range_succ, hp, add_assoc]
    · apply flat_congr; intro p b _ _; simp
    · intro j hj
      have hb := hx i hi j hj
      rw [rd_fp hi hj, bind_ok, rd_flat _ hj hb rfl, bind_ok, rd_tab _ hi, bind_ok,
        upd_flat _ _ hj hb rfl]
      congr 1; apply flat_congr; intro p b _ _
      unfold upd2
      by_cases h : p = j ∧ b = x i j
      · obtain ⟨rfl, rfl⟩ := h; simp
      · rw [if_neg h]
        dsimp only
        congr 1
        apply if_congr _ rfl rfl
        constructor
        · rintro ⟨h1, h2⟩; exact ⟨by omega, h2⟩
        · rintro ⟨h1, h2⟩
          refine ⟨?_, h2⟩
          by_contra hc
          exact h ⟨by omega, by rw [← h2]; congr 1; omega⟩

theorem clip_ok (n : ℕ) (w : ℕ → K) (c : K) :
    clip (tab n w) n c = .ok (tab n (fun i => max (w i) c)) := by
  unfold clip
  apply pointLoop_eq
  intro i hi g hg
  rw [rd_tab g hi, bind_ok, hg]
  by_cases h : w i < c
  · rw [if_pos h, upd_tab g _ hi, max_eq_right h.le]
  · rw [if_neg h, max_eq_left (not_lt.mp h)]
    simp only [pure_eq_ok]
    congr 1; apply tab_congr; intro k _
    by_cases hk : k = i
    · subst hk; simp [hg]
    · simp [hk]

theorem findDifference_ok (nprof nbins : ℕ) (d r f : ℕ → ℕ → K) :
    findDifferenceProfile (flat nprof nbins d) (flat nprof nbins r) (flat nprof nbins f)
      (nprof * nbins) = .ok (flat nprof nbins (fun p b => f p b - r p b)) := by
  unfold findDifferenceProfile flat
  apply pointLoop_eq
  intro i hi g _
  rw [rd_tab _ hi, bind_ok, rd_tab _ hi, bind_ok, upd_tab _ _ hi]

theorem sum_flat_range (n m : ℕ) (f : ℕ → ℕ → K) :
    ∑ k ∈ range (n * m), f (k / m) (k % m) = ∑ i ∈ range n, ∑ j ∈ range m, f i j := by
  induction n with
  | zero => simp
  | succ n ih =>
    rw [Nat.succ_mul, sum_range_add, ih, sum_range_succ]
    congr 1
    apply sum_congr rfl
    intro j hj
    have hj := mem_range.mp hj
    rw [idx_div hj, idx_mod hj]

theorem discrepancy_ok (sqrt : K → K) {nprof nbins : ℕ} (hp : 0 < nprof) (hb : 0 < nbins)
    (d : ℕ → ℕ → K) :
    discrepancy sqrt (flat nprof nbins d) nprof nbins = .ok (sqrt (meanSquare nprof nbins d)) := by
  unfold discrepancy
  have h1 : forN (nprof * nbins) (fun i s => do
      let d ← rd (flat nprof nbins d) (i : Int)
      pure (s + d * d)) (0 : K)
      = .ok (∑ k ∈ range (nprof * nbins), d (k / nbins) (k % nbins) ^ 2) := by
    rw [forN_eq (g := fun i => ∑ k ∈ range i, d (k / nbins) (k % nbins) ^ 2)]
    · simp
    · intro i hi
      unfold flat
      rw [rd_tab _ hi, bind_ok, sum_range_succ, pow_two]; rfl
  rw [h1, bind_ok, sum_flat_range nprof nbins (fun p b => d p b ^ 2), fdiv_ok, bind_ok]
  · rfl
  · have : 0 < nprof * nbins := Nat.mul_pos hp hb
    exact_mod_cast this.ne'

theorem compensate_ok (nprof nbins : ℕ) (d r : ℕ → ℕ → K) :
    compensate (flat nprof nbins d) (flat nprof nbins r) nprof nbins
      = .ok (flat nprof nbins (fun p b => d p b * r p b)) := by
  unfold compensate
  apply gridLoop_eq
  intro i j hi hj g hg
  rw [rd_flat g hi hj rfl, bind_ok, rd_flat r hi hj rfl, bind_ok, upd_flat g _ hi hj rfl, hg]

theorem normalize_rows {nprof nbins : ℕ} (r : ℕ → ℕ → K)
    (hr : ∀ p, p < nprof → rowSum nbins r p ≠ 0) :
    normalize (flat nprof nbins r) nprof nbins
      = if (∑ p ∈ range nprof, rowSum nbins r p) ≤ 0 then .error (.exc .recZero)
        else .ok (flat nprof nbins (normRows nbins r)) := by
  unfold normalize
  rw [forN_eq (g := fun i => (flat nprof nbins (fun a b => if a < i then normRows nbins r a b else r a b),
    ∑ p ∈ range i, rowSum nbins r p))]
  · rw [bind_ok]
    have : flat nprof nbins (fun a b => if a < nprof then normRows nbins r a b else r a b)
        = flat nprof nbins (normRows nbins r) := by
      apply flat_congr; intro a b ha _; simp [ha]
    simp only [this]; rfl
  · simp
  · intro i hi
    have hs : forN nbins (fun j s => do
        let v ← rd (flat nprof nbins (fun a b => if a < i then normRows nbins r a b else r a b))
          ((i * nbins + j : Nat) : Int)
        pure (s + v)) (0 : K) = .ok (rowSum nbins r i) := by
      rw [forN_eq (g := fun j => ∑ b ∈ range j, r i b)]
      · rfl
      · simp
      · intro j hj
        rw [rd_flat _ hi hj rfl, bind_ok, sum_range_succ]; simp
    simp only [hs, bind_ok]
    rw [forN_eq (g := fun j => flat nprof nbins (fun a b =>
      if a < i ∨ (a = i ∧ b < j) then normRows nbins r a b else r a b))]
    · rw [bind_ok, sum_range_succ]
      have : flat nprof nbins (fun a b => if a < i ∨ (a = i ∧ b < nbins) then normRows nbins r a b else r a b)
          = flat nprof nbins (fun a b => if a < i + 1 then normRows nbins r a b else r a b) := by
        apply flat_congr; intro a b ha hb
        have : (a < i ∨ (a = i ∧ b < nbins)) ↔ a < i + 1 := by omega
        simp [this]
      rw [this]; rfl
    · simp
    · intro j hj
      rw [rd_flat _ hi hj rfl, bind_ok, fdiv_ok (hr i hi), bind_ok, upd_flat _ _ hi hj rfl]
      congr 1; apply flat_congr; intro a b _ _
      unfold upd2
      by_cases h1 : a = i ∧ b = j
      · obtain ⟨rfl, rfl⟩ := h1; simp [normRows]
      · have : (a < i ∨ (a = i ∧ b < j + 1)) ↔ (a < i ∨ (a = i ∧ b < j)) := by omega
        rw [if_neg h1]; exact if_congr this.symm rfl rfl

theorem normalize_ok {nprof nbins : ℕ} (hp : 0 < nprof) (r : ℕ → ℕ → K)
    (hr : ∀ p, p < nprof → 0 < rowSum nbins r p) :
    normalize (flat nprof nbins r) nprof nbins = .ok (flat nprof nbins (normRows nbins r)) := by
  rw [normalize_rows r (fun p h => (hr p h).ne'), if_neg]
  apply not_le.mpr
  apply sum_pos
  · intro p h; exact hr p (mem_range.mp h)
  · exact ⟨0, mem_range.mpr hp⟩

/-! ## counting -/

theorem count_succ (n : ℕ) (x : ℕ → ℕ → ℕ) (p b : ℕ) :
    count (n + 1) x p b = count n x p b + if x n p = b then 1 else 0 := by
  unfold count
  rw [range_add_one, filter_insert]
  by_cases h : x n p = b
  · simp [h]
  · simp [h]

theorem countParticles_ok {npart nprof nbins : ℕ} {x : ℕ → ℕ → ℕ}
    (hx : InRange npart nprof nbins x) :
    countParticlesInBin (flat nprof nbins fun _ _ => (0 : K)) (xbuf npart nprof x) nprof npart nbins
      = .ok (flat nprof nbins (fun p b => (count npart x p b : K))) := by
  unfold countParticlesInBin xbuf
  rw [forN_eq (g := fun i => flat nprof nbins (fun p b => (count i x p b : K)))]
  · apply flat_congr; intro p b _ _; simp [count]
  · intro i hi
    rw [forN_eq (g := fun j => flat nprof nbins
      (fun p b => (count i x p b : K) + if p < j ∧ x i p = b then 1 else 0))]
    · congr 1; apply flat_congr; intro p b hp _
      rw [count_succ]; simp [hp]
    · apply flat_congr; intro p b _ _; simp
    · intro j hj
      have hb := hx i hi j hj
      rw [rd_flat _ hi hj rfl, bind_ok, rd_flat _ hj hb (by push_cast; ring), bind_ok,
        upd_flat _ _ hj hb (by push_cast; ring)]
      congr 1; apply flat_congr; intro p b _ _
      unfold upd2
      by_cases h : p = j ∧ b = x i j
      · obtain ⟨rfl, rfl⟩ := h; simp
      · rw [if_neg h]
        dsimp only
        congr 1
        apply if_congr _ rfl rfl
        constructor
        · rintro ⟨h1, h2⟩; exact ⟨by omega, h2⟩
        · rintro ⟨h1, h2⟩
          refine ⟨?_, h2⟩
          by_contra hc
          exact h ⟨by omega, by rw [← h2]; congr 1; omega⟩

theorem max1d_nat (n : ℕ) (c : ℕ → ℕ) :
    max1d (tab n (fun i => (c i : K))) n = .ok (((range n).sup c : ℕ) : K) := by
  unfold max1d
  rw [forN_eq (g := fun i => (((range i).sup c : ℕ) : K))]
  · simp
  · intro i hi
    rw [rd_tab _ hi, bind_ok, range_add_one, sup_insert]
    by_cases h : (((range i).sup c : ℕ) : K) < (c i : K)
    · rw [if_pos h]
      have h' : (range i).sup c < c i := by exact_mod_cast h
      simp [h'.le]
    · rw [if_neg h]
      have h' : c i ≤ (range i).sup c := by exact_mod_cast not_lt.mp h
      simp [h']

theorem sup_flat_range (n m : ℕ) (c : ℕ → ℕ → ℕ) :
    (range (n * m)).sup (fun k => c (k / m) (k % m)) = (range n).sup fun p => (range m).sup (c p) := by
  apply le_antisymm
  · apply Finset.sup_le
    intro k hk
    have hk := mem_range.mp hk
    refine le_trans ?_ (le_sup (f := fun p => (range m).sup (c p)) (mem_range.mpr (div_lt_of_lt_mul' hk)))
    exact le_sup (f := c (k / m)) (mem_range.mpr (mod_lt_of_lt_mul' hk))
  · apply Finset.sup_le; intro p hp
    apply Finset.sup_le; intro b hb
    have hp := mem_range.mp hp
    have hb := mem_range.mp hb
    have := le_sup (f := fun k => c (k / m) (k % m)) (mem_range.mpr (idx_lt hp hb))
    simpa [idx_div hb, idx_mod hb] using this

theorem reciprocal_ok {npart nprof nbins : ℕ} {x : ℕ → ℕ → ℕ} (hx : InRange npart nprof nbins x) :
    reciprocalParticles (flat nprof nbins fun _ _ => (0 : K)) (xbuf npart nprof x) nbins nprof npart
      = .ok (flat nprof nbins (recip K npart nprof nbins x)) := by
  unfold reciprocalParticles
  rw [countParticles_ok hx, bind_ok]
  have hm : max1d (flat nprof nbins (fun p b => (count npart x p b : K))) (nprof * nbins)
      = .ok (maxCount npart nprof nbins x : K) := by
    unfold flat
    rw [max1d_nat (nprof * nbins) (fun k => count npart x (k / nbins) (k % nbins)),
      sup_flat_range nprof nbins (count npart x)]
    rfl
  have hz : zerosToOnes (flat nprof nbins (fun p b => (count npart x p b : K))) (nprof * nbins)
      = .ok (flat nprof nbins (fun p b => ((max 1 (count npart x p b) : ℕ) : K))) := by
    unfold zerosToOnes flat
    apply pointLoop_eq
    intro i hi g hg
    rw [rd_tab g hi, bind_ok, hg]
    by_cases h : count npart x (i / nbins) (i % nbins) = 0
    · rw [if_pos (by simp [h]), upd_tab g _ hi]
      simp [h]
    · rw [if_neg (by dsimp only; exact_mod_cast h)]
      have : max 1 (count npart x (i / nbins) (i % nbins)) = count npart x (i / nbins) (i % nbins) := by
        omega
      simp only [pure_eq_ok, this]
      congr 1; apply tab_congr; intro k _
      by_cases hk : k = i
      · subst hk; simp [hg]
      · simp [hk]
  rw [hm, bind_ok, hz, bind_ok]
  unfold takeReciprocal
  apply gridLoop_eq
  intro i j hi hj g hg
  rw [rd_flat g hi hj rfl, bind_ok, hg, fdiv_ok, bind_ok, upd_flat g _ hi hj rfl]
  · rfl
  · have : max 1 (count npart x i j) ≠ 0 := by omega
    exact_mod_cast this

theorem prepare_ok {npart nprof nbins : ℕ} {x : ℕ → ℕ → ℕ} (hx : InRange npart nprof nbins x) :
    prepare (α := K) (xbuf npart nprof x) nbins npart nprof
      = .ok (flat nprof nbins (recip K npart nprof nbins x), fpbuf npart nprof nbins x) := by
  unfold prepare
  have : (tab (nprof * nbins) fun _ => (0 : K)) = flat nprof nbins fun _ _ => (0 : K) := rfl
  rw [this, reciprocal_ok hx, bind_ok, createFlatPoints_ok, bind_ok]; rfl

end Verif.Recon

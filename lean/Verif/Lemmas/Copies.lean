import Verif.Spec.Copies
import Verif.Lemmas.ReconSym

/-!
# Copies of particles (helper lemmas for C122)
-/

set_option linter.unusedSectionVars false

namespace Verif.Recon
open Finset Verif.Spec

variable {K : Type} [Field K] [LinearOrder K] [IsStrictOrderedRing K]
variable {c n n' P nb : ℕ} {φ : ℕ → ℕ} {x : ℕ → ℕ → ℕ} {wf : ℕ → ℕ → K}

theorem copies_sum (h : Copies c n n' φ) (g : ℕ → K) : ∑ i ∈ range n', g (φ i) = c * ∑ j ∈ range n, g j := by
  rw [← sum_fiberwise_of_maps_to (s := range n') (t := range n) (g := φ) fun i hi => mem_range.mpr (h.lt i (mem_range.mp hi)), mul_sum]
  apply sum_congr rfl
  intro j hj
  rw [sum_congr rfl (g := fun _ => g j) fun i hi => by rw [(mem_filter.mp hi).2], sum_const, h.card j (mem_range.mp hj), nsmul_eq_mul]

theorem copies_count (h : Copies c n n' φ) (p b : ℕ) : count n' (fun i => x (φ i)) p b = c * count n x p b := by
  have := copies_sum (K := ℚ) h fun j => if x j p = b then 1 else 0
  unfold count
  rw [← Nat.cast_inj (R := ℚ), Nat.cast_mul, card_filter, card_filter]
  push_cast
  exact this

theorem copies_max (h : Copies c n n' φ) : maxCount n' P nb (fun i => x (φ i)) = c * maxCount n P nb x := by
  unfold maxCount
  simp only [copies_count h]
  have s : ∀ (m : ℕ) (g : ℕ → ℕ), (range m).sup (fun b => c * g b) = c * (range m).sup g := by
    intro m g
    induction m with
    | zero => simp
    | succ m ih =>
      rw [range_add_one, sup_insert, sup_insert, ih]
      exact (mul_max_of_nonneg _ _ (Nat.zero_le c)).symm
  simp only [s]

theorem copies_recip (h : Copies c n n' φ) (hc : 0 < c) {i p : ℕ} (hi : i < n') :
    recip K n' P nb (fun i => x (φ i)) p (x (φ i) p) = recip K n P nb x p (x (φ i) p) := by
  have h1 : 0 < count n x p (x (φ i) p) := card_pos.mpr ⟨φ i, mem_filter.mpr ⟨mem_range.mpr (h.lt i hi), rfl⟩⟩
  unfold recip
  rw [copies_max h, copies_count h, max_eq_right (Nat.succ_le_of_lt (Nat.mul_pos hc h1)), max_eq_right (Nat.succ_le_of_lt h1)]
  push_cast
  exact mul_div_mul_left _ _ (by exact_mod_cast hc.ne')

theorem copies_proj (h : Copies c n n' φ) {w w' : ℕ → K} (hw : ∀ i, i < n' → w' i = w (φ i)) (p b : ℕ) :
    proj n' (fun i => x (φ i)) w' p b = c * proj n x w p b := by
  unfold proj
  rw [← copies_sum h]
  exact sum_congr rfl fun i hi => by rw [hw i (mem_range.mp hi)]

theorem copies_norm (hc : 0 < c) (f : ℕ → ℕ → K) : normRows nb (fun p b => (c : K) * f p b) = normRows nb f := by
  funext p b
  unfold normRows rowSum
  rw [← mul_sum]
  exact mul_div_mul_left _ _ (by exact_mod_cast hc.ne')

/-- the step from weights to weights, once the recreated profiles agree -/
theorem copies_step (h : Copies c n n' φ) (hc : 0 < c) {keep : Bool} {k : ℕ}
    (hw : ∀ i, i < n' → W keep n' P nb (fun i => x (φ i)) wf k i = W keep n P nb x wf k (φ i))
    (hr : R keep n' P nb (fun i => x (φ i)) wf (k + 1) = R keep n P nb x wf (k + 1)) :
    ∀ i, i < n' → W keep n' P nb (fun i => x (φ i)) wf (k + 1) i = W keep n P nb x wf (k + 1) (φ i) := by
  intro i hi
  show max (W keep n' P nb (fun i => x (φ i)) wf k i + ∑ p ∈ range P, (wf p (x (φ i) p) - R keep n' P nb (fun i => x (φ i)) wf (k + 1) p (x (φ i) p))
      * recip K n' P nb (fun i => x (φ i)) p (x (φ i) p)) 0
    = max (W keep n P nb x wf k (φ i) + ∑ p ∈ range P, (wf p (x (φ i) p) - R keep n P nb x wf (k + 1) p (x (φ i) p))
      * recip K n P nb x p (x (φ i) p)) 0
  rw [hw i hi, hr]
  congr 2
  exact sum_congr rfl fun p _ => by rw [copies_recip h hc hi]

theorem copies_first (h : Copies c n n' φ) (hc : 0 < c) (keep : Bool) :
    (∀ i, i < n' → W keep n' P nb (fun i => x (φ i)) wf 0 i = W keep n P nb x wf 0 (φ i)) ∧
    R keep n' P nb (fun i => x (φ i)) wf 1 = R keep n P nb x wf 1 := by
  have h0 : ∀ i, i < n' → W keep n' P nb (fun i => x (φ i)) wf 0 i = W keep n P nb x wf 0 (φ i) := fun _ _ => rfl
  refine ⟨h0, ?_⟩
  rw [R_succ, R_succ, ← copies_norm hc fun p b => (if keep then R keep n P nb x wf 0 p b else 0) + proj n x (W keep n P nb x wf 0) p b]
  congr 1
  funext p b
  rw [copies_proj h h0]
  simp [R, seq]

theorem copies_seq (h : Copies c n n' φ) (hc : 0 < c) (k : ℕ) :
    (∀ i, i < n' → W false n' P nb (fun i => x (φ i)) wf k i = W false n P nb x wf k (φ i)) ∧
    R false n' P nb (fun i => x (φ i)) wf (k + 1) = R false n P nb x wf (k + 1) := by
  induction k with
  | zero => exact copies_first h hc false
  | succ k ih =>
    have hw := copies_step h hc ih.1 ih.2
    refine ⟨hw, ?_⟩
    rw [R_succ false n' P nb _ wf (k + 1), R_succ false n P nb x wf (k + 1), ← copies_norm hc fun p b => (if false then R false n P nb x wf (k + 1) p b else 0) + proj n x (W false n P nb x wf (k + 1)) p b]
    congr 1
    funext p b
    rw [copies_proj h hw]
    simp

theorem copies_good (h : Copies c n n' φ) (hc : 0 < c) (k : ℕ) : Good false n' P nb (fun i => x (φ i)) wf k ↔ Good false n P nb x wf k := by
  have hc' : (0 : K) < c := by exact_mod_cast hc
  unfold Good
  refine forall₂_congr fun m _ => ?_
  rw [sum_congr rfl fun i hi => (copies_seq h hc m).1 i (mem_range.mp hi), copies_sum h]
  exact ⟨fun h => (mul_pos_iff_of_pos_left hc').mp h, fun h => mul_pos hc' h⟩

end Verif.Recon

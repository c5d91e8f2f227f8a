import Verif.Model.PhaseSpace
import Verif.Lemmas.Recon
import Mathlib.Algebra.BigOperators.Ring.Finset

/-!
# Lemmas about the phase-space image
-/

set_option linter.unusedSectionVars false

namespace Verif

/-- a loop that fails at step `k` -/
theorem forN_fail {σ : Type _} {n k : ℕ} {f : ℕ → σ → M σ} {s s' : σ} {e : Fault} (hk : k < n)
    (h1 : forN k f s = .ok s') (h2 : f k s' = .error e) : forN n f s = .error e := by
  induction n with
  | zero => omega
  | succ n ih =>
    rw [forN_succ]
    by_cases h : k = n
    · subst h; rw [h1, bind_ok, h2]
    · rw [ih (by omega), bind_error]

theorem sum_tab {K : Type _} [AddCommMonoid K] (n : ℕ) (f : ℕ → K) : (tab n f).sum = ∑ i ∈ Finset.range n, f i := by
  induction n with
  | zero => rfl
  | succ n ih =>
    rw [Finset.sum_range_succ, ← ih]
    unfold tab
    rw [List.range_succ, List.map_append, List.sum_append]
    simp

theorem sum_flat {K : Type _} [AddCommMonoid K] (n m : ℕ) (f : ℕ → ℕ → K) :
    (flat n m f).sum = ∑ i ∈ Finset.range n, ∑ j ∈ Finset.range m, f i j := by
  unfold flat
  rw [sum_tab]
  induction n with
  | zero => simp
  | succ n ih =>
    rw [Finset.sum_range_succ, ← ih, Nat.succ_mul, Finset.sum_range_add]
    congr 1
    apply Finset.sum_congr rfl
    intro j hj
    rw [idx_div (Finset.mem_range.mp hj), idx_mod (Finset.mem_range.mp hj)]

namespace Img
open Finset

variable {K : Type _} [AddCommMonoid K]

/-- the flat index the C++ code computes -/
def idx (nbins : ℕ) (x y : ℕ → ℤ) (i : ℕ) : ℤ := y i + x i * nbins

theorem cellLoop_ok {n nbins : ℕ} {x y : ℕ → ℤ} (w : ℕ → K) {k : ℕ} (hk : k ≤ n)
    (h : ∀ i, i < k → 0 ≤ idx nbins x y i ∧ idx nbins x y i < (nbins * nbins : ℕ)) :
    forN k (cellBody (tab n x) (tab n y) (tab n w) nbins) (tab (nbins * nbins) fun _ => 0)
      = .ok (tab (nbins * nbins) fun c => ∑ i ∈ range k, if idx nbins x y i = c then w i else 0) := by
  rw [forN_eq (g := fun k => tab (nbins * nbins) fun c => ∑ i ∈ range k, if idx nbins x y i = c then w i else 0)]
  · simp
  · intro i hi
    obtain ⟨h0, h1⟩ := h i hi
    obtain ⟨c, hc⟩ := Int.eq_ofNat_of_zero_le h0
    have hc' : c < nbins * nbins := by omega
    have hI : y i + x i * (nbins : ℤ) = c := hc
    unfold cellBody
    rw [rd_tab _ (by omega), bind_ok, rd_tab _ (by omega), bind_ok]
    dsimp only
    rw [hI, if_neg (by omega), rd_tab _ hc', bind_ok, rd_tab _ (by omega), bind_ok, upd_tab _ _ hc']
    congr 1; apply tab_congr; intro d _
    rw [sum_range_succ, hc]
    by_cases hd : d = c
    · subst hd; simp
    · have : ¬ ((c : ℤ) = d) := by omega
      simp [hd, this]

theorem cellBody_high {n nbins : ℕ} {x y : ℕ → ℤ} (w : ℕ → K) {k : ℕ} (hk : k < n) (ps : List K)
    (h : ((nbins * nbins : ℕ) : ℤ) ≤ idx nbins x y k) :
    cellBody (tab n x) (tab n y) (tab n w) nbins k ps = .error (.exc .outOfRange) := by
  unfold cellBody
  rw [rd_tab _ hk, bind_ok, rd_tab _ hk, bind_ok]
  exact if_pos h

theorem cellBody_low {n nbins : ℕ} {x y : ℕ → ℤ} (w : ℕ → K) {k : ℕ} (hk : k < n) (ps : List K)
    (h : idx nbins x y k < 0) :
    cellBody (tab n x) (tab n y) (tab n w) nbins k ps = .error .oob := by
  unfold cellBody
  rw [rd_tab _ hk, bind_ok, rd_tab _ hk, bind_ok]
  dsimp only
  have h' : y k + x k * (nbins : ℤ) < 0 := h
  rw [if_neg (by omega), rd_eq_oob _ (by omega), bind_error]

/-- all three outcomes of the loop -/
theorem makePhaseSpace_cases (n nbins : ℕ) (x y : ℕ → ℤ) (w : ℕ → K) :
    ((∀ i, i < n → 0 ≤ idx nbins x y i ∧ idx nbins x y i < (nbins * nbins : ℕ)) ∧
      makePhaseSpace (tab n x) (tab n y) (tab n w) nbins
        = .ok (tab (nbins * nbins) fun c => ∑ i ∈ range n, if idx nbins x y i = c then w i else 0)) ∨
    (∃ k, k < n ∧ (∀ i, i < k → 0 ≤ idx nbins x y i ∧ idx nbins x y i < (nbins * nbins : ℕ)) ∧
      ((((nbins * nbins : ℕ) : ℤ) ≤ idx nbins x y k ∧
        makePhaseSpace (tab n x) (tab n y) (tab n w) nbins = .error (.exc .outOfRange)) ∨
      (idx nbins x y k < 0 ∧ makePhaseSpace (tab n x) (tab n y) (tab n w) nbins = .error .oob))) := by
  unfold makePhaseSpace
  rw [length_tab]
  by_cases h : ∀ i, i < n → 0 ≤ idx nbins x y i ∧ idx nbins x y i < (nbins * nbins : ℕ)
  · exact Or.inl ⟨h, cellLoop_ok w le_rfl h⟩
  · right
    have hex : ∃ k, k < n ∧ ¬ (0 ≤ idx nbins x y k ∧ idx nbins x y k < (nbins * nbins : ℕ)) := by
      by_contra hc
      exact h fun i hi => by
        by_contra hb
        exact hc ⟨i, hi, hb⟩
    classical
    obtain ⟨hk, hb⟩ := Nat.find_spec hex
    have hmin : ∀ i, i < Nat.find hex → 0 ≤ idx nbins x y i ∧ idx nbins x y i < (nbins * nbins : ℕ) := by
      intro i hi
      by_contra hc
      exact Nat.find_min hex hi ⟨by omega, hc⟩
    refine ⟨Nat.find hex, hk, hmin, ?_⟩
    have hpre := cellLoop_ok (n := n) w hk.le hmin
    by_cases h0 : idx nbins x y (Nat.find hex) < 0
    · exact Or.inr ⟨h0, forN_fail hk hpre (cellBody_low w hk _ h0)⟩
    · have h1 : ((nbins * nbins : ℕ) : ℤ) ≤ idx nbins x y (Nat.find hex) := by omega
      exact Or.inl ⟨h1, forN_fail hk hpre (cellBody_high w hk _ h1)⟩

theorem column_arr {n m : ℕ} (f : ℕ → ℕ → ℤ) {j : ℕ} (hj : j < m) : column (arr n m f) (j : ℤ) = .ok (tab n fun i => f i j) := by
  have h0 : ¬ (j : ℤ) < 0 := by omega
  have h1 : 0 ≤ (j : ℤ) ∧ (j : ℤ) < (m : ℤ) := by omega
  unfold column
  dsimp only
  rw [arr_cols, if_neg h0, if_pos h1, arr_rows]
  unfold tab
  rw [List.mapM_map, mapM_ok (g := fun i => f i j)]
  intro i _
  change rd (tab m (f i)) (j : ℤ) = _
  rw [rd_tab _ hj]

theorem column_neg {n m : ℕ} (f : ℕ → ℕ → ℤ) {j : ℕ} (hj : 0 < j) (hjm : j ≤ m) :
    column (arr n m f) (-(j : ℤ)) = .ok (tab n fun i => f i (m - j)) := by
  rw [← column_arr f (show m - j < m by omega)]
  have h0 : -(j : ℤ) < 0 := by omega
  have h1 : ¬ ((m - j : ℕ) : ℤ) < 0 := by omega
  have : -(j : ℤ) + (m : ℤ) = ((m - j : ℕ) : ℤ) := by omega
  unfold column
  dsimp only
  rw [arr_cols, if_pos h0, if_neg h1, this]

theorem column_oob {n m : ℕ} (f : ℕ → ℕ → ℤ) {j : ℤ} (h : m ≤ j ∨ j < -m) :
    column (arr n m f) j = .error (.exc .indexError) := by
  unfold column
  dsimp only
  rw [arr_cols]
  split
  · rw [if_neg (by omega)]
  · rw [if_neg (by omega)]

/-- index of cell `(a, b)` -/
theorem idx_eq_iff {nbins a b : ℕ} {x y : ℕ → ℕ} {i : ℕ} (hy : y i < nbins) (hb : b < nbins) :
    idx nbins (fun i => x i) (fun i => y i) i = ((a * nbins + b : ℕ) : ℤ) ↔ x i = a ∧ y i = b := by
  unfold idx
  constructor
  · intro h
    have h' : x i * nbins + y i = a * nbins + b := by
      have : ((x i * nbins + y i : ℕ) : ℤ) = ((a * nbins + b : ℕ) : ℤ) := by push_cast at h ⊢; linarith
      exact_mod_cast this
    have h1 := congrArg (· / nbins) h'
    have h2 := congrArg (· % nbins) h'
    simp only [idx_div hy, idx_div hb, idx_mod hy, idx_mod hb] at h1 h2
    exact ⟨h1, h2⟩
  · rintro ⟨rfl, rfl⟩; push_cast; ring

theorem idx_range {nbins : ℕ} {x y : ℕ → ℕ} {i : ℕ} (hx : x i < nbins) (hy : y i < nbins) :
    0 ≤ idx nbins (fun i => x i) (fun i => y i) i ∧ idx nbins (fun i => x i) (fun i => y i) i < (nbins * nbins : ℕ) := by
  have := idx_lt hx hy
  unfold idx
  constructor
  · positivity
  · have : ((x i * nbins + y i : ℕ) : ℤ) < ((nbins * nbins : ℕ) : ℤ) := by exact_mod_cast this
    push_cast at this ⊢; linarith

theorem makePhaseSpace_inRange {n nbins : ℕ} {x y : ℕ → ℕ} (hx : ∀ i, i < n → x i < nbins) (hy : ∀ i, i < n → y i < nbins)
    (w : ℕ → K) :
    makePhaseSpace (tab n fun i => (x i : ℤ)) (tab n fun i => (y i : ℤ)) (tab n w) nbins
      = .ok (flat nbins nbins fun a b => ∑ i ∈ range n, if x i = a ∧ y i = b then w i else 0) := by
  rcases makePhaseSpace_cases n nbins (fun i => (x i : ℤ)) (fun i => (y i : ℤ)) w with ⟨_, h⟩ | ⟨k, hk, _, h⟩
  · rw [h]
    congr 1
    unfold flat
    apply tab_congr
    intro c hc
    apply sum_congr rfl
    intro i hi
    have hi' := mem_range.mp hi
    have hn : 0 < nbins := by have := hx i hi'; omega
    have hcc : c = c / nbins * nbins + c % nbins := by rw [Nat.mul_comm]; exact (Nat.div_add_mod c nbins).symm
    have := idx_eq_iff (a := c / nbins) (b := c % nbins) (x := x) (i := i) (hy i hi') (Nat.mod_lt c hn)
    rw [← hcc] at this
    exact if_congr this rfl rfl
  · obtain ⟨h0, h1⟩ := idx_range (hx k hk) (hy k hk)
    rcases h with ⟨h, _⟩ | ⟨h, _⟩ <;> omega

end Img
end Verif

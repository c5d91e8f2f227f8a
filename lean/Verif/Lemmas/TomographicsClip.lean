import Verif.Lemmas.TomographicsContour

/-! Lemmas on the clipping of weights in `utils/tomographics.py`. -/

set_option linter.unusedSectionVars false

namespace Verif.Graph
open Verif.Asrt Verif.Mch Verif.Pre Verif.Post Verif.Spec Finset

variable {K : Type} [Field K] [LinearOrder K] [IsStrictOrderedRing K]

theorem zeroAt_tab {n : ℕ} {f : ℕ → K} {idx : List ℕ} {w : List K} (h : zeroAt (tab n f) idx = .ok w) :
    w = tab n fun i => if i ∈ idx then 0 else f i := by
  unfold zeroAt at h
  split_ifs at h with hall
  rw [Except.ok.injEq] at h
  rw [← h]
  apply List.ext_getElem
  · simp
  · intro i h1 h2
    rw [List.getElem_mapIdx, getElem_tab, getElem_tab]

theorem fdiv_inv' {a b r : K} (h : FDiv.fdiv a b = .ok r) : b ≠ 0 ∧ r = a / b := by
  by_cases hb : b = 0
  · rw [hb, fdiv_zero] at h; cases h
  · rw [fdiv_ok hb, Except.ok.injEq] at h; exact ⟨hb, h.symm⟩

theorem npGet_getD {l : List K} {i : ℕ} {v : K} (h : npGet l (i : Int) = .ok v) : v = l.getD i 0 := by
  unfold npGet at h
  have h1 : ¬ ((i : Int) < 0) := by omega
  have h2 : (0 : Int) ≤ i := by omega
  simp only [h1, h2, if_false, if_true, Int.toNat_natCast] at h
  rw [List.getD_eq_getElem?_getD]
  cases hc : l[i]? with
  | none => rw [hc] at h; cases h
  | some b => rw [hc] at h; cases h; rfl

/-- the indices where a condition on both coordinates holds -/
theorem mem_where {n : ℕ} (x y : ℕ → K) (P : K × K → Bool) (j : ℕ) :
    j ∈ (List.range ((tab n x).zip (tab n y)).length).filter (fun k => (((tab n x).zip (tab n y))[k]?).any P) ↔ j < n ∧ P (x j, y j) := by
  rw [zip_tab, List.mem_filter, List.mem_range, length_tab]
  constructor
  · rintro ⟨h1, h2⟩
    rw [some_tab _ h1] at h2
    exact ⟨h1, h2⟩
  · rintro ⟨h1, h2⟩
    refine ⟨h1, ?_⟩
    rw [some_tab _ h1]
    exact h2

theorem extremeIdx_mem {sgn : K} {ys : List K} {idx : List ℕ} {k : ℕ} (h : extremeIdx sgn ys idx = .ok k) : k ∈ idx := by
  unfold extremeIdx at h
  obtain ⟨vs, _, h⟩ := bind_inv h
  obtain ⟨i, _, h⟩ := bind_inv h
  cases hi : idx[i]? with
  | none => rw [hi] at h; cases h
  | some v =>
    rw [hi] at h
    cases h
    exact List.mem_of_getElem? hi

/-- one time slice, in terms of times and energies -/
theorem clipStep_inv {np T m : ℕ} {x y t e H f : ℕ → K} (ht : t 0 < t 1) (he : e 0 < e 1) {i : ℕ} {idx : List ℕ} {hs : List K}
    (hH : ∀ i v, npGet hs (i : ℕ) = .ok v → v = H i) {r : List K × List ℕ}
    (h : clipStep (tab np x) (tab np y) (tab T t) (tab m e) hs i (tab np f, idx) = .ok r) :
    (∀ [∀ j, Decidable (OutOfContour t e H x y i j)], r.1 = tab np fun j => if OutOfContour t e H x y i j then 0 else f j) ∧
    (∀ k ∈ r.2, k ∈ idx ∨ (k < np ∧ InContour t e H x y i k)) ∧
    ((∃ j, (j < np ∧ InContour t e H x y i j) ∧ ∀ k, k < np → InContour t e H x y i k → k = j) → False) := by
  unfold clipStep at h
  obtain ⟨a1, g1, h⟩ := bind_inv h
  obtain ⟨a2, g2, h⟩ := bind_inv h
  obtain ⟨a3, g3, h⟩ := bind_inv h
  obtain ⟨a4, g4, h⟩ := bind_inv h
  obtain ⟨a5, g5, h⟩ := bind_inv h
  obtain ⟨a6, g6, h⟩ := bind_inv h
  obtain ⟨hh, g7, h⟩ := bind_inv h
  obtain ⟨lo, g8, h⟩ := bind_inv h
  obtain ⟨hi, g9, h⟩ := bind_inv h
  obtain ⟨up, g10, h⟩ := bind_inv h
  obtain ⟨down, g11, h⟩ := bind_inv h
  have val : ∀ {n : ℕ} {g : ℕ → K} {k : ℕ} {z : Int} {v : K}, z = k → npGet (tab n g) z = .ok v → v = g k := by
    intro n g k z v hz hv
    subst hz
    by_cases hk : k < n
    · rw [npGet_tab _ hk, Except.ok.injEq] at hv; exact hv.symm
    · rw [Prog.npGet_tab_end _ (by omega)] at hv; cases hv
  have e1 := val rfl g1
  have e2 := val (k := i + 1) (by push_cast; rfl) g2
  have e3 := val (k := 0) rfl g3
  have e4 := val (k := 1) rfl g4
  have e5 := val (k := 0) rfl g5
  have e6 := val (k := 1) rfl g6
  have e7 := hH i hh g7
  subst e1 e2 e3 e4 e5 e6 e7
  have hdt : 0 < t 1 - t 0 := by linarith
  have hde : 0 < e 1 - e 0 := by linarith
  obtain ⟨_, rfl⟩ := fdiv_inv' g8
  obtain ⟨_, rfl⟩ := fdiv_inv' g9
  obtain ⟨_, rfl⟩ := fdiv_inv' g10
  obtain ⟨_, rfl⟩ := fdiv_inv' g11
  have hslice : ∀ j, ((t i - t 0) / (t 1 - t 0) ≤ x j ∧ x j ≤ (t (i + 1) - t 0) / (t 1 - t 0)) ↔
      (t i ≤ t 0 + x j * (t 1 - t 0) ∧ t 0 + x j * (t 1 - t 0) ≤ t (i + 1)) := by
    intro j
    rw [div_le_iff₀ hdt, le_div_iff₀ hdt]
    constructor <;> rintro ⟨a, b⟩ <;> constructor <;> linarith
  have hout : ∀ j, (((t i - t 0) / (t 1 - t 0) ≤ x j ∧ x j ≤ (t (i + 1) - t 0) / (t 1 - t 0)) ∧
      ((H i - e 0) / (e 1 - e 0) ≤ y j ∨ y j ≤ (-H i - e 0) / (e 1 - e 0))) ↔ OutOfContour t e H x y i j := by
    intro j
    unfold OutOfContour
    rw [hslice, div_le_iff₀ hde, le_div_iff₀ hde]
    apply and_congr Iff.rfl
    constructor <;> rintro (a | a)
    · left; linarith
    · right; linarith
    · left; linarith
    · right; linarith
  have hin : ∀ j, (((t i - t 0) / (t 1 - t 0) ≤ x j ∧ x j ≤ (t (i + 1) - t 0) / (t 1 - t 0)) ∧
      (y j < (H i - e 0) / (e 1 - e 0) ∧ (-H i - e 0) / (e 1 - e 0) < y j)) ↔ InContour t e H x y i j := by
    intro j
    unfold InContour
    rw [hslice, lt_div_iff₀ hde, div_lt_iff₀ hde]
    apply and_congr Iff.rfl
    constructor <;> rintro ⟨a, b⟩ <;> constructor <;> linarith
  dsimp only at h
  obtain ⟨w, hw, h⟩ := bind_inv h
  have hw' := zeroAt_tab hw
  have hwout : ∀ [∀ j, Decidable (OutOfContour t e H x y i j)], w = tab np fun j => if OutOfContour t e H x y i j then 0 else f j := by
    intro _
    rw [hw']
    apply tab_congr
    intro j hj
    apply if_congr _ rfl rfl
    rw [mem_where]
    simp only [decide_eq_true_eq]
    rw [hout]
    exact ⟨fun h => h.2, fun h => ⟨hj, h⟩⟩
  set idxIn := (List.range ((tab np x).zip (tab np y)).length).filter (fun k => (((tab np x).zip (tab np y))[k]?).any fun q =>
    decide (((t i - t 0) / (t 1 - t 0) ≤ q.1 ∧ q.1 ≤ (t (i + 1) - t 0) / (t 1 - t 0)) ∧
      (q.2 < (H i - e 0) / (e 1 - e 0) ∧ (-H i - e 0) / (e 1 - e 0) < q.2))) with hidx
  have hmem : ∀ k, k ∈ idxIn ↔ k < np ∧ InContour t e H x y i k := by
    intro k
    rw [hidx, mem_where]
    simp only [decide_eq_true_eq]
    rw [hin]
  have hnd : idxIn.Nodup := List.Nodup.filter _ List.nodup_range
  have hone : (∃ j, (j < np ∧ InContour t e H x y i j) ∧ ∀ k, k < np → InContour t e H x y i k → k = j) → idxIn.length = 1 := by
    rintro ⟨j, hj, hu⟩
    rw [List.length_eq_one_iff]
    refine ⟨j, ?_⟩
    have h1 : ∀ k ∈ idxIn, k = j := fun k hk => hu k ((hmem k).mp hk).1 ((hmem k).mp hk).2
    have h2 : j ∈ idxIn := (hmem j).mpr hj
    have := List.eq_replicate_of_mem h1
    rw [this] at hnd h2 ⊢
    have hl : idxIn.length ≤ 1 := List.nodup_replicate.mp hnd
    have hl0 : idxIn.length ≠ 0 := fun h0 => by rw [h0] at h2; cases h2
    rw [show idxIn.length = 1 by omega]; rfl
  split_ifs at h with c1 c2
  · obtain ⟨mx, hmx, h⟩ := bind_inv h
    obtain ⟨mn, hmn, h⟩ := bind_inv h
    rw [pure_eq_ok, Except.ok.injEq] at h
    subst h
    refine ⟨hwout, ?_, fun hj => by have := hone hj; omega⟩
    intro k hk
    rcases List.mem_append.mp hk with hk | hk
    · exact Or.inl hk
    · right
      rw [← hmem]
      rcases List.mem_cons.mp hk with rfl | hk
      · exact extremeIdx_mem hmn
      · rcases List.mem_cons.mp hk with rfl | hk
        · exact extremeIdx_mem hmx
        · cases hk
  · rw [pure_eq_ok, Except.ok.injEq] at h
    subst h
    exact ⟨hwout, fun k hk => Or.inl hk, fun hj => c2 (hone hj)⟩

end Verif.Graph

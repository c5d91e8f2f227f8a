import Verif.Lemmas.Particles

/-! Helper lemmas about `Model/PhaseSpaceInfo.lean`. -/

set_option linter.unusedSectionVars false

namespace Verif.Psi
open Verif.Asrt Verif.Mch

theorem mapM_length {γ β : Type _} {f : γ → M β} {l : List γ} {r : List β} (h : l.mapM f = .ok r) : r.length = l.length := by
  induction l generalizing r with
  | nil => simp only [List.mapM_nil] at h; cases h; rfl
  | cons a l ih =>
    rw [List.mapM_cons] at h
    simp only [bind_ok_iff] at h
    obtain ⟨b, _, r', hr', h'⟩ := h
    cases h'
    rw [List.length_cons, List.length_cons, ih hr']

theorem mapM_getElem {γ β : Type _} {f : γ → M β} {l : List γ} {r : List β} (h : l.mapM f = .ok r) {i : ℕ} {x : γ}
    (hx : l[i]? = some x) : ∃ y, f x = .ok y ∧ r[i]? = some y := by
  induction l generalizing r i with
  | nil => simp at hx
  | cons a l ih =>
    rw [List.mapM_cons] at h
    simp only [bind_ok_iff] at h
    obtain ⟨b, hb, r', hr', h'⟩ := h
    cases h'
    cases i with
    | zero => simp at hx; subst hx; exact ⟨b, hb, rfl⟩
    | succ i => simpa using ih hr' (by simpa using hx)

theorem rd_some {α : Type _} {l : List α} {i : ℕ} {v : α} : rd l (i : ℤ) = .ok v ↔ l[i]? = some v := by
  unfold rd
  rw [if_pos (by omega), Int.toNat_natCast]
  cases l[i]? <;> simp

theorem go_some {jmin jmax : List ℤ} {is : List ℕ} {r : Option ℤ} (h : findMinBinnedPhase.go jmin jmax is = .ok r) :
    ∀ z, r = some z → ∃ i : ℕ, i ∈ is ∧ z = i ∧ ∃ a b, jmax[i]? = some a ∧ jmin[i]? = some b ∧ b ≤ a := by
  induction is generalizing r with
  | nil =>
    unfold findMinBinnedPhase.go at h
    cases h
    intro z hz; cases hz
  | cons i is ih =>
    unfold findMinBinnedPhase.go at h
    simp only [bind_ok_iff] at h
    obtain ⟨a, ha, b, hb, h⟩ := h
    intro z hz
    split at h
    · cases h
      cases hz
      exact ⟨i, by simp, rfl, a, b, rd_some.mp ha, rd_some.mp hb, by omega⟩
    · obtain ⟨i', h1, h2⟩ := ih h z hz
      exact ⟨i', by simp [h1], h2⟩

/-- the search fails when no listed column is valid -/
theorem go_none {jmin jmax : List ℤ} {is : List ℕ}
    (h : ∀ i ∈ is, ∃ a b, jmax[i]? = some a ∧ jmin[i]? = some b ∧ a < b) : findMinBinnedPhase.go jmin jmax is = .ok none := by
  induction is with
  | nil => rfl
  | cons i is ih =>
    unfold findMinBinnedPhase.go
    obtain ⟨a, b, h1, h2, h3⟩ := h i (by simp)
    rw [rd_some.mpr h1, bind_ok, rd_some.mpr h2, bind_ok, if_neg (by omega)]
    exact ih fun i hi => h i (by simp [hi])

theorem length_npSetSlice {α : Type _} (l : List α) (a b : ℤ) (v : α) : (npSetSlice l a b v).length = l.length := by
  simp [npSetSlice]

theorem getElem?_npSetSlice {α : Type _} (l : List α) (a b : ℤ) (v : α) (i : ℕ) :
    (npSetSlice l a b v)[i]? = (l[i]?).map fun x => if sliceIdx l.length a ≤ i ∧ i < sliceIdx l.length b then v else x := by
  simp [npSetSlice]

theorem getElem?_npSlice {α : Type _} (l : List α) (a b : ℕ) (hb : b ≤ l.length) (i : ℕ) :
    (npSlice l a b)[i]? = if a + i < b then l[a + i]? else none := by
  have h1 : sliceIdx l.length (a : ℤ) = min a l.length := by simp [sliceIdx]
  have h2 : sliceIdx l.length (b : ℤ) = b := by simp [sliceIdx, hb]
  unfold npSlice
  dsimp only
  rw [h1, h2, List.getElem?_drop, List.getElem?_take]
  by_cases h : a + i < b
  · rw [if_pos h]
    rw [if_pos (by omega)]
    congr 1; omega
  · rw [if_neg h]
    split
    · omega
    · rfl

theorem length_npSlice {α : Type _} (l : List α) (a b : ℕ) (hb : b ≤ l.length) : (npSlice l a b).length = b - a := by
  have h1 : sliceIdx l.length (a : ℤ) = min a l.length := by simp [sliceIdx]
  have h2 : sliceIdx l.length (b : ℤ) = b := by simp [sliceIdx, hb]
  unfold npSlice
  dsimp only
  rw [h1, h2, List.length_drop, List.length_take]
  omega

theorem assertJlimitsOk_ok {jmin jmax : List ℤ} (h : assertJlimitsOk jmin jmax = .ok ()) :
    jmin.length = jmax.length ∧ ∃ (i : ℕ) (a b : ℤ), jmin[i]? = some a ∧ jmax[i]? = some b ∧ a < b := by
  unfold assertJlimitsOk at h
  split at h
  · cases h
  · rename_i hl
    split at h
    · cases h
    · rename_i hn
      refine ⟨by simpa using hl, ?_⟩
      rw [List.all_eq_true] at hn
      push Not at hn
      obtain ⟨c, hc, hcf⟩ := hn
      obtain ⟨i, hi⟩ := List.mem_iff_getElem?.mp hc
      rw [List.getElem?_zipWith] at hi
      cases h1 : jmin[i]? with
      | none => rw [h1] at hi; simp at hi
      | some a =>
        cases h2 : jmax[i]? with
        | none => rw [h1, h2] at hi; simp at hi
        | some b =>
          rw [h1, h2] at hi
          simp only [Option.some.injEq] at hi
          subst hi
          simp at hcf
          exact ⟨i, a, b, h1, h2, hcf⟩

/-- what the final assertion guarantees -/
theorem assertCorrect_ok {nbins : ℕ} {l : Limits} (h : assertCorrectIjlimits nbins l = .ok ()) :
    0 ≤ l.imin ∧ l.imin ≤ l.imax ∧ l.imax ≤ l.jmax.length ∧ l.jmin.length = l.jmax.length ∧
    (∀ i : ℕ, l.imin ≤ i → (i : ℤ) < l.imax → ∃ a b, l.jmin[i]? = some a ∧ l.jmax[i]? = some b ∧ 0 ≤ a ∧ a ≤ b ∧ b ≤ nbins) ∧
    ∃ (i : ℕ) (a b : ℤ), l.jmin[i]? = some a ∧ l.jmax[i]? = some b ∧ a < b := by
  unfold assertCorrectIjlimits at h
  dsimp only at h
  simp only [bind_ok_iff, (assertInrange_checks _ _ _ _).ok_iff, (assertLessOrEqual_checks _ _ _).ok_iff,
    (assertEqual_checks _ _ _).ok_iff] at h
  obtain ⟨_, ⟨h1, h2⟩, _, h3, _, h4, _, h5, _, h6, _, h7, h8⟩ := h
  have hl : l.jmin.length = l.jmax.length := by exact_mod_cast h7
  obtain ⟨a0, ha0⟩ := Int.eq_ofNat_of_zero_le h1
  obtain ⟨b0, hb0⟩ := Int.eq_ofNat_of_zero_le (h1.trans h2)
  rw [ha0, hb0] at h4 h5 h6
  have hbl : b0 ≤ l.jmax.length := by omega
  refine ⟨h1, h2, h3, hl, ?_, (assertJlimitsOk_ok h8).2⟩
  intro i hi1 hi2
  have hi : i < l.jmax.length := by omega
  obtain ⟨k, rfl⟩ : ∃ k, i = a0 + k := ⟨i - a0, by omega⟩
  have g1 := getElem?_npSlice l.jmin a0 b0 (by omega) k
  have g2 := getElem?_npSlice l.jmax a0 b0 hbl k
  rw [if_pos (by omega)] at g1 g2
  obtain ⟨a, ha⟩ : ∃ a, l.jmin[a0 + k]? = some a := ⟨_, List.getElem?_eq_getElem (by omega)⟩
  obtain ⟨b, hb⟩ : ∃ b, l.jmax[a0 + k]? = some b := ⟨_, List.getElem?_eq_getElem (by omega)⟩
  refine ⟨a, b, ha, hb, ?_⟩
  have h5' : ¬ (a < 0) ∧ ¬ (b < a) := by
    unfold assertLogArr at h5
    split at h5
    · rename_i hall
      rw [List.all_eq_true] at hall
      have := hall (!(decide (a < 0) || decide (b < a))) (by
        rw [List.mem_iff_getElem?]
        refine ⟨k, ?_⟩
        rw [List.getElem?_zipWith, g1, g2, ha, hb])
      simpa using this
    · cases h5
  have h6' : b ≤ nbins := by
    unfold assertArrayLessEq at h6
    have := (assertLogArr_checks (npSlice l.jmax (a0 : ℤ) b0) (fun x => decide ((nbins : ℤ) < x)) .energyLimitsError).ok_iff.mp h6 b
      (List.mem_iff_getElem?.mpr ⟨k, by rw [g2, hb]⟩)
    simpa using this
  omega

variable {K : Type} [Field K] [LinearOrder K] [IsStrictOrderedRing K] [FloorRing K]

theorem findMaxBinnedEnergy_le {L : MathLib K} {m : Area K} {phases : List K} {turn : ℤ} {dE : K} {jmax : List ℤ}
    (h : findMaxBinnedEnergy L m phases turn dE = .ok jmax) : jmax.length = m.nbins ∧ ∀ j ∈ jmax, j ≤ m.nbins := by
  unfold findMaxBinnedEnergy at h
  simp only [bind_ok_iff] at h
  obtain ⟨_, _, _, _, low, _, up, _, h⟩ := h
  refine ⟨by rw [mapM_length h, List.length_range], ?_⟩
  intro j hj
  obtain ⟨i, hi⟩ := List.mem_iff_getElem?.mp hj
  have hlt : i < m.nbins := by
    have h1 := mapM_length h
    have h2 := (List.getElem?_eq_some_iff.mp hi).1
    rw [h1, List.length_range] at h2; exact h2
  obtain ⟨y, hy, hy'⟩ := mapM_getElem h (i := i) (x := i) (by simp [hlt])
  rw [hi] at hy'
  cases hy'
  simp only [bind_ok_iff] at hy
  obtain ⟨u0, _, u1, _, l0, _, l1, _, hy⟩ := hy
  cases hy
  omega

theorem length_findMin (m : Area K) (jmax : List ℤ) : (findMinBinnedEnergy m jmax).length = jmax.length := by
  simp [findMinBinnedEnergy]

/-- result of `_adjust_limits`, case by case -/
theorem adjustLimits_ok {m : Area K} {jmin jmax : List ℤ} {imin imax : Option ℤ} {l : Limits}
    (h : adjustLimits m jmin jmax imin imax = .ok l) :
    m.dtbin ≠ 0 ∧ ∃ a b, imin = some a ∧ imax = some b ∧
      let maxb := ⌈m.maxDt / m.dtbin⌉
      let minb := trunc (m.minDt / m.dtbin)
      let cutLow := minb > a ∨ m.fullPp = true
      let cutHigh := maxb < b ∨ m.fullPp = true
      let jmax1 := if cutLow then npSetSlice jmax 0 minb ⌊m.synchPartY⌋ else jmax
      let jmax2 := if cutHigh then npSetSlice jmax1 maxb m.nbins ⌊m.synchPartY⌋ else jmax1
      l.jmax = jmax2 ∧
      l.jmin = (if cutLow ∨ cutHigh then jmax2.map fun (j : Int) => ⌈2 * m.synchPartY - (j : K) + 1 / 2⌉ else jmin) ∧
      l.imin = (if cutLow then minb else a) ∧ l.imax = (if cutHigh then maxb - 1 else b) := by
  unfold adjustLimits at h
  have hd : m.dtbin ≠ 0 := by
    intro h0
    rw [h0, fdiv_zero] at h; simp at h
  rw [fdiv_ok hd, bind_ok, fdiv_ok hd, bind_ok] at h
  dsimp only at h
  cases imin with
  | none => simp [notNone] at h
  | some a =>
    cases imax with
    | none =>
      simp only [notNone, bind_ok] at h
      split at h <;> simp at h
    | some b =>
      refine ⟨hd, a, b, rfl, rfl, ?_⟩
      simp only [notNone, bind_ok] at h
      dsimp only
      by_cases c1 : trunc (m.minDt / m.dtbin) > a ∨ m.fullPp = true <;>
        by_cases c2 : ⌈m.maxDt / m.dtbin⌉ < b ∨ m.fullPp = true
      · simp only [if_pos c1, if_pos c2, pure_eq_ok, Except.ok.injEq] at h
        subst h
        simp only [if_pos c1, if_pos c2, if_pos (Or.inl c1 : _ ∨ _), and_self]
      · simp only [if_pos c1, if_neg c2, pure_eq_ok, Except.ok.injEq] at h
        subst h
        simp only [if_pos c1, if_neg c2, if_pos (Or.inl c1 : _ ∨ _), and_self]
      · simp only [if_neg c1, if_pos c2, pure_eq_ok, Except.ok.injEq] at h
        subst h
        simp only [if_neg c1, if_pos c2, if_pos (Or.inr c2 : _ ∨ _), and_self]
      · simp only [if_neg c1, if_neg c2, pure_eq_ok, Except.ok.injEq] at h
        subst h
        simp only [if_neg c1, if_neg c2, if_neg (not_or.mpr ⟨c1, c2⟩), and_self]

end Verif.Psi

import Verif.Spec.Programs
import Verif.Model.Programs
import Verif.Lemmas.SelfField
import Verif.Lemmas.PostProcess
import Verif.Lemmas.PreProcess
import Mathlib.Algebra.Order.Archimedean.Basic
import Mathlib.Data.Finset.Card

/-! # The interpolated turns are the turns of the specification -/

set_option linter.unusedSectionVars false

namespace Verif.Prog
open Spec Mch
variable {K : Type} [Field K] [LinearOrder K] [IsStrictOrderedRing K]

/-- the program given to the machine: `n` points, increasing times, positive momenta; `T` is the revolution period and `P` the
straight lines between the points -/
structure Given (L : MathLib K) (a : PArgs K) (n : ℕ) (τ μ : ℕ → K) (T P : K → K) : Prop where
  time : a.momTime = tab n τ
  val : a.momVal = tab n μ
  pos : 0 < n
  mono : ∀ k, k + 1 < n → τ k < τ (k + 1)
  mom : ∀ k, k < n → 0 < μ k
  follows : Follows n τ μ P
  period : ∀ p, 0 < p → period L a p = .ok (T p)
  Tpos : ∀ p, 0 < p → 0 < T p

theorem npGet_tabz {α : Type _} {n k : ℕ} (f : ℕ → α) {z : Int} (hz : z = k) (h : k < n) : npGet (tab n f) z = .ok (f k) := by
  subst hz; exact npGet_tab f h

theorem npGet_tab_end {α : Type _} {n k : ℕ} (f : ℕ → α) (h : n ≤ k) : npGet (tab n f) (k : Int) = .error (.exc .indexError) := by
  unfold npGet
  have h1 : ¬ ((k : Int) < 0) := by omega
  simp only [h1, if_false]
  rw [if_pos (by omega)]
  have : (tab n f)[(k : Int).toNat]? = none := by
    rw [getElem?_tab]; simp; omega
  rw [this]

theorem tab_snoc {α : Type _} {n : ℕ} (f : ℕ → α) {v : α} (hv : v = f n) : tab n f ++ [v] = tab (n + 1) f := by
  subst hv; simp [tab, List.range_succ]

theorem follows_pos {n : ℕ} {τ μ : ℕ → K} {P : K → K} (h : Follows n τ μ P) (hm : ∀ k, k < n → 0 < μ k)
    (ht : ∀ k, k + 1 < n → τ k < τ (k + 1)) {k : ℕ} (hk : k + 1 < n) {t : K} (h1 : τ k ≤ t) (h2 : t ≤ τ (k + 1)) :
    0 < P t := by
  rw [h k hk t h1 h2]
  have hd : 0 < τ (k + 1) - τ k := sub_pos.2 (ht k hk)
  have ha := hm k (by omega)
  have hb := hm (k + 1) hk
  have : μ k + (μ (k + 1) - μ k) * (t - τ k) / (τ (k + 1) - τ k)
      = (μ k * (τ (k + 1) - t) + μ (k + 1) * (t - τ k)) / (τ (k + 1) - τ k) := by
    field_simp; ring
  rw [this]
  apply div_pos _ hd
  rcases eq_or_lt_of_le h1 with h | h
  · subst h
    have := mul_pos ha hd
    linarith [sub_self (τ k), mul_zero (μ (k + 1)), this]
  · have e1 := mul_pos hb (sub_pos.2 h)
    have e2 := mul_nonneg ha.le (sub_nonneg.2 h2)
    linarith

section
variable {L : MathLib K} {a : PArgs K} {n : ℕ} {τ μ : ℕ → K} {T P : K → K} {tref : K}

/-- state of the loops after `s.i` interpolated turns -/
structure Inv (a : PArgs K) (n : ℕ) (τ μ : ℕ → K) (T P : K → K) (tref : K) (s : IS K) : Prop where
  ti : s.ti = tab (s.i + 2) fun j => (turn T P (τ 0) (μ 0) j).1
  mi : s.mi = tab (s.i + 1) fun j => (turn T P (τ 0) (μ 0) j).2
  pos : ∀ j, j ≤ s.i → 0 < (turn T P (τ 0) (μ 0) j).2
  low : (s.k = 0 ∧ s.i = 0) ∨ ∃ k', s.k = k' + 1 ∧ k' < n ∧ τ k' < (turn T P (τ 0) (μ 0) (s.i + 1)).1
  turn : s.turn = a.machineRefFrame * a.dturns
    + (((Finset.range s.i).filter fun j => tref < (turn T P (τ 0) (μ 0) (j + 2)).1).card : ℕ)

theorem inv_init (hG : Given L a n τ μ T P) :
    Inv a n τ μ T P tref ⟨[τ 0 + T (μ 0), τ 0 + T (μ 0) + T (μ 0)], [μ 0], 0, a.machineRefFrame * a.dturns, 0⟩ where
  ti := rfl
  mi := rfl
  pos := by
    intro j hj
    have : j = 0 := by simpa using hj
    subst this
    exact hG.mom 0 hG.pos
  low := Or.inl ⟨rfl, rfl⟩
  turn := by simp

/-- the first turn interpolated lies after the first point of the program -/
theorem low_pos (hG : Given L a n τ μ T P) {s : IS K} (hI : Inv a n τ μ T P tref s)
    (hc : (turn T P (τ 0) (μ 0) (s.i + 1)).1 ≤ τ s.k) :
    ∃ k', s.k = k' + 1 ∧ τ k' < (turn T P (τ 0) (μ 0) (s.i + 1)).1 := by
  rcases hI.low with ⟨h1, h2⟩ | ⟨k', h, _, h'⟩
  · exfalso
    rw [h1, h2] at hc
    have := hG.Tpos _ (hG.mom 0 hG.pos)
    have he : (turn T P (τ 0) (μ 0) (0 + 1)).1 = τ 0 + T (μ 0) + T (μ 0) := rfl
    rw [he] at hc
    linarith
  · exact ⟨k', h, h'⟩

theorem card_step (f : ℕ → K) (i : ℕ) (x : K) :
    ((Finset.range (i + 1)).filter fun j => x < f j).card
      = ((Finset.range i).filter fun j => x < f j).card + if x < f i then 1 else 0 := by
  rw [Finset.range_add_one, Finset.filter_insert]
  split
  · rw [Finset.card_insert_of_notMem (by simp)]
  · simp

theorem innerBody_ok (hG : Given L a n τ μ T P) (ht : a.tRef = some tref) {s : IS K} (hI : Inv a n τ μ T P tref s)
    (hk : s.k < n) (hc : (turn T P (τ 0) (μ 0) (s.i + 1)).1 ≤ τ s.k) :
    ∃ s', innerBody L a s = .ok s' ∧ Inv a n τ μ T P tref s' ∧ s'.i = s.i + 1 ∧ s'.k = s.k := by
  obtain ⟨k', hk', hlow⟩ := low_pos hG hI hc
  have hkn : k' + 1 < n := by omega
  rw [hk'] at hc
  have hmom : (turn T P (τ 0) (μ 0) (s.i + 1)).2
      = μ k' + (μ (k' + 1) - μ k') * ((turn T P (τ 0) (μ 0) (s.i + 1)).1 - τ k') / (τ (k' + 1) - τ k') :=
    hG.follows k' hkn _ hlow.le hc
  have hpos : 0 < (turn T P (τ 0) (μ 0) (s.i + 1)).2 := follows_pos hG.follows hG.mom hG.mono hkn hlow.le hc
  have hne : τ (k' + 1) - τ k' ≠ 0 := (sub_pos.2 (hG.mono k' hkn)).ne'
  have hrun : innerBody L a s = .ok ⟨tab (s.i + 1 + 2) fun j => (turn T P (τ 0) (μ 0) j).1,
      tab (s.i + 1 + 1) fun j => (turn T P (τ 0) (μ 0) j).2, s.i + 1,
      if tref < (turn T P (τ 0) (μ 0) (s.i + 2)).1 then s.turn + 1 else s.turn, s.k⟩ := by
    unfold innerBody
    rw [hI.ti, npGet_tabz (k := s.i + 1) _ (by push_cast; ring) (by omega), bind_ok, hG.val, hG.time,
      npGet_tabz (k := k') _ (by omega) (by omega), bind_ok, npGet_tabz (k := k' + 1) _ (by omega) (by omega), bind_ok,
      npGet_tabz (k := k') _ (by omega) (by omega), bind_ok, npGet_tabz (k := k' + 1) _ (by omega) (by omega), bind_ok,
      fdiv_ok hne, bind_ok, hI.mi]
    dsimp only
    rw [tab_snoc (n := s.i + 1) (fun j => (Spec.turn T P (τ 0) (μ 0) j).2) hmom.symm,
      npGet_tabz (k := s.i + 1) _ (by push_cast; ring) (by omega), bind_ok, hG.period _ hpos, bind_ok,
      show (tab (s.i + 2) fun j => (Spec.turn T P (τ 0) (μ 0) j).1)
          ++ [(Spec.turn T P (τ 0) (μ 0) (s.i + 1)).1 + T (Spec.turn T P (τ 0) (μ 0) (s.i + 1)).2]
        = tab (s.i + 2 + 1) fun j => (Spec.turn T P (τ 0) (μ 0) j).1 from tab_snoc _ rfl,
      npGet_tabz (k := s.i + 2) _ (by push_cast; ring) (by omega), bind_ok, ht]
    rfl
  refine ⟨_, hrun, ⟨rfl, rfl, ?_, ?_, ?_⟩, rfl, rfl⟩
  · intro j hj
    rcases Nat.lt_or_ge s.i j with h | h
    · have : j = s.i + 1 := by
        have : j ≤ s.i + 1 := hj
        omega
      subst this; exact hpos
    · exact hI.pos j h
  · refine Or.inr ⟨k', hk', by omega, ?_⟩
    show τ k' < (Spec.turn T P (τ 0) (μ 0) (s.i + 1)).1 + T (Spec.turn T P (τ 0) (μ 0) (s.i + 1)).2
    have := hG.Tpos _ hpos
    linarith
  · show (if tref < (Spec.turn T P (τ 0) (μ 0) (s.i + 2)).1 then s.turn + 1 else s.turn) = _
    dsimp only
    rw [card_step (fun j => (Spec.turn T P (τ 0) (μ 0) (j + 2)).1) s.i tref, hI.turn]
    split <;> push_cast <;> ring

theorem inner_step (hG : Given L a n τ μ T P) {s : IS K} (hI : Inv a n τ μ T P tref s) (hk : s.k < n) (fuel : ℕ) :
    inner L a (fuel + 1) s = if (turn T P (τ 0) (μ 0) (s.i + 1)).1 ≤ τ s.k then (do
      let s' ← innerBody L a s
      inner L a fuel s') else .ok s := by
  show (do
    let t ← npGet s.ti ((s.i : Int) + 1)
    let tk ← npGet a.momTime (s.k : Int)
    if t ≤ tk then do
      let s' ← innerBody L a s
      inner L a fuel s'
    else pure s) = _
  rw [hI.ti, npGet_tabz (k := s.i + 1) _ (by push_cast; ring) (by omega), bind_ok, hG.time, npGet_tab _ hk, bind_ok]
  rfl

theorem inner_end (hG : Given L a n τ μ T P) {s : IS K} (hI : Inv a n τ μ T P tref s) (hk : n ≤ s.k) (fuel : ℕ) :
    inner L a (fuel + 1) s = .error (.exc .indexError) := by
  show (do
    let t ← npGet s.ti ((s.i : Int) + 1)
    let tk ← npGet a.momTime (s.k : Int)
    if t ≤ tk then do
      let s' ← innerBody L a s
      inner L a fuel s'
    else pure s) = _
  rw [hI.ti, npGet_tabz (k := s.i + 1) _ (by push_cast; ring) (by omega), bind_ok, hG.time, npGet_tab_end _ hk]
  rfl

/-- what the inner loop leaves behind -/
theorem inner_inv (hG : Given L a n τ μ T P) (ht : a.tRef = some tref) (fuel : ℕ) {s s' : IS K}
    (hI : Inv a n τ μ T P tref s) (h : inner L a fuel s = .ok s') :
    s.k < n ∧ Inv a n τ μ T P tref s' ∧ s'.k = s.k ∧ s.i ≤ s'.i ∧ τ s.k < (turn T P (τ 0) (μ 0) (s'.i + 1)).1 := by
  induction fuel generalizing s with
  | zero => exact absurd h (by simp [inner])
  | succ fuel ih =>
    rcases Nat.lt_or_ge s.k n with hk | hk
    · rw [inner_step hG hI hk] at h
      by_cases hc : (turn T P (τ 0) (μ 0) (s.i + 1)).1 ≤ τ s.k
      · obtain ⟨s1, hr, hI1, hi1, hk1⟩ := innerBody_ok hG ht hI hk hc
        rw [if_pos hc, hr, bind_ok] at h
        obtain ⟨_, h2, h3, h4, h5⟩ := ih hI1 h
        rw [hk1] at h3 h5
        exact ⟨hk, h2, h3, by omega, h5⟩
      · rw [if_neg hc] at h
        cases h
        exact ⟨hk, hI, rfl, le_refl _, not_le.1 hc⟩
    · rw [inner_end hG hI hk] at h
      cases h

theorem next_point {s : IS K} (hk : s.k < n) (hI : Inv a n τ μ T P tref s)
    (h : τ s.k < (turn T P (τ 0) (μ 0) (s.i + 1)).1) : Inv a n τ μ T P tref { s with k := s.k + 1 } :=
  ⟨hI.ti, hI.mi, hI.pos, Or.inr ⟨s.k, rfl, hk, h⟩, hI.turn⟩

theorem outer_inv (hG : Given L a n τ μ T P) (ht : a.tRef = some tref) (nturns : Int) (fuel m : ℕ) {s s' : IS K}
    (hI : Inv a n τ μ T P tref s) (h : outer L a nturns fuel m s = .ok s') :
    Inv a n τ μ T P tref s' ∧ nturns ≤ s'.turn := by
  induction m generalizing s with
  | zero => exact absurd h (by simp [outer])
  | succ m ih =>
    unfold outer at h
    by_cases hc : s.turn < nturns
    · rw [if_pos hc, Asrt.bind_ok_iff] at h
      obtain ⟨s1, h1, h2⟩ := h
      obtain ⟨hk, hI1, hk1, _, hlt⟩ := inner_inv hG ht fuel hI h1
      refine ih (next_point (by omega) hI1 ?_) h2
      rw [hk1]; exact hlt
    · rw [if_neg hc] at h
      cases h
      exact ⟨hI, not_lt.1 hc⟩

theorem turn_succ_fst (T P : K → K) (t0 p0 : K) (j : ℕ) :
    (turn T P t0 p0 (j + 1)).1 = (turn T P t0 p0 j).1 + T (turn T P t0 p0 j).2 := rfl

theorem turn_lt (hT : ∀ p, 0 < p → 0 < T p) {t0 p0 : K} {i : ℕ} (hp : ∀ j, j ≤ i → 0 < (turn T P t0 p0 j).2) {j k : ℕ}
    (hjk : j < k) (hk : k ≤ i + 1) : (turn T P t0 p0 j).1 < (turn T P t0 p0 k).1 := by
  induction k with
  | zero => omega
  | succ k ih =>
    have h1 := hT _ (hp k (by omega))
    rw [turn_succ_fst]
    rcases Nat.lt_or_ge j k with h | h
    · have := ih h (by omega); linarith
    · have : j = k := by omega
      subst this; linarith

theorem findIdx_tab {m : ℕ} {f : ℕ → K} {x : K} {j : ℕ} (h : (tab m f).findIdx? (fun v => decide (x ≤ v)) = some j) :
    j < m ∧ FirstAt f x j := by
  rw [List.findIdx?_eq_some_iff_getElem] at h
  obtain ⟨h1, h2, h3⟩ := h
  rw [length_tab] at h1
  refine ⟨h1, ?_, ?_⟩
  · simpa using h2
  · intro i hi
    have := h3 i hi
    simpa using this

theorem findIdx_tab_none {m : ℕ} {f : ℕ → K} {x : K} (h : (tab m f).findIdx? (fun v => decide (x ≤ v)) = none) :
    ∀ i, i < m → f i < x := by
  rw [List.findIdx?_eq_none_iff] at h
  intro i hi
  have := h (f i) (by unfold tab; exact List.mem_map.2 ⟨i, List.mem_range.2 hi, rfl⟩)
  simpa using this

/-- how many turns are counted, compared with the first turn at or after the reference time -/
theorem count_le {f : ℕ → K} {x : K} {i j : ℕ} (h : FirstAt f x j) (hj : j ≤ i) :
    j + ((Finset.range i).filter fun l => x < f (l + 2)).card ≤ i + 2
    ∧ (f j = x → j + ((Finset.range i).filter fun l => x < f (l + 2)).card ≤ i + 1) := by
  have hsub : ∀ d, (∀ l, x < f (l + 2) → d ≤ l) →
      ((Finset.range i).filter fun l => x < f (l + 2)).card ≤ i - d := by
    intro d hd
    have : ((Finset.range i).filter fun l => x < f (l + 2)) ⊆ Finset.Ico d i := by
      intro l hl
      rw [Finset.mem_filter, Finset.mem_range] at hl
      rw [Finset.mem_Ico]
      exact ⟨hd l hl.2, hl.1⟩
    have := Finset.card_le_card this
    rwa [Nat.card_Ico] at this
  have hall : ∀ l, x < f (l + 2) → j ≤ l + 2 := by
    intro l hl
    by_contra hc
    exact absurd (h.2 (l + 2) (by omega)) (not_lt.2 hl.le)
  refine ⟨?_, ?_⟩
  · have := hsub (j - 2) (fun l hl => by have := hall l hl; omega)
    omega
  · intro he
    have := hsub (j - 1) (fun l hl => by
      have h1 := hall l hl
      have h2 : j ≠ l + 2 := by rintro rfl; rw [he] at hl; exact lt_irrefl _ hl
      omega)
    omega

theorem dropLast_tab {α : Type _} (m : ℕ) (f : ℕ → α) : (tab (m + 1) f).dropLast = tab m f := by
  rw [← tab_snoc (n := m) f rfl, List.dropLast_concat]

/-- the loops and the search for the reference turn -/
theorem interpolate_eq (hG : Given L a n τ μ T P) (fuel : ℕ) : interpolateMomentum L a fuel = (do
    let s ← outer L a (a.dturns * a.nprofiles) fuel fuel
      ⟨[τ 0 + T (μ 0), τ 0 + T (μ 0) + T (μ 0)], [μ 0], 0, a.machineRefFrame * a.dturns, 0⟩
    let init ← initialIndex a s.ti.dropLast
    cutTurns (a.dturns * a.nprofiles) init s.ti.dropLast s.mi) := by
  unfold interpolateMomentum
  rw [hG.val, hG.time, show (0 : Int) = ((0 : ℕ) : Int) from rfl, npGet_tab _ hG.pos, bind_ok, hG.period _ (hG.mom 0 hG.pos), bind_ok,
    npGet_tab _ hG.pos, bind_ok]

/-- what a successful interpolation returns -/
theorem interpolate_ok (hG : Given L a n τ μ T P) (ht : a.tRef = some tref) {fuel : ℕ} {r : List K × List K}
    (h : interpolateMomentum L a fuel = .ok r) :
    ∃ N f : ℕ, f < N ∧ FirstAt (fun j => (turn T P (τ 0) (μ 0) j).1) tref f
      ∧ (∀ j, j < N → 0 < (turn T P (τ 0) (μ 0) j).2)
      ∧ (∀ j k, j < k → k < N → (turn T P (τ 0) (μ 0) j).1 < (turn T P (τ 0) (μ 0) k).1)
      ∧ (f : Int) - a.machineRefFrame * a.dturns + a.dturns * a.nprofiles ≤ N + 1
      ∧ ((turn T P (τ 0) (μ 0) f).1 = tref → (f : Int) - a.machineRefFrame * a.dturns + a.dturns * a.nprofiles ≤ N)
      ∧ r = (npSlice (tab N fun j => (turn T P (τ 0) (μ 0) j).1) ((f : Int) - a.machineRefFrame * a.dturns)
              ((f : Int) - a.machineRefFrame * a.dturns + a.dturns * a.nprofiles),
            npSlice (tab N fun j => (turn T P (τ 0) (μ 0) j).2) ((f : Int) - a.machineRefFrame * a.dturns)
              ((f : Int) - a.machineRefFrame * a.dturns + a.dturns * a.nprofiles)) := by
  rw [interpolate_eq hG, Asrt.bind_ok_iff] at h
  obtain ⟨s, hs, h⟩ := h
  obtain ⟨hI, hn⟩ := outer_inv (tref := tref) hG ht _ _ _ (inv_init hG) hs
  rw [Asrt.bind_ok_iff] at h
  obtain ⟨init, hi, h⟩ := h
  rw [hI.ti, dropLast_tab] at hi h
  rw [hI.mi] at h
  unfold initialIndex at hi
  rw [ht] at hi
  dsimp only at hi
  cases hf : (tab (s.i + 1) fun j => (turn T P (τ 0) (μ 0) j).1).findIdx? (fun x => decide (tref ≤ x)) with
  | none => rw [hf] at hi; cases hi
  | some f =>
    rw [hf] at hi
    have hinit : init = (f : Int) - a.machineRefFrame * a.dturns := by cases hi; rfl
    obtain ⟨hfl, hF⟩ := findIdx_tab hf
    have hcount := count_le hF (show f ≤ s.i by omega)
    have htu := hI.turn
    rw [htu] at hn
    unfold cutTurns at h
    rw [length_tab, if_neg (by rw [hinit]; push_cast; omega)] at h
    cases h
    refine ⟨s.i + 1, f, hfl, hF, fun j hj => hI.pos j (by omega), ?_, ?_, ?_, ?_⟩
    · intro j k hjk hk
      exact turn_lt hG.Tpos hI.pos hjk (by omega)
    · push_cast; omega
    · intro he
      have := hcount.2 he
      push_cast; omega
    · rw [hinit]

/-- the table cut at the reference turn, when the first turn asked for exists -/
theorem slice_turns {α : Type _} {N f : ℕ} {i0 m : ℕ} (g : ℕ → α) (h0 : i0 ≤ f) (h1 : f - i0 + m ≤ N + 1) (h2 : f < N)
    : npSlice (tab N g) ((f : Int) - (i0 : ℕ)) ((f : Int) - (i0 : ℕ) + (m : ℕ))
      = tab (min m (N - (f - i0))) fun j => g (f - i0 + j) := by
  rw [npSlice_of (a := f - i0) (b := min (f - i0 + m) N)]
  · rw [show min (f - i0 + m) N - (f - i0) = min m (N - (f - i0)) by omega]
  · unfold sliceIdx; rw [if_neg (by omega)]; omega
  · unfold sliceIdx; rw [if_neg (by omega)]; omega
  · omega
  · omega

/-- the inner loop ends: every turn takes at least the time `d` -/
theorem inner_total (hG : Given L a n τ μ T P) (ht : a.tRef = some tref) {d : K} (hd : ∀ p, 0 < p → d ≤ T p) (m : ℕ) {s : IS K}
    (hI : Inv a n τ μ T P tref s) (hk : s.k < n) (hm : τ s.k - (turn T P (τ 0) (μ 0) (s.i + 1)).1 < m * d) :
    ∃ f0 s', ∀ f, f0 ≤ f → inner L a f s = .ok s' := by
  induction m generalizing s with
  | zero =>
    refine ⟨1, s, fun f hf => ?_⟩
    obtain ⟨f, rfl⟩ : ∃ g, f = g + 1 := ⟨f - 1, by omega⟩
    rw [inner_step hG hI hk, if_neg (by simp at hm; exact not_le.2 hm)]
  | succ m ih =>
    by_cases hc : (turn T P (τ 0) (μ 0) (s.i + 1)).1 ≤ τ s.k
    · obtain ⟨s1, hr, hI1, hi1, hk1⟩ := innerBody_ok hG ht hI hk hc
      obtain ⟨f0, s', hs'⟩ := ih hI1 (by omega) (by
        rw [hk1, hi1, turn_succ_fst]
        have := hd _ (hI1.pos (s.i + 1) (by omega))
        push_cast at hm
        linarith)
      refine ⟨f0 + 1, s', fun f hf => ?_⟩
      obtain ⟨f, rfl⟩ : ∃ g, f = g + 1 := ⟨f - 1, by omega⟩
      rw [inner_step hG hI hk, if_pos hc, hr, bind_ok]
      exact hs' f (by omega)
    · refine ⟨1, s, fun f hf => ?_⟩
      obtain ⟨f, rfl⟩ : ∃ g, f = g + 1 := ⟨f - 1, by omega⟩
      rw [inner_step hG hI hk, if_neg hc]

/-- the loops end: with the turns wanted, or at the end of the program -/
theorem outer_total [Archimedean K] (hG : Given L a n τ μ T P) (ht : a.tRef = some tref) {d : K} (hd0 : 0 < d)
    (hd : ∀ p, 0 < p → d ≤ T p) (nturns : Int) (m : ℕ) {s : IS K} (hI : Inv a n τ μ T P tref s) (hm : n - s.k ≤ m) :
    ∃ f0, (∃ s', ∀ f g, f0 ≤ f → f0 ≤ g → outer L a nturns f g s = .ok s') ∨
      ((∃ s', Inv a n τ μ T P tref s' ∧ n ≤ s'.k ∧ s'.turn < nturns) ∧
        ∀ f g, f0 ≤ f → f0 ≤ g → outer L a nturns f g s = .error (.exc .indexError)) := by
  induction m generalizing s with
  | zero =>
    refine ⟨1, ?_⟩
    by_cases hc : s.turn < nturns
    · refine Or.inr ⟨⟨s, hI, by omega, hc⟩, fun f g hf hg => ?_⟩
      obtain ⟨f, rfl⟩ : ∃ g, f = g + 1 := ⟨f - 1, by omega⟩
      obtain ⟨g, rfl⟩ : ∃ f, g = f + 1 := ⟨g - 1, by omega⟩
      unfold outer
      rw [if_pos hc, inner_end hG hI (by omega)]
      rfl
    · refine Or.inl ⟨s, fun f g hf hg => ?_⟩
      obtain ⟨g, rfl⟩ : ∃ f, g = f + 1 := ⟨g - 1, by omega⟩
      unfold outer
      rw [if_neg hc]
      rfl
  | succ m ih =>
    by_cases hc : s.turn < nturns
    · rcases Nat.lt_or_ge s.k n with hk | hk
      · obtain ⟨q, hq⟩ := Archimedean.arch (τ s.k - (turn T P (τ 0) (μ 0) (s.i + 1)).1 + d) hd0
        obtain ⟨f1, s1, h1⟩ := inner_total hG ht hd q hI hk (by
          rw [nsmul_eq_mul] at hq; linarith)
        obtain ⟨_, hI1, hk1, _, hlt⟩ := inner_inv hG ht f1 hI (h1 f1 (le_refl _))
        obtain ⟨f0, h⟩ := ih (next_point (by omega) hI1 (by rw [hk1]; exact hlt)) (by
          show n - (s1.k + 1) ≤ m
          omega)
        refine ⟨max f0 f1 + 1, ?_⟩
        have hstep : ∀ f g, max f0 f1 + 1 ≤ f → max f0 f1 + 1 ≤ g →
            outer L a nturns f g s = outer L a nturns f (g - 1) { s1 with k := s1.k + 1 } := by
          intro f g hf hg
          obtain ⟨g, rfl⟩ : ∃ f, g = f + 1 := ⟨g - 1, by omega⟩
          rw [outer, if_pos hc, h1 f (by omega), bind_ok, Nat.add_sub_cancel]
        rcases h with ⟨s', h⟩ | ⟨he, h⟩
        · refine Or.inl ⟨s', fun f g hf hg => ?_⟩
          rw [hstep f g hf hg]
          exact h f (g - 1) (by omega) (by omega)
        · refine Or.inr ⟨he, fun f g hf hg => ?_⟩
          rw [hstep f g hf hg]
          exact h f (g - 1) (by omega) (by omega)
      · refine ⟨1, Or.inr ⟨⟨s, hI, hk, hc⟩, fun f g hf hg => ?_⟩⟩
        obtain ⟨f, rfl⟩ : ∃ g, f = g + 1 := ⟨f - 1, by omega⟩
        obtain ⟨g, rfl⟩ : ∃ f, g = f + 1 := ⟨g - 1, by omega⟩
        unfold outer
        rw [if_pos hc, inner_end hG hI (by omega)]
        rfl
    · refine ⟨1, Or.inl ⟨s, fun f g hf hg => ?_⟩⟩
      obtain ⟨g, rfl⟩ : ∃ f, g = f + 1 := ⟨g - 1, by omega⟩
      unfold outer
      rw [if_neg hc]
      rfl

/-- the turns counted up to turn `i` of an increasing sequence -/
theorem count_ge {f : ℕ → K} {x : K} {i j : ℕ} (hx : x < f j) (hmono : ∀ k, j ≤ k → k ≤ i + 1 → f j ≤ f k) :
    i + 2 ≤ ((Finset.range i).filter fun l => x < f (l + 2)).card + max j 2 := by
  have hsub : Finset.Ico (j - 2) i ⊆ (Finset.range i).filter fun l => x < f (l + 2) := by
    intro l hl
    rw [Finset.mem_Ico] at hl
    rw [Finset.mem_filter, Finset.mem_range]
    exact ⟨hl.2, lt_of_lt_of_le hx (hmono (l + 2) (by omega) (by omega))⟩
  have := Finset.card_le_card hsub
  rw [Nat.card_Ico] at this
  omega

/-- When the program lasts until turn `j + nturns - i0` and a bit, where `j` is the first turn after the reference time, the
loops end with the turns wanted. -/
theorem outer_enough [Archimedean K] (hG : Given L a n τ μ T P) (ht : a.tRef = some tref) {d : K} (hd0 : 0 < d)
    (hd : ∀ p, 0 < p → d ≤ T p) {nturns : Int} {j : ℕ} (hj : tref < (turn T P (τ 0) (μ 0) j).1)
    {e : ℕ} (hje : max j 2 ≤ e + 2) (hne : nturns - a.machineRefFrame * a.dturns ≤ ((e + 2 - max j 2 : ℕ) : Int))
    (hend : ∀ i, i ≤ e → (turn T P (τ 0) (μ 0) i).1 ≤ τ (n - 1)) :
    ∃ f0 s', ∀ f, f0 ≤ f → outer L a nturns f f
      ⟨[τ 0 + T (μ 0), τ 0 + T (μ 0) + T (μ 0)], [μ 0], 0, a.machineRefFrame * a.dturns, 0⟩ = .ok s' := by
  obtain ⟨f0, ⟨s', h⟩ | ⟨⟨s', hI, hk, hlt⟩, h⟩⟩ := outer_total hG ht hd0 hd nturns n (inv_init hG) (by simp)
  · exact ⟨f0, s', fun f hf => h f f hf hf⟩
  · exfalso
    have hp := hG.pos
    obtain ⟨k', hk', hkn, hlow⟩ : ∃ k', s'.k = k' + 1 ∧ k' < n ∧ τ k' < (turn T P (τ 0) (μ 0) (s'.i + 1)).1 := by
      rcases hI.low with ⟨h1, _⟩ | h
      · omega
      · exact h
    have : k' = n - 1 := by omega
    subst this
    have hie : e ≤ s'.i := by
      by_contra hc
      exact absurd (hend (s'.i + 1) (by omega)) (not_le.2 hlow)
    have hcnt := count_ge (f := fun l => (turn T P (τ 0) (μ 0) l).1) (i := s'.i) hj (by
      intro k h1 h2
      rcases Nat.lt_or_ge j k with h | h
      · exact (turn_lt hG.Tpos hI.pos h h2).le
      · have : j = k := by omega
        subst this; exact le_refl _)
    have := hI.turn
    omega

end

end Verif.Prog

import Verif.Model.Particles
import Verif.Lemmas.Assertions
import Mathlib.Algebra.Order.Floor.Semiring
import Mathlib.Tactic.FieldSimp
import Mathlib.Data.List.ProdSigma
import Mathlib.Data.Int.Interval

/-! Helper lemmas about `Model/Particles.lean`. -/

set_option linter.unusedSectionVars false

namespace Verif.Part
open Verif.Asrt Verif.Mch Verif.Psi

theorem mem_argwhere (a : List (List Bool)) (i j : ℕ) :
    (i, j) ∈ argwhere a ↔ ∃ row, a[i]? = some row ∧ row[j]? = some true := by
  unfold argwhere
  simp only [List.mem_flatMap, List.mem_filterMap, Prod.exists, List.mem_zipIdx_iff_getElem?]
  constructor
  · rintro ⟨row, i', h1, b, j', h2, h3⟩
    split at h3
    · rename_i hb
      simp only [Option.some.injEq, Prod.mk.injEq] at h3
      obtain ⟨rfl, rfl⟩ := h3
      subst hb
      exact ⟨row, h1, h2⟩
    · cases h3
  · rintro ⟨row, h1, h2⟩
    exact ⟨row, i, h1, true, j, h2, by simp⟩

section filter
variable {α : Type _} [LT α] [LE α] [DecidableLT α] [DecidableLE α] [Zero α]

/-- the mask expression -/
def bad (w x : α) : Bool := decide (w ≤ x) || decide (x < 0)

/-- the columns without bad entries -/
def keptOf (n m : ℕ) (x : ℕ → ℕ → α) (w : α) : List ℕ :=
  (List.range m).filter fun j => decide (∀ i, i < n → bad w (x i j) = false)

theorem mem_argwhere_arr (n m : ℕ) (x : ℕ → ℕ → α) (w : α) (i j : ℕ) :
    (i, j) ∈ argwhere ((arr n m x).map (bad w)).rows ↔ i < n ∧ j < m ∧ bad w (x i j) = true := by
  rw [mem_argwhere, map_arr, arr_rows]
  constructor
  · rintro ⟨row, h1, h2⟩
    rw [getElem?_tab] at h1
    split at h1
    · cases h1
      rw [getElem?_tab] at h2
      split at h2
      · exact ⟨by assumption, by assumption, by simpa using h2⟩
      · cases h2
    · cases h1
  · rintro ⟨h1, h2, h3⟩
    exact ⟨_, some_tab _ h1, by rw [some_tab _ h2, h3]⟩

theorem filterLost_arr (n m : ℕ) (x y : ℕ → ℕ → α) (w : α) :
    filterLost (arr n m x) (arr n m y) w =
      if n * (keptOf n m x w).length = 0 then .error (.exc .invalidParticle)
      else .ok (⟨(keptOf n m x w).length, tab n fun i => (keptOf n m x w).map (x i)⟩,
        ⟨(keptOf n m x w).length, tab n fun i => (keptOf n m x w).map (y i)⟩, m - (keptOf n m x w).length) := by
  unfold filterLost
  have hb : (fun x : α => decide (w ≤ x) || decide (x < 0)) = bad w := rfl
  rw [hb]
  dsimp only
  set inv := argwhere ((arr n m x).map (bad w)).rows with hinv
  by_cases h : inv.length > 0
  · rw [if_pos h]
    have hc : ∀ j, j < m → ((npUnique m (inv.map Prod.snd)).contains j = true ↔ ∃ i, i < n ∧ bad w (x i j) = true) := by
      intro j hj
      unfold npUnique
      simp only [List.contains_iff_mem, List.mem_filter, List.mem_range, List.mem_map, Prod.exists, exists_eq_right]
      constructor
      · rintro ⟨_, i, hi⟩
        rw [hinv, mem_argwhere_arr] at hi
        exact ⟨i, hi.1, hi.2.2⟩
      · rintro ⟨i, h1, h2⟩
        exact ⟨hj, i, by rw [hinv, mem_argwhere_arr]; exact ⟨h1, hj, h2⟩⟩
    have hmask : ((List.range m).map fun j => !(npUnique m (inv.map Prod.snd)).contains j)
        = (List.range m).map fun j => decide (∀ i, i < n → bad w (x i j) = false) := by
      apply List.map_congr_left
      intro j hj
      have hj' := List.mem_range.mp hj
      have h1 := hc j hj'
      rw [Bool.eq_iff_iff, Bool.not_eq_true', ← Bool.not_eq_true, h1, decide_eq_true_iff]
      push Not
      simp
    have hlen : (npUnique m (inv.map Prod.snd)).length = m - (keptOf n m x w).length := by
      have h2 : npUnique m (inv.map Prod.snd) = (List.range m).filter fun j => !decide (∀ i, i < n → bad w (x i j) = false) := by
        unfold npUnique
        apply List.filter_congr
        intro j hj
        have hj' := List.mem_range.mp hj
        have := hc j hj'
        unfold npUnique at this
        rw [List.contains_iff_mem, List.mem_filter] at this
        rw [Bool.eq_iff_iff]
        constructor
        · intro hcj
          have := this.mp ⟨hj, hcj⟩
          simpa using this
        · intro hcj
          exact (this.mpr (by simpa using hcj)).2
      rw [h2]
      have h3 := List.length_eq_length_filter_add (l := List.range m) (fun j => decide (∀ i, i < n → bad w (x i j) = false))
      rw [List.length_range] at h3
      unfold keptOf
      omega
    rw [arr_cols, hmask, maskCols_arr, bind_ok, maskCols_arr, bind_ok, hlen]
    rw [pure_eq_ok, bind_ok]
    dsimp only
    rw [show (List.range m).filter (fun j => decide (∀ i, i < n → bad w (x i j) = false)) = keptOf n m x w from rfl]
    simp only [Arr2.size, length_tab]
    rfl
  · rw [if_neg h, pure_eq_ok, bind_ok]
    dsimp only
    have h0 : inv = [] := List.length_eq_zero_iff.mp (by omega)
    have hk : keptOf n m x w = List.range m := by
      unfold keptOf
      rw [List.filter_eq_self]
      intro j hj
      rw [decide_eq_true_iff]
      intro i hi
      by_contra hne
      have : (i, j) ∈ inv := by
        rw [hinv, mem_argwhere_arr]
        exact ⟨hi, List.mem_range.mp hj, by simpa using hne⟩
      rw [h0] at this
      cases this
    rw [hk, arr_size, List.length_range, Nat.sub_self]
    rfl

end filter

section coords
variable {K : Type _} [Field K] [LinearOrder K]

theorem binToPhysical_tab (m : Area K) {N k d r : ℕ} {om ph : ℕ → K} (xo dE : K) (ho : m.omegaRev0 = tab N om)
    (hp : m.phi0 = tab N ph) (hd : m.dturns = d) (hr : r * d < N) (p : ℕ → K × K) :
    binToPhysical m xo dE r 0 (tab k p) = .ok (tab k fun j =>
      (((p j).1 + xo) * m.hNum * om (r * d) * m.dtbin - ph (r * d), ((p j).2 - m.synchPartY) * dE)) := by
  unfold binToPhysical
  have h1 : (r : ℤ) * m.dturns + 0 = ((r * d : ℕ) : ℤ) := by rw [hd]; push_cast; ring
  dsimp only
  rw [h1, ho, hp, npGet_tab _ hr, bind_ok, npGet_tab _ hr, bind_ok]
  unfold tab
  rw [List.map_map]; rfl

theorem physicalToCoords_arr (m : Area K) {N n k d : ℕ} {om ph : ℕ → K} (xo dE : K) (ho : m.omegaRev0 = tab N om)
    (hp : m.phi0 = tab N ph) (hd : m.dturns = d) (hN : ∀ i, i < n → i * d < N)
    (hs : ∀ i, i < n → m.hNum * om (i * d) * m.dtbin ≠ 0) (hdE : dE ≠ 0) (a b : ℕ → ℕ → K) :
    physicalToCoords m xo dE (arr n k a) (arr n k b) = .ok
      (arr n k fun i j => (a i j + ph (i * d)) / (m.hNum * om (i * d) * m.dtbin) - xo,
       arr n k fun i j => b i j / dE + m.synchPartY) := by
  unfold physicalToCoords
  rw [if_neg (by simp)]
  have hx : ((arr n k a).rows.zipIdx.mapM fun (row, i) => do
      let p0 ← npGet m.phi0 ((i : Int) * m.dturns)
      let om ← npGet m.omegaRev0 ((i : Int) * m.dturns)
      row.mapM fun v => do
        let a ← FDiv.fdiv (v + p0) (m.hNum * om * m.dtbin)
        pure (a - xo)) = .ok (tab n fun i => tab k fun j => (a i j + ph (i * d)) / (m.hNum * om (i * d) * m.dtbin) - xo) := by
    have hz : (arr n k a).rows.zipIdx = tab n fun i => (tab k (a i), i) := by
      apply List.ext_getElem?
      intro i
      rw [List.getElem?_zipIdx, arr_rows, getElem?_tab, getElem?_tab]
      by_cases h : i < n <;> simp [h]
    rw [hz]
    rw [mapM_tab (g := fun q => q.1.map fun v => (v + ph (q.2 * d)) / (m.hNum * om (q.2 * d) * m.dtbin) - xo)]
    · unfold tab; simp
    · intro i hi
      dsimp only
      have h1 : (i : ℤ) * m.dturns = ((i * d : ℕ) : ℤ) := by rw [hd]; push_cast; ring
      rw [h1, ho, hp, npGet_tab _ (hN i hi), bind_ok, npGet_tab _ (hN i hi), bind_ok]
      apply mapM_ok
      intro v _
      rw [fdiv_ok (hs i hi), bind_ok]; rfl
  have hy : ((arr n k b).rows.mapM fun row => row.mapM fun v => do
      let a ← FDiv.fdiv v dE
      pure (a + m.synchPartY)) = .ok (tab n fun i => tab k fun j => b i j / dE + m.synchPartY) := by
    rw [arr_rows, mapM_tab (g := fun r => r.map fun v => v / dE + m.synchPartY)]
    · unfold tab; simp
    · intro i hi
      apply mapM_ok
      intro v _
      rw [fdiv_ok hdE, bind_ok]; rfl
  rw [hx, bind_ok, hy, bind_ok]
  rfl

end coords

section distribution
variable {K : Type} [Field K] [LinearOrder K] [IsStrictOrderedRing K] [FloorRing K]

/-- position of sub-point `a` in a cell -/
def sub (s a : ℕ) : K := (2 * (a : K) + 1) / (2 * (s : K))

theorem sub_pos {s a : ℕ} (hs : 0 < s) : (0 : K) < sub s a := by
  unfold sub
  have : (0 : K) < s := by exact_mod_cast hs
  positivity

theorem sub_lt {s a : ℕ} (ha : a < s) : (sub s a : K) < 1 := by
  unfold sub
  have hs : (0 : K) < s := by exact_mod_cast (by omega : 0 < s)
  rw [div_lt_one (by positivity)]
  have : ((a + 1 : ℕ) : K) ≤ s := by exact_mod_cast ha
  push_cast at this
  linarith

theorem floor_cell {s a : ℕ} (ha : a < s) (i : ℤ) : ⌊(i : K) + sub s a⌋ = i := by
  rw [Int.floor_eq_iff]
  have h1 := sub_pos (K := K) (s := s) (a := a) (by omega)
  have h2 := sub_lt (K := K) ha
  constructor <;> linarith

theorem cell_inj {s a b : ℕ} (ha : a < s) (hb : b < s) {i j : ℤ} (h : (i : K) + sub s a = (j : K) + sub s b) :
    i = j ∧ a = b := by
  have h1 : i = j := by rw [← floor_cell (K := K) ha i, h, floor_cell hb]
  subst h1
  refine ⟨rfl, ?_⟩
  have h2 : (sub s a : K) = sub s b := by linarith
  unfold sub at h2
  have hs : (0 : K) < s := by exact_mod_cast (by omega : 0 < s)
  rw [div_left_inj' (by positivity)] at h2
  have h3 : (a : K) = b := by linarith
  exact_mod_cast h3

theorem binPts_eq (s : ℕ) : binPts (K := K) s = .ok (tab s (sub s)) := by
  unfold binPts
  rw [mapM_ok (g := sub s)]
  · rfl
  · intro k hk
    have hs : 0 < s := by have := List.mem_range.mp hk; omega
    have hs' : (0 : K) < s := by exact_mod_cast hs
    rw [fdiv_ok (by positivity)]
    unfold sub
    push_cast
    congr 2
    ring

theorem length_npRepeat {α : Type _} (x : List α) (s : ℕ) : (npRepeat x s).length = x.length * s := by
  induction x with
  | nil => simp [npRepeat]
  | cons a x ih =>
    unfold npRepeat at ih ⊢
    rw [List.flatMap_cons, List.length_append, ih, List.length_replicate, List.length_cons]
    ring

theorem zip_repeat_tile (x pts : List K) :
    List.zipWith (· + ·) (npRepeat x pts.length) (List.replicate x.length pts).flatten
      = x.flatMap fun v => pts.map (v + ·) := by
  induction x with
  | nil => simp [npRepeat]
  | cons a x ih =>
    rw [List.length_cons, List.replicate_succ, List.flatten_cons, List.flatMap_cons]
    have : npRepeat (a :: x) pts.length = List.replicate pts.length a ++ npRepeat x pts.length := by
      simp [npRepeat]
    rw [this, List.zipWith_append (by simp), ih]
    congr 1
    generalize pts = l
    induction l with
    | nil => rfl
    | cons b l ih2 => simp [List.replicate_succ, ih2]

/-- the sub-points of the cells `lo, …, hi-1` of one axis -/
def axisPts (s : ℕ) (lo hi : ℤ) : List K :=
  (List.product (List.range (hi - lo).toNat) (List.range s)).map fun p => ((lo + (p.1 : ℤ) : ℤ) : K) + sub s p.2

theorem axis_eq (s : ℕ) (lo hi : ℤ) :
    addInto (npRepeat (arange (K := K) lo hi) s) (List.replicate (hi - lo).toNat (tab s (sub s))).flatten
      = .ok (axisPts s lo hi) := by
  unfold addInto
  have hl : (arange (K := K) lo hi).length = (hi - lo).toNat := by simp [arange]
  rw [if_pos]
  · have := zip_repeat_tile (arange (K := K) lo hi) (tab s (sub s))
    rw [length_tab, hl] at this
    rw [this]
    congr 1
    unfold axisPts List.product arange tab
    rw [List.flatMap_map, List.map_flatMap]
    simp only [List.map_map]
    rfl
  · rw [length_npRepeat, hl, List.length_flatten]
    simp

theorem mem_axisPts {s : ℕ} {lo hi : ℤ} {v : K} :
    v ∈ axisPts s lo hi ↔ ∃ (i : ℤ) (a : ℕ), lo ≤ i ∧ i < hi ∧ a < s ∧ v = (i : K) + sub s a := by
  unfold axisPts
  simp only [List.mem_map, Prod.exists, List.pair_mem_product, List.mem_range]
  constructor
  · rintro ⟨c, a, ⟨hc, ha⟩, rfl⟩
    exact ⟨lo + c, a, by omega, by omega, ha, rfl⟩
  · rintro ⟨i, a, h1, h2, h3, rfl⟩
    refine ⟨(i - lo).toNat, a, ⟨by omega, h3⟩, ?_⟩
    have : lo + ((i - lo).toNat : ℤ) = i := by omega
    rw [this]

theorem nodup_axisPts (s : ℕ) (lo hi : ℤ) : (axisPts (K := K) s lo hi).Nodup := by
  unfold axisPts
  apply List.Nodup.map_on
  · rintro ⟨c, a⟩ h1 ⟨c', a'⟩ h2 heq
    rw [List.pair_mem_product, List.mem_range, List.mem_range] at h1 h2
    obtain ⟨e1, e2⟩ := cell_inj h1.2 h2.2 heq
    rw [Prod.mk.injEq]
    exact ⟨by omega, e2⟩
  · exact List.Nodup.product List.nodup_range List.nodup_range

theorem keepWhere_eq {N : ℕ} (pts : List (K × K)) (lim : ℕ → ℤ) (cond : K → ℤ → Bool)
    (h : ∀ p ∈ pts, ∃ i : ℕ, i < N ∧ ⌊p.1⌋ = i) :
    keepWhere pts (tab N lim) cond = .ok (pts.filter fun p => cond p.2 (lim ⌊p.1⌋.toNat)) := by
  unfold keepWhere
  rw [mapM_ok (g := fun p => cond p.2 (lim ⌊p.1⌋.toNat))]
  · rw [bind_ok]
    unfold maskRow
    rw [if_pos (by simp)]
    congr 1
    generalize (fun p : K × K => cond p.2 (lim ⌊p.1⌋.toNat)) = g
    clear h
    induction pts with
    | nil => rfl
    | cons p pts ih =>
      rw [List.map_cons, List.zip_cons_cons, List.filterMap_cons, List.filter_cons, ih]
      by_cases hg : g p = true <;> simp [hg]
  · intro p hp
    obtain ⟨i, hi, he⟩ := h p hp
    have h0 : 0 ≤ p.1 := by
      have : (0 : ℤ) ≤ ⌊p.1⌋ := by omega
      exact Int.floor_nonneg.mp this
    unfold trunc
    rw [if_pos h0, he, npGet_tab _ hi]
    rfl

theorem foldl_max_ge (l : List ℤ) (a : ℤ) : a ≤ l.foldl max a ∧ ∀ x ∈ l, x ≤ l.foldl max a := by
  induction l generalizing a with
  | nil => simp
  | cons b l ih =>
    obtain ⟨h1, h2⟩ := ih (max a b)
    rw [List.foldl_cons]
    refine ⟨by omega, ?_⟩
    intro x hx
    rcases List.mem_cons.mp hx with rfl | hx
    · omega
    · exact h2 x hx

theorem foldl_min_le (l : List ℤ) (a : ℤ) : l.foldl min a ≤ a ∧ ∀ x ∈ l, l.foldl min a ≤ x := by
  induction l generalizing a with
  | nil => simp
  | cons b l ih =>
    obtain ⟨h1, h2⟩ := ih (min a b)
    rw [List.foldl_cons]
    refine ⟨by omega, ?_⟩
    intro x hx
    rcases List.mem_cons.mp hx with rfl | hx
    · omega
    · exact h2 x hx

theorem npMaxI_ok {l : List ℤ} (h : l ≠ []) : ∃ v, npMaxI l = .ok v ∧ ∀ x ∈ l, x ≤ v := by
  cases l with
  | nil => exact absurd rfl h
  | cons a l =>
    refine ⟨_, rfl, ?_⟩
    intro x hx
    rcases List.mem_cons.mp hx with rfl | hx
    · exact (foldl_max_ge l x).1
    · exact (foldl_max_ge l a).2 x hx

theorem npMinI_ok {l : List ℤ} (h : l ≠ []) : ∃ v, npMinI l = .ok v ∧ ∀ x ∈ l, v ≤ x := by
  cases l with
  | nil => exact absurd rfl h
  | cons a l =>
    refine ⟨_, rfl, ?_⟩
    intro x hx
    rcases List.mem_cons.mp hx with rfl | hx
    · exact (foldl_min_le l x).1
    · exact (foldl_min_le l a).2 x hx

/-- The generated points: which they are, and that none is generated twice.  At least one column of the image has to have
`jmin ≤ jmax` (otherwise `np.tile` may get a negative count). -/
theorem cellPoints_spec {N s imin imax : ℕ} (l : Limits) (jmn jmx : ℕ → ℤ) (h1 : l.jmin = tab N jmn)
    (h2 : l.jmax = tab N jmx) (h3 : l.imin = imin) (h4 : l.imax = imax) (hi : imin ≤ imax) (hN : imax < N)
    (hne : ∃ i, i < N ∧ jmn i ≤ jmx i) :
    ∃ pts : List (K × K), cellPoints s l = .ok pts ∧ pts.Nodup ∧
      ∀ x y, (x, y) ∈ pts ↔ ∃ (i : ℕ) (j : ℤ) (a b : ℕ), imin ≤ i ∧ i ≤ imax ∧ jmn i ≤ j ∧ j < jmx i ∧ a < s ∧ b < s ∧
        x = (i : K) + sub s a ∧ y = (j : K) + sub s b := by
  unfold cellPoints
  rw [binPts_eq, bind_ok]
  dsimp only
  have hne1 : l.jmax ≠ [] := by rw [h2]; intro h; have := congrArg List.length h; simp at this; omega
  have hne2 : l.jmin ≠ [] := by rw [h1]; intro h; have := congrArg List.length h; simp at this; omega
  obtain ⟨jtop, ht, ht'⟩ := npMaxI_ok hne1
  obtain ⟨jbot, hb, hb'⟩ := npMinI_ok hne2
  have hxl : (arange (K := K) l.imin (l.imax + 1)).length = (l.imax + 1 - l.imin).toNat := by simp [arange]
  have htx : npTile (tab s (sub s : ℕ → K)) ((arange (K := K) l.imin (l.imax + 1)).length : ℤ)
      = .ok (List.replicate (l.imax + 1 - l.imin).toNat (tab s (sub s))).flatten := by
    unfold npTile
    rw [if_neg (by omega), Int.toNat_natCast, hxl]
  have hmem : ∀ i, i < N → jbot ≤ jmn i ∧ jmx i ≤ jtop := by
    intro i hi
    constructor
    · apply hb'; rw [h1]; unfold tab; exact List.mem_map.mpr ⟨i, List.mem_range.mpr hi, rfl⟩
    · apply ht'; rw [h2]; unfold tab; exact List.mem_map.mpr ⟨i, List.mem_range.mpr hi, rfl⟩
  have htb : jbot ≤ jtop := by
    obtain ⟨i, hi, hle⟩ := hne
    have := hmem i hi
    omega
  have hty : npTile (tab s (sub s : ℕ → K)) (jtop - jbot) = .ok (List.replicate (jtop - jbot).toNat (tab s (sub s))).flatten := by
    unfold npTile
    rw [if_neg (by omega)]
  rw [htx, bind_ok, axis_eq, bind_ok, ht, bind_ok, hb, bind_ok, hty, bind_ok, axis_eq, bind_ok]
  set xs : List K := axisPts s l.imin (l.imax + 1) with hxs
  set ys : List K := axisPts s jbot jtop with hys
  have hco : (ys.flatMap fun yv => xs.map fun xv => (xv, yv)) = (List.product ys xs).map Prod.swap := by
    unfold List.product
    rw [List.map_flatMap]
    simp only [List.map_map]
    rfl
  rw [hco]
  have hcol : ∀ p ∈ (List.product ys xs).map Prod.swap, ∃ i : ℕ, i < N ∧ ⌊p.1⌋ = i := by
    rintro ⟨x, y⟩ hp
    simp only [List.mem_map, Prod.exists, List.pair_mem_product, Prod.swap_prod_mk, Prod.mk.injEq] at hp
    obtain ⟨y', x', ⟨_, hx'⟩, rfl, rfl⟩ := hp
    rw [hxs, mem_axisPts] at hx'
    obtain ⟨i, a, e1, e2, e3, rfl⟩ := hx'
    refine ⟨i.toNat, by omega, ?_⟩
    dsimp only
    rw [floor_cell e3]
    omega
  rw [h2, keepWhere_eq _ _ _ hcol, bind_ok, h1, keepWhere_eq]
  swap
  · intro p hp
    exact hcol p (List.mem_of_mem_filter hp)
  refine ⟨_, rfl, ?_, ?_⟩
  · apply List.Nodup.filter
    apply List.Nodup.filter
    apply List.Nodup.map Prod.swap_injective
    exact List.Nodup.product (nodup_axisPts _ _ _) (nodup_axisPts _ _ _)
  · intro x y
    simp only [List.mem_filter, List.mem_map, Prod.exists, List.pair_mem_product, Prod.swap_prod_mk, Prod.mk.injEq,
      decide_eq_true_iff]
    constructor
    · rintro ⟨⟨⟨y', x', ⟨hy', hx'⟩, rfl, rfl⟩, c1⟩, c2⟩
      rw [hxs, mem_axisPts] at hx'
      rw [hys, mem_axisPts] at hy'
      obtain ⟨i, a, e1, e2, e3, rfl⟩ := hx'
      obtain ⟨j, b, f1, f2, f3, rfl⟩ := hy'
      rw [floor_cell e3] at c1 c2
      have hii : i = ((i.toNat : ℕ) : ℤ) := by omega
      refine ⟨i.toNat, j, a, b, by omega, by omega, ?_, ?_, e3, f3, ?_, rfl⟩
      · have := sub_lt (K := K) f3
        have : ((jmn i.toNat : ℤ) : K) < ((j + 1 : ℤ) : K) := by push_cast; linarith
        have := Int.cast_lt.mp this
        omega
      · have := sub_pos (K := K) (s := s) (a := b) (by omega)
        have : ((j : ℤ) : K) < ((jmx i.toNat : ℤ) : K) := by linarith
        exact Int.cast_lt.mp this
      · conv_lhs => rw [hii]
        rw [Int.cast_natCast]
    · rintro ⟨i, j, a, b, e1, e2, e3, e4, e5, e6, rfl, rfl⟩
      have hf : ⌊(i : K) + sub s a⌋.toNat = i := by
        have := floor_cell (K := K) e5 (i : ℤ)
        rw [Int.cast_natCast] at this
        rw [this, Int.toNat_natCast]
      have hbd := hmem i (by omega)
      refine ⟨⟨⟨_, _, ⟨?_, ?_⟩, rfl, rfl⟩, ?_⟩, ?_⟩
      · rw [hys, mem_axisPts]
        exact ⟨j, b, by omega, by omega, e6, rfl⟩
      · rw [hxs, mem_axisPts]
        exact ⟨i, a, by omega, by omega, e5, by rw [Int.cast_natCast]⟩
      · rw [hf]
        have h5 := sub_lt (K := K) e6
        have : ((j + 1 : ℤ) : K) ≤ ((jmx i : ℤ) : K) := Int.cast_le.mpr (by omega)
        push_cast at this
        linarith
      · rw [hf]
        have h5 := sub_pos (K := K) (s := s) (a := b) (by omega)
        have : ((jmn i : ℤ) : K) ≤ ((j : ℤ) : K) := Int.cast_le.mpr e3
        linarith

end distribution
end Verif.Part

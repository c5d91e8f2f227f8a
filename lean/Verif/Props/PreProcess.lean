import Verif.Lemmas.PreProcess

/-!
# Properties of the pre-processing functions (C32, C34, C35)
-/

set_option linter.unusedSectionVars false

namespace Verif.Props
open Finset Verif.Spec Verif.Pre

variable {K : Type} [Field K] [LinearOrder K] [IsStrictOrderedRing K]

/-! ## C32 rebinning -/

/-- C32: a factor that divides the number of bins: every new bin is the sum of its `rbn` samples, the bin width is
multiplied and the synchronous position divided by `rbn`. -/
theorem C32_dividable {n q rbn : ℕ} (hr : 0 < rbn) (f : ℕ → ℕ → K) (dt sx : Option K) :
    rebin (arr n (q * rbn) f) rbn dt sx
      = .ok (arr n q (binSum rbn f), dt.map fun v => v * (rbn : K), sx.map fun v => v / (rbn : K)) := by
  unfold rebin
  rw [if_neg (by omega), arr_cols, if_pos (by simp), rebinDividable_arr hr, bind_ok]
  rfl

/-- C32: … and the total of every profile is preserved. -/
theorem C32_conserves_charge {n q rbn : ℕ} (hr : 0 < rbn) (f : ℕ → ℕ → K) (dt sx : Option K) {d : Arr2 K} {dt' sx' : Option K}
    (h : rebin (arr n (q * rbn) f) rbn dt sx = .ok (d, dt', sx')) :
    d.rows.length = n ∧ ∀ i, i < n → ∃ row, d.rows[i]? = some row ∧ row.length = q ∧ row.sum = total (q * rbn) f i := by
  rw [C32_dividable hr] at h
  cases h
  refine ⟨by simp, ?_⟩
  intro i hi
  refine ⟨tab q (binSum rbn f i), some_tab _ hi, by simp, ?_⟩
  rw [sum_tab]
  unfold binSum total
  clear hi
  induction q with
  | zero => simp
  | succ q ih => rw [sum_range_succ, ih, Nat.succ_mul, sum_range_add]

/-- C32, a factor `rbn < nbins` that leaves `rem > 0` samples over: one bin more; all complete bins are plain sums.  The
last bin is `rbn` times the mean of the last `rbn + rem` samples — the left-over samples and the last complete bin.  What
is missing of the property: `rbn > nbins`, see `C32_violated_small`, and the last bin is not made of the left-over samples
only, see `C32_violated_last`. -/
theorem C32_individable_partial {n q rbn rem : ℕ} (h0 : 0 < rem) (h1 : rem < rbn) (f : ℕ → ℕ → K) (dt sx : Option K) :
    rebin (arr n ((q + 1) * rbn + rem) f) rbn dt sx
      = .ok (arr n (q + 2) (fun i k =>
          if k < q + 1 then binSum rbn f i k
          else rbn * ((∑ j ∈ range (rbn + rem), f i (q * rbn + j)) / ((rbn + rem : ℕ) : K))),
        dt.map fun v => v * (rbn : K), sx.map fun v => v / (rbn : K)) := by
  unfold rebin
  have hm : ((q + 1) * rbn + rem) % rbn ≠ 0 := by
    rw [Nat.mul_comm, Nat.mul_add_mod, Nat.mod_eq_of_lt h1]; omega
  rw [if_neg (by omega), arr_cols, if_neg hm, rebinIndividable_arr h1, bind_ok]
  dsimp only
  rw [pure_eq_ok]
  congr 2
  apply arr_congr
  intro i k _ _
  split
  · rfl
  · rw [div_eq_mul_inv, div_eq_mul_inv]; ring

/-- C32: a flat profile stays flat whenever there are at least `rbn` bins. -/
theorem C32_flat_partial {n nbins rbn : ℕ} (hr : 0 < rbn) (hb : rbn ≤ nbins) (c : ℕ → K) (dt sx : Option K) :
    rebin (arr n nbins fun i _ => c i) rbn dt sx
      = .ok (arr n ((nbins + rbn - 1) / rbn) (fun i _ => rbn * c i), dt.map fun v => v * (rbn : K),
          sx.map fun v => v / (rbn : K)) := by
  obtain ⟨q, rem, hrem, rfl⟩ : ∃ q rem, rem < rbn ∧ nbins = (q + 1) * rbn + rem := by
    refine ⟨nbins / rbn - 1, nbins % rbn, Nat.mod_lt _ hr, ?_⟩
    have : 1 ≤ nbins / rbn := (Nat.one_le_div_iff hr).mpr hb
    rw [Nat.sub_add_cancel this, Nat.mul_comm, Nat.div_add_mod]
  rcases Nat.eq_zero_or_pos rem with rfl | h0
  · have hd : ((q + 1) * rbn + 0 + rbn - 1) / rbn = q + 1 := by
      have : (q + 1) * rbn + 0 + rbn - 1 = rbn * (q + 1) + (rbn - 1) := by rw [Nat.mul_comm]; omega
      rw [this, Nat.mul_add_div hr, Nat.div_eq_of_lt (by omega)]
    rw [Nat.add_zero, C32_dividable hr]
    rw [Nat.add_zero] at hd
    rw [hd]
    congr 2
    apply arr_congr
    intro i k _ _
    simp [binSum]
  · have hd : ((q + 1) * rbn + rem + rbn - 1) / rbn = q + 2 := by
      have : (q + 1) * rbn + rem + rbn - 1 = rbn * (q + 2) + (rem - 1) := by
        have : rbn * (q + 2) = (q + 1) * rbn + rbn := by ring
        omega
      rw [this, Nat.mul_add_div hr, Nat.div_eq_of_lt (by omega)]
    rw [C32_individable_partial h0 hrem, hd]
    congr 2
    apply arr_congr
    intro i k _ _
    have hk : ((rbn + rem : ℕ) : K) ≠ 0 := by exact_mod_cast (by omega : rbn + rem ≠ 0)
    split
    · simp [binSum]
    · rw [sum_const, card_range, nsmul_eq_mul, mul_div_assoc, mul_div_cancel₀ _ hk]

/-- C32 is violated when the factor exceeds the number of bins: a flat profile of value 1 in 2 bins becomes, for factor 3,
one bin of 6/5 instead of 3. -/
theorem C32_violated_small :
    rebin (arr 1 2 fun _ _ => (1 : ℚ)) 3 none none = .ok (arr 1 1 fun _ _ => 6 / 5, none, none) := by decide +kernel

/-- The general form of the violation: the samples' sum is divided by `nbins + rbn` instead of `nbins`. -/
theorem C32_small_partial {n nbins rbn : ℕ} (h0 : 0 < nbins) (h : nbins < rbn) (f : ℕ → ℕ → K) (dt sx : Option K) :
    rebin (arr n nbins f) rbn dt sx
      = .ok (arr n 1 (fun i _ => rbn * (total nbins f i / ((nbins + rbn : ℕ) : K))), dt.map fun v => v * (rbn : K),
          sx.map fun v => v / (rbn : K)) := by
  unfold rebin
  have hm : nbins % rbn ≠ 0 := by rw [Nat.mod_eq_of_lt h]; omega
  rw [if_neg (by omega), arr_cols, if_neg hm, rebinIndividable_small h, bind_ok]
  dsimp only
  rw [pure_eq_ok]
  congr 2
  apply arr_congr
  intro i k _ _
  unfold total
  rw [div_eq_mul_inv, div_eq_mul_inv]; ring

/-- C32 is violated in the last bin: the only left-over sample is 0, yet the last bin is 8: it repeats the content of the
preceding complete bin, so charge is counted twice. -/
theorem C32_violated_last :
    rebin (arr 1 3 fun _ j => if j < 2 then (6 : ℚ) else 0) 2 none none
      = .ok (arr 1 2 fun _ j => if j = 0 then 12 else 8, none, none) := by decide +kernel

/-- A zero factor is rejected. -/
theorem C32_zero (d : Arr2 K) (dt sx : Option K) : rebin d 0 dt sx = .error (.exc .zeroDivisionError) := rfl

/-- a case of `C32_dividable`/`C32_conserves_charge` -/
example : rebin (arr 2 4 fun i j => ((i + j : ℕ) : ℚ)) 2 (some 3) (some 5)
    = .ok (arr 2 2 fun i k => if i = 0 then (if k = 0 then 1 else 5) else (if k = 0 then 3 else 7), some 6, some (5 / 2)) := by
  decide +kernel

/-- a case of `C32_individable_partial` -/
example : rebin (arr 1 5 fun _ j => ((j * j : ℕ) : ℚ)) 2 none none
    = .ok (arr 1 3 fun _ k => if k = 0 then 1 else if k = 1 then 13 else 58 / 3, none, none) := by decide +kernel

/-! ## C34 cutting -/

/-- C34: `cut_waterfall` accepts exactly the non-empty cuts inside the image (a negative right end counted from the end) and
returns the columns from `left` up to the right end; everything else raises ValueError. -/
theorem C34_cut {α : Type} {n m : ℕ} (hn : 0 < n) (f : ℕ → ℕ → α) (left right : ℤ) :
    (∀ l r : ℕ, left = l → (right = r ∨ right = (r : ℤ) - m ∧ right < 0) → l < r → r ≤ m →
      cutWaterfall (arr n m f) left right = .ok (arr n (r - l) fun i j => f i (l + j))) ∧
    ((¬ ∃ l r : ℕ, left = l ∧ (right = r ∨ right = (r : ℤ) - m ∧ right < 0) ∧ l < r ∧ r ≤ m) →
      cutWaterfall (arr n m f) left right = .error (.exc .valueError)) := by
  have hfl : firstLen (arr n m f) = .ok m := by
    obtain ⟨k, rfl⟩ : ∃ k, n = k + 1 := ⟨n - 1, by omega⟩
    unfold firstLen
    rw [arr_rows]
    cases hk : tab (k + 1) (fun i => tab m (f i)) with
    | nil =>
      have := congrArg List.length hk
      simp at this
    | cons a l => rfl
  have hck : Asrt.Checks (checkCuts m left right)
      (0 ≤ left ∧ ((right < 0 ∧ -(m : ℤ) ≤ right ∧ left < m + right) ∨ (0 ≤ right ∧ right ≤ m ∧ left < right))) .valueError := by
    unfold checkCuts Asrt.assertGreaterOrEqual Asrt.assertInrange Asrt.assertGreater
    constructor
    · rintro ⟨h0, h | h⟩
      · rw [if_neg (by omega), bind_ok, if_pos h.1, if_neg (by omega), bind_ok, if_neg (by omega)]
      · rw [if_neg (by omega), bind_ok, if_neg (by omega), if_neg (by omega), bind_ok, if_neg (by omega)]
    · intro h
      by_cases h0 : left < 0
      · rw [if_pos h0]; rfl
      · rw [if_neg h0, bind_ok]
        by_cases hr : right < 0
        · rw [if_pos hr]
          by_cases hb : right < -(m : ℤ) ∨ -1 < right
          · rw [if_pos hb]; rfl
          · rw [if_neg hb, bind_ok, if_pos (by omega)]; rfl
        · rw [if_neg hr]
          by_cases hb : right < 0 ∨ (m : ℤ) < right
          · rw [if_pos hb]; rfl
          · rw [if_neg hb, bind_ok, if_pos (by omega)]; rfl
  unfold cutWaterfall
  rw [hfl, bind_ok]
  constructor
  · rintro l r rfl hr hlr hrm
    rw [hck.1 (by omega), bind_ok]
    have h2 : sliceIdx m right = r := by
      rcases hr with rfl | ⟨hr, hneg⟩
      · exact sliceIdx_nat hrm
      · unfold sliceIdx
        rw [if_pos hneg]
        omega
    rw [sliceCols_arr f (sliceIdx_nat (by omega)) h2 hrm hlr.le]; rfl
  · intro h
    rw [hck.2, bind_error]
    rintro ⟨h0, ⟨h1, h2, h3⟩ | ⟨h1, h2, h3⟩⟩
    · exact h ⟨left.toNat, ((m : ℤ) + right).toNat, by omega, Or.inr ⟨by omega, h1⟩, by omega, by omega⟩
    · exact h ⟨left.toNat, right.toNat, by omega, Or.inl (by omega), by omega, by omega⟩

/-- C34: a waterfall without profiles is an IndexError. -/
theorem C34_cut_empty {α : Type} {m : ℕ} (f : ℕ → ℕ → α) (left right : ℤ) :
    cutWaterfall (arr 0 m f) left right = .error (.exc .indexError) := rfl

theorem firstLen_arr {α : Type} {n m : ℕ} (hn : 0 < n) (f : ℕ → ℕ → α) : firstLen (arr n m f) = .ok m := by
  obtain ⟨k, rfl⟩ : ∃ k, n = k + 1 := ⟨n - 1, by omega⟩
  unfold firstLen
  rw [arr_rows]
  cases hk : tab (k + 1) (fun i => tab m (f i)) with
  | nil =>
    have := congrArg List.length hk
    simp at this
  | cons a l => rfl

/-- C34: for at least one profile of at least two bins and a non-negative margin, `get_cuts` returns cuts (with or without a
threshold) that `cut_waterfall` accepts; with threshold `t`, all neighbouring bins between which the waterfall changes by more
than `t` above its smallest change are inside the cut.  The cut is tight: a left end that is not 0 is exactly `margin` bins
before the first such change, a right end that is not the last bin lies `margin + 1` bins after the last one. -/
theorem C34_get_cuts {n m : ℕ} (hn : 0 < n) (hm : 2 ≤ m) (f : ℕ → ℕ → K) (threshold : Option K) {margin : ℤ}
    (h0 : 0 ≤ margin) :
    ∃ l r : ℤ, getCuts (arr n m f) threshold margin = .ok (l, r) ∧
      (∃ w, cutWaterfall (arr n m f) l r = .ok w) ∧
      ∀ t, (threshold = some t ∨ threshold = none ∧ ∃ a b, a + 1 < m ∧ b + 1 < m ∧
          (∀ j, j + 1 < m → change n f j ≤ change n f a ∧ change n f b ≤ change n f j) ∧
          t = (change n f a - change n f b) * (3 / 10)) →
        let active (j : ℕ) := ∃ k, k + 1 < m ∧ t < change n f j - change n f k
        (∀ j, j + 1 < m → active j → l ≤ j ∧ (j : ℤ) + 1 < r) ∧
        (0 < l → ∃ j : ℕ, j + 1 < m ∧ (j : ℤ) = l + margin ∧ active j ∧ ∀ i, i < j → ¬ active i) ∧
        (r < m → ∃ j : ℕ, j + 1 < m ∧ (j : ℤ) + 3 + margin = r ∧ active j ∧ ∀ i, j < i → i + 1 < m → ¬ active i) := by
  obtain ⟨k, hk, hkmin, hact⟩ := activity_arr n m hm f
  obtain ⟨L, rfl⟩ : ∃ L, m = L + 1 := ⟨m - 1, by omega⟩
  have hL : L + 1 - 1 = L := by omega
  rw [hL] at hk hkmin hact
  -- the threshold in force
  obtain ⟨t, ht, hcuts⟩ : ∃ t, (threshold = some t ∨ threshold = none ∧ ∃ a, a < L ∧
      (∀ j, j < L → steps n f j ≤ steps n f a) ∧ t = (steps n f a - steps n f k) * (3 / 10)) ∧
      getCuts (arr n (L + 1) f) threshold margin
        = .ok (cutsOf (L + 1) (tab L fun j => steps n f j - steps n f k) t margin) := by
    cases threshold with
    | some t =>
      refine ⟨t, Or.inl rfl, ?_⟩
      unfold getCuts
      rw [firstLen_arr hn, bind_ok, hact, bind_ok]; rfl
    | none =>
      have hne : (tab L fun j => steps n f j - steps n f k) ≠ [] := by
        intro h
        have := congrArg List.length h
        simp at this
        omega
      obtain ⟨mx, e, hmem, hle⟩ := npMax_spec hne
      unfold tab at hmem
      obtain ⟨a, ha, rfl⟩ := List.mem_map.mp hmem
      refine ⟨(steps n f a - steps n f k) * (3 / 10), Or.inr ⟨rfl, a, List.mem_range.mp ha, ?_, rfl⟩, ?_⟩
      · intro j hj
        have := hle (steps n f j - steps n f k) (by unfold tab; exact List.mem_map.mpr ⟨j, List.mem_range.mpr hj, rfl⟩)
        linarith
      · unfold getCuts
        rw [firstLen_arr hn, bind_ok, hact, bind_ok]
        dsimp only
        rw [e]; rfl
  obtain ⟨l, r, hlr⟩ : ∃ l r, cutsOf (L + 1) (tab L fun j => steps n f j - steps n f k) t margin = (l, r) := ⟨_, _, rfl⟩
  rw [hlr] at hcuts
  obtain ⟨⟨g0, g1, g2⟩, g3, g4, g5⟩ := cutsOf_spec (by omega : 1 ≤ L) (fun j => steps n f j - steps n f k) t h0 hlr
  refine ⟨l, r, hcuts, ?_⟩
  refine ⟨⟨_, (C34_cut (m := L + 1) hn f l r).1 l.toNat r.toNat (by omega) (Or.inl (by omega)) (by omega) (by omega)⟩, ?_⟩
  intro t' ht'
  have htt : t' = t := by
    rcases ht with h | ⟨h, a, ha, hamax, e⟩
    · rcases ht' with h' | ⟨h', _⟩
      · rw [h] at h'; exact (Option.some.inj h').symm
      · rw [h] at h'; cases h'
    · rcases ht' with h' | ⟨_, a', b', ha', hb', hab, e'⟩
      · rw [h] at h'; cases h'
      · have h1 : change n f a' = steps n f a := le_antisymm (hamax a' (by omega)) (hab a (by omega)).1
        have h2 : change n f b' = steps n f k := le_antisymm (hab k (by omega)).2 (hkmin b' (by omega))
        rw [e', e, h1, h2]
  subst htt
  have hiff : ∀ j, (∃ k, k + 1 < L + 1 ∧ t' < change n f j - change n f k) ↔ t' < steps n f j - steps n f k := by
    intro j
    constructor
    · rintro ⟨k', hk', h⟩
      have := hkmin k' (by omega)
      rw [steps_eq, steps_eq] at this
      rw [steps_eq, steps_eq]
      linarith
    · intro h
      exact ⟨k, by omega, h⟩
  dsimp only
  refine ⟨?_, ?_, ?_⟩
  · intro j hj ha
    exact g3 j (by omega) ((hiff j).mp ha)
  · intro hl
    obtain ⟨j, hj, e, ha, hn'⟩ := g4 hl
    exact ⟨j, by omega, e, (hiff j).mpr ha, fun i hi h => hn' i hi ((hiff i).mp h)⟩
  · intro hr
    obtain ⟨j, hj, e, ha, hn'⟩ := g5 hr
    exact ⟨j, by omega, e, (hiff j).mpr ha, fun i hi hi' h => hn' i hi (by omega) ((hiff i).mp h)⟩

/-- a waterfall with one bunch in the middle, used in the examples -/
def bump : ℕ → ℕ → ℚ := fun _ j => if j = 4 then 5 else if j = 5 then 7 else 0

/-- a case of `C34_get_cuts` -/
example : getCuts (arr 2 12 bump) none 1 = .ok (2, 9) := by decide +kernel

/-- a case of `C34_cut`, and a rejected one -/
example : cutWaterfall (arr 1 5 fun _ j => (j : ℚ)) 1 (-1) = .ok (arr 1 3 fun _ j => ((1 + j : ℕ) : ℚ)) ∧
    cutWaterfall (arr 1 5 fun _ j => (j : ℚ)) 3 2 = .error (.exc .valueError) := by decide +kernel

/-! ## C35 filtering -/

/-- the new index of the reconstruction frame: ValueError when it would be negative -/
def shiftSpec (removed : ℕ) (r : ℤ) : M ℤ := if r - removed < 0 then .error (.exc .valueError) else .ok (r - removed)

theorem shiftRecProf_eq {a b : ℕ} (h : b ≤ a) (r : ℤ) : shiftRecProf a b r = shiftSpec (a - b) r := by
  unfold shiftRecProf shiftSpec
  have : (((a - b : ℕ) : ℤ)) = (a : ℤ) - b := by omega
  rw [this]

/-- C35: exactly the frames that are not `Kept` are removed, from the waterfall and from the coordinates, in order.  (The
waterfall that is returned is divided by its total, which the documentation does not say.) -/
theorem C35_removes {β : Type} {n m p : ℕ} (hn : 0 < n) (f : ℕ → ℕ → K) (hT : 0 < ∑ i ∈ range n, total m f i)
    (gx gy : ℕ → ℕ → β) {kept : ℕ → Bool} (hk : ∀ i, i < n → (kept i = true ↔ Kept n m f i)) :
    filterProfiles (arr n m f) (some (arr p n gx)) (some (arr p n gy)) none
      = .ok (⟨m, ((List.range n).filter kept).map fun i => tab m fun j => f i j / ∑ i ∈ range n, total m f i⟩,
          some ⟨((List.range n).filter kept).length, tab p fun a => ((List.range n).filter kept).map (gx a)⟩,
          some ⟨((List.range n).filter kept).length, tab p fun a => ((List.range n).filter kept).map (gy a)⟩, none) := by
  unfold filterProfiles
  rw [if_neg (by simp), goodFrames_arr hn f hT hk, bind_ok]
  dsimp only
  rw [maskRows_arr, bind_ok]
  unfold optM
  dsimp only
  rw [maskCols_arr, bind_ok, maskCols_arr, bind_ok]
  rfl

/-- the filtered waterfall alone, with the reconstruction frame -/
theorem filterProfiles_wf {n m : ℕ} (hn : 0 < n) (f : ℕ → ℕ → K) (hT : 0 < ∑ i ∈ range n, total m f i)
    {kept : ℕ → Bool} (hk : ∀ i, i < n → (kept i = true ↔ Kept n m f i)) (r : ℤ) :
    filterProfiles (β := ℤ) (arr n m f) none none (some r)
      = (do
          let r' ← shiftSpec (n - ((List.range n).filter kept).length) r
          pure (⟨m, ((List.range n).filter kept).map fun i => tab m fun j => f i j / ∑ i ∈ range n, total m f i⟩,
            none, none, some r')) := by
  unfold filterProfiles
  rw [if_neg (by simp), goodFrames_arr hn f hT hk, bind_ok]
  dsimp only
  rw [maskRows_arr, bind_ok]
  unfold optM
  dsimp only
  rw [bind_ok, bind_ok, arr_rows, length_tab, List.length_map, shiftRecProf_eq]
  · cases shiftSpec (n - ((List.range n).filter kept).length) r <;> rfl
  · have := List.length_filter_le kept (List.range n)
    simpa using this

/-- C35, the part that holds: if the reconstruction frame is kept and all removed frames come before it, the returned index
denotes the same frame of the filtered waterfall. -/
theorem C35_rec_prof_partial {n m : ℕ} (f : ℕ → ℕ → K) (hT : 0 < ∑ i ∈ range n, total m f i) {r : ℕ} (hr : r < n)
    (hkr : ∀ i, r ≤ i → i < n → Kept n m f i) :
    ∃ (w : Arr2 K) (r' : ℕ), filterProfiles (β := ℤ) (arr n m f) none none (some (r : ℤ)) = .ok (w, none, none, some (r' : ℤ)) ∧
      w.rows[r']? = some (tab m fun j => f r j / ∑ i ∈ range n, total m f i) := by
  classical
  let kept : ℕ → Bool := fun i => decide (Kept n m f i)
  have hk : ∀ i, i < n → (kept i = true ↔ Kept n m f i) := fun i _ => by simp [kept]
  have hkt : ∀ i, r ≤ i → i < n → kept i = true := fun i h1 h2 => (hk i h2).mpr (hkr i h1 h2)
  obtain ⟨d, rfl⟩ : ∃ d, n = r + d := ⟨n - r, by omega⟩
  have hsplit : (List.range (r + d)).filter kept = (List.range r).filter kept ++ (List.range d).map (fun i => r + i) := by
    rw [List.range_add, List.filter_append]
    congr 1
    rw [List.filter_eq_self]
    intro a ha
    obtain ⟨i, hi, rfl⟩ := List.mem_map.mp ha
    have := List.mem_range.mp hi
    exact hkt (r + i) (by omega) (by omega)
  have hlen : ((List.range (r + d)).filter kept).length = ((List.range r).filter kept).length + d := by
    rw [hsplit]; simp
  have hle : ((List.range r).filter kept).length ≤ r := by
    have := List.length_filter_le kept (List.range r)
    simpa using this
  refine ⟨⟨m, ((List.range (r + d)).filter kept).map fun i => tab m fun j => f i j / ∑ i ∈ range (r + d), total m f i⟩,
    ((List.range r).filter kept).length, ?_, ?_⟩
  · rw [filterProfiles_wf (by omega) f hT hk, hlen]
    unfold shiftSpec
    have e : ((r : ℤ) - ((r + d - (((List.range r).filter kept).length + d) : ℕ) : ℤ))
        = (((List.range r).filter kept).length : ℤ) := by omega
    rw [e, if_neg (by omega), bind_ok]; rfl
  · rw [List.getElem?_map, hsplit, List.getElem?_append_right le_rfl, Nat.sub_self]
    have : ((List.range d).map (fun i => r + i))[0]? = some r := by
      rw [List.getElem?_map, List.getElem?_range (by omega)]; rfl
    rw [this]; rfl

/-- three frames, the last one empty -/
def lastEmpty : ℕ → ℕ → ℚ := fun i j => if i = 0 then (if j = 0 then 1 else 3) else if i = 1 then (if j = 0 then 3 else 1) else 0

/-- C35 is violated: when the removed frame comes after the reconstruction frame 1, the returned index 0 denotes frame 0, a
different measurement; for reconstruction frame 0, which is kept, ValueError is raised. -/
theorem C35_violated :
    filterProfiles (β := ℤ) (arr 3 2 lastEmpty) none none (some 1)
      = .ok (arr 2 2 (fun i j => lastEmpty i j / 8), none, none, some 0) ∧
    lastEmpty 0 0 ≠ lastEmpty 1 0 ∧
    filterProfiles (β := ℤ) (arr 3 2 lastEmpty) none none (some 0) = .error (.exc .valueError) :=
  ⟨by decide +kernel, by decide +kernel, by decide +kernel⟩

/-- a case of `C35_rec_prof_partial`: the first frame is empty -/
example : filterProfiles (β := ℤ) (arr 3 2 fun i j => lastEmpty (2 - i) j) none none (some 1)
    = .ok (arr 2 2 (fun i j => lastEmpty (1 - i) j / 8), none, none, some 0) := by decide +kernel

/-- coordinates must be given together -/
theorem C35_both {β : Type} (w : Arr2 K) (a : Arr2 β) (r : Option ℤ) :
    filterProfiles w (some a) none r = .error (.exc .valueError) ∧
    filterProfiles w none (some a) r = .error (.exc .valueError) := ⟨rfl, rfl⟩

end Verif.Props

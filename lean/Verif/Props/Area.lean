import Verif.Props.Particles
import Verif.Lemmas.Machine
import Mathlib.Tactic.LinearCombination

/-!
# Properties of the reconstruction area (C51) and of the whole homogeneous distribution (C29)
-/

set_option linter.unusedSectionVars false

namespace Verif.Props
open Verif.Part Verif.Psi Verif.Mch Verif.Asrt Finset

variable {K : Type} [Field K] [LinearOrder K] [IsStrictOrderedRing K] [FloorRing K]

/-- Unfolding of a successful `find_binned_phase_energy_limits`. -/
theorem findLimits_ok {L : MathLib K} {m : Area K} {xo dE : K} {l : Limits} (h : findLimits L m = .ok (xo, dE, l)) :
    calcXorigin m = .ok xo ∧ findDEbin L m xo = .ok dE ∧ 0 < dE ∧
    ∃ jmin jmax imin imax,
      (if m.fullPp = true then pure (limitsFullImage m) else limitsRecArea L m xo dE) = .ok (jmin, jmax, imin, imax) ∧
      adjustLimits m jmin jmax imin imax = .ok l ∧ assertCorrectIjlimits m.nbins l = .ok () := by
  unfold findLimits at h
  simp only [bind_ok_iff, (assertGreater_checks _ _ _).ok_iff] at h
  obtain ⟨xo', h1, dE', h2, _, h3, ⟨jmin, jmax, imin, imax⟩, h4, l', h5, ⟨⟩, h6, h7⟩ := h
  cases h7
  exact ⟨h1, h2, h3, jmin, jmax, imin, imax, h4, h5, h6⟩

theorem limitsRecArea_ok {L : MathLib K} {m : Area K} {xo dE : K} {jmin jmax : List ℤ} {imin imax : Option ℤ}
    (h : limitsRecArea L m xo dE = .ok (jmin, jmax, imin, imax)) :
    ∃ phases, calculatePhases m xo (m.filmstart * m.dturns) = .ok phases ∧
      findMaxBinnedEnergy L m phases (m.filmstart * m.dturns) dE = .ok jmax ∧ jmin = findMinBinnedEnergy m jmax ∧
      assertJlimitsOk jmin jmax = .ok () ∧ findMinBinnedPhase m.nbins jmin jmax = .ok imin ∧
      findMaxBinnedPhase m.nbins jmin jmax = .ok imax := by
  unfold limitsRecArea at h
  dsimp only at h
  simp only [bind_ok_iff] at h
  obtain ⟨phases, h1, jmax', h2, ⟨⟩, h3, imin', h4, imax', h5, h6⟩ := h
  cases h6
  exact ⟨phases, h1, h2, rfl, h3, h4, h5⟩

theorem length_limits {L : MathLib K} {m : Area K} {xo dE : K} {jmin jmax : List ℤ} {imin imax : Option ℤ}
    (h : (if m.fullPp = true then pure (limitsFullImage m) else limitsRecArea L m xo dE) = .ok (jmin, jmax, imin, imax)) :
    jmin.length = m.nbins ∧ jmax.length = m.nbins := by
  by_cases hf : m.fullPp = true
  · rw [if_pos hf] at h
    unfold limitsFullImage at h
    cases h
    simp
  · rw [if_neg hf] at h
    obtain ⟨phases, _, h2, h3, _⟩ := limitsRecArea_ok h
    have := (findMaxBinnedEnergy_le h2).1
    rw [h3, length_findMin]
    exact ⟨this, this⟩

/-- C51, `_partial`: when the search finds limits they satisfy `0 ≤ imin ≤ imax < nbins`, there is one pair of energy limits
per column, in the columns `imin..imax-1` they are ordered and inside the image, and the energy bin is positive.
Needed: not the full image, or a maximal time inside the image.  Missing: column `imax` (not checked by the code,
`C51_violated_assertion`), a maximal time beyond the image (`C51_violated_upper`), symmetry (`C51_violated_symmetry`). -/
theorem C51_limits_partial {L : MathLib K} {m : Area K} {xo dE : K} {l : Limits} (h : findLimits L m = .ok (xo, dE, l))
    (hd : 0 < m.dtbin) (hm : m.fullPp = false ∨ m.maxDt ≤ m.nbins * m.dtbin) :
    0 < dE ∧ 0 ≤ l.imin ∧ l.imin ≤ l.imax ∧ l.imax < m.nbins ∧ l.jmin.length = m.nbins ∧ l.jmax.length = m.nbins ∧
    (∀ i : ℕ, l.imin ≤ i → (i : ℤ) < l.imax →
      ∃ a b, l.jmin[i]? = some a ∧ l.jmax[i]? = some b ∧ 0 ≤ a ∧ a ≤ b ∧ b ≤ m.nbins) ∧
    ∃ (i : ℕ) (a b : ℤ), l.jmin[i]? = some a ∧ l.jmax[i]? = some b ∧ a < b := by
  obtain ⟨_, _, hdE, jmin, jmax, imin, imax, h4, h5, h6⟩ := findLimits_ok h
  obtain ⟨c1, c2, _, c4, c5, c6⟩ := assertCorrect_ok h6
  obtain ⟨l1, l2⟩ := length_limits h4
  obtain ⟨_, a, b, ha, hb, hadj⟩ := adjustLimits_ok h5
  dsimp only at hadj
  obtain ⟨e1, e2, e3, e4⟩ := hadj
  have hlen : l.jmax.length = m.nbins := by
    rw [e1]; split_ifs <;> simp [length_npSetSlice, l2]
  refine ⟨hdE, c1, c2, ?_, by rw [c4, hlen], hlen, c5, c6⟩
  rw [e4]
  by_cases hf : m.fullPp = true
  · rw [if_pos (Or.inr hf)]
    have hmx : m.maxDt ≤ m.nbins * m.dtbin := by
      rcases hm with hm | hm
      · rw [hf] at hm; cases hm
      · exact hm
    have : ⌈m.maxDt / m.dtbin⌉ ≤ m.nbins := by
      rw [Int.ceil_le]
      rw [div_le_iff₀ hd]
      exact_mod_cast hmx
    omega
  · rw [if_neg hf] at h4
    obtain ⟨_, _, _, _, _, _, hmax⟩ := limitsRecArea_ok h4
    unfold findMaxBinnedPhase at hmax
    obtain ⟨i, hi, hbi, _⟩ := go_some hmax b hb
    have hi' : i < m.nbins := by
      have := List.mem_of_mem_drop (List.mem_reverse.mp hi)
      simpa using this
    split_ifs with hc
    · rcases hc with hc | hc
      · omega
      · exact absurd hc hf
    · omega

/-- C51: the search for the phase limits always succeeds when the energy limits leave an area, with the synchronous energy in
the middle of the image (as the machine sets it): the skipped column 0 is never the only valid one. -/
theorem C51_search_succeeds {L : MathLib K} (hs0 : L.sqrt 0 = 0) {m : Area K} (hy : m.synchPartY = (m.nbins : K) / 2)
    {xo dE : K} {jmin jmax : List ℤ} {imin imax : Option ℤ}
    (h : limitsRecArea L m xo dE = .ok (jmin, jmax, imin, imax)) : (∃ a, imin = some a) ∧ ∃ b, imax = some b := by
  obtain ⟨phases, hph, h2, h3, h4, h5, h6⟩ := limitsRecArea_ok h
  obtain ⟨hl, i, a, b, hja, hjb, hab⟩ := assertJlimitsOk_ok h4
  have hlen := (findMaxBinnedEnergy_le h2).1
  have hi : i < m.nbins := by rw [← hlen]; exact (List.getElem?_eq_some_iff.mp hjb).1
  have notNone : ∀ is : List ℕ, (∀ k ∈ is, k < m.nbins) → i ∈ is → ∀ r, findMinBinnedPhase.go jmin jmax is = .ok r →
      ∃ z, r = some z := by
    intro is his hmem r hr
    induction is generalizing r with
    | nil => simp at hmem
    | cons k is ih =>
      unfold findMinBinnedPhase.go at hr
      simp only [bind_ok_iff] at hr
      obtain ⟨u, hu, v, hv, hr⟩ := hr
      split at hr
      · cases hr; exact ⟨_, rfl⟩
      · rename_i hneg
        rcases List.mem_cons.mp hmem with rfl | hmem
        · rw [rd_some] at hu hv
          rw [hja] at hv; rw [hjb] at hu
          cases hu; cases hv
          omega
        · exact ih (fun k hk => his k (by simp [hk])) hmem r hr
  constructor
  · exact notNone _ (fun k hk => List.mem_range.mp hk) (List.mem_range.mpr hi) _ h5
  · have hi0 : i ≠ 0 := by
      rintro rfl
      -- column 0 contains the left edge, whose trajectory has height 0
      have h2' := h2
      unfold findMaxBinnedEnergy at h2'
      simp only [bind_ok_iff] at h2'
      obtain ⟨p0, hp0, p1, _, low, hlow, up, _, hjm⟩ := h2'
      obtain ⟨y, hy1, hy2⟩ := mapM_getElem hjm (i := 0) (x := 0) (by simp [hi])
      rw [hjb] at hy2
      cases hy2
      obtain ⟨e, he1, he2⟩ := mapM_getElem hlow (i := 0) (x := 0) (by simp)
      simp only [bind_ok_iff] at hy1
      obtain ⟨u0, _, u1, _, l0, hl0, l1, _, hb⟩ := hy1
      rw [show ((0 : ℕ) : ℤ) = ((0 : ℕ) : ℤ) from rfl, rd_some] at hl0
      rw [he2] at hl0
      cases hl0
      have hheight : e = ⌊m.synchPartY⌋ := by
        simp only [bind_ok_iff] at he1
        obtain ⟨ph, hphr, hgt, hh, r, hr, he⟩ := he1
        have hp0' : rd phases ((0 : ℕ) : ℤ) = .ok p0 := hp0
        rw [hp0'] at hphr
        cases hphr
        unfold trajectoryHeight at hh
        simp only [bind_ok_iff] at hh
        obtain ⟨c, _, a', _, v1, _, v2, _, bb, hbb, q0, _, hh⟩ := hh
        obtain ⟨hne, rfl⟩ := fdiv_inv hbb
        have hz : hgt = 0 := by
          cases hh
          simp [hs0]
        subst hz
        obtain ⟨_, rfl⟩ := fdiv_inv hr
        cases he
        simp
      have hble : b ≤ ⌊m.synchPartY⌋ := by cases hb; omega
      rw [h3] at hja
      unfold findMinBinnedEnergy at hja
      rw [List.getElem?_map, hjb] at hja
      simp only [Option.map_some, Option.some.injEq] at hja
      have hge : ⌈2 * m.synchPartY - (b : K) - 1 / 2⌉ ≤ a := by
        rw [← hja]; split <;> omega
      have hge' : (2 * m.synchPartY - (b : K) - 1 / 2) ≤ (a : K) := Int.ceil_le.mp hge
      have hfl : ((⌊m.synchPartY⌋ : ℤ) : K) ≤ m.synchPartY := Int.floor_le _
      have hbk : ((b : ℤ) : K) ≤ ((⌊m.synchPartY⌋ : ℤ) : K) := Int.cast_le.mpr hble
      have hak : ((a + 1 : ℤ) : K) ≤ ((b : ℤ) : K) := Int.cast_le.mpr (by omega)
      push_cast at hak
      linarith
    apply notNone _ _ _ _ h6
    · intro k hk
      have := List.mem_of_mem_drop (List.mem_reverse.mp hk)
      simpa using this
    · rw [List.mem_reverse]
      rw [List.mem_iff_getElem?]
      refine ⟨i - 1, ?_⟩
      rw [List.getElem?_drop]
      have : 1 + (i - 1) = i := by omega
      rw [this]
      simp [hi]

/-- C51, what holds instead of symmetry.  The synchronous energy is in the middle of the image.  Either no time cut applies and
in each column the limits mirror each other, `jmin = nbins - jmax` (but at least 1); or a cut applies (always with the full
image) and `jmin = nbins + 1 - jmax`: the lower half has one cell less than the upper half. -/
theorem C51_mirror_partial {L : MathLib K} {m : Area K} (hy : m.synchPartY = (m.nbins : K) / 2) {xo dE : K} {l : Limits}
    (h : findLimits L m = .ok (xo, dE, l)) :
    (m.fullPp = false ∧ ∀ (i : ℕ) (a b : ℤ), l.jmin[i]? = some a → l.jmax[i]? = some b → a = max 1 (m.nbins - b)) ∨
    (∀ (i : ℕ) (a b : ℤ), l.jmin[i]? = some a → l.jmax[i]? = some b → a = m.nbins + 1 - b) := by
  obtain ⟨_, _, hdE, jmin, jmax, imin, imax, h4, h5, h6⟩ := findLimits_ok h
  obtain ⟨_, a, b, ha, hb, hadj⟩ := adjustLimits_ok h5
  dsimp only at hadj
  obtain ⟨e1, e2, e3, e4⟩ := hadj
  have hceil : ∀ j : ℤ, ⌈2 * m.synchPartY - (j : K) + 1 / 2⌉ = m.nbins + 1 - j := by
    intro j
    rw [Int.ceil_eq_iff, hy]
    push_cast
    constructor <;> linarith
  have hceil' : ∀ j : ℤ, ⌈2 * m.synchPartY - (j : K) - 1 / 2⌉ = m.nbins - j := by
    intro j
    rw [Int.ceil_eq_iff, hy]
    push_cast
    constructor <;> linarith
  by_cases hc : (trunc (m.minDt / m.dtbin) > a ∨ m.fullPp = true) ∨ (⌈m.maxDt / m.dtbin⌉ < b ∨ m.fullPp = true)
  · right
    intro i u v hu hv
    rw [if_pos hc, ← e1] at e2
    rw [e2, List.getElem?_map, hv] at hu
    simp only [Option.map_some, Option.some.injEq] at hu
    rw [hceil] at hu
    exact hu.symm
  · left
    rw [if_neg hc] at e2
    obtain ⟨hc1, hc2⟩ := not_or.mp hc
    have hf : ¬ m.fullPp = true := fun hf => hc1 (Or.inr hf)
    refine ⟨by simpa using hf, ?_⟩
    rw [if_neg hc1, if_neg hc2] at e1
    rw [if_neg hf] at h4
    obtain ⟨_, _, _, h3, _⟩ := limitsRecArea_ok h4
    intro i u v hu hv
    rw [e2, h3] at hu
    rw [e1] at hv
    unfold findMinBinnedEnergy at hu
    rw [List.getElem?_map, hv] at hu
    simp only [Option.map_some, Option.some.injEq] at hu
    rw [hceil'] at hu
    split at hu <;> omega

/-- a library over the rationals for the witnesses (only used through `cos 0 - cos 0` and `sqrt 0`) -/
def libQ : MathLib ℚ := ⟨fun x => x, fun x => 1 - x * x / 2, fun x => x, 3, 1, fun _ _ x => some x⟩

/-- C51 fails on symmetry: the full image of four bins with the synchronous energy in the middle gives the cells 1, 2, 3. -/
theorem C51_violated_symmetry : findLimits libQ area0 = .ok (-5/6, 3, ⟨[1, 1, 1, 1], [4, 4, 4, 4], 0, 3⟩) ∧
    area0.synchPartY = (area0.nbins : ℚ) / 2 ∧ (1 : ℚ) + 4 ≠ 2 * area0.synchPartY := by
  refine ⟨by decide +kernel, by decide +kernel, by decide +kernel⟩

/-- C51: with the synchronous energy in the middle of the image (as the machine sets it) the energy limits of *every* column,
checked by the code or not, lie inside the image, and never reach energy row 0. -/
theorem C51_inside_every_column {L : MathLib K} {m : Area K} (hy : m.synchPartY = (m.nbins : K) / 2) {xo dE : K} {l : Limits}
    (h : findLimits L m = .ok (xo, dE, l)) :
    ∀ (i : ℕ) (a b : ℤ), l.jmin[i]? = some a → l.jmax[i]? = some b → 1 ≤ a ∧ b ≤ m.nbins := by
  intro i a b ha hb
  have hfl : ⌊m.synchPartY⌋ ≤ (m.nbins : ℤ) := by
    have h1 : (⌊m.synchPartY⌋ : K) ≤ m.synchPartY := Int.floor_le _
    have h2 : (0 : K) ≤ m.nbins := Nat.cast_nonneg _
    have : ((⌊m.synchPartY⌋ : ℤ) : K) ≤ ((m.nbins : ℤ) : K) := by push_cast; rw [hy] at h1 ⊢; linarith
    exact_mod_cast this
  have hble : b ≤ m.nbins := by
    obtain ⟨_, _, _, jmin, jmax, imin, imax, h4, h5, _⟩ := findLimits_ok h
    have hj : ∀ j ∈ jmax, j ≤ (m.nbins : ℤ) := by
      by_cases hf : m.fullPp = true
      · rw [if_pos hf] at h4
        unfold limitsFullImage at h4
        cases h4
        intro j hj
        unfold tab at hj
        obtain ⟨_, _, rfl⟩ := List.mem_map.mp hj
        exact le_rfl
      · rw [if_neg hf] at h4
        obtain ⟨_, _, h2, _⟩ := limitsRecArea_ok h4
        exact (findMaxBinnedEnergy_le h2).2
    have hset : ∀ (z : List ℤ) (s t : ℤ), (∀ j ∈ z, j ≤ (m.nbins : ℤ)) →
        ∀ j ∈ npSetSlice z s t ⌊m.synchPartY⌋, j ≤ (m.nbins : ℤ) := by
      intro z s t hz j hj
      obtain ⟨k, hk⟩ := List.mem_iff_getElem?.mp hj
      rw [getElem?_npSetSlice] at hk
      obtain ⟨v, hv, rfl⟩ := Option.map_eq_some_iff.mp hk
      split
      · exact hfl
      · exact hz v (List.mem_iff_getElem?.mpr ⟨k, hv⟩)
    obtain ⟨_, u, v, _, _, hadj⟩ := adjustLimits_ok h5
    dsimp only at hadj
    obtain ⟨e1, _⟩ := hadj
    have hmem : b ∈ l.jmax := List.mem_iff_getElem?.mpr ⟨i, hb⟩
    rw [e1] at hmem
    revert hmem
    split_ifs
    · exact hset _ _ _ (hset _ _ _ hj) b
    · exact hset _ _ _ hj b
    · exact hset _ _ _ hj b
    · exact hj b
  refine ⟨?_, hble⟩
  rcases C51_mirror_partial hy h with ⟨_, hm⟩ | hm
  · rw [hm i a b ha hb]; exact le_max_left _ _
  · rw [hm i a b ha hb]; omega

/-- met by the full image of four bins -/
example : findLimits libQ area0 = .ok (-5/6, 3, ⟨[1, 1, 1, 1], [4, 4, 4, 4], 0, 3⟩) ∧
    ∀ (i : ℕ) (a b : ℤ), ([1, 1, 1, 1] : List ℤ)[i]? = some a → ([4, 4, 4, 4] : List ℤ)[i]? = some b → 1 ≤ a ∧ b ≤ 4 :=
  have h := C51_violated_symmetry
  ⟨h.1, C51_inside_every_column (by rw [h.2.1]) h.1⟩

/-- C51 fails when the maximal time lies beyond the image: `imax = nbins` is accepted, and the distribution then fails with
an IndexError. -/
theorem C51_violated_upper :
    findLimits libQ { area0 with maxDt := 9/14 } = .ok (-5/6, 3, ⟨[1, 1, 1, 1], [4, 4, 4, 4], 0, 4⟩) ∧
    homogeneousDistribution libQ { area0 with maxDt := 9/14 } 0 0 = .error (.exc .indexError) := by
  constructor <;> decide +kernel

/-- C51: the consistency assertion does not look at column `imax`, whose limits may be anything. -/
theorem C51_violated_assertion : assertCorrectIjlimits 2 ⟨[0, 50], [1, -100], 0, 1⟩ = .ok () := by decide +kernel

/-- C51: the consistency assertion rejects every other inconsistent set. -/
theorem C51_assertion_rejects_partial (nbins : ℕ) (l : Limits)
    (hbad : l.imin < 0 ∨ l.imax < l.imin ∨ (l.jmax.length : ℤ) < l.imax ∨ l.jmin.length ≠ l.jmax.length ∨
      (∃ (i : ℕ) (a b : ℤ), l.imin ≤ i ∧ (i : ℤ) < l.imax ∧ l.jmin[i]? = some a ∧ l.jmax[i]? = some b ∧
        (a < 0 ∨ b < a ∨ (nbins : ℤ) < b)) ∨
      (∀ (i : ℕ) (a b : ℤ), l.jmin[i]? = some a → l.jmax[i]? = some b → b ≤ a)) :
    ∃ e, assertCorrectIjlimits nbins l = .error e := by
  cases h : assertCorrectIjlimits nbins l with
  | error e => exact ⟨e, rfl⟩
  | ok u =>
    exfalso
    obtain ⟨c1, c2, c3, c4, c5, i, a, b, ha, hb, hab⟩ := assertCorrect_ok h
    rcases hbad with h' | h' | h' | h' | ⟨i', a', b', k1, k2, k3, k4, k5⟩ | h'
    · omega
    · omega
    · omega
    · exact h' c4
    · obtain ⟨a'', b'', g1, g2, g3, g4, g5⟩ := c5 i' k1 k2
      rw [k3] at g1; rw [k4] at g2
      cases g1; cases g2
      omega
    · have := h' i a b ha hb
      omega

/-! ## C29, whole function -/

/-- C29: with limits as found (and `imax` inside the image) `homogeneous_distribution` returns the physical coordinates at
profile `r` of exactly the sub-points of the cells of the area, all distinct, `snpt²` per cell. -/
theorem C29_distribution {L : MathLib K} {m : Area K} {xo dE : K} {l : Limits} (h : findLimits L m = .ok (xo, dE, l))
    (hd : 0 < m.dtbin) (hm : m.fullPp = false ∨ m.maxDt ≤ m.nbins * m.dtbin) {N d r : ℕ} {om ph : ℕ → K}
    (ho : m.omegaRev0 = tab N om) (hp : m.phi0 = tab N ph) (hdt : m.dturns = d) (hr : r * d < N)
    (hs : m.hNum * om (r * d) * m.dtbin ≠ 0) :
    ∃ (pts : List (K × K)) (jmn jmx : ℕ → ℤ), l.jmin = tab m.nbins jmn ∧ l.jmax = tab m.nbins jmx ∧
      homogeneousDistribution L m r 0 = .ok (pts.map fun p =>
        ((p.1 + xo) * m.hNum * om (r * d) * m.dtbin - ph (r * d), (p.2 - m.synchPartY) * dE)) ∧
      (pts.map fun p => ((p.1 + xo) * m.hNum * om (r * d) * m.dtbin - ph (r * d), (p.2 - m.synchPartY) * dE)).Nodup ∧
      (∀ x y, (x, y) ∈ pts ↔ ∃ (i : ℕ) (j : ℤ) (a b : ℕ), l.imin ≤ i ∧ (i : ℤ) ≤ l.imax ∧ jmn i ≤ j ∧ j < jmx i ∧
        a < m.snpt ∧ b < m.snpt ∧ x = (i : K) + subPoint m.snpt a ∧ y = (j : K) + subPoint m.snpt b) ∧
      pts.length = m.snpt ^ 2 * ∑ i ∈ Icc l.imin.toNat l.imax.toNat, (jmx i - jmn i).toNat := by
  obtain ⟨hdE, c1, c2, c3, c4, c5, _, i0, a0, b0, g1, g2, g3⟩ := C51_limits_partial h hd hm
  have e1 := eq_tab_of_length l.jmin
  have e2 := eq_tab_of_length l.jmax
  rw [c4] at e1
  rw [c5] at e2
  have hi0 : i0 < m.nbins := by rw [← c4]; exact (List.getElem?_eq_some_iff.mp g1).1
  obtain ⟨pts, q1, q2, q3, q4⟩ := C29_points (K := K) (s := m.snpt) (imin := l.imin.toNat) (imax := l.imax.toNat) l
    (fun i => l.jmin.getD i default) (fun i => l.jmax.getD i default) e1 e2 (by omega) (by omega) (by omega) (by omega)
    ⟨i0, hi0, by rw [List.getD, g1, List.getD, g2]; exact g3.le⟩
  refine ⟨pts, _, _, e1, e2, ?_, ?_, ?_, q4⟩
  · unfold homogeneousDistribution
    rw [h, bind_ok]
    dsimp only
    rw [q1, bind_ok]
    unfold binToPhysical
    have hz : (r : ℤ) * m.dturns + 0 = ((r * d : ℕ) : ℤ) := by rw [hdt]; push_cast; ring
    dsimp only
    rw [hz, ho, hp, npGet_tab _ hr, bind_ok, npGet_tab _ hr, bind_ok]
    rfl
  · apply List.Nodup.map _ q2
    rintro ⟨x, y⟩ ⟨x', y'⟩ heq
    rw [Prod.mk.injEq] at heq
    obtain ⟨k1, k2⟩ := heq
    dsimp only at k1 k2
    have k1' : (x + xo) * (m.hNum * om (r * d) * m.dtbin) = (x' + xo) * (m.hNum * om (r * d) * m.dtbin) := by linear_combination k1
    have k3 := mul_right_cancel₀ hs k1'
    have k4 := mul_right_cancel₀ hdE.ne' k2
    rw [Prod.mk.injEq]
    exact ⟨by linarith, by linarith⟩
  · intro x y
    rw [q3]
    constructor
    · rintro ⟨i, j, a, b, p1, p2, p3, p4, p5, p6, p7, p8⟩
      exact ⟨i, j, a, b, by omega, by omega, p3, p4, p5, p6, p7, p8⟩
    · rintro ⟨i, j, a, b, p1, p2, p3, p4, p5, p6, p7, p8⟩
      exact ⟨i, j, a, b, by omega, by omega, p3, p4, p5, p6, p7, p8⟩

example : (homogeneousDistribution libQ area0 0 0).map List.length = .ok 48 := by decide +kernel

/-- a smaller reconstruction area (not the full image), found by the search -/
def area5 : Area ℚ :=
  { area0 with fullPp := false, nbins := 5, synchPartX := 5/2, synchPartY := 5/2, demax := 1/2, phi0 := [0, 0], maxDt := 5/7 }

example : findLimits libQ area5 = .ok (-5/2, 1/5, ⟨[3, 1, 1, 1, 3], [2, 4, 4, 4, 2], 1, 3⟩) := by decide +kernel

/-! ## C53 -/

/-- C53, `_partial`: the area starts at or after the first bin of the user's time window and ends at most one column after
its last bin `⌈maxDt/dtbin⌉ - 1`.  Missing: the one column, see `C53_violated`. -/
theorem C53_window_partial {L : MathLib K} {m : Area K} {xo dE : K} {l : Limits} (h : findLimits L m = .ok (xo, dE, l)) :
    trunc (m.minDt / m.dtbin) ≤ l.imin ∧ l.imax ≤ ⌈m.maxDt / m.dtbin⌉ := by
  obtain ⟨_, _, _, jmin, jmax, imin, imax, _, h5, _⟩ := findLimits_ok h
  obtain ⟨_, a, b, _, _, hadj⟩ := adjustLimits_ok h5
  dsimp only at hadj
  obtain ⟨_, _, e3, e4⟩ := hadj
  rw [e3, e4]
  constructor
  · split_ifs with hc
    · exact le_rfl
    · have := (not_or.mp hc).1
      omega
  · split_ifs with hc
    · omega
    · have := (not_or.mp hc).1
      omega

/-- C53: with the full image the window is respected exactly. -/
theorem C53_full_image {L : MathLib K} {m : Area K} {xo dE : K} {l : Limits} (h : findLimits L m = .ok (xo, dE, l))
    (hf : m.fullPp = true) : l.imin = trunc (m.minDt / m.dtbin) ∧ l.imax = ⌈m.maxDt / m.dtbin⌉ - 1 := by
  obtain ⟨_, _, _, jmin, jmax, imin, imax, _, h5, _⟩ := findLimits_ok h
  obtain ⟨_, a, b, _, _, hadj⟩ := adjustLimits_ok h5
  dsimp only at hadj
  obtain ⟨_, _, e3, e4⟩ := hadj
  rw [e3, e4, if_pos (Or.inr hf), if_pos (Or.inr hf)]
  exact ⟨rfl, rfl⟩

/-- C53 fails: with a window of three bins (columns 0, 1, 2) the area still contains column 3 (with energy limits 1 and 4),
because the limit is only applied when the window ends strictly before the last column. -/
theorem C53_violated : ⌈({ area5 with maxDt := 3/7 } : Area ℚ).maxDt / area5.dtbin⌉ = 3 ∧
    findLimits libQ { area5 with maxDt := 3/7 } = .ok (-5/2, 1/5, ⟨[3, 1, 1, 1, 3], [2, 4, 4, 4, 2], 1, 3⟩) := by
  constructor <;> decide +kernel

end Verif.Props

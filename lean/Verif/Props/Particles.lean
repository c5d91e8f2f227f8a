import Verif.Lemmas.PhaseSpaceInfo
import Mathlib.Data.Rat.Floor
import Mathlib.Data.List.GetD
import Mathlib.Algebra.BigOperators.Ring.Finset

/-!
# Properties of the particle coordinates (C26–C29) and of the reconstruction area (C51)
-/

set_option linter.unusedSectionVars false

namespace Verif.Props
open Verif.Part Verif.Psi Verif.Mch Verif.Asrt Finset

/-! ## C26 -/

/-- particle `j` is inside `[0, w)` at each of the `n` profiles -/
def StaysInside {K : Type} [LinearOrder K] [Zero K] (n : ℕ) (x : ℕ → ℕ → K) (w : K) (j : ℕ) : Prop :=
  ∀ i, i < n → 0 ≤ x i j ∧ x i j < w

theorem bad_iff {K : Type} [LinearOrder K] [Zero K] (w x : K) : bad w x = false ↔ 0 ≤ x ∧ x < w := by
  unfold bad
  rw [Bool.or_eq_false_iff, decide_eq_false_iff_not, decide_eq_false_iff_not, not_le, not_lt, and_comm]

/-- C26, for coordinates that are numbers (`_partial`: NaN coordinates are kept, see `C26_violated_nan`).  `kept` is the
increasing list of the particles staying inside; the result has these columns of `x` and of `y`, and the number removed;
nothing left raises. -/
theorem C26_selection_partial {K : Type} [LinearOrder K] [Zero K] (n m : ℕ) (x y : ℕ → ℕ → K) (w : K) :
    ∃ kept : List ℕ, kept.Pairwise (· < ·) ∧ (∀ j, j ∈ kept ↔ j < m ∧ StaysInside n x w j) ∧
      (n = 0 ∨ kept = [] → filterLost (arr n m x) (arr n m y) w = .error (.exc .invalidParticle)) ∧
      (n ≠ 0 → kept ≠ [] → filterLost (arr n m x) (arr n m y) w =
        .ok (⟨kept.length, tab n fun i => kept.map (x i)⟩, ⟨kept.length, tab n fun i => kept.map (y i)⟩,
          m - kept.length)) := by
  refine ⟨keptOf n m x w, ?_, ?_, ?_, ?_⟩
  · exact List.Pairwise.filter _ List.pairwise_lt_range
  · intro j
    unfold keptOf StaysInside
    rw [List.mem_filter, List.mem_range, decide_eq_true_iff]
    simp only [bad_iff]
  · intro h
    rw [filterLost_arr, if_pos]
    rcases h with h | h
    · rw [h, Nat.zero_mul]
    · rw [h, List.length_nil, Nat.mul_zero]
  · intro h1 h2
    rw [filterLost_arr, if_neg]
    intro h0
    rcases Nat.mul_eq_zero.mp h0 with h | h
    · exact h1 h
    · exact h2 (List.length_eq_zero_iff.mp h)

/-- C26: filtering twice changes nothing. -/
theorem C26_idempotent {K : Type} [LinearOrder K] [Zero K] (n m : ℕ) (x y : ℕ → ℕ → K) (w : K) {x' y' : Arr2 K} {k : ℕ}
    (h : filterLost (arr n m x) (arr n m y) w = .ok (x', y', k)) : filterLost x' y' w = .ok (x', y', 0) := by
  rw [filterLost_arr] at h
  split at h
  · cases h
  · rename_i hne
    cases h
    set kept := keptOf n m x w with hk
    have e1 : ∀ z : ℕ → ℕ → K, (⟨kept.length, tab n fun i => kept.map (z i)⟩ : Arr2 K)
        = arr n kept.length fun i c => z i (kept.getD c 0) := by
      intro z
      unfold arr
      congr 1
      apply tab_congr
      intro i _
      exact map_eq_tab kept (z i)
    have e2 : keptOf n kept.length (fun i c => x i (kept.getD c 0)) w = List.range kept.length := by
      unfold keptOf
      rw [List.filter_eq_self]
      intro c hc
      have hc' := List.mem_range.mp hc
      rw [decide_eq_true_iff]
      have hmem : kept.getD c 0 ∈ kept := by
        rw [List.getD_eq_getElem _ _ hc']; exact List.getElem_mem hc'
      have : kept.getD c 0 ∈ keptOf n m x w := hk ▸ hmem
      unfold keptOf at this
      rw [List.mem_filter, decide_eq_true_iff] at this
      exact this.2
    rw [e1, e1, filterLost_arr, e2, List.length_range, if_neg hne, Nat.sub_self]
    rfl

/-- C26 fails for NaN: a particle whose coordinate is NaN is kept. -/
theorem C26_violated_nan : filterLost (α := Fl) ⟨1, [[.nan]]⟩ ⟨1, [[.fin 0]]⟩ (.fin 4)
    = .ok (⟨1, [[.nan]]⟩, ⟨1, [[.fin 0]]⟩, 0) := by decide +kernel

example : filterLost (α := ℚ) ⟨3, [[0, 1/2, 5], [3, 4, 2]]⟩ ⟨3, [[7, 8, 9], [10, 11, 12]]⟩ 4
    = .ok (⟨1, [[0], [3]]⟩, ⟨1, [[7], [10]]⟩, 2) := by decide +kernel

/-! ## C27 -/

/-- an integer array element seen as a float -/
def intFl (z : ℤ) : Fl := .fin (z : ℚ)

theorem toInt32_int (z : ℤ) : Tomo.toInt32 (intFl z) = z := by
  unfold Tomo.toInt32 intFl
  dsimp only
  split
  · exact Int.floor_intCast (R := ℚ) z
  · have h : ((z : ℚ)).ceil = ⌈(z : ℚ)⌉ := by rw [Rat.ceil_eq_neg_floor_neg]; rfl
    rw [h, Int.ceil_intCast]

theorem bad_fin (w : ℕ) (q : ℚ) : bad (w : Fl) (.fin q) = false ↔ 0 ≤ q ∧ q < w := by
  unfold bad
  rw [Bool.or_eq_false_iff, decide_eq_false_iff_not, decide_eq_false_iff_not]
  rw [show ((w : ℕ) : Fl) = Fl.fin (w : ℚ) from rfl, show (0 : Fl) = Fl.fin 0 from rfl, Fl.fin_le, Fl.fin_lt]
  rw [not_le, not_lt, and_comm]

theorem floor_rat (q : ℚ) (h : 0 ≤ q) : Tomo.toInt32 (.fin q) = ⌊q⌋ := by
  unfold Tomo.toInt32
  dsimp only
  rw [if_pos h]
  rfl

/-- C27, for finite coordinates (`_partial`: see `C27_violated_nan`): whatever `ready_for_tomography` returns is accepted
by the `xp` setter of every `Tomography` object with that many profiles and bins, stored unchanged, and then `yp` is
accepted too; each stored coordinate is the bin `⌊x⌋` of the particle, within `0..nbins-1`. -/
theorem C27_accepted_partial (n m nbins : ℕ) (x y : ℕ → ℕ → ℚ) {X Y : Arr2 ℤ}
    (h : readyForTomography (arr n m fun i j => .fin (x i j)) (arr n m fun i j => .fin (y i j)) nbins = .ok (X, Y))
    (t : Tomo.Coords) (ht1 : t.nprofs = n) (ht2 : t.nbins = nbins) :
    ∃ kept : List ℕ, (∀ j, j ∈ kept ↔ j < m ∧ StaysInside n x nbins j) ∧
      X = (⟨n, kept.map fun j => tab n fun i => ⌊x i j⌋⟩ : Arr2 ℤ) ∧
      (∀ row ∈ X.rows, ∀ v ∈ row, 0 ≤ v ∧ v < nbins) ∧
      ∃ t₁ t₂, Tomo.setXp t (.array [X.rows.length, X.cols] (X.flatten.map intFl)) = (t₁, none) ∧
        t₁.xp = some ([X.rows.length, X.cols], X.flatten) ∧ t₁.nparts = some kept.length ∧
        Tomo.setYp t₁ (.array [Y.rows.length, Y.cols] (Y.flatten.map intFl)) = (t₂, none) ∧
        t₂.yp = some ([Y.rows.length, Y.cols], Y.flatten) := by
  unfold readyForTomography at h
  rw [filterLost_arr] at h
  set kept := keptOf n m (fun i j => Fl.fin (x i j)) (nbins : Fl) with hk
  have hkm : ∀ j, j ∈ kept ↔ j < m ∧ StaysInside n x nbins j := by
    intro j
    rw [hk]
    unfold keptOf StaysInside
    rw [List.mem_filter, List.mem_range, decide_eq_true_iff]
    simp only [bad_fin]
  split at h
  · simp at h
  · rename_i hne
    rw [bind_ok] at h
    dsimp only at h
    have e1 : ∀ z : ℕ → ℕ → ℚ, (⟨kept.length, tab n fun i => kept.map fun j => Fl.fin (z i j)⟩ : Arr2 Fl)
        = arr n kept.length fun i c => Fl.fin (z i (kept.getD c 0)) := by
      intro z
      unfold arr
      congr 1
      apply tab_congr
      intro i _
      exact map_eq_tab kept fun j => Fl.fin (z i j)
    rw [e1, e1, map_arr, transpose_arr, bind_ok, map_arr, transpose_arr, bind_ok] at h
    cases h
    have hin : ∀ c, c < kept.length → ∀ i, i < n → 0 ≤ x i (kept.getD c 0) ∧ x i (kept.getD c 0) < nbins := by
      intro c hc i hi
      have hmem : kept.getD c 0 ∈ kept := by
        rw [List.getD_eq_getElem _ _ hc]; exact List.getElem_mem hc
      exact ((hkm _).mp hmem).2 i hi
    have hX : (arr kept.length n fun c i => Tomo.toInt32 (.fin (x i (kept.getD c 0))))
        = (⟨n, kept.map fun j => tab n fun i => ⌊x i j⌋⟩ : Arr2 ℤ) := by
      unfold arr
      congr 1
      rw [map_eq_tab kept]
      apply tab_congr
      intro c hc
      apply tab_congr
      intro i hi
      exact floor_rat _ (hin c hc i hi).1
    have hbd : ∀ row ∈ (arr kept.length n fun c i => Tomo.toInt32 (.fin (x i (kept.getD c 0)))).rows, ∀ v ∈ row,
        0 ≤ v ∧ v < nbins := by
      rw [hX]
      intro row hrow v hv
      obtain ⟨j, hj, rfl⟩ := List.mem_map.mp hrow
      unfold tab at hv
      obtain ⟨i, hi, rfl⟩ := List.mem_map.mp hv
      have := ((hkm j).mp hj).2 i (List.mem_range.mp hi)
      refine ⟨Int.floor_nonneg.mpr this.1, ?_⟩
      rw [Int.floor_lt]
      exact_mod_cast this.2
    refine ⟨kept, hkm, hX, hbd, ?_⟩
    set X := arr kept.length n fun c i => Tomo.toInt32 (.fin (x i (kept.getD c 0))) with hXd
    set Y := arr kept.length n fun c i => Tomo.toInt32 (.fin (y i (kept.getD c 0))) with hYd
    have hround : ∀ Z : Arr2 ℤ, (Z.flatten.map intFl).map Tomo.toInt32 = Z.flatten := by
      intro Z
      rw [List.map_map]
      have : (Tomo.toInt32 ∘ intFl) = id := by
        funext z; exact toInt32_int z
      rw [this, List.map_id]
    have hx1 : ((X.flatten.map intFl).any fun v => decide (v < 0)) = false := by
      rw [List.any_eq_false]
      intro v hv
      obtain ⟨z, hz, rfl⟩ := List.mem_map.mp hv
      obtain ⟨row, hr, hzr⟩ := List.mem_flatten.mp hz
      have := (hbd row hr z hzr).1
      unfold intFl
      rw [decide_eq_true_iff, show (0 : Fl) = Fl.fin 0 from rfl, Fl.fin_lt, not_lt]
      exact_mod_cast this
    have hx2 : ((X.flatten.map intFl).any fun v => decide ((t.nbins : Fl) ≤ v)) = false := by
      rw [List.any_eq_false]
      intro v hv
      obtain ⟨z, hz, rfl⟩ := List.mem_map.mp hv
      obtain ⟨row, hr, hzr⟩ := List.mem_flatten.mp hz
      have := (hbd row hr z hzr).2
      unfold intFl
      rw [decide_eq_true_iff, show ((t.nbins : ℕ) : Fl) = Fl.fin (t.nbins : ℚ) from rfl, Fl.fin_le, not_le, ht2]
      exact_mod_cast this
    have hset : Tomo.setXp t (.array [X.rows.length, X.cols] (X.flatten.map intFl))
        = ({ t with xp := some ([X.rows.length, X.cols], X.flatten), nparts := some X.rows.length }, none) := by
      unfold Tomo.setXp
      dsimp only
      rw [if_neg (by simp), if_neg (by simp [hXd, ht1]), hx1, hx2, hround]
      rfl
    refine ⟨_, { t with xp := some ([X.rows.length, X.cols], X.flatten), nparts := some X.rows.length, yp := some ([Y.rows.length, Y.cols], Y.flatten) }, hset, rfl, by simp [hXd], ?_, rfl⟩
    unfold Tomo.setYp
    dsimp only
    rw [if_pos (by simp [hXd, hYd]), hround]

/-- C27 fails for a NaN coordinate: it passes the filter, is cast to INT_MIN, and `Tomography.xp` rejects it. -/
theorem C27_violated_nan :
    readyForTomography ⟨1, [[.nan]]⟩ ⟨1, [[.fin 0]]⟩ 4 = .ok (⟨1, [[-2147483648]]⟩, ⟨1, [[0]]⟩) ∧
    (Tomo.setXp ⟨1, 4, none, none, none⟩ (.array [1, 1] [.fin (-2147483648)])).2 = some .xpOutOfImageWidth := by
  decide +kernel

example : readyForTomography ⟨3, [[.fin 0, .fin (1/2), .fin 5], [.fin (31/8), .fin 4, .fin 2]]⟩
    ⟨3, [[.fin 7, .fin 8, .fin 9], [.fin (-1/2), .fin 11, .fin 12]]⟩ 4 = .ok (⟨2, [[0, 3]]⟩, ⟨2, [[7, 0]]⟩) := by
  decide +kernel

/-! ## C28 -/

variable {K : Type} [Field K] [LinearOrder K] [IsStrictOrderedRing K]

/-- C28: bins to physical units and back.  `p` are points in bins; `q` their physical coordinates at profile `r`.  If row
`r` of the tracked arrays holds `q`, row `r` of `physical_to_coords` holds `p`. -/
theorem C28_bins_physical_bins (m : Area K) {N n k d r : ℕ} {om ph : ℕ → K} (xo dE : K) (ho : m.omegaRev0 = tab N om)
    (hp : m.phi0 = tab N ph) (hd : m.dturns = d) (hN : ∀ i, i < n → i * d < N)
    (hs : ∀ i, i < n → m.hNum * om (i * d) * m.dtbin ≠ 0) (hdE : dE ≠ 0) (hr : r < n) (p : ℕ → K × K) :
    ∃ q : ℕ → K × K, binToPhysical m xo dE r 0 (tab k p) = .ok (tab k q) ∧
      ∀ a b : ℕ → ℕ → K, (∀ j, j < k → a r j = (q j).1 ∧ b r j = (q j).2) →
        ∃ X Y : ℕ → ℕ → K, physicalToCoords m xo dE (arr n k a) (arr n k b) = .ok (arr n k X, arr n k Y) ∧
          ∀ j, j < k → X r j = (p j).1 ∧ Y r j = (p j).2 := by
  refine ⟨_, binToPhysical_tab m xo dE ho hp hd (hN r hr) p, ?_⟩
  intro a b hab
  refine ⟨_, _, physicalToCoords_arr m xo dE ho hp hd hN hs hdE a b, ?_⟩
  intro j hj
  obtain ⟨h1, h2⟩ := hab j hj
  rw [h1, h2]
  have := hs r hr
  constructor
  · dsimp only
    have e : ((p j).1 + xo) * m.hNum * om (r * d) * m.dtbin - ph (r * d) + ph (r * d)
        = ((p j).1 + xo) * (m.hNum * om (r * d) * m.dtbin) := by ring
    rw [e, mul_div_cancel_right₀ _ this]
    ring
  · dsimp only
    rw [mul_div_cancel_right₀ _ hdE]
    ring

/-- C28: physical units to bins and back. -/
theorem C28_physical_bins_physical (m : Area K) {N n k d r : ℕ} {om ph : ℕ → K} (xo dE : K) (ho : m.omegaRev0 = tab N om)
    (hp : m.phi0 = tab N ph) (hd : m.dturns = d) (hN : ∀ i, i < n → i * d < N)
    (hs : ∀ i, i < n → m.hNum * om (i * d) * m.dtbin ≠ 0) (hdE : dE ≠ 0) (hr : r < n) (a b : ℕ → ℕ → K) :
    ∃ X Y : ℕ → ℕ → K, physicalToCoords m xo dE (arr n k a) (arr n k b) = .ok (arr n k X, arr n k Y) ∧
      binToPhysical m xo dE r 0 (tab k fun j => (X r j, Y r j)) = .ok (tab k fun j => (a r j, b r j)) := by
  refine ⟨_, _, physicalToCoords_arr m xo dE ho hp hd hN hs hdE a b, ?_⟩
  rw [binToPhysical_tab m xo dE ho hp hd (hN r hr)]
  congr 1
  apply tab_congr
  intro j hj
  have := hs r hr
  rw [Prod.mk.injEq]
  constructor
  · have e : ∀ z : K, (z - xo + xo) * m.hNum * om (r * d) * m.dtbin - ph (r * d)
        = z * (m.hNum * om (r * d) * m.dtbin) - ph (r * d) := by intro z; ring
    rw [e, div_mul_cancel₀ _ this]
    ring
  · dsimp only
    have e : ∀ z : K, (z + m.synchPartY - m.synchPartY) * dE = z * dE := by intro z; ring
    rw [e, div_mul_cancel₀ _ hdE]

/-- a machine for the examples: two profiles of four bins -/
def area0 : Area ℚ :=
  { time := [0, 1], phi0 := [1/3, 1/5], e0 := [1, 1], beta0 := [1/2, 1/2], deltaE0 := [0, 0], eta0 := [1, 1]
    driftCoef := [1, 1], omegaRev0 := [2, 3], vrf1AtTurn := [1, 1], vrf2AtTurn := [0, 0]
    nbins := 4, synchPartX := 2, synchPartY := 2, dtbin := 1/7, minDt := 0, maxDt := 4/7, demax := 6
    beamRefFrame := 0, filmstart := 0, dturns := 1, fullPp := true, hNum := 1, hRatio := 2, q := 1, phi12 := 0, snpt := 2 }

example : binToPhysical area0 (1/2) 3 1 0 [(1/4, 3/4), (2, 3)] = .ok [(17/140, -15/4), (61/70, 3)] ∧
    physicalToCoords area0 (1/2) 3 ⟨2, [[0, 0], [17/140, 61/70]]⟩ ⟨2, [[0, 0], [-15/4, 3]]⟩
      = .ok (⟨2, [[2/3, 2/3], [1/4, 2]]⟩, ⟨2, [[2, 2], [3/4, 3]]⟩) := by decide +kernel

/-! ## C29 -/

variable [FloorRing K]

/-- sub-point `a` of `s` sub-points of a cell, between 0 and 1 -/
def subPoint (s a : ℕ) : K := (2 * (a : K) + 1) / (2 * (s : K))

/-- C29: the points generated for limits `jmn i ≤ j < jmx i`, `imin ≤ i ≤ imax` are the `s × s` sub-points of exactly these
cells, each once; their number is `s²` times the number of cells. -/
theorem C29_points {N s imin imax : ℕ} (l : Limits) (jmn jmx : ℕ → ℤ) (h1 : l.jmin = tab N jmn)
    (h2 : l.jmax = tab N jmx) (h3 : l.imin = imin) (h4 : l.imax = imax) (hi : imin ≤ imax) (hN : imax < N)
    (hne : ∃ i, i < N ∧ jmn i ≤ jmx i) :
    ∃ pts : List (K × K), cellPoints s l = .ok pts ∧ pts.Nodup ∧
      (∀ x y, (x, y) ∈ pts ↔ ∃ (i : ℕ) (j : ℤ) (a b : ℕ), imin ≤ i ∧ i ≤ imax ∧ jmn i ≤ j ∧ j < jmx i ∧ a < s ∧ b < s ∧
        x = (i : K) + subPoint s a ∧ y = (j : K) + subPoint s b) ∧
      pts.length = s ^ 2 * ∑ i ∈ Icc imin imax, (jmx i - jmn i).toNat := by
  obtain ⟨pts, e1, e2, e3⟩ := cellPoints_spec (K := K) (s := s) l jmn jmx h1 h2 h3 h4 hi hN hne
  refine ⟨pts, e1, e2, e3, ?_⟩
  classical
  rw [← List.toFinset_card_of_nodup e2]
  have hS : pts.toFinset = ((Icc imin imax).sigma fun i => (Ico (jmn i) (jmx i)) ×ˢ (range s ×ˢ range s)).image
      fun c => ((c.1 : K) + sub s c.2.2.1, (c.2.1 : K) + sub s c.2.2.2) := by
    ext ⟨x, y⟩
    rw [List.mem_toFinset, e3, mem_image]
    constructor
    · rintro ⟨i, j, a, b, g1, g2, g3, g4, g5, g6, rfl, rfl⟩
      refine ⟨⟨i, j, a, b⟩, ?_, rfl⟩
      simp only [mem_sigma, mem_Icc, mem_product, mem_Ico, mem_range]
      exact ⟨⟨g1, g2⟩, ⟨g3, g4⟩, g5, g6⟩
    · rintro ⟨⟨i, j, a, b⟩, hc, hxy⟩
      simp only [mem_sigma, mem_Icc, mem_product, mem_Ico, mem_range] at hc
      obtain ⟨⟨g1, g2⟩, ⟨g3, g4⟩, g5, g6⟩ := hc
      rw [Prod.mk.injEq] at hxy
      exact ⟨i, j, a, b, g1, g2, g3, g4, g5, g6, hxy.1.symm, hxy.2.symm⟩
  rw [hS, card_image_of_injOn, card_sigma]
  · simp only [card_product, card_range, Int.card_Ico]
    rw [mul_sum]
    apply sum_congr rfl
    intro i _
    ring
  · rintro ⟨i, j, a, b⟩ hc ⟨i', j', a', b'⟩ hc' heq
    simp only [coe_sigma, Set.mem_sigma_iff, mem_coe, mem_Icc, mem_product, mem_Ico, mem_range] at hc hc'
    rw [Prod.mk.injEq] at heq
    obtain ⟨q1, q2⟩ := heq
    dsimp only at q1 q2
    rw [← Int.cast_natCast i, ← Int.cast_natCast i'] at q1
    obtain ⟨r1, r2⟩ := cell_inj hc.2.2.1 hc'.2.2.1 q1
    obtain ⟨r3, r4⟩ := cell_inj hc.2.2.2 hc'.2.2.2 q2
    have : i = i' := by exact_mod_cast r1
    subst this r2 r3 r4
    rfl

/-- C29: every generated point lies inside `[imin, imax+1) × (jmin, jmax)` of its column. -/
theorem C29_inside {N s imin imax : ℕ} (l : Limits) (jmn jmx : ℕ → ℤ) (h1 : l.jmin = tab N jmn)
    (h2 : l.jmax = tab N jmx) (h3 : l.imin = imin) (h4 : l.imax = imax) (hi : imin ≤ imax) (hN : imax < N)
    (hne : ∃ i, i < N ∧ jmn i ≤ jmx i) {pts : List (K × K)} (h : cellPoints s l = .ok pts) {x y : K} (hxy : (x, y) ∈ pts) :
    ∃ i : ℕ, ⌊x⌋ = i ∧ (imin : K) ≤ x ∧ x < (imax : K) + 1 ∧ (jmn i : K) < y ∧ y < (jmx i : K) := by
  obtain ⟨pts', e1, _, e3⟩ := cellPoints_spec (K := K) (s := s) l jmn jmx h1 h2 h3 h4 hi hN hne
  rw [h] at e1
  cases e1
  obtain ⟨i, j, a, b, g1, g2, g3, g4, g5, g6, rfl, rfl⟩ := (e3 x y).mp hxy
  have p1 := sub_pos (K := K) (s := s) (a := a) (by omega)
  have p2 := sub_lt (K := K) g5
  have p3 := sub_pos (K := K) (s := s) (a := b) (by omega)
  have p4 := sub_lt (K := K) g6
  have c1 : (imin : K) ≤ i := by exact_mod_cast g1
  have c2 : (i : K) ≤ imax := by exact_mod_cast g2
  have c3 : ((jmn i : ℤ) : K) ≤ (j : K) := Int.cast_le.mpr g3
  have c4 : ((j + 1 : ℤ) : K) ≤ ((jmx i : ℤ) : K) := Int.cast_le.mpr (by omega)
  push_cast at c4
  refine ⟨i, ?_, by linarith, by linarith, by linarith, by linarith⟩
  have := floor_cell (K := K) g5 (i : ℤ)
  rwa [Int.cast_natCast] at this

example : cellPoints (K := ℚ) 2 ⟨[0, 1, 3], [0, 2, 4], 1, 2⟩ =
    .ok [(5/4, 5/4), (7/4, 5/4), (5/4, 7/4), (7/4, 7/4), (9/4, 13/4), (11/4, 13/4), (9/4, 15/4), (11/4, 15/4)] := by
  decide +kernel

end Verif.Props

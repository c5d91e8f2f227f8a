import Verif.Props.PhaseSpace
import Verif.Props.Area

/-!
# Axes of the phase-space image (C54) and macroparticles drawn from it (C55)
-/

set_option linter.unusedSectionVars false

namespace Verif.Props
open Finset Verif.Img Verif.Psi Verif.Part Verif.Mch Verif.Asrt

variable {K : Type} [Field K] [LinearOrder K] [IsStrictOrderedRing K]

/-! ## C54 -/

/-- Physical coordinates of a point `(X, Y)` of the image at the reference frame: time offset (phase offset divided by the
angular rf frequency) and energy offset. -/
theorem physical_at_reference [FloorRing K] (m : Area K) {N r d : ℕ} {om ph : ℕ → K} {xo dE : K} (ho : m.omegaRev0 = tab N om)
    (hp : m.phi0 = tab N ph) (hd : m.dturns = d) (hb : m.beamRefFrame = r) (hN : r * d < N)
    (hs : m.hNum * om (r * d) * m.dtbin ≠ 0) (hx : calcXorigin m = .ok xo) (P : K × K) :
    binToPhysical m xo dE r 0 [P]
      = .ok [((P.1 - m.synchPartX) * m.dtbin * (m.hNum * om (r * d)), (P.2 - m.synchPartY) * dE)] := by
  have e : (r : Int) * (d : Int) = ((r * d : ℕ) : Int) := by push_cast; ring
  unfold calcXorigin at hx
  dsimp only at hx
  rw [hb, hd, hp, ho, e, rd_tab _ hN, bind_ok, rd_tab _ hN, bind_ok, fdiv_ok hs, bind_ok] at hx
  cases hx
  have := binToPhysical_tab (k := 1) m (ph (r * d) / (m.hNum * om (r * d) * m.dtbin) - m.synchPartX) dE ho hp hd hN (fun _ => P)
  have e1 : tab 1 (fun _ => P) = [P] := rfl
  rw [e1] at this
  rw [this]
  change Except.ok [_] = Except.ok [_]
  congr 2
  rw [Prod.mk.injEq]
  refine ⟨?_, rfl⟩
  have h2 : ∀ z : K, (P.1 + (z - m.synchPartX)) * m.hNum * om (r * d) * m.dtbin
      = (P.1 - m.synchPartX) * m.dtbin * (m.hNum * om (r * d)) + z * (m.hNum * om (r * d) * m.dtbin) := by intro z; ring
  rw [h2, div_mul_cancel₀ _ hs]
  ring

/-- C54, `_partial`: the axis values are the lower edges of the cells: a particle in cell `[a][b]` of the image of the
reference frame has time offset in `[t[a], t[a] + dtbin)` and energy offset in `[e[b], e[b] + dEbin)`.  Missing: the
documentation promises the centres. -/
theorem C54_edges_partial [FloorRing K] (m : Area K) {N r d : ℕ} {om ph : ℕ → K} {xo dE : K} (ho : m.omegaRev0 = tab N om)
    (hp : m.phi0 = tab N ph) (hd : m.dturns = d) (hb : m.beamRefFrame = r) (hN : r * d < N)
    (hh : 0 < m.hNum * om (r * d)) (hdt : 0 < m.dtbin) (hdE : 0 < dE) (hx : calcXorigin m = .ok xo)
    {xp yp : List Int} {w t e img : List K}
    (hps : phaseSpaceFromCoordinates xp yp w m.nbins m.synchPartX m.synchPartY m.dtbin dE = .ok (t, e, img))
    {X Y : K} {a b : ℕ} (ha : a < m.nbins) (hbn : b < m.nbins) (hX : ⌊X⌋ = a) (hY : ⌊Y⌋ = b) :
    ∃ φ ε ta eb, binToPhysical m xo dE r 0 [(X, Y)] = .ok [(φ, ε)] ∧ t[a]? = some ta ∧ e[b]? = some eb ∧
      ta ≤ φ / (m.hNum * om (r * d)) ∧ φ / (m.hNum * om (r * d)) < ta + m.dtbin ∧ eb ≤ ε ∧ ε < eb + dE := by
  unfold phaseSpaceFromCoordinates at hps
  rw [bind_ok_iff] at hps
  obtain ⟨_, _, h⟩ := hps
  cases h
  obtain ⟨x0, x1⟩ := Int.floor_eq_iff.mp hX
  obtain ⟨y0, y1⟩ := Int.floor_eq_iff.mp hY
  rw [Int.cast_natCast] at x0 x1 y0 y1
  refine ⟨_, _, _, _, physical_at_reference m ho hp hd hb hN (mul_pos hh hdt).ne' hx (X, Y), some_tab _ ha, some_tab _ hbn, ?_⟩
  rw [mul_div_cancel_right₀ _ hh.ne']
  dsimp only
  refine ⟨?_, ?_, ?_, ?_⟩
  · exact mul_le_mul_of_nonneg_right (by linarith) hdt.le
  · nlinarith
  · exact mul_le_mul_of_nonneg_right (by linarith) hdE.le
  · nlinarith

/-- C54 violated: the centre of every cell is half a bin away from the axis values, in time and in energy. -/
theorem C54_violated_centres [FloorRing K] (m : Area K) {N r d : ℕ} {om ph : ℕ → K} {xo dE : K} (ho : m.omegaRev0 = tab N om)
    (hp : m.phi0 = tab N ph) (hd : m.dturns = d) (hb : m.beamRefFrame = r) (hN : r * d < N)
    (hh : m.hNum * om (r * d) ≠ 0) (hdt : m.dtbin ≠ 0) (hx : calcXorigin m = .ok xo)
    {xp yp : List Int} {w t e img : List K}
    (hps : phaseSpaceFromCoordinates xp yp w m.nbins m.synchPartX m.synchPartY m.dtbin dE = .ok (t, e, img))
    {a b : ℕ} (ha : a < m.nbins) (hbn : b < m.nbins) :
    ∃ φ ε ta eb, binToPhysical m xo dE r 0 [((a : K) + 1/2, (b : K) + 1/2)] = .ok [(φ, ε)] ∧ t[a]? = some ta ∧ e[b]? = some eb ∧
      φ / (m.hNum * om (r * d)) = ta + m.dtbin / 2 ∧ ε = eb + dE / 2 := by
  unfold phaseSpaceFromCoordinates at hps
  rw [bind_ok_iff] at hps
  obtain ⟨_, _, h⟩ := hps
  cases h
  refine ⟨_, _, _, _, physical_at_reference m ho hp hd hb hN (mul_ne_zero hh hdt) hx _, some_tab _ ha, some_tab _ hbn, ?_⟩
  rw [mul_div_cancel_right₀ _ hh]
  dsimp only
  constructor <;> ring

-- the hypotheses are met by `area0` (reference frame 0, ω = 2, h = 1, dtbin = 1/7)
example : area0.omegaRev0 = tab 2 (fun i => [2, 3].getD i 0) ∧ calcXorigin area0 = .ok (1/3 / (2 * (1/7)) - 2) ∧
    phaseSpaceFromCoordinates [1] [3] [(5 : ℚ)] area0.nbins area0.synchPartX area0.synchPartY area0.dtbin 3
      = .ok ([-2/7, -1/7, 0, 1/7], [-6, -3, 0, 3], [0,0,0,0, 0,0,0,5, 0,0,0,0, 0,0,0,0]) := by decide +kernel

/-! ## C55 -/

theorem product_tab (nt ne : ℕ) (T E : ℕ → K) : product (tab nt T) (tab ne E) = flat nt ne fun a b => (T a, E b) := by
  unfold product
  induction nt with
  | zero => rw [show tab 0 T = [] from rfl]; unfold flat; rw [Nat.zero_mul]; rfl
  | succ n ih =>
    rw [Tomo.tab_succ, List.flatMap_append, ih]
    unfold flat
    rw [Nat.succ_mul]
    apply List.ext_getElem?
    intro k
    rw [getElem?_tab]
    by_cases hk : k < n * ne
    · rw [List.getElem?_append_left (by simpa using hk), some_tab _ hk, if_pos (by omega)]
    · rw [List.getElem?_append_right (by simpa using not_lt.mp hk), length_tab]
      simp only [List.flatMap_cons, List.flatMap_nil, List.append_nil, List.getElem?_map, getElem?_tab]
      obtain ⟨j, rfl⟩ : ∃ j, k = n * ne + j := ⟨k - n * ne, by omega⟩
      rw [Nat.add_sub_cancel_left]
      by_cases hj : j < ne
      · rw [if_pos hj, if_pos (by omega), idx_div hj, idx_mod hj]; rfl
      · rw [if_neg hj, if_neg (by omega)]; rfl

/-- C55: whatever the random numbers, every macroparticle of `density_to_macro` lies in a cell whose share of the density
reaches the threshold: within half a bin of the axis values of that cell.  The draws `s` come from
`np.random.choice(.., p=prob)`, which returns indices of positive probability only; `u`, `v` from `np.random.random`. -/
theorem C55_macroparticles {nt ne n : ℕ} (ht : 1 < nt) (he : 1 < ne) (T E : ℕ → K) (D : ℕ → ℕ → K) (θ : K)
    (hT : T 0 ≤ T 1) (hE : E 0 ≤ E 1)
    (s : ℕ → ℕ) (u v : ℕ → K) (hu : ∀ j, j < n → 0 ≤ u j ∧ u j < 1) (hv : ∀ j, j < n → 0 ≤ v j ∧ v j < 1)
    {total : K} (htot : total = ∑ a ∈ range nt, ∑ b ∈ range ne, D a b) (ht0 : total ≠ 0)
    {kept : ℕ → ℕ → K} (hkept : kept = fun a b => if D a b / total < θ then 0 else D a b)
    (hk0 : ∑ a ∈ range nt, ∑ b ∈ range ne, kept a b ≠ 0)
    (hs : ∀ j, j < n → s j < nt * ne ∧ kept (s j / ne) (s j % ne) / (∑ a ∈ range nt, ∑ b ∈ range ne, kept a b) ≠ 0) :
    ∃ P : ℕ → K × K,
      densityToMacro (tab nt T) (tab ne E) (flat nt ne D) θ (tab n s) (tab n u) (tab n v) = .ok (tab n P, flat nt ne kept) ∧
      ∀ j, j < n → ∃ a b, a < nt ∧ b < ne ∧ θ ≤ D a b / total ∧ D a b ≠ 0 ∧
        |(P j).1 - T a| ≤ (T 1 - T 0) / 2 ∧ |(P j).2 - E b| ≤ (E 1 - E 0) / 2 := by
  refine ⟨fun j => (T (s j / ne) + (T 1 - T 0) * (u j - 1/2), E (s j % ne) + (E 1 - E 0) * (v j - 1/2)), ?_, ?_⟩
  · unfold densityToMacro
    have g1 := npGet_tab (n := nt) (i := 1) T ht
    have g0 := npGet_tab (n := nt) (i := 0) T (by omega)
    have f1 := npGet_tab (n := ne) (i := 1) E he
    have f0 := npGet_tab (n := ne) (i := 0) E (by omega)
    rw [Nat.cast_one] at g1 f1
    rw [Nat.cast_zero] at g0 f0
    rw [g1, bind_ok, g0, bind_ok, f1, bind_ok, f0, bind_ok]
    have hth : thresholded (flat nt ne D) θ = .ok (flat nt ne kept) := by
      unfold thresholded
      rw [sum_flat, ← htot]
      unfold flat
      rw [mapM_tab (g := fun v => if v / total < θ then 0 else v) _ _ (fun i _ => by rw [fdiv_ok ht0, bind_ok, pure_eq_ok]), hkept]
    have hpr : probabilities (flat nt ne kept)
        = .ok (flat nt ne fun a b => kept a b / ∑ a ∈ range nt, ∑ b ∈ range ne, kept a b) := by
      unfold probabilities
      rw [sum_flat]
      unfold flat
      rw [mapM_tab (g := fun v => v / ∑ a ∈ range nt, ∑ b ∈ range ne, kept a b)]
      intro i _
      exact fdiv_ok hk0
    rw [hth, bind_ok, hpr, bind_ok, product_tab]
    dsimp only
    have hz : (tab n s).zip ((tab n u).zip (tab n v)) = tab n fun j => (s j, u j, v j) := by
      unfold tab; rw [List.zip_map', List.zip_map']
    rw [hz]
    have hm : ∀ j, j < n → (do
        let c ← npGet (flat nt ne fun a b => (T a, E b)) (((s j, u j, v j) : ℕ × K × K).1 : Int)
        pure (c.1 + (T 1 - T 0) * ((s j, u j, v j).2.1 - 1 / 2), c.2 + (E 1 - E 0) * ((s j, u j, v j).2.2 - 1 / 2)) : M (K × K))
        = .ok (T (s j / ne) + (T 1 - T 0) * (u j - 1/2), E (s j % ne) + (E 1 - E 0) * (v j - 1/2)) := by
      intro j hj
      unfold flat
      dsimp only
      rw [npGet_tab _ (hs j hj).1]
      rfl
    rw [mapM_tab (g := fun q : ℕ × K × K =>
      (T (q.1 / ne) + (T 1 - T 0) * (q.2.1 - 1/2), E (q.1 % ne) + (E 1 - E 0) * (q.2.2 - 1/2))) _ _ hm]
    rfl
  · intro j hj
    obtain ⟨h1, h2⟩ := hs j hj
    have h3 : kept (s j / ne) (s j % ne) ≠ 0 := fun h => h2 (by rw [h, zero_div])
    rw [hkept] at h3
    dsimp only at h3
    obtain ⟨hu0, hu1⟩ := hu j hj
    obtain ⟨hv0, hv1⟩ := hv j hj
    by_cases hlt : D (s j / ne) (s j % ne) / total < θ
    · rw [if_pos hlt] at h3; exact absurd rfl h3
    · rw [if_neg hlt] at h3
      refine ⟨s j / ne, s j % ne, div_lt_of_lt_mul' h1, mod_lt_of_lt_mul' h1, not_lt.mp hlt, h3, ?_, ?_⟩
      · dsimp only
        rw [add_sub_cancel_left, abs_le]
        constructor <;> nlinarith
      · dsimp only
        rw [add_sub_cancel_left, abs_le]
        constructor <;> nlinarith

-- the hypotheses are met by the example of C52: cells 1 and 2 are drawn
example : densityToMacro [0, 1] [0, 1] [1, 50, 50, 0] (1/50 : ℚ) [1, 2] [0, 1/2] [1/4, 1/2]
      = .ok ([(-1/2, 3/4), (1, 0)], [0, 50, 50, 0]) := by
  decide +kernel

end Verif.Props

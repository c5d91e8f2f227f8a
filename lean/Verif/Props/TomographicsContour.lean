import Verif.Lemmas.TomographicsContour
import Verif.Spec.Tomographics

/-!
# C76 — matched area by `utils/tomographics.py`
-/

set_option linter.unusedSectionVars false

namespace Verif.Props
open Verif.Asrt Verif.Mch Verif.Pre Verif.Post Verif.Spec Verif.Graph Finset

variable {K : Type} [Field K] [LinearOrder K] [IsStrictOrderedRing K]

/-! ## C76 `matched_area_calc` -/

/-- the phases on which a contour from `pl` to `pr` is evaluated -/
def contourPhase (pl pr : K) (j : ℕ) : K := pl + (pr - pl) * j / 999

/-- C76, what is computed: the area between the upper and the lower half of the contour of constant energy that starts at the
left end found, by the trapezium rule on 1000 phases between the two ends, in units of time and energy.  The ends lie on either
side of the synchronous phase, at most one period apart. -/
theorem C76_contour_partial {L : MathLib K} (hpi : 0 ≤ L.pi) (hs : ∀ x, 0 ≤ x → L.sqrt x ^ 2 = x) {minimize : (K → M K) → K → M K}
    {m : GMach K} {len A : K} {frame : Option Int} (h : matchedArea L minimize m len frame = .ok A) :
    ∃ a v pl pr, atFrame m frame = .ok a ∧ m.vrf1 = some v ∧ pl < a.phi0 ∧ a.phi0 < pr ∧ a.phi0 - L.pi ≤ pl ∧ pr ≤ a.phi0 + L.pi ∧
      ∃ H : ℕ → K, (m.q * (a.gamma0 - 1 / a.gamma0) * m.eRest / (L.pi * m.hNum * a.eta0) ≠ 0 → ∀ j, j < 1000 →
          IsHeight L.cos L.sin (m.q * (a.gamma0 - 1 / a.gamma0) * m.eRest / (L.pi * m.hNum * a.eta0)) v a.phi0 pl
            (contourPhase pl pr j) (H j)) ∧
        A = 2 / (m.hNum * a.omega) * ∑ j ∈ range 999, (contourPhase pl pr 1 - contourPhase pl pr 0) * (H j + H (j + 1)) / 2 := by
  unfold matchedArea at h
  obtain ⟨a, ha, h⟩ := bind_inv h
  dsimp only at h
  obtain ⟨v, hv, h⟩ := bind_inv h
  obtain ⟨mx, _, h⟩ := bind_inv h
  obtain ⟨mn, _, h⟩ := bind_inv h
  obtain ⟨level, hl, h⟩ := bind_inv h
  obtain ⟨⟨pr, pl⟩, hle, h⟩ := bind_inv h
  dsimp only at h
  obtain ⟨hts, hm, h⟩ := bind_inv h
  have hv' : m.vrf1 = some v := by
    cases hvo : m.vrf1 with
    | none => rw [hvo] at hv; cases hv
    | some w => rw [hvo] at hv; cases hv; rfl
  obtain ⟨e1, e2, ⟨p, hp, hp'⟩, ⟨p2, hp2, hp2'⟩⟩ := lengthAtLevel_ends hle
  have hphis : ∀ p ∈ phiArray L a.phi0, a.phi0 - L.pi ≤ p ∧ p ≤ a.phi0 + L.pi := by
    intro p hp
    unfold phiArray linspace at hp
    obtain ⟨s, hs, rfl⟩ := List.mem_map.mp hp
    obtain ⟨i, hi, rfl⟩ := List.mem_map.mp hs
    have hi' : ((i : ℕ) : K) ≤ 999 := by
      have : i ≤ 999 := by have := List.mem_range.mp hi; omega
      exact_mod_cast this
    have hi0 : (0 : K) ≤ (i : K) := Nat.cast_nonneg i
    have e : (L.pi - -L.pi) * (i : K) / (((1000 : ℕ) : K) - 1) = 2 * L.pi * ((i : K) / 999) := by push_cast; ring
    rw [e]
    have t0 : (0 : K) ≤ (i : K) / 999 := by positivity
    have t1 : (i : K) / 999 ≤ 1 := by rw [div_le_one (by norm_num)]; exact hi'
    constructor <;> nlinarith
  have hlin : linspace pl pr 1000 = tab 1000 (contourPhase pl pr) := by
    unfold linspace
    apply tab_congr
    intro i _
    unfold contourPhase
    push_cast; norm_num
  rw [hlin] at hm h
  have hh0 : ∃ y, height L m a v pl (contourPhase pl pr 0) = .ok y ∧ hts[0]? = some y :=
    Psi.mapM_getElem hm (some_tab _ (by norm_num))
  obtain ⟨y, hy, _⟩ := hh0
  obtain ⟨g1, g2⟩ := height_ok hy
  set k := m.q * (a.gamma0 - 1 / a.gamma0) * m.eRest / (L.pi * m.hNum * a.eta0) with hk
  set H : ℕ → K := fun j => if k * (v * (L.cos (contourPhase pl pr j) - L.cos pl) + (contourPhase pl pr j - pl) * v * L.sin a.phi0) < 0 then 0
    else absv (L.sqrt (k * (v * (L.cos (contourPhase pl pr j) - L.cos pl) + (contourPhase pl pr j - pl) * v * L.sin a.phi0))) with hH
  have hmap := mapM_tab (f := height L m a v pl) (g := fun phi => if k * (v * (L.cos phi - L.cos pl) + (phi - pl) * v * L.sin a.phi0) < 0 then 0
    else absv (L.sqrt (k * (v * (L.cos phi - L.cos pl) + (phi - pl) * v * L.sin a.phi0)))) 1000 (contourPhase pl pr)
      (fun i _ => height_eq L m a v pl _ g1 g2)
  rw [hmap, Except.ok.injEq] at hm
  rw [← hm] at h
  obtain ⟨_, hA⟩ := areaOf_tab (n := 999) rfl (by norm_num) h
  refine ⟨a, v, pl, pr, ha, hv', e1, e2, le_trans (hphis p hp).1 hp', le_trans hp2' (hphis p2 hp2).2, H, ?_, ?_⟩
  · intro hk0 j _
    exact isHeight_of hs hk0
  · exact hA

/-- C76: the matched area is not negative. -/
theorem C76_nonneg {L : MathLib K} {minimize : (K → M K) → K → M K} {m : GMach K} {len A : K} {frame : Option Int}
    (hh : 0 < m.hNum) (hw : ∀ w ∈ m.omegaRev0, 0 < w) (h : matchedArea L minimize m len frame = .ok A) : 0 ≤ A := by
  unfold matchedArea at h
  obtain ⟨a, ha, h⟩ := bind_inv h
  dsimp only at h
  obtain ⟨v, hv, h⟩ := bind_inv h
  obtain ⟨mx, _, h⟩ := bind_inv h
  obtain ⟨mn, _, h⟩ := bind_inv h
  obtain ⟨level, hl, h⟩ := bind_inv h
  obtain ⟨⟨pr, pl⟩, hle, h⟩ := bind_inv h
  dsimp only at h
  obtain ⟨hts, hm, h⟩ := bind_inv h
  obtain ⟨e1, e2, _⟩ := lengthAtLevel_ends hle
  have hom : 0 < a.omega := by
    unfold atFrame at ha
    dsimp only at ha
    obtain ⟨p0, _, ha⟩ := bind_inv ha
    obtain ⟨e, _, ha⟩ := bind_inv ha
    obtain ⟨eta, _, ha⟩ := bind_inv ha
    obtain ⟨om, hom, ha⟩ := bind_inv ha
    obtain ⟨g, _, ha⟩ := bind_inv ha
    rw [pure_eq_ok, Except.ok.injEq] at ha
    subst ha
    exact hw _ (npGet_mem hom)
  have hpos : ∀ x ∈ hts, 0 ≤ x := by
    intro x hx
    obtain ⟨i, hi, rfl⟩ := List.getElem_of_mem hx
    have hi' : i < (linspace pl pr 1000).length := by rw [← Psi.mapM_length hm]; exact hi
    obtain ⟨y, hy, hy'⟩ := Psi.mapM_getElem hm (List.getElem?_eq_getElem hi')
    rw [List.getElem?_eq_getElem hi, Option.some.injEq] at hy'
    rw [hy']
    obtain ⟨g1, g2⟩ := height_ok hy
    rw [height_eq L m a v pl _ g1 g2, Except.ok.injEq] at hy
    rw [← hy]
    split_ifs
    · exact le_rfl
    · unfold absv; split_ifs with h <;> linarith
  unfold areaOf at h
  obtain ⟨p1, hp1, h⟩ := bind_inv h
  obtain ⟨p0, hp0, h⟩ := bind_inv h
  unfold linspace at hp1 hp0
  rw [show (1 : Int) = ((1 : ℕ) : Int) from rfl, npGet_tab _ (by norm_num), Except.ok.injEq] at hp1
  rw [show (0 : Int) = ((0 : ℕ) : Int) from rfl, npGet_tab _ (by norm_num), Except.ok.injEq] at hp0
  have hstep : 0 ≤ p1 - p0 := by
    rw [← hp1, ← hp0]; push_cast
    have : (0 : K) ≤ (pr - pl) / 999 := div_nonneg (by linarith) (by norm_num)
    have e : pl + (pr - pl) * 1 / (1000 - 1) - (pl + (pr - pl) * 0 / (1000 - 1)) = (pr - pl) / 999 := by norm_num
    rw [e]; exact this
  have htr : ∀ l : List K, (∀ x ∈ l, 0 ≤ x) → 0 ≤ trapz (p1 - p0) l := by
    intro l
    induction l with
    | nil => intro _; exact le_rfl
    | cons a l ih =>
      intro hl
      cases l with
      | nil => exact le_rfl
      | cons b l =>
        rw [trapz]
        have h1 := hl a (by simp)
        have h2 := hl b (by simp)
        exact add_nonneg (div_nonneg (mul_nonneg hstep (by linarith)) (by norm_num)) (ih fun x hx => hl x (by simp [hx]))
  obtain ⟨q, hq, h⟩ := bind_inv h
  have hz : 0 < m.hNum * a.omega := mul_pos hh hom
  rw [fdiv_ok hz.ne', Except.ok.injEq] at hq
  rw [pure_eq_ok, Except.ok.injEq] at h
  rw [← h, ← hq]
  exact mul_nonneg (div_nonneg (by norm_num) hz.le) (htr _ hpos)

/-- C76, the ends of the contour: where the potential rises up to the synchronous phase and falls after it (above transition), a
level between two neighbouring grid points on each side gives the ends at which the polygon through the grid points has
that level. -/
theorem C76_ends {n s : ℕ} {φ u : ℕ → K} {phi0 level : K} (hs : s ≤ n)
    (hl : ∀ i, i < s → φ i < phi0) (hr : ∀ i, s ≤ i → i < n → phi0 < φ i)
    (hup : ∀ k, k + 1 < s → u k < u (k + 1)) (hdown : ∀ k, s ≤ k → k + 1 < n → u (k + 1) < u k)
    {i j : ℕ} (hi : i + 1 < s) (hi1 : u i ≤ level) (hi2 : level < u (i + 1)) (hj : s ≤ j) (hjn : j + 1 < n) (hj1 : u (j + 1) ≤ level)
    (hj2 : level < u j) :
    ∃ pr pl, lengthAtLevel (tab n φ) (tab n u) phi0 level = .ok (pr, pl) ∧ OnChord φ u i level pl ∧ OnChord φ u j level pr := by
  unfold lengthAtLevel
  dsimp only
  rw [zip_tab, filter_tab_lt hs (fun i => (u i, φ i)) _ (by intro i hi; simpa using hl i hi)
    (by intro i h1 h2; simpa using (hr i h1 h2).le), filter_tab_ge hs (fun i => (u i, φ i)) _
    (by intro i hi; simpa using (hl i hi).le) (by intro i h1 h2; simpa using hr i h1 h2)]
  have hlt : ∀ a b, s ≤ a → a < b → b < n → u b < u a := by
    intro a b ha hab
    induction b with
    | zero => omega
    | succ b ih =>
      intro hb
      rcases Nat.lt_or_eq_of_le (Nat.lt_succ_iff.mp hab) with h' | rfl
      · exact lt_trans (hdown b (by omega) hb) (ih h' (by omega))
      · exact hdown a ha hb
  have hsort : ((tab (n - s) fun i => (u (s + i), φ (s + i))).insertionSort fun a b : K × K => a.1 ≤ b.1)
      = tab (n - s) fun i => (u (n - 1 - i), φ (n - 1 - i)) := by
    have hrev : (tab (n - s) fun i => (u (s + i), φ (s + i))).reverse = tab (n - s) fun i => (u (n - 1 - i), φ (n - 1 - i)) := by
      rw [reverse_tab]
      apply tab_congr
      intro i hi
      rw [show s + (n - s - 1 - i) = n - 1 - i by omega]
    rw [← hrev]
    have htot : Std.Total (fun a b : K × K => a.1 ≤ b.1) := ⟨fun a b => le_total a.1 b.1⟩
    have htr : IsTrans (K × K) (fun a b => a.1 ≤ b.1) := ⟨fun a b c h1 h2 => le_trans h1 h2⟩
    refine List.Perm.eq_of_pairwise (le := fun a b : K × K => a.1 ≤ b.1) ?_ (List.pairwise_insertionSort _ _) ?_
      ((List.perm_insertionSort _ _).trans (List.reverse_perm _).symm)
    · intro a b ha hb h1 h2
      rw [List.mem_insertionSort] at ha
      rw [List.mem_reverse] at hb
      obtain ⟨i, hi, rfl⟩ := List.mem_map.mp ha
      obtain ⟨j, hj, rfl⟩ := List.mem_map.mp hb
      have hi := List.mem_range.mp hi
      have hj := List.mem_range.mp hj
      rcases lt_trichotomy i j with h | h | h
      · exact absurd (hlt (s + i) (s + j) (by omega) (by omega) (by omega)) (not_lt.mpr h1)
      · rw [h]
      · exact absurd (hlt (s + j) (s + i) (by omega) (by omega) (by omega)) (not_lt.mpr h2)
    · rw [hrev]
      refine pairwise_tab _ _ _ fun i j hij hj => ?_
      exact (hlt (n - 1 - j) (n - 1 - i) (by omega) (by omega) (by omega)).le
  rw [hsort, map_tab, map_tab, map_tab, map_tab]
  obtain ⟨z1, hz1, hc1, _⟩ := interpAt_level u φ level hup hi hi1 hi2
  obtain ⟨z2, hz2, hc2, _⟩ := interpAt_level (n := n - s) (fun i => u (n - 1 - i)) (fun i => φ (n - 1 - i)) level
    (fun k hk => hlt _ _ (by omega) (by omega) (by omega)) (k := n - 1 - (j + 1)) (by omega)
    (by rw [show n - 1 - (n - 1 - (j + 1)) = j + 1 by omega]; exact hj1)
    (by rw [show n - 1 - (n - 1 - (j + 1) + 1) = j by omega]; exact hj2)
  rw [hz1, bind_ok, hz2, bind_ok]
  refine ⟨z2, z1, rfl, hc1, ?_⟩
  unfold OnChord at hc2 ⊢
  dsimp only at hc2
  rw [show n - 1 - (n - 1 - (j + 1) + 1) = j by omega, show n - 1 - (n - 1 - (j + 1)) = j + 1 by omega] at hc2
  linear_combination -hc2

/-- six phases around 0, potential with its maximum there -/
example : lengthAtLevel ([-5, -3, -1, 1, 3, 5] : List ℚ) [-25, -9, -1, -1, -9, -25] 0 (-5) = .ok (2, -2) := by decide +kernel

/-- C76 is violated by machines made from programs: they have no `vrf1`, so no matched area is ever returned. -/
theorem C76_violated_programs (L : MathLib K) (minimize : (K → M K) → K → M K) (m : GMach K) (hm : m.vrf1 = none) (len : K)
    (frame : Option Int) (A : K) : matchedArea L minimize m len frame ≠ .ok A := by
  intro h
  unfold matchedArea at h
  obtain ⟨a, ha, h⟩ := bind_inv h
  dsimp only at h
  obtain ⟨v, hv, h⟩ := bind_inv h
  rw [hm] at hv
  cases hv

/-- … with the error `AttributeError` whenever the frame exists -/
theorem C76_violated_programs_error (L : MathLib K) (minimize : (K → M K) → K → M K) (m : GMach K) (hm : m.vrf1 = none) (len : K)
    (frame : Option Int) {a : At K} (ha : atFrame m frame = .ok a) :
    matchedArea L minimize m len frame = .error (.exc .attributeError) := by
  unfold matchedArea
  rw [ha, bind_ok]
  dsimp only
  rw [hm]
  rfl

/-- C76 is violated below transition, where the potential has its minimum at the synchronous phase: every level above the
potential one grid point before the synchronous phase gives that grid point as the left end, whatever the length of the bunch
the level is meant for. -/
theorem C76_violated_below (L : MathLib K) (hpi : 0 < L.pi) (v phi0 : K) {level pr pl : K}
    (hlev : urf L v phi0 (phi0 - L.pi / 999) < level)
    (h : lengthAtLevel (phiArray L phi0) ((phiArray L phi0).map (urf L v phi0)) phi0 level = .ok (pr, pl)) :
    pl = phi0 - L.pi / 999 := by
  have hphi : phiArray L phi0 = tab 1000 fun i : ℕ => phi0 + (-L.pi + (L.pi - -L.pi) * i / (((1000 : ℕ) : K) - 1)) := by
    unfold phiArray linspace; rw [map_tab]
  set φ : ℕ → K := fun i : ℕ => phi0 + (-L.pi + (L.pi - -L.pi) * i / (((1000 : ℕ) : K) - 1)) with hφ
  have hval : ∀ i : ℕ, φ i = phi0 + L.pi * ((2 * i - 999) / 999) := by
    intro i; rw [hφ]; dsimp only; push_cast; ring
  have hlt : ∀ i, i < 500 → φ i < phi0 := by
    intro i hi
    rw [hval]
    have : (2 * (i : K) - 999) / 999 < 0 := by
      apply div_neg_of_neg_of_pos _ (by norm_num)
      have : ((i : ℕ) : K) ≤ 499 := by exact_mod_cast (by omega : i ≤ 499)
      linarith
    nlinarith
  have hge : ∀ i, 500 ≤ i → i < 1000 → ¬ φ i < phi0 := by
    intro i hi _
    rw [hval, not_lt]
    have : 0 ≤ (2 * (i : K) - 999) / 999 := by
      apply div_nonneg _ (by norm_num)
      have : (500 : K) ≤ ((i : ℕ) : K) := by exact_mod_cast hi
      linarith
    nlinarith
  have h499 : φ 499 = phi0 - L.pi / 999 := by rw [hval]; push_cast; ring
  unfold lengthAtLevel at h
  dsimp only at h
  rw [hphi, map_tab, zip_tab, filter_tab_lt (by norm_num : 500 ≤ 1000) (fun i => (urf L v phi0 (φ i), φ i)) (fun q => decide (q.2 < phi0))
    (by intro i hi; simpa using hlt i hi) (by intro i h1 h2; simpa using hge i h1 h2), map_tab, map_tab] at h
  rw [interpAt_tab (m := 499) (fun i => urf L v phi0 (φ i) - level) φ 0, bind_ok, if_pos (by rw [h499]; linarith)] at h
  obtain ⟨b, h2, h⟩ := bind_inv h
  rw [pure_eq_ok, Except.ok.injEq, Prod.mk.injEq] at h
  rw [← h.2, h499]

/-- … so the contour is flat: every height where the potential is at least the one at that grid point is zero. -/
theorem C76_violated_flat (L : MathLib K) (m : GMach K) (a : At K) (v : K) {pl phi h : K}
    (hk : 0 ≤ m.q * (a.gamma0 - 1 / a.gamma0) * m.eRest / (L.pi * m.hNum * a.eta0)) (h0 : L.sqrt 0 = 0)
    (hu : urf L v a.phi0 pl ≤ urf L v a.phi0 phi) (hh : height L m a v pl phi = .ok h) : h = 0 := by
  obtain ⟨g1, g2⟩ := height_ok hh
  rw [height_eq L m a v pl _ g1 g2, Except.ok.injEq] at hh
  set k := m.q * (a.gamma0 - 1 / a.gamma0) * m.eRest / (L.pi * m.hNum * a.eta0)
  have hr : v * (L.cos phi - L.cos pl) + (phi - pl) * v * L.sin a.phi0 = urf L v a.phi0 pl - urf L v a.phi0 phi := by
    unfold urf; ring
  rw [hr] at hh
  rw [← hh]
  split_ifs with hneg
  · rfl
  · have : k * (urf L v a.phi0 pl - urf L v a.phi0 phi) = 0 :=
      le_antisymm (mul_nonpos_of_nonneg_of_nonpos hk (by linarith)) (not_lt.mp hneg)
    rw [this, h0]
    unfold absv
    simp

end Verif.Props

import Verif.Lemmas.TomographicsDensity
import Verif.Lemmas.PhaseSpace
import Verif.Spec.Tomographics

/-!
# C77 — density against emittance by `utils/tomographics.py`
-/

set_option linter.unusedSectionVars false

namespace Verif.Props
open Verif.Asrt Verif.Mch Verif.Pre Verif.Post Verif.Spec Verif.Graph Finset

variable {K : Type} [Field K] [LinearOrder K] [IsStrictOrderedRing K]

theorem binStep_inv {image : Arr2 K} {dEs hs : List K} {i : ℕ} {s s' : Acc K} (h : binStep image dEs hs i s = .ok s') :
    ∃ x, npGet hs (i : Int) = .ok x ∧ ((x = 0 ∧ s' = s) ∨ x ≠ 0 ∧ ∃ row d top bottom, npGet image.rows (i : Int) = .ok row ∧
      crossings dEs row x = .ok (d, top, bottom) ∧
      s' = ⟨s.summed + d, s.points + 1, s.loc + (top + bottom) / 2, some (minOpt s.locMin top bottom), max s.locMax (max top bottom)⟩) := by
  unfold binStep at h
  obtain ⟨x, hx, h⟩ := bind_inv h
  refine ⟨x, hx, ?_⟩
  split_ifs at h with h0
  · rw [pure_eq_ok, Except.ok.injEq] at h
    exact Or.inl ⟨h0, h.symm⟩
  · obtain ⟨row, hr, h⟩ := bind_inv h
    obtain ⟨⟨d, top, bottom⟩, hc, h⟩ := bind_inv h
    dsimp only at h
    rw [pure_eq_ok, Except.ok.injEq] at h
    exact Or.inr ⟨h0, row, d, top, bottom, hr, hc, h.symm⟩

/-- what holds of the sums while the bins are visited -/
structure AccOk (s : Acc K) (lo hi : K) : Prop where
  none : s.locMin = none → s.points = 0 ∧ s.loc = 0 ∧ s.summed = 0
  some : ∀ mn, s.locMin = some mn → 0 < s.points ∧ mn * s.points ≤ s.loc ∧ s.loc ≤ s.locMax * s.points ∧ lo ≤ mn ∧ mn ≤ hi
  max : 0 ≤ s.locMax ∧ (s.locMax ≤ hi ∨ s.locMax = 0)

theorem accOk_step {image : Arr2 K} {dEs hs : List K} {i : ℕ} {s s' : Acc K} {lo hi : K}
    (hb : ∀ row ∈ image.rows, ∀ x ∈ row, lo ≤ x ∧ x ≤ hi) (ok : AccOk s lo hi) (h : binStep image dEs hs i s = .ok s') : AccOk s' lo hi := by
  obtain ⟨x, hx, ⟨_, rfl⟩ | ⟨_, row, d, top, bottom, hrow, hc, rfl⟩⟩ := binStep_inv h
  · exact ok
  obtain ⟨⟨c1, c2⟩, c3, c4⟩ := crossings_range (hb row (npGet_mem hrow)) hc
  dsimp only at c1 c2 c3 c4
  have hmax : 0 ≤ s.locMax := ok.max.1
  refine ⟨fun h => by simp at h, ?_, ?_⟩
  · intro mn hmn
    dsimp only at hmn ⊢
    rw [Option.some.injEq] at hmn
    have m1 : max top bottom ≤ max s.locMax (max top bottom) := le_max_right _ _
    have m2 : s.locMax ≤ max s.locMax (max top bottom) := le_max_left _ _
    have t1 : top ≤ max top bottom := le_max_left _ _
    have t2 : bottom ≤ max top bottom := le_max_right _ _
    have hp : (0 : K) ≤ (s.points : K) := Nat.cast_nonneg _
    refine ⟨by omega, ?_⟩
    push_cast
    cases hl : s.locMin with
    | none =>
      obtain ⟨p0, l0, _⟩ := ok.none hl
      rw [hl] at hmn
      unfold minOpt at hmn
      dsimp only at hmn
      rw [p0, l0, ← hmn]
      have n1 : min top bottom ≤ top := min_le_left _ _
      have n2 : min top bottom ≤ bottom := min_le_right _ _
      push_cast
      refine ⟨by linarith, by linarith, le_min c1 c3, le_trans n1 c2⟩
    | some v =>
      obtain ⟨p0, l0, l1, l2, l3⟩ := ok.some v hl
      rw [hl] at hmn
      unfold minOpt at hmn
      dsimp only at hmn
      rw [← hmn]
      have n1 : min v (min top bottom) ≤ top := le_trans (min_le_right _ _) (min_le_left _ _)
      have n2 : min v (min top bottom) ≤ bottom := le_trans (min_le_right _ _) (min_le_right _ _)
      have n3 : min v (min top bottom) ≤ v := min_le_left _ _
      have q1 := mul_le_mul_of_nonneg_right n3 hp
      have q2 := mul_le_mul_of_nonneg_right m2 hp
      refine ⟨by linarith, by linarith, le_min l2 (le_min c1 c3), le_trans n3 l3⟩
  · dsimp only
    refine ⟨le_trans hmax (le_max_left _ _), ?_⟩
    rcases ok.max.2 with h | h
    · exact Or.inl (max_le h (max_le c2 c4))
    · rw [h]
      by_cases hz : 0 ≤ max top bottom
      · left; rw [max_eq_right hz]; exact max_le c2 c4
      · right; exact max_eq_left (not_le.mp hz).le

theorem accOk_start (lo hi : K) : AccOk (⟨0, 0, 0, none, 0⟩ : Acc K) lo hi :=
  ⟨fun _ => ⟨rfl, rfl, rfl⟩, fun mn h => (by cases h), le_rfl, Or.inr rfl⟩

theorem amplitudeStep_inv {L : MathLib K} {m : GMach K} {a : At K} {v : K} {image : Arr2 K} {time dEs phis us ps : List K} {amp : K} {p : Point K}
    (h : amplitudeStep L m a v image time dEs phis us ps amp = .ok p) :
    ∃ pr pl hs s, lengthAtLevel phis us a.phi0 amp = .ok (pr, pl) ∧ ps.mapM (height L m a v pl) = .ok hs ∧
      forN time.length (binStep image dEs hs) ⟨0, 0, 0, none, 0⟩ = .ok s ∧
      ((s.locMin = none ∧ p = ⟨0, 0, 0, 0, 0⟩) ∨ ∃ mn ar, s.locMin = some mn ∧ areaOf m a.omega hs ps = .ok ar ∧ image.flatten.sum ≠ 0 ∧
        p = ⟨ar, s.loc / s.points, mn, s.locMax, s.summed / image.flatten.sum⟩) := by
  unfold amplitudeStep at h
  obtain ⟨⟨pr, pl⟩, h1, h⟩ := bind_inv h
  dsimp only at h
  obtain ⟨hs, h2, h⟩ := bind_inv h
  obtain ⟨_, _, h⟩ := bind_inv h
  obtain ⟨_, _, h⟩ := bind_inv h
  obtain ⟨s, h3, h⟩ := bind_inv h
  refine ⟨pr, pl, hs, s, h1, h2, h3, ?_⟩
  cases hl : s.locMin with
  | none =>
    rw [hl] at h
    dsimp only at h
    rw [pure_eq_ok, Except.ok.injEq] at h
    exact Or.inl ⟨rfl, h.symm⟩
  | some mn =>
    rw [hl] at h
    dsimp only at h
    obtain ⟨sd, h4, h⟩ := bind_inv h
    obtain ⟨ar, h5, h⟩ := bind_inv h
    rw [pure_eq_ok, Except.ok.injEq] at h
    have hz : image.flatten.sum ≠ 0 := by
      intro hz; rw [hz, fdiv_zero] at h4; cases h4
    rw [fdiv_ok hz, Except.ok.injEq] at h4
    exact Or.inr ⟨mn, ar, rfl, h5, hz, by rw [← h, ← h4]⟩

theorem extrapolate_inv {l r : List (Point K)} (h : extrapolate l = .ok r) :
    r = l ∨ ∃ p0 ∈ l, ∃ o, r = l.set 0 { p0 with loc := o, locMin := o, locMax := o } := by
  unfold extrapolate at h
  obtain ⟨p0, h0, h⟩ := bind_inv h
  split_ifs at h with hz
  · obtain ⟨p2, _, h⟩ := bind_inv h
    obtain ⟨p1, _, h⟩ := bind_inv h
    obtain ⟨s, _, h⟩ := bind_inv h
    dsimp only at h
    rw [pure_eq_ok, Except.ok.injEq] at h
    exact Or.inr ⟨p0, npGet_mem h0, _, h.symm⟩
  · rw [pure_eq_ok, Except.ok.injEq] at h
    exact Or.inl h.symm

theorem densityVsEmittance_inv {L : MathLib K} {m : GMach K} {image : Arr2 K} {time dEs : List K} {n : ℕ} {frame : Option Int}
    {pts : List (Point K)} (h : densityVsEmittance L m image time dEs n frame = .ok pts) :
    ∃ a v ps l, atFrame m frame = .ok a ∧ m.vrf1 = some v ∧ matchedPhases m a time = .ok ps ∧ extrapolate l = .ok pts ∧
      ∀ p ∈ l, ∃ amp, amplitudeStep L m a v image time dEs (phiArray L a.phi0) ((phiArray L a.phi0).map (urf L v a.phi0)) ps amp = .ok p := by
  unfold densityVsEmittance at h
  obtain ⟨a, ha, h⟩ := bind_inv h
  dsimp only at h
  obtain ⟨v, hv, h⟩ := bind_inv h
  obtain ⟨ps, hp, h⟩ := bind_inv h
  obtain ⟨mn, _, h⟩ := bind_inv h
  obtain ⟨l, hl, h⟩ := bind_inv h
  have hv' : m.vrf1 = some v := by
    cases hvo : m.vrf1 with
    | none => rw [hvo] at hv; cases hv
    | some w => rw [hvo] at hv; cases hv; rfl
  refine ⟨a, v, ps, l, ha, hv', hp, h, ?_⟩
  intro p hpl
  obtain ⟨i, hi, rfl⟩ := List.getElem_of_mem hpl
  have hi' : i < (linspace 0 mn n).length := by rw [← Psi.mapM_length hl]; exact hi
  obtain ⟨y, hy, hy'⟩ := Psi.mapM_getElem hl (List.getElem?_eq_getElem hi')
  rw [List.getElem?_eq_getElem hi, Option.some.injEq] at hy'
  exact ⟨_, hy'.symm ▸ hy⟩

/-- C77: on every contour the mean density is between the smallest and the largest one. -/
theorem C77_mean {L : MathLib K} {m : GMach K} {image : Arr2 K} {time dEs : List K} {n : ℕ} {frame : Option Int}
    {pts : List (Point K)} (h : densityVsEmittance L m image time dEs n frame = .ok pts) :
    ∀ p ∈ pts, p.locMin ≤ p.loc ∧ p.loc ≤ p.locMax := by
  obtain ⟨a, v, ps, l, _, _, _, he, hl⟩ := densityVsEmittance_inv h
  have hb : ∃ lo hi : K, ∀ row ∈ image.rows, ∀ x ∈ row, lo ≤ x ∧ x ≤ hi := by
    have hlist : ∀ t : List K, ∃ lo hi : K, ∀ x ∈ t, lo ≤ x ∧ x ≤ hi := by
      intro t
      induction t with
      | nil => exact ⟨0, 0, by simp⟩
      | cons a t ih =>
        obtain ⟨lo, hi, hh⟩ := ih
        refine ⟨min a lo, max a hi, fun x hx => ?_⟩
        rcases List.mem_cons.mp hx with rfl | hx
        · exact ⟨min_le_left _ _, le_max_left _ _⟩
        · exact ⟨le_trans (min_le_right _ _) (hh x hx).1, le_trans (hh x hx).2 (le_max_right _ _)⟩
    obtain ⟨lo, hi, hh⟩ := hlist image.rows.flatten
    exact ⟨lo, hi, fun row hr x hx => hh x (List.mem_flatten.mpr ⟨row, hr, hx⟩)⟩
  obtain ⟨lo, hi, hb⟩ := hb
  have hpt : ∀ p ∈ l, p.locMin ≤ p.loc ∧ p.loc ≤ p.locMax := by
    intro p hp
    obtain ⟨amp, ha⟩ := hl p hp
    obtain ⟨pr, pl, hs, s, _, _, hf, hcase⟩ := amplitudeStep_inv ha
    have ok : AccOk s lo hi := forN_post (fun _ s => AccOk s lo hi) (accOk_start lo hi)
      (fun i a b _ ha hb' => accOk_step hb ha hb') hf
    rcases hcase with ⟨_, rfl⟩ | ⟨mn, ar, hmn, _, _, rfl⟩
    · exact ⟨le_rfl, le_rfl⟩
    · obtain ⟨p0, h1, h2, _⟩ := ok.some mn hmn
      have hp0 : (0 : K) < s.points := by exact_mod_cast p0
      exact ⟨by rw [le_div_iff₀ hp0]; exact h1, by rw [div_le_iff₀ hp0]; exact h2⟩
  rcases extrapolate_inv he with rfl | ⟨p0, _, o, rfl⟩
  · exact hpt
  · intro p hp
    rcases List.mem_or_eq_of_mem_set hp with h | rfl
    · exact hpt p h
    · exact ⟨le_rfl, le_rfl⟩

/-- C77: except in the first point, which may be extrapolated, all densities reported are between the smallest and the largest
of the image (or 0 where a contour crosses no bin). -/
theorem C77_range {L : MathLib K} {m : GMach K} {image : Arr2 K} {time dEs : List K} {n : ℕ} {frame : Option Int}
    {pts : List (Point K)} (h : densityVsEmittance L m image time dEs n frame = .ok pts) {lo hi : K} (hlo : lo ≤ 0) (hhi : 0 ≤ hi)
    (hb : ∀ row ∈ image.rows, ∀ x ∈ row, lo ≤ x ∧ x ≤ hi) :
    ∀ p ∈ pts.tail, lo ≤ p.locMin ∧ p.locMin ≤ p.loc ∧ p.loc ≤ p.locMax ∧ p.locMax ≤ hi := by
  have hmean := C77_mean h
  obtain ⟨a, v, ps, l, _, _, _, he, hl⟩ := densityVsEmittance_inv h
  have hpt : ∀ p ∈ l, lo ≤ p.locMin ∧ p.locMax ≤ hi := by
    intro p hp
    obtain ⟨amp, ha⟩ := hl p hp
    obtain ⟨pr, pl, hs, s, _, _, hf, hcase⟩ := amplitudeStep_inv ha
    have ok : AccOk s lo hi := forN_post (fun _ s => AccOk s lo hi) (accOk_start lo hi)
      (fun i a b _ ha hb' => accOk_step hb ha hb') hf
    rcases hcase with ⟨_, rfl⟩ | ⟨mn, ar, hmn, _, _, rfl⟩
    · exact ⟨hlo, hhi⟩
    · obtain ⟨_, _, _, h3, _⟩ := ok.some mn hmn
      refine ⟨h3, ?_⟩
      rcases ok.max.2 with h | h
      · exact h
      · dsimp only; rw [h]; exact hhi
  have htail : pts.tail = l.tail := by
    rcases extrapolate_inv he with rfl | ⟨p0, _, o, rfl⟩
    · rfl
    · cases l <;> rfl
  intro p hp
  have h1 := hpt p (List.mem_of_mem_tail (htail ▸ hp))
  have h2 := hmean p (List.mem_of_mem_tail hp)
  exact ⟨h1.1, h2.1, h2.2, h1.2⟩

/-- C77, the share inside: for an image that is not negative, with equally spaced energies that reach beyond every contour, the
share reported for each contour is between 0 and 1. -/
theorem C77_share_partial {L : MathLib K} {m : GMach K} {nt nE : ℕ} {f : ℕ → ℕ → K} {t e : ℕ → K} {n : ℕ} {frame : Option Int}
    {pts : List (Point K)} (hf : ∀ i j, 0 ≤ f i j) {δ : K} (hδ : 0 < δ) (he : ∀ j : ℕ, e j = e 0 + j * δ)
    (hfit : ∀ a v pl ps, atFrame m frame = .ok a → m.vrf1 = some v → pl < a.phi0 → matchedPhases m a (tab nt t) = .ok ps →
      ∀ p ∈ ps, ∀ x, height L m a v pl p = .ok x → e 0 ≤ -x ∧ ∃ k, k < nE ∧ x ≤ e k)
    (h : densityVsEmittance L m (arr nt nE f) (tab nt t) (tab nE e) n frame = .ok pts) :
    ∀ p ∈ pts, 0 ≤ p.summed ∧ p.summed ≤ 1 := by
  obtain ⟨a, v, ps, l, ha, hv, hps, hex, hl⟩ := densityVsEmittance_inv h
  have hpt : ∀ p ∈ l, 0 ≤ p.summed ∧ p.summed ≤ 1 := by
    intro p hp
    obtain ⟨amp, hamp⟩ := hl p hp
    obtain ⟨pr, pl, hs, s, hlen, hmap, hfor, hcase⟩ := amplitudeStep_inv hamp
    obtain ⟨hpl, _⟩ := lengthAtLevel_ends hlen
    have hhs : ∀ x ∈ hs, e 0 ≤ -x ∧ ∃ k, k < nE ∧ x ≤ e k := by
      intro x hx
      obtain ⟨i, hi, rfl⟩ := List.getElem_of_mem hx
      have hi' : i < ps.length := by rw [← Psi.mapM_length hmap]; exact hi
      obtain ⟨y, hy, hy'⟩ := Psi.mapM_getElem hmap (List.getElem?_eq_getElem hi')
      rw [List.getElem?_eq_getElem hi, Option.some.injEq] at hy'
      rw [hy']
      exact hfit a v pl ps ha hv hpl hps _ (List.getElem_mem hi') y hy
    rw [length_tab] at hfor
    have hsum : 0 ≤ s.summed ∧ s.summed ≤ ∑ i ∈ range nt, ∑ j ∈ range nE, f i j :=
      forN_post (fun i (s : Acc K) => 0 ≤ s.summed ∧ s.summed ≤ ∑ k ∈ range i, ∑ j ∈ range nE, f k j) ⟨le_rfl, by simp⟩
        (fun i sa sb hi hsa hb => by
          rw [Finset.sum_range_succ]
          have hrow0 : 0 ≤ ∑ j ∈ range nE, f i j := Finset.sum_nonneg fun j _ => hf i j
          obtain ⟨x, hx, ⟨_, rfl⟩ | ⟨_, row, d, top, bottom, hrow, hc, rfl⟩⟩ := binStep_inv hb
          · exact ⟨hsa.1, by linarith [hsa.2]⟩
          · unfold arr at hrow
            dsimp only at hrow
            rw [npGet_tab _ hi, Except.ok.injEq] at hrow
            subst hrow
            obtain ⟨x1, x2⟩ := hhs x (npGet_mem hx)
            have := crossings_share hδ he (hf i) x1 x2 hc
            dsimp only at this ⊢
            exact ⟨by linarith [hsa.1, this.1], by linarith [hsa.2, this.2]⟩) hfor
    have htot : (arr nt nE f).flatten.sum = ∑ i ∈ range nt, ∑ j ∈ range nE, f i j := by
      unfold arr Arr2.flatten
      dsimp only
      rw [flatten_tab, sum_flat]
    rcases hcase with ⟨_, rfl⟩ | ⟨mn, ar, _, _, hz, rfl⟩
    · exact ⟨le_rfl, zero_le_one⟩
    · dsimp only
      rw [htot] at hz ⊢
      have hT : 0 < ∑ i ∈ range nt, ∑ j ∈ range nE, f i j :=
        lt_of_le_of_ne (Finset.sum_nonneg fun i _ => Finset.sum_nonneg fun j _ => hf i j) (Ne.symm hz)
      exact ⟨div_nonneg hsum.1 hT.le, by rw [div_le_one hT]; exact hsum.2⟩
  rcases extrapolate_inv hex with rfl | ⟨p0, hp0, o, rfl⟩
  · exact hpt
  · intro p hp
    rcases List.mem_or_eq_of_mem_set hp with h | rfl
    · exact hpt p h
    · exact hpt p0 hp0

/-- one slice with five energies, contour between the second and the outermost ones -/
example : crossings ([-2, -1, 0, 1, 2] : List ℚ) [1, 2, 3, 2, 1] (3 / 2) = .ok (27 / 4, 3 / 2, 3 / 2) := by decide +kernel

/-- C77 is violated by thin contours: where the half height is positive but below every energy of the image (an odd number of
bins has none at 0), the call fails with `IndexError`. -/
theorem C77_violated_thin (dEs row : List K) {h : K} (he : ∀ x ∈ dEs, ¬ (-h < x ∧ x < h)) :
    crossings dEs row h = .error (.exc .indexError) := by
  have hw : npWhere dEs (fun e => decide (-h < e ∧ e < h)) = [] := by
    unfold npWhere
    rw [List.filter_eq_nil_iff]
    intro i hi
    have hi := List.mem_range.mp hi
    rw [List.getElem?_eq_getElem hi, Option.any_some, decide_eq_true_eq]
    exact he _ (List.getElem_mem hi)
  unfold crossings
  dsimp only
  rw [hw]
  rfl

/-- … then no result is returned for any number of contours -/
theorem C77_violated_thin_call {L : MathLib K} {m : GMach K} {a : At K} {v : K} {image : Arr2 K} {time dEs phis us ps : List K} {amp : K}
    {pr pl : K} {hs : List K} (h1 : lengthAtLevel phis us a.phi0 amp = .ok (pr, pl)) (h2 : ps.mapM (height L m a v pl) = .ok hs)
    {i : ℕ} {x : K} (hi : i < time.length) (hx : npGet hs (i : Int) = .ok x) (h0 : x ≠ 0) (he : ∀ y ∈ dEs, ¬ (-x < y ∧ y < x)) (p : Point K) :
    amplitudeStep L m a v image time dEs phis us ps amp ≠ .ok p := by
  intro h
  obtain ⟨pr', pl', hs', s, h1', h2', hf, _⟩ := amplitudeStep_inv h
  rw [h1] at h1'
  cases h1'
  rw [h2] at h2'
  cases h2'
  have : ∀ n, i < n → ∀ s, forN n (binStep image dEs hs) ⟨0, 0, 0, none, 0⟩ ≠ .ok s := by
    intro n
    induction n with
    | zero => omega
    | succ n ih =>
      intro hin s hs
      rw [forN_succ] at hs
      obtain ⟨s1, h3, h4⟩ := bind_inv hs
      rcases Nat.lt_or_eq_of_le (Nat.lt_succ_iff.mp hin) with h | rfl
      · exact ih h s1 h3
      · obtain ⟨y, hy, ⟨hz, _⟩ | ⟨_, row, d, top, bottom, _, hc, _⟩⟩ := binStep_inv h4
        · rw [hx] at hy; cases hy; exact h0 hz
        · rw [hx] at hy; cases hy
          rw [C77_violated_thin dEs row he] at hc
          cases hc
  exact this _ hi s hf

/-- C77 is violated by contours that reach below the image: the call fails with `ValueError` … -/
theorem C77_violated_low : crossings ([-1, 0, 1, 2, 3] : List ℚ) [1, 1, 1, 1, 1] (3 / 2) = .error (.exc .valueError) := by
  decide +kernel

/-- … while a contour that reaches above the image is accepted, and its share grows without bound. -/
theorem C77_violated_high : crossings ([-9, -6, -3, 0] : List ℚ) [0, 0, 0, 1] 7 = .ok (17 / 6, 1, 0) := by
  decide +kernel

/-- C77 is violated by the extrapolated first point: it may lie above all densities found. -/
theorem C77_violated_first :
    extrapolate [⟨0, 0, 0, 0, 0⟩, ⟨1, 1, 1, 1, 1 / 2⟩, ⟨2, 0, 0, 0, 1⟩] = .ok ([⟨0, 2, 2, 2, 0⟩, ⟨1, 1, 1, 1, 1 / 2⟩, ⟨2, 0, 0, 0, 1⟩] : List (Point ℚ)) := by
  decide +kernel

/-- C77 is violated by machines made from programs, which have no `vrf1`. -/
theorem C77_violated_programs (L : MathLib K) (m : GMach K) (hm : m.vrf1 = none) (image : Arr2 K) (time dEs : List K) (n : ℕ)
    (frame : Option Int) (r : List (Point K)) : densityVsEmittance L m image time dEs n frame ≠ .ok r := by
  intro h
  obtain ⟨_, v, _, _, _, hv, _⟩ := densityVsEmittance_inv h
  rw [hm] at hv
  cases hv

end Verif.Props

import Verif.Lemmas.TomographicsClip
import Verif.Spec.Tomographics

/-!
# C78 — clipping of the weights by `utils/tomographics.py`
-/

set_option linter.unusedSectionVars false

namespace Verif.Props
open Verif.Asrt Verif.Mch Verif.Pre Verif.Post Verif.Spec Verif.Graph Finset

variable {K : Type} [Field K] [LinearOrder K] [IsStrictOrderedRing K]

/-- the column of a profile -/
theorem column_tab {np nf : ℕ} {X : ℕ → ℕ → K} {z : Int} {xs : List K}
    (h : (arr np nf X).rows.mapM (fun r => npGet r z) = .ok xs) :
    np = 0 ∨ ∃ k : ℕ, k < nf ∧ xs = tab np fun j => X j k := by
  rcases Nat.eq_zero_or_pos np with h0 | h0
  · exact Or.inl h0
  right
  unfold arr at h
  dsimp only at h
  set k := if z < 0 then z + nf else z with hk
  have hval : ∀ f : ℕ → K, npGet (tab nf f) z = if 0 ≤ k ∧ k.toNat < nf then .ok (f k.toNat) else .error (.exc .indexError) := by
    intro f
    unfold npGet
    dsimp only
    rw [length_tab, ← hk]
    by_cases h1 : 0 ≤ k
    · by_cases h2 : k.toNat < nf
      · rw [if_pos h1, some_tab _ h2, if_pos ⟨h1, h2⟩]
      · rw [if_pos h1, getElem?_tab, if_neg h2, if_neg (by tauto)]
    · rw [if_neg h1, if_neg (by tauto)]
  by_cases hc : 0 ≤ k ∧ k.toNat < nf
  · refine ⟨k.toNat, hc.2, ?_⟩
    have := mapM_tab (f := fun r => npGet r z) (g := fun r : List K => r.getD k.toNat 0) np (fun i => tab nf (X i)) (fun i _ => by
      rw [hval, if_pos hc, List.getD_eq_getElem?_getD, some_tab _ hc.2]
      rfl)
    rw [this, Except.ok.injEq] at h
    rw [← h]
    apply tab_congr
    intro i _
    rw [List.getD_eq_getElem?_getD, some_tab _ hc.2]
    rfl
  · obtain ⟨y, hy, _⟩ := Psi.mapM_getElem h (some_tab (fun i => tab nf (X i)) h0)
    rw [hval, if_neg hc] at hy
    cases hy

/-- C78, what is computed: every particle outside the contour in one of the slices gets weight 0, all others keep their weights
up to one common factor, the total is the same as before, and the indices returned are particles inside. -/
theorem C78_weights_partial {L : MathLib K} {m : GMach K} {T nE np nf : ℕ} {t e : ℕ → K} {X Y : ℕ → ℕ → K} {w : ℕ → K}
    (hnp : 0 < np) (ht : t 0 < t 1) (he : e 0 < e 1) {target : K} {n : ℕ} {frame : Option Int} {w' hs : List K} {idx : List ℕ}
    (h : weightClipping L m (tab T t) (tab nE e) (arr np nf X) (arr np nf Y) (tab np w) target n frame = .ok (w', hs, idx)) :
    ∃ k l c, k < nf ∧ l < nf ∧
      (∀ [∀ i j, Decidable (OutOfContour t e (fun i => hs.getD i 0) (fun j => X j k) (fun j => Y j l) i j)],
        w' = tab np fun j => if ∃ i, i < T - 1 ∧ OutOfContour t e (fun i => hs.getD i 0) (fun j => X j k) (fun j => Y j l) i j then 0
          else c * w j) ∧
      w'.sum = (tab np w).sum ∧
      (∀ p ∈ idx, ∃ i, i < T - 1 ∧ InContour t e (fun i => hs.getD i 0) (fun j => X j k) (fun j => Y j l) i p) ∧
      (∀ i, i < T - 1 → ¬ ∃! j, j < np ∧ InContour t e (fun i => hs.getD i 0) (fun j => X j k) (fun j => Y j l) i j) := by
  classical
  unfold weightClipping at h
  obtain ⟨a, _, h⟩ := bind_inv h
  dsimp only at h
  obtain ⟨v, _, h⟩ := bind_inv h
  obtain ⟨ps, _, h⟩ := bind_inv h
  obtain ⟨mn, _, h⟩ := bind_inv h
  obtain ⟨_, _, h⟩ := bind_inv h
  obtain ⟨_, _, h⟩ := bind_inv h
  obtain ⟨ho, _, h⟩ := bind_inv h
  obtain ⟨hs', _, h⟩ := bind_inv h
  obtain ⟨xs, hx, h⟩ := bind_inv h
  obtain ⟨ys, hy, h⟩ := bind_inv h
  obtain ⟨⟨w1, idx1⟩, hfor, h⟩ := bind_inv h
  dsimp only at h
  obtain ⟨w2, hw2, h⟩ := bind_inv h
  rw [pure_eq_ok, Except.ok.injEq, Prod.mk.injEq, Prod.mk.injEq] at h
  obtain ⟨rfl, rfl, rfl⟩ := h
  rcases column_tab hx with h0 | ⟨k, hk, rfl⟩
  · omega
  rcases column_tab hy with h0 | ⟨l, hl, rfl⟩
  · omega
  set x : ℕ → K := fun j => X j k
  set y : ℕ → K := fun j => Y j l
  set H : ℕ → K := fun i => hs'.getD i 0 with hH
  have hget : ∀ (i : ℕ) (v : K), npGet hs' (i : ℕ) = .ok v → v = H i := by
    intro i v hv; exact npGet_getD hv
  rw [length_tab] at hfor
  have hpost := forN_post (fun i (s : List K × List ℕ) => (s.1 = tab np fun j => if ∃ i', i' < i ∧ OutOfContour t e H x y i' j then 0 else w j) ∧
      (∀ p ∈ s.2, ∃ i', i' < i ∧ InContour t e H x y i' p) ∧
      (∀ i', i' < i → ¬ ∃! j, j < np ∧ InContour t e H x y i' j))
    (by refine ⟨?_, by simp, by omega⟩
        apply tab_congr
        intro j _
        rw [if_neg]
        rintro ⟨i, hi, _⟩
        omega)
    (by
      rintro i ⟨aw, ai⟩ b hi ⟨p1, p2, p3⟩ hb
      dsimp only at p1 p2
      subst p1
      obtain ⟨q1, q2, q3⟩ := clipStep_inv ht he hget hb
      refine ⟨?_, ?_, ?_⟩
      · rw [q1]
        apply tab_congr
        intro j _
        by_cases ho : OutOfContour t e H x y i j
        · rw [if_pos ho, if_pos ⟨i, by omega, ho⟩]
        · rw [if_neg ho]
          apply if_congr _ rfl rfl
          constructor
          · rintro ⟨i', h1, h2⟩; exact ⟨i', by omega, h2⟩
          · rintro ⟨i', h1, h2⟩
            rcases Nat.lt_or_eq_of_le (Nat.lt_succ_iff.mp h1) with h3 | rfl
            · exact ⟨i', h3, h2⟩
            · exact absurd h2 ho
      · intro p hp
        rcases q2 p hp with h1 | h1
        · obtain ⟨i', h2, h3⟩ := p2 p h1
          exact ⟨i', by omega, h3⟩
        · exact ⟨i, by omega, h1.2⟩
      · intro i' hi'
        rcases Nat.lt_or_eq_of_le (Nat.lt_succ_iff.mp hi') with h3 | rfl
        · exact p3 i' h3
        · rintro ⟨j, hj, hu⟩
          exact q3 ⟨j, hj, fun k hk hk' => hu k ⟨hk, hk'⟩⟩) hfor
  obtain ⟨p1, p2, p3⟩ := hpost
  dsimp only at p1 p2
  have hS : w1.sum ≠ 0 := by
    intro hz
    rw [hz, p1] at hw2
    obtain ⟨y, hy, _⟩ := Psi.mapM_getElem hw2 (some_tab _ hnp)
    rw [fdiv_zero] at hy
    cases hy
  have hw2' : w2 = w1.map fun x => x / w1.sum := by
    rw [mapM_ok (g := fun x => x / w1.sum) w1 fun x _ => fdiv_ok hS] at hw2
    cases hw2; rfl
  refine ⟨k, l, (tab np w).sum / w1.sum, hk, hl, ?_, ?_, p2, p3⟩
  · intro _
    rw [hw2']
    generalize w1.sum = S
    rw [p1, map_tab, map_tab]
    apply tab_congr
    intro j _
    by_cases ho : ∃ i', i' < T - 1 ∧ OutOfContour t e H x y i' j
    · rw [if_pos ho, if_pos ho]; simp
    · rw [if_neg ho, if_neg ho]; ring
  · rw [hw2']
    have e1 : ((w1.map fun x => x / w1.sum).map fun x => x * (tab np w).sum).sum = (w1.map fun x => x / w1.sum).sum * (tab np w).sum := by
      generalize (w1.map fun x => x / w1.sum) = l
      induction l with
      | nil => simp
      | cons a l ih => simp only [List.map_cons, List.sum_cons, ih]; ring
    rw [e1, sum_div_list, div_self hS, one_mul]

/-- C78: when no weight is negative, the particles that are kept gain weight. -/
theorem C78_factor {L : MathLib K} {m : GMach K} {T nE np nf : ℕ} {t e : ℕ → K} {X Y : ℕ → ℕ → K} {w : ℕ → K}
    (hnp : 0 < np) (ht : t 0 < t 1) (he : e 0 < e 1) (hw : ∀ j, 0 ≤ w j) {target : K} {n : ℕ} {frame : Option Int} {w' hs : List K} {idx : List ℕ}
    (h : weightClipping L m (tab T t) (tab nE e) (arr np nf X) (arr np nf Y) (tab np w) target n frame = .ok (w', hs, idx)) :
    ∃ g : ℕ → K, w' = tab np g ∧ ∀ j, j < np → g j = 0 ∨ w j ≤ g j := by
  classical
  obtain ⟨k, l, c, _, _, h1, h2, _⟩ := C78_weights_partial hnp ht he h
  refine ⟨_, h1, ?_⟩
  set O : ℕ → Prop := fun j => ∃ i, i < T - 1 ∧ OutOfContour t e (fun i => hs.getD i 0) (fun j => X j k) (fun j => Y j l) i j with hO
  have hsum : c * (∑ j ∈ range np, if O j then 0 else w j) = ∑ j ∈ range np, w j := by
    rw [h1, sum_tab, sum_tab] at h2
    rw [← h2, Finset.mul_sum]
    apply Finset.sum_congr rfl
    intro j _
    rw [mul_ite, mul_zero]
  have hle : (∑ j ∈ range np, if O j then 0 else w j) ≤ ∑ j ∈ range np, w j := by
    apply Finset.sum_le_sum
    intro j _
    split_ifs
    · exact hw j
    · exact le_rfl
  have h0 : 0 ≤ ∑ j ∈ range np, if O j then 0 else w j :=
    Finset.sum_nonneg fun j _ => by split_ifs; exacts [le_rfl, hw j]
  intro j hj
  by_cases hoj : O j
  · left; exact if_pos hoj
  · right
    have e : (if O j then (0 : K) else c * w j) = c * w j := if_neg hoj
    refine le_trans ?_ (le_of_eq e.symm)
    rcases (hw j).lt_or_eq with hp | hz
    · have hpos : 0 < ∑ j ∈ range np, if O j then 0 else w j := by
        refine lt_of_lt_of_le hp ?_
        have := Finset.single_le_sum (f := fun j => if O j then 0 else w j)
          (fun j _ => by split_ifs; exacts [le_rfl, hw j]) (mem_range.mpr hj)
        rwa [if_neg hoj] at this
      have hc : 1 ≤ c := by
        by_contra hcon
        have := mul_lt_mul_of_pos_right (not_le.mp hcon) hpos
        linarith
      nlinarith
    · rw [← hz]; simp

/-- C78 is violated by particles whose times are not between the first and the last bin: they are never clipped, whatever
their energy. -/
theorem C78_violated_beyond {t e H x y : ℕ → K} {T j : ℕ} (hmono : ∀ i, i < T - 1 → t i ≤ t (i + 1))
    (hx : t 0 + x j * (t 1 - t 0) < t 0 ∨ t (T - 1) < t 0 + x j * (t 1 - t 0)) :
    ¬ ∃ i, i < T - 1 ∧ OutOfContour t e H x y i j := by
  rintro ⟨i, hi, ⟨h1, h2⟩, _⟩
  have hup : ∀ a, a ≤ T - 1 → t 0 ≤ t a := by
    intro a
    induction a with
    | zero => intro _; exact le_rfl
    | succ a ih => intro ha; exact le_trans (ih (by omega)) (hmono a (by omega))
  have hdown : ∀ a b, a ≤ b → b ≤ T - 1 → t a ≤ t b := by
    intro a b hab
    induction b with
    | zero => intro _; rw [show a = 0 by omega]
    | succ b ih =>
      intro hb
      rcases Nat.lt_or_eq_of_le hab with h | rfl
      · exact le_trans (ih (by omega) (by omega)) (hmono b (by omega))
      · exact le_rfl
  rcases hx with hx | hx
  · exact absurd (le_trans (hup i (by omega)) h1) (not_le.mpr hx)
  · exact absurd (le_trans h2 (hdown (i + 1) (T - 1) (by omega) le_rfl)) (not_le.mpr hx)

/-- C78 is violated when a slice holds exactly one particle inside the contour: nothing is returned. -/
theorem C78_violated_single {np T m : ℕ} {x y t e H f : ℕ → K} (ht : t 0 < t 1) (he : e 0 < e 1) {i : ℕ} {idx : List ℕ} {hs : List K}
    (hH : ∀ i v, npGet hs (i : ℕ) = .ok v → v = H i) (r : List K × List ℕ)
    (h1 : ∃! j, j < np ∧ InContour t e H x y i j) :
    clipStep (tab np x) (tab np y) (tab T t) (tab m e) hs i (tab np f, idx) ≠ .ok r := by
  intro h
  obtain ⟨j, hj, hu⟩ := h1
  exact (clipStep_inv ht he hH h).2.2 ⟨j, hj, fun k hk hk' => hu k ⟨hk, hk'⟩⟩

/-- … the error is `AttributeError`: one particle in the middle of the contour -/
theorem C78_violated_single_error : clipStep ([1 / 2] : List ℚ) [1] [0, 1] [-1, 0, 1] [1, 1] 0 ([1], []) = .error (.exc .attributeError) := by
  decide +kernel

/-- C78 is violated when no contour is asked for: an unbound variable is read. -/
theorem C78_violated_none (L : MathLib K) (m : GMach K) (time dEs : List K) (mapX mapY : Arr2 K) (weight : List K) (target : K)
    (frame : Option Int) (r : List K × List K × List ℕ) : weightClipping L m time dEs mapX mapY weight target 0 frame ≠ .ok r := by
  intro h
  unfold weightClipping at h
  obtain ⟨a, _, h⟩ := bind_inv h
  dsimp only at h
  obtain ⟨v, _, h⟩ := bind_inv h
  obtain ⟨ps, _, h⟩ := bind_inv h
  obtain ⟨mn, _, h⟩ := bind_inv h
  obtain ⟨_, _, h⟩ := bind_inv h
  obtain ⟨_, _, h⟩ := bind_inv h
  obtain ⟨ho, h1, h⟩ := bind_inv h
  obtain ⟨hs', h2, h⟩ := bind_inv h
  have : linspace (0 : K) mn 0 = [] := rfl
  rw [this] at h1
  unfold clipHeights at h1
  cases h1
  cases h2

/-- C78 is violated by machines made from programs, which have no `vrf1`. -/
theorem C78_violated_programs (L : MathLib K) (m : GMach K) (hm : m.vrf1 = none) (time dEs : List K) (mapX mapY : Arr2 K)
    (weight : List K) (target : K) (n : ℕ) (frame : Option Int) (r : List K × List K × List ℕ) :
    weightClipping L m time dEs mapX mapY weight target n frame ≠ .ok r := by
  intro h
  unfold weightClipping at h
  obtain ⟨a, _, h⟩ := bind_inv h
  dsimp only at h
  obtain ⟨v, hv, h⟩ := bind_inv h
  rw [hm] at hv
  cases hv

/-- two particles inside and one outside in one slice: the one outside is cleared -/
example : clipStep ([1 / 2, 1 / 2, 1 / 2] : List ℚ) [1, 1 / 2, 2] [0, 1] [-1, 0, 1] [1, 1] 0 ([3, 4, 5], []) = .ok ([3, 4, 0], [1, 0]) := by
  decide +kernel

end Verif.Props

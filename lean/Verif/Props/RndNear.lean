import Verif.Lemmas.RndNear
import Verif.Lemmas.Binary
import Verif.Props.Rnd
import Mathlib.Algebra.Order.Ring.Pow

/-!
# Floating point: explicit error bounds for the reconstruction without iterations (C107)

C90 says that rounding errors vanish as the arithmetic gets more accurate.  Here is how large they are, for a waterfall without
negative samples (what the `Tomography` class passes on, C10) and no iterations: a number of roundings that depends on the sizes
only, not on the data, and none at all in deciding whether the run fails.
-/

namespace Verif.Props
open Verif.Rounded Verif.Spec

/-- a waterfall without negative samples, rounded on input, is the exact one up to one rounding -/
theorem C107_input {w : World} {u : ℝ} (hw : w.Accurate u) (h0 : 0 ≤ u) (hu : u < 1) {l : List ℝ} (hl : ∀ v ∈ l, 0 ≤ v) :
    NearAll u 1 (roundAll w l) l := by
  refine List.forall₂_iff_get.mpr ⟨by simp [roundAll], fun i h1 h2 => ?_⟩
  simp only [List.get_eq_getElem, roundAll, List.getElem_map]
  exact near_rnd hw h0 hu (hl _ (List.getElem_mem h2))

/-- C107: the run in floating point fails exactly when the exact run does, with the same error. -/
theorem C107_failures {w : World} {u : ℝ} (hw : w.Accurate u) (h0 : 0 ≤ u) (hu : u < 1) {m n P nb : ℕ} {x : ℕ → ℕ → ℕ}
    (hx : InRange n P nb x) (wf : ℕ → ℕ → ℝ) {F : List ℝ} (hF : NearAll u m F (flat P nb wf)) (e : Fault) :
    (Recon.reconstruct (α := Rn w) w.sqrt (xbuf n P x) F 0 nb n P).2 = .error e ↔ (run Real.sqrt n P nb x wf 0).2 = .error e := by
  have h := near_reconstruct hw h0 hu hx (hF.toL h0 hu)
  revert h
  unfold run
  cases (Recon.reconstruct (α := Rn w) w.sqrt (xbuf n P x) F 0 nb n P).2 <;>
    cases (Recon.reconstruct Real.sqrt (xbuf n P x) (flat P nb wf) 0 nb n P).2 <;> intro h
  · rw [show _ = _ from h]
    exact ⟨fun h => by cases h; rfl, fun h => by cases h; rfl⟩
  · exact h.elim
  · exact h.elim
  · constructor <;> (intro h; cases h)

/-- C107: when they succeed, every weight is the exact one up to `P` roundings (and those of the input), every bin of the recreated
profiles up to `2 (P + n) + nb + 1` (and twice those of the input), and the discrepancy, for a waterfall of numbers not above one,
up to `P nb + 4` roundings and a shift by `slack`. -/
theorem C107_bounds {w : World} {u : ℝ} (hw : w.Accurate u) (h0 : 0 ≤ u) (hu : u < 1) {m n P nb : ℕ} (hP : 0 < P) (hb : 0 < nb)
    {x : ℕ → ℕ → ℕ} (hx : InRange n P nb x) (wf : ℕ → ℕ → ℝ) {F : List ℝ} (hF : NearAll u m F (flat P nb wf))
    {st : Recon.RState ℝ} (h : (run Real.sqrt n P nb x wf 0).2 = .ok st) :
    ∃ s : Recon.RState (Rn w), (Recon.reconstruct (α := Rn w) w.sqrt (xbuf n P x) F 0 nb n P).2 = .ok s ∧
      NearAll u (m + P) s.weights st.weights ∧ NearAll u (2 * (m + P + n) + nb + 1) s.flatRec st.flatRec ∧
      ((∀ p b, p < P → b < nb → wf p b ≤ 1) →
        List.Forall₂ (NearShift u (P * nb + 4) (slack u (2 * (m + P + n) + nb + 1))) s.discr st.discr) := by
  have hb' := near_reconstruct hw h0 hu hx (hF.toL h0 hu)
  unfold run at h
  rw [h] at hb'
  obtain ⟨r, hr, hr0, hr1⟩ := C03_rows_sum_to_one Real.sqrt hP hb hx wf 0 h
  revert hb'
  cases hs : (Recon.reconstruct (α := Rn w) w.sqrt (xbuf n P x) F 0 nb n P).2 with
  | error e => intro hb'; exact hb'.elim
  | ok s =>
    rintro ⟨h1, h2, d, e, h3, h4, h5⟩
    refine ⟨s, rfl, h1.all h0 hu fun _ _ => le_rfl, h2.all h0 hu fun _ _ => le_rfl, fun hwf => ?_⟩
    rw [h3, h4]
    refine List.Forall₂.cons (h5 ?_ ?_) List.Forall₂.nil
    · intro i
      rw [hr]
      unfold flat
      rw [List.getD_eq_getElem?_getD, getElem?_tab]
      split
      · next hi =>
        have hp : i / nb < P := Nat.div_lt_of_lt_mul (by rwa [mul_comm] at hi)
        have := Finset.single_le_sum (f := fun b => r (i / nb) b) (fun b _ => hr0 _ b) (Finset.mem_range.mpr (Nat.mod_lt i hb))
        rw [hr1 _ hp] at this
        exact this
      · simp
    · intro i
      unfold flat
      rw [List.getD_eq_getElem?_getD, getElem?_tab]
      split
      · next hi =>
        exact hwf _ _ (Nat.div_lt_of_lt_mul (by rwa [mul_comm] at hi)) (Nat.mod_lt i hb)
      · simp

/-- C107, what "up to `k` roundings" means: a relative error of at most `k u / (1 - k u)`. -/
theorem C107_relative {u : ℝ} {k : ℕ} {x y : ℝ} (h0 : 0 ≤ u) (hu : u < 1) (hk : k * u < 1) (h : Near u k x y) :
    |x - y| ≤ k * u / (1 - k * u) * y := by
  have hB : 1 - k * u ≤ (1 - u) ^ k := by
    have := one_add_mul_le_pow (a := -u) (by linarith) k
    have e : (1 : ℝ) + -u = 1 - u := by ring
    rw [e] at this
    linarith
  have hB0 : 0 < 1 - k * u := by linarith
  have hy := h.nonneg'
  have h1 : (1 - k * u) * x ≤ y := (mul_le_mul_of_nonneg_right hB h.nonneg).trans h.upper
  have h2 : (1 - k * u) * y ≤ x := (mul_le_mul_of_nonneg_right hB hy).trans h.lower
  have hku : 0 ≤ k * u := mul_nonneg k.cast_nonneg h0
  rw [div_mul_eq_mul_div, le_div_iff₀ hB0]
  rcases abs_cases (x - y) with ⟨e, _⟩ | ⟨e, _⟩ <;> rw [e] <;> nlinarith [mul_nonneg hku hy, mul_nonneg hku (mul_nonneg hku hy)]

/-- C107: two floating point units (say single and double precision, or with and without extended registers), both accurate to `u`,
succeed or fail together, and their results agree up to twice as many roundings. -/
theorem C107_two_units {w w' : World} {u : ℝ} (hw : w.Accurate u) (hw' : w'.Accurate u) (h0 : 0 ≤ u) (hu : u < 1) {m n P nb : ℕ}
    (hP : 0 < P) (hb : 0 < nb) {x : ℕ → ℕ → ℕ} (hx : InRange n P nb x) (wf : ℕ → ℕ → ℝ) {F F' : List ℝ}
    (hF : NearAll u m F (flat P nb wf)) (hF' : NearAll u m F' (flat P nb wf)) {s : Recon.RState (Rn w)}
    (h : (Recon.reconstruct (α := Rn w) w.sqrt (xbuf n P x) F 0 nb n P).2 = .ok s) :
    ∃ s' : Recon.RState (Rn w'), (Recon.reconstruct (α := Rn w') w'.sqrt (xbuf n P x) F' 0 nb n P).2 = .ok s' ∧
      NearAll u (2 * (m + P)) s.weights s'.weights ∧ NearAll u (2 * (2 * (m + P + n) + nb + 1)) s.flatRec s'.flatRec := by
  have join : ∀ {k : ℕ} {a b c : List ℝ}, NearAll u k a b → NearAll u k c b → NearAll u (2 * k) a c := by
    intro k a b c h1 h2
    obtain ⟨l1, g1⟩ := List.forall₂_iff_get.mp h1
    obtain ⟨l2, g2⟩ := List.forall₂_iff_get.mp h2
    refine List.forall₂_iff_get.mpr ⟨l1.trans l2.symm, fun i i1 i2 => ?_⟩
    rw [two_mul]
    exact (g1 i i1 (l1 ▸ i1)).trans hu (g2 i i2 (l2 ▸ i2)).symm
  rcases C03_no_division_by_zero Real.sqrt hP hb hx wf 0 with ⟨st, hst⟩ | he
  · obtain ⟨t, t1, t2, t3, _⟩ := C107_bounds hw h0 hu hP hb hx wf hF hst
    obtain ⟨t', q1, q2, q3, _⟩ := C107_bounds hw' h0 hu hP hb hx wf hF' hst
    rw [h] at t1
    cases t1
    exact ⟨t', q1, join t2 q2, join t3 q3⟩
  · rw [(C107_failures hw h0 hu hx wf hF _).mpr he] at h
    cases h

/-- C107 for doubles: with up to a million particles and a thousand profiles of a thousand bins, every weight and every recreated
bin has at least nine correct decimal digits. -/
theorem C107_doubles {n P nb : ℕ} (hn : n ≤ 10 ^ 6) (hP : 0 < P) (hP' : P ≤ 10 ^ 3) (hb : 0 < nb) (hb' : nb ≤ 10 ^ 3) {x : ℕ → ℕ → ℕ}
    (hx : InRange n P nb x) {wf : ℕ → ℕ → ℝ} (hwf : ∀ p b, 0 ≤ wf p b) {st : Recon.RState ℝ} (h : (run Real.sqrt n P nb x wf 0).2 = .ok st) :
    ∃ s : Recon.RState (Rn (binary 53)),
      (Recon.reconstruct (α := Rn (binary 53)) (binary 53).sqrt (xbuf n P x) (roundAll (binary 53) (flat P nb wf)) 0 nb n P).2 = .ok s ∧
      List.Forall₂ (fun a b : ℝ => |a - b| ≤ 10 ^ (-9 : ℤ) * b) s.weights st.weights ∧
      List.Forall₂ (fun a b : ℝ => |a - b| ≤ 10 ^ (-9 : ℤ) * b) s.flatRec st.flatRec := by
  have hw : (binary 53).Accurate (2 ^ (-(53 : ℤ))) := binary_accurate (by norm_num)
  have hu : (2 : ℝ) ^ (-(53 : ℤ)) < 1 := by norm_num
  have h0 : (0 : ℝ) ≤ 2 ^ (-(53 : ℤ)) := by positivity
  have hF := C107_input hw h0 hu (l := flat P nb wf) (by
    intro v hv
    unfold flat tab at hv
    obtain ⟨i, _, rfl⟩ := List.mem_map.mp hv
    exact hwf _ _)
  obtain ⟨s, h1, h2, h3, _⟩ := C107_bounds hw h0 hu hP hb hx wf hF h
  have rel : ∀ {k : ℕ} {a b : List ℝ}, k ≤ 3 * 10 ^ 6 → NearAll (2 ^ (-(53 : ℤ))) k a b →
      List.Forall₂ (fun a b : ℝ => |a - b| ≤ 10 ^ (-9 : ℤ) * b) a b := by
    intro k a b hk hab
    refine hab.imp fun p q hpq => ?_
    have hk' : (k : ℝ) * 2 ^ (-(53 : ℤ)) ≤ 10 ^ (-9 : ℤ) / 2 := by
      have : (k : ℝ) ≤ 3 * 10 ^ 6 := by exact_mod_cast hk
      calc (k : ℝ) * 2 ^ (-(53 : ℤ)) ≤ (3 * 10 ^ 6) * 2 ^ (-(53 : ℤ)) := mul_le_mul_of_nonneg_right this h0
        _ ≤ _ := by norm_num
    have h10 : (10 : ℝ) ^ (-9 : ℤ) ≤ 1 := by norm_num
    have h10' : (0 : ℝ) ≤ 10 ^ (-9 : ℤ) := by positivity
    have small : ∀ c t : ℝ, c ≤ t / 2 → t ≤ 1 → 0 ≤ t → c < 1 ∧ c / (1 - c) ≤ t := fun c t a1 a2 a3 =>
      ⟨by linarith, by rw [div_le_iff₀ (by linarith)]; nlinarith⟩
    obtain ⟨k1, k2⟩ := small _ _ hk' h10 h10'
    exact (C107_relative h0 hu k1 hpq).trans (mul_le_mul_of_nonneg_right k2 hpq.nonneg')
  exact ⟨s, h1, rel (by omega) h2, rel (by omega) h3⟩

/-- the waterfall of the examples, without negative sample -/
noncomputable def wfP : ℕ → ℕ → ℝ := fun p b => if p = 0 then (if b = 0 then 3/4 else 1/4) else (if b = 0 then 1/3 else 2/3)

theorem wfP_succeeds : ∃ st, (run Real.sqrt 3 2 2 x3 wfP 0).2 = .ok st := by
  rcases C03_no_division_by_zero Real.sqrt (by norm_num) (by norm_num) x3_inRange wfP 0 with h | h
  · exact h
  · have := ((C04_initial_error_iff Real.sqrt (by norm_num) (by norm_num) x3_inRange wfP).1.mp h) 0 (by norm_num)
    norm_num [Finset.sum_range_succ, wfP, x3] at this

/-- three particles, two profiles of two bins, doubles: nine digits -/
example : ∃ st s, (run Real.sqrt 3 2 2 x3 wfP 0).2 = .ok st ∧
    (Recon.reconstruct (α := Rn (binary 53)) (binary 53).sqrt (xbuf 3 2 x3) (roundAll (binary 53) (flat 2 2 wfP)) 0 2 3 2).2 = .ok s ∧
    List.Forall₂ (fun a b : ℝ => |a - b| ≤ 10 ^ (-9 : ℤ) * b) s.weights st.weights := by
  obtain ⟨st, h⟩ := wfP_succeeds
  obtain ⟨s, h1, h2, _⟩ := C107_doubles (by norm_num) (by norm_num) (by norm_num) (by norm_num) (by norm_num) x3_inRange
    (fun p b => by unfold wfP; split_ifs <;> norm_num) h
  exact ⟨st, s, h, h1, h2⟩

/-! ### negative samples -/

/-- rounds everything but the natural numbers towards zero by `u` -/
noncomputable def shrink (u : ℝ) : World where
  rnd x := open Classical in if ∃ n : ℕ, x = n then x else (1 - u) * x
  sin := Real.sin
  sqrt := Real.sqrt

theorem shrink_accurate {u : ℝ} (h0 : 0 ≤ u) : (shrink u).Accurate u where
  rnd x := by
    simp only [shrink]
    split_ifs
    · simpa using mul_nonneg h0 (abs_nonneg x)
    · rw [show (1 - u) * x - x = -(u * x) by ring, abs_neg, abs_mul, abs_of_nonneg h0]
  exact n _ := by simp [shrink]
  sin x _ := by simpa [shrink] using h0
  sqrt x _ := by simpa [shrink] using mul_nonneg h0 (Real.sqrt_nonneg x)

theorem shrink_rnd {u x : ℝ} (h : x < 0 ∨ (0 < x ∧ x < 1)) : (shrink u).rnd x = (1 - u) * x := by
  simp only [shrink]
  rw [if_neg]
  rintro ⟨n, rfl⟩
  rcases h with h | ⟨h1, h2⟩
  · exact absurd h (not_lt.mpr n.cast_nonneg)
  · have h1 : 0 < n := by exact_mod_cast h1
    have h2 : n < 1 := by exact_mod_cast h2
    omega

theorem bind_of_ok {A B : Type} {x : Verif.M A} {a : A} {f : A → Verif.M B} {y : Verif.M B} (h : x = .ok a) (h' : f a = y) :
    x >>= f = y := by rw [h, bind_ok, h']

/-- the first step of a run with one particle and two profiles of one bin -/
theorem firstStep_two {α : Type} [Add α] [Zero α] [LT α] [LE α] [DecidableLT α] [DecidableLE α] (a b : α)
    (h : 0 + a + b < 0) (h' : (0 : α) + 0 ≤ 0) : Recon.firstStep [0] [0, 1] [a, b] 1 2 = .error (.exc .allZero) := by
  have h1 : Recon.backProject [0] [0, 1] [a, b] 1 2 = .ok [0 + a + b] := rfl
  have h2 : Recon.clip [0 + a + b] 1 0 = .ok [0] := by
    have : Recon.clip [0 + a + b] 1 0 = if 0 + a + b < 0 then .ok [0] else .ok [0 + a + b] := rfl
    rw [this, if_pos h]
  have h3 : Recon.sum [(0 : α)] 1 = .ok (0 + 0) := rfl
  unfold Recon.firstStep
  rw [h1, bind_ok, h2, bind_ok, h3, bind_ok, if_pos h']

/-- C107 needs the samples to be non-negative: for every accuracy there is a floating point unit and a waterfall with a negative
sample on which the exact run succeeds and the rounded run raises the "reduced to zeroes" error. -/
theorem C107_needs_nonnegative {u : ℝ} (h0 : 0 < u) (hu : u < 1) :
    ∃ (w : World) (wf : ℕ → ℕ → ℝ), w.Accurate u ∧ (∃ st, (run Real.sqrt 1 2 1 (fun _ _ => 0) wf 0).2 = .ok st) ∧
      (Recon.reconstruct (α := Rn w) w.sqrt (xbuf 1 2 fun _ _ => 0) (roundAll w (flat 2 1 wf)) 0 1 1 2).2 = .error (.exc .allZero) := by
  have hx : InRange 1 2 1 (fun _ _ => 0) := fun _ _ _ _ => Nat.one_pos
  refine ⟨shrink u, fun p _ => if p = 0 then 1 / 2 else -(1 - u / 2) / 2, shrink_accurate h0.le, ?_, ?_⟩
  · rcases C03_no_division_by_zero Real.sqrt (by norm_num) (by norm_num) hx
        (fun p _ => if p = 0 then 1 / 2 else -(1 - u / 2) / 2) 0 with h | h
    · exact h
    · have := ((C04_initial_error_iff Real.sqrt (by norm_num) (by norm_num) hx _).1.mp h) 0 (by norm_num)
      simp [Finset.sum_range_succ] at this
      linarith
  · unfold Recon.reconstruct
    refine (reconstructOn_result (α := Rn (shrink u)) _ _ _ _ _ _ _ _).trans ?_
    have hz : NearL u (fun _ => 0) (tab (2 * 1) fun _ => (0 : ℝ)) (tab (2 * 1) fun _ => (0 : ℝ)) := NearL.refl h0.le hu fun i => by
      rw [List.getD_eq_getElem?_getD, getElem?_tab]; split <;> simp
    have hr := near_reciprocal (shrink_accurate h0.le) h0.le hu (xp := xbuf 1 2 fun _ _ => 0) (n := 1) (P := 2) (nb := 1) hz
    have hr' := Recon.reciprocal_ok (K := ℝ) hx
    change Recon.reciprocalParticles (tab (2 * 1) fun _ => (0 : ℝ)) _ _ _ _ = _ at hr'
    rw [hr'] at hr
    obtain ⟨r, hr, _⟩ := Both.ok_inv hr
    refine bind_of_ok hr (bind_of_ok (Recon.createFlatPoints_ok 1 2 1 fun _ _ => 0) ?_)
    have e1 : (shrink u).rnd (1 / 2) = (1 - u) / 2 := by rw [shrink_rnd (Or.inr ⟨by norm_num, by norm_num⟩)]; ring
    have e2 : (shrink u).rnd (-(1 - u / 2) / 2) = -((1 - u) * (1 - u / 2) / 2) := by rw [shrink_rnd (Or.inl (by linarith))]; ring
    have hl : roundAll (shrink u) (flat 2 1 fun p _ => if p = 0 then (1 / 2 : ℝ) else -(1 - u / 2) / 2)
        = [(1 - u) / 2, -((1 - u) * (1 - u / 2) / 2)] := by
      rw [← e1, ← e2]; simp [roundAll, flat, tab, List.range_succ]
    rw [hl]
    have hneg : (shrink u).rnd ((shrink u).rnd (0 + (1 - u) / 2) + -((1 - u) * (1 - u / 2) / 2)) < 0 := by
      rw [zero_add, shrink_rnd (x := (1 - u) / 2) (Or.inr ⟨by linarith, by linarith⟩)]
      have hlt : (1 - u) * ((1 - u) / 2) + -((1 - u) * (1 - u / 2) / 2) < 0 := by
        have : (1 - u) * ((1 - u) / 2) + -((1 - u) * (1 - u / 2) / 2) = -((1 - u) * u / 4) := by ring
        rw [this]
        have := mul_pos (sub_pos.mpr hu) h0
        linarith
      rw [shrink_rnd (Or.inl hlt)]
      exact mul_neg_of_pos_of_neg (by linarith) hlt
    have hzz : (shrink u).rnd (0 + 0) ≤ 0 := by
      have : (shrink u).rnd ((0 : ℕ) : ℝ) = ((0 : ℕ) : ℝ) := (shrink_accurate (u := u) h0.le).exact 0 (by simp)
      simp at this
      simp [this]
    have := firstStep_two (α := Rn (shrink u)) ((1 - u) / 2 : ℝ) (-((1 - u) * (1 - u / 2) / 2) : ℝ) hneg hzz
    exact congrArg (fun t => t >>= _) this

end Verif.Props

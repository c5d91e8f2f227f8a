import Verif.Props.PostDispatch
import Verif.Props.Profiles
import Verif.Props.PhaseSpace

/-!
# Theorems added after wrong programs went unnoticed (C30, C41, C42, C43, C99)
-/

set_option linter.unusedSectionVars false

namespace Verif.Props
open Finset Verif.Mch Verif.Asrt Verif.Spec Verif.Post Verif.Prof Verif.Img Verif.Pre

section
variable {K : Type} [Field K] [LinearOrder K] [IsStrictOrderedRing K]

/-- C30: counted from the end, `-1` is the last profile: the image of profile `-j` is that of profile `P - j`, for the density and for the
picture written to file. -/
theorem C30_from_the_end {n P : ℕ} (x y : ℕ → ℕ → ℤ) (w : List K) (nbins : ℕ) (sx sy dt : K) (dE : Option K) {j : ℕ} (hj : 0 < j)
    (hjP : j ≤ P) :
    phaseSpace (arr n P x) (arr n P y) w nbins sx sy dt dE (-(j : ℤ)) =
      phaseSpace (arr n P x) (arr n P y) w nbins sx sy dt dE ((P - j : ℕ) : ℤ) ∧
    createPhaseSpaceImage (arr n P x) (arr n P y) w nbins (-(j : ℤ)) =
      createPhaseSpaceImage (arr n P x) (arr n P y) w nbins ((P - j : ℕ) : ℤ) := by
  have h : P - j < P := by omega
  constructor
  · unfold phaseSpace
    cases dE with
    | none => rfl
    | some d =>
      dsimp only
      rw [column_neg x hj hjP, column_neg y hj hjP, column_arr x h, column_arr y h]
  · unfold createPhaseSpaceImage
    rw [column_neg x hj hjP, column_neg y hj hjP, column_arr x h, column_arr y h]

/-- C30: beyond the first and the last profile there is an IndexError. -/
theorem C30_no_such_profile {n P : ℕ} (x y : ℕ → ℕ → ℤ) (w : List K) (nbins : ℕ) (sx sy dt dE : K) {j : ℤ} (hj : P ≤ j ∨ j < -P) :
    phaseSpace (arr n P x) (arr n P y) w nbins sx sy dt (some dE) j = .error (.exc .indexError) ∧
    createPhaseSpaceImage (arr n P x) (arr n P y) w nbins j = .error (.exc .indexError) := by
  constructor
  · unfold phaseSpace
    dsimp only
    rw [column_oob x hj]
    rfl
  · unfold createPhaseSpaceImage
    rw [column_oob x hj]
    rfl

/-- two particles, two profiles: the last profile -/
example : createPhaseSpaceImage (K := ℚ) ⟨2, [[0, 1], [1, 1]]⟩ ⟨2, [[0, 0], [0, 1]]⟩ [1, 3] 2 (-1) = .ok [0, 0, 1 / 4, 3 / 4] := by
  decide +kernel

/-- C41: of a phase space without cells there is no emittance: ValueError. -/
theorem C41_nothing (t e : List K) {f : K} (h0 : 0 ≤ f) (h1 : f ≤ 100) :
    emittanceFractional ([] : List K) t e f = .error (.exc .valueError) := by
  unfold emittanceFractional assertLessOrEqual assertGreaterOrEqual
  rw [if_neg (not_lt.mpr h1), bind_ok, if_neg (not_lt.mpr h0), bind_ok]
  rfl

/-- C41: nor of one whose cells add up to nothing. -/
theorem C41_empty (cells : List K) (hne : cells ≠ []) (hS : cells.sum = 0) (t e : List K) (f : K) :
    ∀ r, emittanceFractional cells t e f ≠ .ok r := by
  intro r h
  unfold emittanceFractional at h
  obtain ⟨_, -, h⟩ := bind_ok_iff.mp h
  obtain ⟨_, -, h⟩ := bind_ok_iff.mp h
  obtain ⟨_, h2, -⟩ := bind_ok_iff.mp h
  obtain ⟨a, l, rfl⟩ := List.exists_cons_of_ne_nil hne
  rw [List.mapM_cons, hS] at h2
  obtain ⟨_, h3, -⟩ := bind_ok_iff.mp h2
  have : FDiv.fdiv a (0 : K) = .error .nonFinite := if_pos rfl
  rw [this] at h3
  cases h3

example : emittanceFractional ([] : List ℚ) [0, 1] [0, 1] 50 = .error (.exc .valueError) := C41_nothing _ _ (by norm_num) (by norm_num)

/-- C42: the rms emittance of a phase space of `n` times and `m` energies is `π` times the two standard deviations; time and energy axes
stretched by `a` and `b` stretch it by `a b`, a phase space multiplied by `c` leaves it as it is.
Missing: the standard deviations themselves, see `C42_violated`. -/
theorem C42_emittance_partial (L : MathLib K) (hsq : ∀ x, 0 ≤ x → 0 ≤ L.sqrt x ∧ L.sqrt x ^ 2 = x) {n m : ℕ} (hn : 2 ≤ n) (hm : 2 ≤ m)
    (p q t e : ℕ → K) (hp : ∀ i, i < n → 0 ≤ p i) (hq : ∀ i, i < m → 0 ≤ q i) (hP : 0 < ∑ i ∈ range n, p i)
    (hQ : 0 < ∑ i ∈ range m, q i) {a b c : K} (ha : 0 ≤ a) (hb : 0 ≤ b) (hc : 0 < c) :
    ∃ σ τ, stdFromHistogram L (tab n p) (tab n t) = .ok σ ∧ stdFromHistogram L (tab m q) (tab m e) = .ok τ ∧
      emittanceRms L (tab n p) (tab m q) (tab n t) (tab m e) = .ok (L.pi * σ * τ) ∧
      emittanceRms L (tab n p) (tab m q) (tab n fun i => a * t i) (tab m fun i => b * e i) = .ok (a * b * (L.pi * σ * τ)) ∧
      emittanceRms L (tab n fun i => c * p i) (tab m fun i => c * q i) (tab n t) (tab m e) = .ok (L.pi * σ * τ) := by
  have key : ∀ {n : ℕ} (p t : ℕ → K) (a : K), 2 ≤ n → (∀ i, i < n → 0 ≤ p i) → 0 < ∑ i ∈ range n, p i →
      ∃ v, 0 ≤ v ∧ stdFromHistogram L (tab n p) (tab n t) = .ok (L.sqrt v) ∧
        stdFromHistogram L (tab n fun i => c * p i) (tab n t) = .ok (L.sqrt v) ∧
        stdFromHistogram L (tab n p) (tab n fun i => a * t i) = .ok (L.sqrt (a ^ 2 * v)) := by
    intro n p t a hn hp hP
    refine ⟨(∑ i ∈ range n, p i * ((t i + (t 1 - t 0) / 2) * (1 - p i / ∑ i ∈ range n, p i)) ^ 2) / ∑ i ∈ range n, p i,
      div_nonneg (Finset.sum_nonneg fun i hi => mul_nonneg (hp i (Finset.mem_range.mp hi)) (sq_nonneg _)) hP.le,
      std_eq L hn p t hP hp, ?_, ?_⟩
    · have hS' : 0 < ∑ i ∈ range n, c * p i := by rw [← Finset.mul_sum]; exact mul_pos hc hP
      rw [std_eq L hn (fun i => c * p i) t hS' (fun i hi => mul_nonneg hc.le (hp i hi))]
      congr 2
      rw [← Finset.mul_sum]
      have : ∀ i, c * p i * ((t i + (t 1 - t 0) / 2) * (1 - c * p i / (c * ∑ i ∈ range n, p i))) ^ 2
          = c * (p i * ((t i + (t 1 - t 0) / 2) * (1 - p i / ∑ i ∈ range n, p i)) ^ 2) := by
        intro i
        rw [mul_div_mul_left _ _ hc.ne']; ring
      simp only [this]
      rw [← Finset.mul_sum, mul_div_mul_left _ _ hc.ne']
    · rw [std_eq L hn p (fun i => a * t i) hP hp]
      congr 2
      rw [← mul_div_assoc, Finset.mul_sum]
      congr 1
      apply Finset.sum_congr rfl
      intro i _
      ring
  have sc : ∀ {a v : K}, 0 ≤ a → 0 ≤ v → L.sqrt (a ^ 2 * v) = a * L.sqrt v := by
    intro a v ha hv
    obtain ⟨h1, h2⟩ := hsq _ hv
    obtain ⟨h3, h4⟩ := hsq (a ^ 2 * v) (mul_nonneg (sq_nonneg a) hv)
    refine (pow_left_inj₀ h3 (mul_nonneg ha h1) (by norm_num : (2 : ℕ) ≠ 0)).mp ?_
    rw [h4, mul_pow, h2]
  obtain ⟨v, v0, v1, v2, v3⟩ := key p t a hn hp hP
  obtain ⟨u, u0, u1, u2, u3⟩ := key q e b hm hq hQ
  refine ⟨_, _, v1, u1, ?_, ?_, ?_⟩
  · unfold emittanceRms
    rw [v1, bind_ok, u1, bind_ok]
    rfl
  · unfold emittanceRms
    rw [v3, bind_ok, u3, bind_ok, sc ha v0, sc hb u0]
    show Except.ok (L.pi * (a * L.sqrt v) * (b * L.sqrt u)) = _
    congr 1
    ring
  · unfold emittanceRms
    rw [v2, bind_ok, u2, bind_ok]
    rfl

/-- a phase space of two times and two energies -/
example : ∃ σ τ : ℝ, emittanceRms ⟨Real.sin, Real.cos, Real.sqrt, Real.pi, 1, fun _ _ _ => none⟩ (tab 2 fun _ => 1) (tab 2 fun _ => 1)
    (tab 2 fun i => 2 * (i : ℝ)) (tab 2 fun i => 3 * (i : ℝ)) = .ok (2 * 3 * (Real.pi * σ * τ)) := by
  obtain ⟨σ, τ, -, -, -, h, -⟩ := C42_emittance_partial (K := ℝ) ⟨Real.sin, Real.cos, Real.sqrt, Real.pi, 1, fun _ _ _ => none⟩
    (fun x hx => ⟨Real.sqrt_nonneg x, Real.sq_sqrt hx⟩) (n := 2) (m := 2) le_rfl le_rfl (fun _ => 1) (fun _ => 1) (fun i => (i : ℝ))
    (fun i => (i : ℝ)) (fun _ _ => zero_le_one) (fun _ _ => zero_le_one) (by simp) (by simp) (a := 2) (b := 3) (c := 1)
    (by norm_num) (by norm_num) (by norm_num)
  exact ⟨σ, τ, h⟩

theorem npGet_tab_neg {α : Type} {n r : ℕ} (g : ℕ → α) (hr : r < n) : npGet (tab n g) ((r : ℤ) - n) = .ok (g r) := by
  unfold npGet
  rw [length_tab]
  have h1 : (r : ℤ) - n < 0 := by omega
  have h2 : (r : ℤ) - n + n = r := by omega
  simp only [if_pos h1, h2, Int.natCast_nonneg, if_true, Int.toNat_natCast, getElem?_tab, hr]

theorem npGet_tab_oob {α : Type} {n : ℕ} {r : ℤ} (g : ℕ → α) (hr : n ≤ r ∨ r < -n) : npGet (tab n g) r = .error (.exc .indexError) := by
  unfold npGet
  rw [length_tab]
  rcases hr with h | h
  · have h1 : ¬ r < 0 := by omega
    have h2 : 0 ≤ r := by omega
    have h3 : ¬ r.toNat < n := by omega
    simp only [if_neg h1, if_pos h2, getElem?_tab, if_neg h3]
  · have h1 : r < 0 := by omega
    have h2 : ¬ 0 ≤ r + (n : ℤ) := by omega
    simp only [if_pos h1, if_neg h2]

/-- C43: the charge of the reference profile: the sum of its bins times the sampling time, over the elementary charge and the sensitivity
of the pickup; profiles counted from the end have negative numbers. -/
theorem C43_charge {P nb : ℕ} (f : ℕ → ℕ → K) (ts e s : K) (hs : e * s ≠ 0) {r : ℕ} (hr : r < P) :
    profileCharge (arr P nb f) r ts e s = .ok ((∑ b ∈ range nb, f r b) * ts / (e * s)) ∧
    profileCharge (arr P nb f) ((r : ℤ) - P) ts e s = .ok ((∑ b ∈ range nb, f r b) * ts / (e * s)) := by
  constructor
  · unfold profileCharge arr
    dsimp only
    rw [npGet_tab_nat _ hr, bind_ok, sum_tab', fdiv_ok hs]
  · unfold profileCharge arr
    dsimp only
    rw [npGet_tab_neg _ hr, bind_ok, sum_tab', fdiv_ok hs]

/-- C43: no profile of that number: IndexError; without sensitivity there is no charge. -/
theorem C43_no_charge {P nb : ℕ} (f : ℕ → ℕ → K) (ts e s : K) (r : ℤ) :
    ((P ≤ r ∨ r < -P) → profileCharge (arr P nb f) r ts e s = .error (.exc .indexError)) ∧
    (e * s = 0 → ∀ c, profileCharge (arr P nb f) r ts e s ≠ .ok c) := by
  constructor
  · intro h
    unfold profileCharge arr
    dsimp only
    rw [npGet_tab_oob _ h]
    rfl
  · intro h c hc
    unfold profileCharge at hc
    obtain ⟨l, -, hc⟩ := bind_ok_iff.mp hc
    have : FDiv.fdiv (l.sum * ts) (e * s) = .error .nonFinite := if_pos h
    rw [this] at hc
    cases hc

example : profileCharge (K := ℚ) ⟨2, [[1, 2], [3, 4]]⟩ (-1) 2 (1 / 2) 4 = .ok 7 := by decide +kernel

/-! ## Axes of two dimensions -/

section
open Verif.PostD

/-- index into a row of `r` numbers; a row of one number stands for any length -/
def across (r k : ℕ) : ℕ := if r = 1 then 0 else k

theorem width_flat (d : DT) {a r : ℕ} (ha : 2 ≤ a) (t : ℕ → ℕ → K) :
    width ⟨d, [a, r], flat a r t⟩ = .ok ⟨d, [r], tab r fun k => t 1 k - t 0 k⟩ := by
  unfold width
  dsimp only
  rw [if_neg (by omega)]
  simp only [List.prod_cons, List.prod_nil, mul_one]
  congr 2
  apply tab_congr
  intro k hk
  have h1 : r + k < a * r := by nlinarith
  have h0 : k < a * r := by nlinarith
  have hr : 0 < r := by omega
  unfold flat
  rw [List.getD_eq_getElem?_getD, getElem?_tab, if_pos h1, List.getD_eq_getElem?_getD, getElem?_tab, if_pos h0]
  simp [Nat.add_div_left k hr, Nat.div_eq_of_lt hk, Nat.mod_eq_of_lt hk]

/-- C99: time axis of `r` columns, energy axis of `s` columns.  With as many columns, or one of them single, the result is an array with one
emittance for each column, the area of a cell being taken from that column; otherwise ValueError.  Whole numbers only if both axes
are.  `N` is the number of cells counted. -/
theorem C99_columns (f : K) (h : Nd K) {N : K} (hN : Post.emittanceFractional h.data [0, 1] [0, 1] f = .ok N) (dt de : DT) {a b r s : ℕ}
    (ha : 2 ≤ a) (hb : 2 ≤ b) (t e : ℕ → ℕ → K) :
    PostD.emittanceFractional f [.arr h, .arr ⟨dt, [a, r], flat a r t⟩, .arr ⟨de, [b, s], flat b s e⟩] =
      if r = s ∨ r = 1 ∨ s = 1 then
        .ok (.arr ⟨if dt = .i64 ∧ de = .i64 then .i64 else .f64, [if r = 1 then s else r], tab (if r = 1 then s else r) fun k =>
          N * ((t 1 (across r k) - t 0 (across r k)) * (e 1 (across s k) - e 0 (across s k)))⟩)
      else .error (.exc .valueError) := by
  unfold Post.emittanceFractional at hN
  obtain ⟨_, h1, hN⟩ := bind_ok_iff.mp hN
  obtain ⟨_, h2, hN⟩ := bind_ok_iff.mp hN
  obtain ⟨hist, h3, hN⟩ := bind_ok_iff.mp hN
  obtain ⟨n, h4, hN⟩ := bind_ok_iff.mp hN
  have hN : (n : K) = N := by
    have : (Except.ok ((n : K) * ((1 - 0) * (1 - 0))) : Verif.M K) = .ok N := hN
    have := Except.ok.inj this
    simpa using this
  have hd : promoteMul .i64 (promoteMul dt de) = if dt = .i64 ∧ de = .i64 then .i64 else .f64 := by
    cases dt <;> cases de <;> rfl
  unfold PostD.emittanceFractional
  rw [dispatch_hit _ _ rfl]
  unfold emittanceFractionalArr
  dsimp only
  rw [h1, bind_ok, h2, bind_ok, h3, bind_ok]
  rw [h4, bind_ok, width_flat dt ha, bind_ok, width_flat de hb, bind_ok]
  unfold mulWidth
  dsimp only
  by_cases e1 : r = s
  · subst e1
    rw [if_pos rfl, if_pos (Or.inl rfl), bind_ok, hd, hN, zipWith_tab', map_tab, ite_self]
    show Except.ok _ = _
    congr 3
    apply tab_congr
    intro k hk
    unfold across
    split_ifs with h
    · rw [show k = 0 by omega]
    · rfl
  · rw [if_neg e1]
    by_cases e2 : r = 1
    · subst e2
      rw [if_pos rfl, if_pos (Or.inr (Or.inl rfl)), bind_ok, hd, hN, map_tab, map_tab, if_pos rfl]
      show Except.ok _ = _
      congr 3
      apply tab_congr
      intro k hk
      simp [across, tab, show s ≠ 1 by omega]
    · rw [if_neg e2]
      by_cases e3 : s = 1
      · subst e3
        rw [if_pos rfl, if_pos (Or.inr (Or.inr rfl)), bind_ok, hd, hN, map_tab, map_tab, if_neg e2]
        show Except.ok _ = _
        congr 3
        apply tab_congr
        intro k hk
        simp [across, tab, e2]
      · rw [if_neg e3, if_neg (by tauto)]
        rfl

/-- two columns of times, one of energies -/
example : PostD.emittanceFractional (K := ℚ) 90 [.arr ⟨.f64, [2, 2], [1, 1, 1, 1]⟩, .arr ⟨.i64, [2, 2], [0, 0, 1, 2]⟩,
    .arr ⟨.f32, [2, 1], [0, 5]⟩] = .ok (.arr ⟨.f64, [2], [15, 30]⟩) := by decide +kernel

/-- C99: time axis of one dimension, energy axis of `s` columns: one emittance for each column. -/
theorem C99_one_column (f : K) (h : Nd K) {N : K} (hN : Post.emittanceFractional h.data [0, 1] [0, 1] f = .ok N) (dt de : DT) {a b s : ℕ}
    (ha : 2 ≤ a) (hb : 2 ≤ b) (t : ℕ → K) (e : ℕ → ℕ → K) :
    PostD.emittanceFractional f [.arr h, .arr ⟨dt, [a], tab a t⟩, .arr ⟨de, [b, s], flat b s e⟩] =
        .ok (.arr ⟨if dt = .i64 ∧ de = .i64 then .i64 else .f64, [s], tab s fun k => N * ((t 1 - t 0) * (e 1 k - e 0 k))⟩) ∧
    PostD.emittanceFractional f [.arr h, .arr ⟨de, [b, s], flat b s e⟩, .arr ⟨dt, [a], tab a t⟩] =
        .ok (.arr ⟨if dt = .i64 ∧ de = .i64 then .i64 else .f64, [s], tab s fun k => N * ((e 1 k - e 0 k) * (t 1 - t 0))⟩) := by
  unfold Post.emittanceFractional at hN
  obtain ⟨_, h1, hN⟩ := bind_ok_iff.mp hN
  obtain ⟨_, h2, hN⟩ := bind_ok_iff.mp hN
  obtain ⟨hist, h3, hN⟩ := bind_ok_iff.mp hN
  obtain ⟨n, h4, hN⟩ := bind_ok_iff.mp hN
  have hN : (n : K) = N := by
    have : (Except.ok ((n : K) * ((1 - 0) * (1 - 0))) : Verif.M K) = .ok N := hN
    have := Except.ok.inj this
    simpa using this
  have hd : promoteMul .i64 (promoteMul dt de) = if dt = .i64 ∧ de = .i64 then .i64 else .f64 := by
    cases dt <;> cases de <;> rfl
  have hd' : promoteMul .i64 (promoteMul de dt) = if dt = .i64 ∧ de = .i64 then .i64 else .f64 := by
    cases dt <;> cases de <;> rfl
  have hw : width ⟨dt, [a], tab a t⟩ = .ok ⟨dt, [], [t 1 - t 0]⟩ := by
    unfold width
    dsimp only
    rw [if_neg (by omega)]
    simp only [List.prod_nil]
    have e1 : (tab a t).getD 1 0 = t 1 := by rw [List.getD_eq_getElem?_getD, getElem?_tab, if_pos (by omega)]; rfl
    have e0 : (tab a t).getD 0 0 = t 0 := by rw [List.getD_eq_getElem?_getD, getElem?_tab, if_pos (by omega)]; rfl
    show Except.ok (⟨dt, [], [(tab a t).getD 1 0 - (tab a t).getD 0 0]⟩ : Nd K) = _
    rw [e1, e0]
  constructor
  · unfold PostD.emittanceFractional
    rw [dispatch_hit _ _ rfl]
    unfold emittanceFractionalArr
    dsimp only
    rw [h1, bind_ok, h2, bind_ok, h3, bind_ok]
    rw [h4, bind_ok, hw, bind_ok, width_flat de hb, bind_ok]
    unfold mulWidth
    dsimp only
    rw [bind_ok, hd, hN, map_tab, map_tab]
    rfl
  · unfold PostD.emittanceFractional
    rw [dispatch_hit _ _ rfl]
    unfold emittanceFractionalArr
    dsimp only
    rw [h1, bind_ok, h2, bind_ok, h3, bind_ok]
    rw [h4, bind_ok, width_flat de hb, bind_ok, hw, bind_ok]
    unfold mulWidth
    dsimp only
    rw [bind_ok, hd', hN, map_tab, map_tab]
    rfl

end
end
end Verif.Props

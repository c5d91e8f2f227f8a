import Verif.Spec.RndBins
import Verif.Lemmas.RndTurn
import Verif.Lemmas.RndRun
import Verif.Lemmas.Particles

/-!
# From tracked coordinates to bins in floating point
-/

namespace Verif.RBins
open Verif.Spec

theorem int_le {ε v v' : ℝ} (h : ClearBy ε v) (hv : |v' - v| ≤ ε) (z : ℤ) : (z : ℝ) ≤ v' ↔ (z : ℝ) ≤ v := by
  have h1 := h z
  have h2 := abs_le.mp hv
  constructor
  · intro hz
    by_contra hn
    rw [abs_of_neg (by linarith)] at h1
    linarith
  · intro hz
    rw [abs_of_nonneg (by linarith)] at h1
    linarith

theorem le_int {ε v v' : ℝ} (h : ClearBy ε v) (hv : |v' - v| ≤ ε) (z : ℤ) : v' ≤ (z : ℝ) ↔ v ≤ (z : ℝ) := by
  have h1 := h z
  have h2 := abs_le.mp hv
  constructor
  · intro hz
    by_contra hn
    rw [abs_of_nonneg (by linarith)] at h1
    linarith
  · intro hz
    have : v ≠ z := by
      intro e
      rw [e, sub_self, abs_zero] at h1
      linarith [(abs_nonneg (v' - v)).trans hv]
    have := lt_of_le_of_ne hz this
    rw [abs_of_neg (by linarith)] at h1
    linarith

theorem trunc_same {ε v v' : ℝ} (h : ClearBy ε v) (hv : |v' - v| ≤ ε) : Psi.trunc v' = Psi.trunc v := by
  have e0 : (0 ≤ v') ↔ (0 ≤ v) := by simpa using int_le h hv 0
  unfold Psi.trunc
  by_cases hp : 0 ≤ v
  · rw [if_pos hp, if_pos (e0.mpr hp)]
    refine le_antisymm ?_ ?_
    · rw [Int.le_floor, ← int_le h hv]; exact Int.floor_le v'
    · rw [Int.le_floor, int_le h hv]; exact Int.floor_le v
  · rw [if_neg hp, if_neg fun h' => hp (e0.mp h')]
    refine le_antisymm ?_ ?_
    · rw [Int.ceil_le, le_int h hv]; exact Int.le_ceil v
    · rw [Int.ceil_le, ← le_int h hv]; exact Int.le_ceil v'

theorem bad_same {ε v v' : ℝ} (h : ClearBy ε v) (hv : |v' - v| ≤ ε) (n : ℕ) :
    (decide ((n : ℝ) ≤ v') || decide (v' < 0)) = (decide ((n : ℝ) ≤ v) || decide (v < 0)) := by
  have e1 : ((n : ℝ) ≤ v') ↔ ((n : ℝ) ≤ v) := by simpa using int_le h hv n
  have e2 : (v' < 0) ↔ (v < 0) := by rw [← not_le, ← not_le]; exact not_congr (by simpa using int_le h hv 0)
  rw [decide_eq_decide.mpr e1, decide_eq_decide.mpr e2]

theorem arr_map_congr {E : Type} {n k : ℕ} {a b : ℕ → ℕ → ℝ} {f : ℝ → E} (h : ∀ p i, p < n → i < k → f (a p i) = f (b p i)) :
    (arr n k a).map f = (arr n k b).map f := by
  unfold arr Arr2.map tab
  simp only [List.map_map]
  congr 1
  refine List.map_congr_left fun p hp => ?_
  show List.map f (List.map (a p) (List.range k)) = List.map f (List.map (b p) (List.range k))
  rw [List.map_map, List.map_map]
  refine List.map_congr_left fun i hi => ?_
  exact h p i (List.mem_range.mp hp) (List.mem_range.mp hi)

/-- coordinates clear of the bin edges by more than their errors are filtered and binned alike -/
theorem ready_same {P n : ℕ} {x x' y y' : ℕ → ℕ → ℝ} {εx εy : ℝ} (hx : ∀ p i, p < P → i < n → |x' p i - x p i| ≤ εx)
    (hy : ∀ p i, p < P → i < n → |y' p i - y p i| ≤ εy) (cx : ∀ p i, p < P → i < n → ClearBy εx (x p i))
    (cy : ∀ p i, p < P → i < n → ClearBy εy (y p i)) (nb : ℕ) :
    Run.ready (arr P n x') (arr P n y') nb = Run.ready (arr P n x) (arr P n y) nb := by
  rw [Rounded.ready_eq, Rounded.ready_eq, arr_map_congr (b := x) fun p i hp hi => bad_same (cx p i hp hi) (hx p i hp hi) nb,
    arr_map_congr (b := x) fun p i hp hi => trunc_same (cx p i hp hi) (hx p i hp hi),
    arr_map_congr (b := y) fun p i hp hi => trunc_same (cy p i hp hi) (hy p i hp hi)]

section any
variable {K : Type _} [Add K] [Sub K] [Mul K] [FDiv K]

/-- `physical_to_coords` in any arithmetic -/
theorem toCoords_any (m : Psi.Area K) {N n k d : ℕ} {om ph : ℕ → K} (xo dE : K) (ho : m.omegaRev0 = tab N om)
    (hp : m.phi0 = tab N ph) (hd : m.dturns = d) (hN : ∀ i, i < n → i * d < N) (a b : ℕ → ℕ → K) (q : ℕ → K → K) (g : K → K)
    (hq : ∀ i v, i < n → FDiv.fdiv (v + ph (i * d)) (m.hNum * om (i * d) * m.dtbin) = .ok (q i v))
    (hg : ∀ v, FDiv.fdiv v dE = .ok (g v)) :
    Part.physicalToCoords m xo dE (arr n k a) (arr n k b) = .ok
      (arr n k fun i j => q i (a i j) - xo, arr n k fun i j => g (b i j) + m.synchPartY) := by
  unfold Part.physicalToCoords
  rw [if_neg (by simp)]
  have hx : ((arr n k a).rows.zipIdx.mapM fun (row, i) => do
      let p0 ← npGet m.phi0 ((i : Int) * m.dturns)
      let om ← npGet m.omegaRev0 ((i : Int) * m.dturns)
      row.mapM fun v => do
        let a ← FDiv.fdiv (v + p0) (m.hNum * om * m.dtbin)
        pure (a - xo)) = .ok (tab n fun i => tab k fun j => q i (a i j) - xo) := by
    have hz : (arr n k a).rows.zipIdx = tab n fun i => (tab k (a i), i) := by
      apply List.ext_getElem?
      intro i
      rw [List.getElem?_zipIdx, arr_rows, getElem?_tab, getElem?_tab]
      by_cases h : i < n <;> simp [h]
    rw [hz]
    rw [mapM_tab (g := fun r => r.1.map fun v => q r.2 v - xo)]
    · unfold tab; simp
    · intro i hi
      dsimp only
      have h1 : (i : ℤ) * m.dturns = ((i * d : ℕ) : ℤ) := by rw [hd]; push_cast; ring
      rw [h1, ho, hp, npGet_tab _ (hN i hi), bind_ok, npGet_tab _ (hN i hi), bind_ok]
      apply mapM_ok
      intro v _
      rw [hq i v hi, bind_ok]; rfl
  have hy : ((arr n k b).rows.mapM fun row => row.mapM fun v => do
      let a ← FDiv.fdiv v dE
      pure (a + m.synchPartY)) = .ok (tab n fun i => tab k fun j => g (b i j) + m.synchPartY) := by
    rw [arr_rows, mapM_tab (g := fun r => r.map fun v => g v + m.synchPartY)]
    · unfold tab; simp
    · intro i hi
      apply mapM_ok
      intro v _
      rw [hg v, bind_ok]; rfl
  rw [hx, bind_ok, hy, bind_ok]
  rfl

end any

variable {w : World} {u : ℝ}

theorem rnd_abs (hw : w.Accurate u) (x : ℝ) : |w.rnd x - x| ≤ u * |x| := hw.rnd x

/-- width of a bin in radians, with rounded products -/
theorem width_error (hw : w.Accurate u) (h0 : 0 ≤ u) (hu : u ≤ 1 / 8) {h om dt : ℝ} (hk : 0 < h * om * dt) :
    (1 - u) ^ 2 * (h * om * dt) ≤ w.rnd (w.rnd (h * om) * dt) ∧ w.rnd (w.rnd (h * om) * dt) ≤ (1 + u) ^ 2 * (h * om * dt) := by
  have e1 : |w.rnd (h * om) * dt - h * om * dt| ≤ u * (h * om * dt) := by
    rw [← sub_mul, abs_mul]
    calc |w.rnd (h * om) - h * om| * |dt| ≤ u * |h * om| * |dt| := mul_le_mul_of_nonneg_right (hw.rnd _) (abs_nonneg _)
      _ = u * |h * om * dt| := by rw [abs_mul (h * om) dt]; ring
      _ = u * (h * om * dt) := by rw [abs_of_pos hk]
  have e1' := abs_le.mp e1
  have pos : 0 < w.rnd (h * om) * dt := by nlinarith
  have e2 := abs_le.mp (hw.rnd (w.rnd (h * om) * dt))
  rw [abs_of_pos pos] at e2
  constructor <;> nlinarith

/-- horizontal coordinate: tracked phase off by `e`, both operations and the width rounded -/
theorem x_error (hw : w.Accurate u) (h0 : 0 ≤ u) (hu : u ≤ 1 / 8) {v v' p0 k k' xo X F e : ℝ} (hk : 0 < k)
    (l1 : (1 - u) ^ 2 * k ≤ k') (l2 : k' ≤ (1 + u) ^ 2 * k) (hv : |v' - v| ≤ e) (hX : |v| ≤ X) (hF : |p0| ≤ F) (heX : e ≤ X) :
    |w.rnd (w.rnd (w.rnd (v' + p0) / k') - xo) - ((v + p0) / k - xo)| ≤ marginX u e X F k xo := by
  have he : 0 ≤ e := (abs_nonneg _).trans hv
  have hF0 : 0 ≤ F := (abs_nonneg _).trans hF
  set B := X + F with hB
  have hB0 : 0 ≤ B := by linarith
  have hS : |v + p0| ≤ B := (abs_add_le _ _).trans (by linarith)
  set S := v + p0
  set s1 := w.rnd (v' + p0)
  have b1 : |s1 - S| ≤ e + u * (B + e) := by
    have r := hw.rnd (v' + p0)
    have : |v' + p0 - S| ≤ e := by rw [add_sub_add_right_eq_sub]; exact hv
    have sz : |v' + p0| ≤ B + e := by
      have := abs_add_le (v' + p0 - S) S
      rw [sub_add_cancel] at this; linarith
    have := abs_add_le (s1 - (v' + p0)) (v' + p0 - S)
    rw [sub_add_sub_cancel] at this
    have := mul_le_mul_of_nonneg_left sz h0
    linarith
  have hk' : 0 < k' := lt_of_lt_of_le (by have : 0 < 1 - u := by linarith
                                          positivity) l1
  -- 1/k' against 1/k
  have i1 : 1 / k' ≤ (1 + 3 * u) / k := by
    rw [div_le_div_iff₀ hk' hk]
    have : 1 ≤ (1 + 3 * u) * (1 - u) ^ 2 := by
      have : 0 ≤ u * (1 - 5 * u) := mul_nonneg h0 (by linarith)
      nlinarith [pow_nonneg h0 3]
    nlinarith
  have i2 : (1 - 3 * u) / k ≤ 1 / k' := by
    rw [div_le_div_iff₀ hk hk']
    have : (1 - 3 * u) * (1 + u) ^ 2 ≤ 1 := by nlinarith [pow_nonneg h0 3]
    have h3 : 0 ≤ 1 - 3 * u := by linarith
    nlinarith [mul_le_mul_of_nonneg_left l2 h3]
  have i3 : |1 / k' - 1 / k| ≤ 3 * u / k := by
    rw [abs_le]
    constructor
    · have : (1 - 3 * u) / k = 1 / k - 3 * u / k := by ring
      linarith
    · have : (1 + 3 * u) / k = 1 / k + 3 * u / k := by ring
      linarith
  have q1 : |s1 / k' - S / k| ≤ (2 * e + 6 * u * B) / k := by
    have e1 : s1 / k' - S / k = (s1 - S) * (1 / k') + S * (1 / k' - 1 / k) := by ring
    rw [e1]
    refine (abs_add_le _ _).trans ?_
    rw [abs_mul, abs_mul, abs_of_pos (one_div_pos.mpr hk')]
    have t1 : |s1 - S| * (1 / k') ≤ (e + u * (B + e)) * ((1 + 3 * u) / k) :=
      mul_le_mul b1 i1 (by positivity) (by positivity)
    have t2 : |S| * |1 / k' - 1 / k| ≤ B * (3 * u / k) := mul_le_mul hS i3 (abs_nonneg _) hB0
    have t3 : (e + u * (B + e)) * (1 + 3 * u) + B * (3 * u) ≤ 2 * e + 6 * u * B := by
      have m1 : 0 ≤ e * u := by positivity
      have m2 : 0 ≤ B * u := by positivity
      have m3 : u * (e * u) ≤ 1 / 8 * (e * u) := mul_le_mul_of_nonneg_right hu m1
      have m4 : u * (B * u) ≤ 1 / 8 * (B * u) := mul_le_mul_of_nonneg_right hu m2
      have m5 : u * e ≤ 1 / 8 * e := mul_le_mul_of_nonneg_right hu he
      nlinarith
    calc _ ≤ (e + u * (B + e)) * ((1 + 3 * u) / k) + B * (3 * u / k) := add_le_add t1 t2
      _ = ((e + u * (B + e)) * (1 + 3 * u) + B * (3 * u)) / k := by ring
      _ ≤ _ := div_le_div_of_nonneg_right t3 hk.le
  have heB : e ≤ B := by linarith
  have hSk : |S / k| ≤ B / k := by rw [abs_div, abs_of_pos hk]; exact div_le_div_of_nonneg_right hS hk.le
  set q := s1 / k'
  have a1 : |w.rnd q - S / k| ≤ (2 * e + 10 * u * B) / k := by
    have r := hw.rnd q
    have sz : |q| ≤ (B + 2 * e + 6 * u * B) / k := by
      have := abs_add_le (q - S / k) (S / k)
      rw [sub_add_cancel] at this
      have e2 : (B + 2 * e + 6 * u * B) / k = B / k + (2 * e + 6 * u * B) / k := by ring
      linarith
    have sz' : |q| ≤ 4 * B / k := sz.trans (div_le_div_of_nonneg_right (by nlinarith) hk.le)
    have := abs_add_le (w.rnd q - q) (q - S / k)
    rw [sub_add_sub_cancel] at this
    have h3 := mul_le_mul_of_nonneg_left sz' h0
    have e2 : (2 * e + 10 * u * B) / k = u * (4 * B / k) + (2 * e + 6 * u * B) / k := by ring
    linarith
  set a := w.rnd q
  have r := hw.rnd (a - xo)
  have sz : |a - xo| ≤ 5 * B / k + |xo| := by
    refine (abs_sub _ _).trans ?_
    have := abs_add_le (a - S / k) (S / k)
    rw [sub_add_cancel] at this
    have e2 : (2 * e + 10 * u * B) / k + B / k ≤ 5 * B / k := by
      rw [← add_div]
      exact div_le_div_of_nonneg_right (by nlinarith) hk.le
    linarith
  have := abs_add_le (w.rnd (a - xo) - (a - xo)) (a - xo - (S / k - xo))
  rw [sub_add_sub_cancel, sub_sub_sub_cancel_right] at this
  have h3 := mul_le_mul_of_nonneg_left sz h0
  unfold marginX
  have e2 : (2 * e + 15 * u * (X + F)) / k = u * (5 * B / k) + (2 * e + 10 * u * B) / k := by rw [hB]; ring
  rw [e2]
  linarith

/-- vertical coordinate -/
theorem y_error (hw : w.Accurate u) (h0 : 0 ≤ u) (hu : u ≤ 1 / 8) {v v' g y0 σ X e : ℝ} (hσ : 0 < σ) (hg : 0 < g)
    (hv : σ * |v' - v| ≤ e) (hX : σ * |v| ≤ X) (heX : e ≤ X) :
    |w.rnd (w.rnd (v' / g) + y0) - (v / g + y0)| ≤ marginY u e X (σ * g) y0 := by
  have he : 0 ≤ e := (mul_nonneg hσ.le (abs_nonneg _)).trans hv
  have hX0 : 0 ≤ X := he.trans heX
  have sg : 0 < σ * g := mul_pos hσ hg
  have q1 : |v' / g - v / g| ≤ e / (σ * g) := by
    rw [← sub_div, abs_div, abs_of_pos hg, div_le_div_iff₀ hg sg]
    nlinarith
  have hV : |v / g| ≤ X / (σ * g) := by
    rw [abs_div, abs_of_pos hg, div_le_div_iff₀ hg sg]
    nlinarith
  set Q := v / g
  set q := v' / g
  have sz : |q| ≤ 2 * X / (σ * g) := by
    have := abs_add_le (q - Q) Q
    rw [sub_add_cancel] at this
    have e2 : e / (σ * g) + X / (σ * g) ≤ 2 * X / (σ * g) := by rw [← add_div]; exact div_le_div_of_nonneg_right (by linarith) sg.le
    linarith
  have a1 : |w.rnd q - Q| ≤ (e + 2 * u * X) / (σ * g) := by
    have r := hw.rnd q
    have := abs_add_le (w.rnd q - q) (q - Q)
    rw [sub_add_sub_cancel] at this
    have h3 := mul_le_mul_of_nonneg_left sz h0
    have e2 : (e + 2 * u * X) / (σ * g) = u * (2 * X / (σ * g)) + e / (σ * g) := by ring
    linarith
  set a := w.rnd q
  have r := hw.rnd (a + y0)
  have sz2 : |a + y0| ≤ 3 * X / (σ * g) + |y0| := by
    refine (abs_add_le _ _).trans ?_
    have := abs_add_le (a - Q) Q
    rw [sub_add_cancel] at this
    have e2 : (e + 2 * u * X) / (σ * g) + X / (σ * g) ≤ 3 * X / (σ * g) := by
      rw [← add_div]; exact div_le_div_of_nonneg_right (by nlinarith) sg.le
    linarith
  have := abs_add_le (w.rnd (a + y0) - (a + y0)) (a + y0 - (Q + y0))
  rw [sub_add_sub_cancel, add_sub_add_right_eq_sub] at this
  have h3 := mul_le_mul_of_nonneg_left sz2 h0
  unfold marginY
  have e2 : (e + 5 * u * X) / (σ * g) = u * (3 * X / (σ * g)) + (e + 2 * u * X) / (σ * g) := by ring
  rw [e2]
  linarith

end Verif.RBins

import Verif.Spec.RndTurn
import Verif.Lemmas.TrackingLaws
import Mathlib.Analysis.SpecialFunctions.Trigonometric.Bounds
import Mathlib.Analysis.Calculus.MeanValue
import Mathlib.Tactic.Linarith
import Mathlib.Tactic.Positivity
import Mathlib.Tactic.Ring
import Mathlib.Tactic.GCongr

/-! # Rounding errors of tracking, turn by turn -/

namespace Verif.RTurn
open Verif.Spec

/-- rounded number `x'` for `x`: error at most `e`, size at most `b` -/
def Ap (x' x e b : ℝ) : Prop := |x' - x| ≤ e ∧ |x'| ≤ b

variable {w : World} {u : ℝ}

theorem Ap.nonneg {x' x e b : ℝ} (h : Ap x' x e b) : 0 ≤ b := (abs_nonneg _).trans h.2

theorem Ap.mono {x' x e b e' b' : ℝ} (h : Ap x' x e b) (he : e ≤ e') (hb : b ≤ b') : Ap x' x e' b' :=
  ⟨h.1.trans he, h.2.trans hb⟩

theorem Ap.const (x : ℝ) : Ap x x 0 |x| := ⟨by simp, le_rfl⟩

theorem round (hw : w.Accurate u) (h0 : 0 ≤ u) (hu : u ≤ 1 / 2) {x' x e b : ℝ} (h : Ap x' x e b) :
    Ap (w.rnd x') x (e + u * b) (3 / 2 * b) := by
  have h1 := hw.rnd x'
  have h2 : u * |x'| ≤ u * b := mul_le_mul_of_nonneg_left h.2 h0
  have h3 : u * b ≤ 1 / 2 * b := mul_le_mul_of_nonneg_right hu h.nonneg
  refine ⟨?_, ?_⟩
  · have := abs_add_le (w.rnd x' - x') (x' - x)
    rw [sub_add_sub_cancel] at this
    linarith [h.1]
  · have := abs_add_le (w.rnd x' - x') x'
    rw [sub_add_cancel] at this
    linarith [h.2]

theorem add' {x' x e b y' y f c : ℝ} (h : Ap x' x e b) (g : Ap y' y f c) : Ap (x' + y') (x + y) (e + f) (b + c) := by
  refine ⟨?_, (abs_add_le _ _).trans (add_le_add h.2 g.2)⟩
  rw [add_sub_add_comm]
  exact (abs_add_le _ _).trans (add_le_add h.1 g.1)

theorem sub' {x' x e b y' y f c : ℝ} (h : Ap x' x e b) (g : Ap y' y f c) : Ap (x' - y') (x - y) (e + f) (b + c) := by
  refine ⟨?_, (abs_sub _ _).trans (add_le_add h.2 g.2)⟩
  rw [sub_sub_sub_comm]
  exact (abs_sub _ _).trans (add_le_add h.1 g.1)

theorem mul' (c : ℝ) {x' x e b : ℝ} (h : Ap x' x e b) : Ap (c * x') (c * x) (|c| * e) (|c| * b) := by
  refine ⟨?_, ?_⟩
  · rw [← mul_sub, abs_mul]; exact mul_le_mul_of_nonneg_left h.1 (abs_nonneg _)
  · rw [abs_mul]; exact mul_le_mul_of_nonneg_left h.2 (abs_nonneg _)

theorem sine (hw : w.Accurate u) (hu : u ≤ 1 / 2) {x' x e b : ℝ} (h : Ap x' x e b) (hb : b * u ≤ 1) (h0 : 0 ≤ u) :
    Ap (w.sin x') (Real.sin x) (u + e) (3 / 2) := by
  have h1 := hw.sin x' ((mul_le_mul_of_nonneg_right h.2 h0).trans hb)
  have h2 : |Real.sin x' - Real.sin x| ≤ |x' - x| := Real.abs_sin_sub_sin_le x' x
  refine ⟨?_, ?_⟩
  · have := abs_add_le (w.sin x' - Real.sin x') (Real.sin x' - Real.sin x)
    rw [sub_add_sub_cancel] at this
    linarith [h.1]
  · have := abs_add_le (w.sin x' - Real.sin x') (Real.sin x')
    rw [sub_add_cancel] at this
    linarith [Real.abs_sin_le_one x']

/-- energy gain with every operation rounded -/
def gainR (w : World) (R : Program ℝ) (t : ℕ) (φ : ℝ) : ℝ :=
  w.rnd (w.rnd (w.rnd (R.rf1 t * w.sin (w.rnd (φ + R.phi0 t)))
    + w.rnd (R.rf2 t * w.sin (w.rnd (R.h * w.rnd (w.rnd (φ + R.phi0 t) - R.phi12 t))))) - R.dE t)

/-- turn forward, rounded -/
def fwdR (w : World) (R : Program ℝ) (t : ℕ) (x : ℝ × ℝ) : ℝ × ℝ :=
  (w.rnd (x.1 - w.rnd (R.coef t * x.2)), w.rnd (x.2 + gainR w R (t + 1) (w.rnd (x.1 - w.rnd (R.coef t * x.2)))))

/-- turn backward, rounded -/
def bwdR (w : World) (R : Program ℝ) (t : ℕ) (x : ℝ × ℝ) : ℝ × ℝ :=
  (w.rnd (x.1 + w.rnd (R.coef t * w.rnd (x.2 - gainR w R (t + 1) x.1))), w.rnd (x.2 - gainR w R (t + 1) x.1))

theorem fwd_eq (R : Program ℝ) (t : ℕ) (x : ℝ × ℝ) : fwd (α := Rn w) w.sin R t x = fwdR w R t x := rfl
theorem bwd_eq (R : Program ℝ) (t : ℕ) (x : ℝ × ℝ) : bwd (α := Rn w) w.sin R t x = bwdR w R t x := rfl

/-- the error of the energy gain -/
theorem gain_error (hw : w.Accurate u) (h0 : 0 ≤ u) (hu : u ≤ 1 / 2) (R : Program ℝ) (t : ℕ) {φ' φ a Q F : ℝ}
    (h : Ap φ' φ a Q) (hF : |R.phi0 t| + |R.phi12 t| ≤ F) (hr : 4 * (1 + |R.h|) * (Q + F) * u ≤ 1) :
    Ap (gainR w R t φ') (gain Real.sin R t φ)
      ((|R.rf1 t| + |R.h| * |R.rf2 t|) * a
        + u * (9 * (|R.rf1 t| + |R.rf2 t|) + 5 * (|R.rf1 t| + |R.h| * |R.rf2 t|) * (Q + F) + |R.dE t|))
      (81 / 16 * (|R.rf1 t| + |R.rf2 t|) + 3 / 2 * |R.dE t|) := by
  have ha : 0 ≤ a := (abs_nonneg _).trans h.1
  have hQ := h.nonneg
  have a0 := abs_nonneg (R.phi0 t)
  have a1 := abs_nonneg (R.phi12 t)
  have ah := abs_nonneg R.h
  have av := abs_nonneg (R.rf1 t)
  have av2 := abs_nonneg (R.rf2 t)
  set W := Q + F with hW
  have hW0 : 0 ≤ W := by rw [hW]; linarith
  have huW : 0 ≤ u * W := mul_nonneg h0 hW0
  have hhW : 0 ≤ |R.h| * (W * u) := mul_nonneg ah (mul_nonneg hW0 h0)
  have q := round hw h0 hu (add' h (Ap.const (R.phi0 t)))
  have up0 : u * |R.phi0 t| ≤ u * F := mul_le_mul_of_nonneg_left (by linarith) h0
  have up12 : u * |R.phi12 t| ≤ u * F - u * |R.phi0 t| := by rw [← mul_sub]; exact mul_le_mul_of_nonneg_left (by linarith) h0
  have hup0 : 0 ≤ u * |R.phi0 t| := mul_nonneg h0 a0
  have hup12 : 0 ≤ u * |R.phi12 t| := mul_nonneg h0 a1
  have huQ : 0 ≤ u * Q := mul_nonneg h0 hQ
  have huF : u * W = u * Q + u * F := by rw [hW]; ring
  have q' := q.mono (e' := a + u * W) (b' := 3 / 2 * W) (by nlinarith) (by rw [hW]; linarith)
  have s1 := sine hw hu q' (by nlinarith) h0
  have p1 := round hw h0 hu (mul' (R.rf1 t) s1)
  have r := (round hw h0 hu (sub' q (Ap.const (R.phi12 t)))).mono (e' := a + 5 / 2 * (u * W)) (b' := 9 / 4 * W)
    (by nlinarith) (by rw [hW]; linarith)
  have z := (round hw h0 hu (mul' R.h r)).mono (e' := |R.h| * (a + 5 * (u * W))) (b' := 4 * (|R.h| * W))
    (by nlinarith) (by nlinarith [mul_nonneg ah hW0])
  have s2 := sine hw hu z (by nlinarith) h0
  have p2 := round hw h0 hu (mul' (R.rf2 t) s2)
  have g := round hw h0 hu (sub' (round hw h0 hu (add' p1 p2)) (Ap.const (R.dE t)))
  refine g.mono ?_ (by nlinarith)
  have e1 : 0 ≤ |R.rf1 t| * (u * W) := mul_nonneg av huW
  have e2 : 0 ≤ |R.rf1 t| * u := mul_nonneg av h0
  have e3 : 0 ≤ |R.rf2 t| * u := mul_nonneg av2 h0
  nlinarith

/-- the drift: the phase after it -/
theorem slip_error (hw : w.Accurate u) (h0 : 0 ≤ u) (hu : u ≤ 1 / 2) {s κ X c : ℝ} (hc : |c| ≤ κ * s) (hκ : 0 ≤ κ)
    {p' p e' e a b : ℝ} (hp : Ap p' p a (2 * X)) (he : s * |e' - e| ≤ b) (hs : s * |e'| ≤ 2 * X) :
    |w.rnd (p' - w.rnd (c * e')) - (p - c * e)| ≤ a + κ * b + u * (2 * X + 5 * κ * X) ∧
    |w.rnd (p' + w.rnd (c * e')) - (p + c * e)| ≤ a + κ * b + u * (2 * X + 5 * κ * X) := by
  have h : Ap (c * e') (c * e) (κ * b) (2 * κ * X) := by
    refine ⟨?_, ?_⟩
    · rw [← mul_sub, abs_mul]
      calc |c| * |e' - e| ≤ κ * s * |e' - e| := mul_le_mul_of_nonneg_right hc (abs_nonneg _)
        _ = κ * (s * |e' - e|) := by ring
        _ ≤ κ * b := mul_le_mul_of_nonneg_left he hκ
    · rw [abs_mul]
      calc |c| * |e'| ≤ κ * s * |e'| := mul_le_mul_of_nonneg_right hc (abs_nonneg _)
        _ = κ * (s * |e'|) := by ring
        _ ≤ κ * (2 * X) := mul_le_mul_of_nonneg_left hs hκ
        _ = 2 * κ * X := by ring
  have g := round hw h0 hu h
  exact ⟨((round hw h0 hu (sub' hp g)).1).trans (by linarith), ((round hw h0 hu (add' hp g)).1).trans (by linarith)⟩

/-- the kick: the energy after it -/
theorem kick_error (hw : w.Accurate u) (h0 : 0 ≤ u) (hu : u ≤ 1 / 2) {R : Program ℝ} {T : ℕ} {s κ V G F X : ℝ} (hs : 0 < s)
    (hT : Tame R T s κ V G F) (hr : 4 * (1 + |R.h|) * (2 * X + F) * u ≤ 1) {t : ℕ} (ht : t ≤ T) {φ' φ e' e a b : ℝ}
    (hφ : Ap φ' φ a (2 * X)) (he : s * |e' - e| ≤ b) (hs' : s * |e'| ≤ 2 * X) :
    s * |w.rnd (e' + gainR w R t φ') - (e + gain Real.sin R t φ)| ≤ b + κ * a + u * (2 * X + 10 * κ * X + 5 * κ * F + 15 * V + 3 * G) ∧
    s * |w.rnd (e' - gainR w R t φ') - (e - gain Real.sin R t φ)| ≤ b + κ * a + u * (2 * X + 10 * κ * X + 5 * κ * F + 15 * V + 3 * G) := by
  have g := gain_error hw h0 hu R t hφ (hT.phase t ht) hr
  have ha : 0 ≤ a := (abs_nonneg _).trans hφ.1
  have hX := hφ.nonneg
  have hF : 0 ≤ F := (add_nonneg (abs_nonneg _) (abs_nonneg _)).trans (hT.phase t ht)
  have h1 := hT.slope t ht
  have h2 := hT.volt t ht
  have h3 := hT.acc t ht
  have hV : 0 ≤ V := le_trans (by positivity) h2
  have hG : 0 ≤ G := le_trans (by positivity) h3
  have k1 := mul_le_mul_of_nonneg_right h1 ha
  have k2 := mul_le_mul_of_nonneg_right h1 (mul_nonneg h0 (add_nonneg hX hF))
  have k3 := mul_le_mul_of_nonneg_left h2 h0
  have k4 := mul_le_mul_of_nonneg_left h3 h0
  have k5 := mul_le_mul_of_nonneg_left hs' h0
  have uV := mul_nonneg h0 hV
  have uG := mul_nonneg h0 hG
  have E : Ap e' e |e' - e| |e'| := ⟨le_rfl, le_rfl⟩
  have c1 := mul_le_mul_of_nonneg_left (round hw h0 hu (add' E g)).1 hs.le
  have c2 := mul_le_mul_of_nonneg_left (round hw h0 hu (sub' E g)).1 hs.le
  exact ⟨c1.trans (by nlinarith), c2.trans (by nlinarith)⟩

theorem size_of {s X y' y d : ℝ} (h : s * |y' - y| ≤ d) (hy : s * |y| ≤ X) (hs : 0 ≤ s) : s * |y'| ≤ X + d := by
  have := abs_add_le (y' - y) y
  rw [sub_add_cancel] at this
  nlinarith

/-- one turn forward -/
theorem fwd_error (hw : w.Accurate u) (h0 : 0 ≤ u) (hu : u ≤ 1 / 2) {R : Program ℝ} {T : ℕ} {s κ V G F X : ℝ} (hs : 0 < s)
    (hκ : 0 ≤ κ) (hT : Tame R T s κ V G F) (hr : 4 * (1 + |R.h|) * (2 * X + F) * u ≤ 1) {t : ℕ} (ht : t < T) {x' x : ℝ × ℝ} {e : ℝ}
    (he : apart s x' x ≤ e) (hx : Held s X x) (hx1 : Held s X (fwd Real.sin R t x))
    (hE : growth κ * e + u * roundoff κ V G F X ≤ X) :
    apart s (fwdR w R t x') (fwd Real.sin R t x) ≤ growth κ * e + u * roundoff κ V G F X := by
  unfold apart growth roundoff growth at *
  obtain ⟨p', e'⟩ := x'
  obtain ⟨p, en⟩ := x
  obtain ⟨hx1', _⟩ := hx1
  obtain ⟨hx, hx'⟩ := hx
  dsimp only at *
  have hX : 0 ≤ X := (abs_nonneg _).trans hx
  have hF : 0 ≤ F := (add_nonneg (abs_nonneg _) (abs_nonneg _)).trans (hT.phase t ht.le)
  have hV : 0 ≤ V := le_trans (by positivity) (hT.volt t ht.le)
  have hG : 0 ≤ G := le_trans (by positivity) (hT.acc t ht.le)
  have n1 := abs_nonneg (p' - p)
  have n2 : 0 ≤ s * |e' - en| := mul_nonneg hs.le (abs_nonneg _)
  have he0 : 0 ≤ e := by linarith
  have uX := mul_nonneg h0 hX
  have uκX := mul_nonneg uX hκ
  have uκF := mul_nonneg (mul_nonneg h0 hF) hκ
  have uV := mul_nonneg h0 hV
  have uG := mul_nonneg h0 hG
  have hκ2 : 0 ≤ κ ^ 2 := by positivity
  set D1 := u * (2 * X + 5 * κ * X) with hD1
  set D2 := u * (2 * X + 10 * κ * X + 5 * κ * F + 15 * V + 3 * G) with hD2
  have hD : u * ((1 + κ + κ ^ 2) * (4 * X + 15 * κ * X + 5 * κ * F + 15 * V + 3 * G)) = (1 + κ + κ ^ 2) * (D1 + D2) := by
    rw [hD1, hD2]; ring
  rw [hD] at hE ⊢
  have d1 : 0 ≤ D1 := by rw [hD1]; positivity
  have d2 : 0 ≤ D2 := by rw [hD2]; positivity
  have hee : e ≤ X := by nlinarith
  have hp : Ap p' p |p' - p| (2 * X) := ⟨le_rfl, by
    have := size_of (s := 1) (X := X) (y' := p') (y := p) (d := X) (by linarith) (by linarith) zero_le_one
    linarith⟩
  have hen : s * |e'| ≤ 2 * X := by linarith [size_of (X := X) (d := X) (y' := e') (y := en) (by linarith) hx' hs.le]
  have g1 := (slip_error hw h0 hu (hT.slip t ht) hκ hp (le_refl (s * |e' - en|)) hen).1
  rw [← hD1] at g1
  have k1 : κ * (s * |e' - en|) + κ * |p' - p| ≤ κ * e := by rw [← mul_add]; exact mul_le_mul_of_nonneg_left (by linarith) hκ
  have k2 : κ ^ 2 * (s * |e' - en|) ≤ κ ^ 2 * e := mul_le_mul_of_nonneg_left (by linarith) hκ2
  have kp := mul_nonneg hκ n1
  have ke := mul_nonneg hκ n2
  have kD1 := mul_nonneg hκ d1
  have kD2 := mul_nonneg hκ d2
  have qD1 := mul_nonneg hκ2 d1
  have qD2 := mul_nonneg hκ2 d2
  have hφ : Ap (w.rnd (p' - w.rnd (R.coef t * e'))) (p - R.coef t * en) (|p' - p| + κ * (s * |e' - en|) + D1) (2 * X) := by
    refine ⟨g1, ?_⟩
    have := size_of (s := 1) (X := X) (y' := w.rnd (p' - w.rnd (R.coef t * e'))) (y := p - R.coef t * en) (d := X)
      (by nlinarith) (by simpa [fwd] using hx1') zero_le_one
    linarith
  have g2 := (kick_error hw h0 hu hs hT hr (t := t + 1) ht hφ (le_refl (s * |e' - en|)) hen).1
  rw [← hD2] at g2
  show |w.rnd (p' - w.rnd (R.coef t * e')) - (p - R.coef t * en)|
    + s * |w.rnd (e' + gainR w R (t + 1) (w.rnd (p' - w.rnd (R.coef t * e')))) - (en + gain Real.sin R (t + 1) (p - R.coef t * en))| ≤ _
  nlinarith

/-- one turn backward -/
theorem bwd_error (hw : w.Accurate u) (h0 : 0 ≤ u) (hu : u ≤ 1 / 2) {R : Program ℝ} {T : ℕ} {s κ V G F X : ℝ} (hs : 0 < s)
    (hκ : 0 ≤ κ) (hT : Tame R T s κ V G F) (hr : 4 * (1 + |R.h|) * (2 * X + F) * u ≤ 1) {t : ℕ} (ht : t < T) {x' x : ℝ × ℝ} {e : ℝ}
    (he : apart s x' x ≤ e) (hx : Held s X x) (hx1 : Held s X (bwd Real.sin R t x))
    (hE : growth κ * e + u * roundoff κ V G F X ≤ X) :
    apart s (bwdR w R t x') (bwd Real.sin R t x) ≤ growth κ * e + u * roundoff κ V G F X := by
  unfold apart growth roundoff growth at *
  obtain ⟨p', e'⟩ := x'
  obtain ⟨p, en⟩ := x
  obtain ⟨_, hx1'⟩ := hx1
  obtain ⟨hx, hx'⟩ := hx
  dsimp only at *
  have hX : 0 ≤ X := (abs_nonneg _).trans hx
  have hF : 0 ≤ F := (add_nonneg (abs_nonneg _) (abs_nonneg _)).trans (hT.phase t ht.le)
  have hV : 0 ≤ V := le_trans (by positivity) (hT.volt t ht.le)
  have hG : 0 ≤ G := le_trans (by positivity) (hT.acc t ht.le)
  have n1 := abs_nonneg (p' - p)
  have n2 : 0 ≤ s * |e' - en| := mul_nonneg hs.le (abs_nonneg _)
  have he0 : 0 ≤ e := by linarith
  have hκ2 : 0 ≤ κ ^ 2 := by positivity
  set D1 := u * (2 * X + 5 * κ * X) with hD1
  set D2 := u * (2 * X + 10 * κ * X + 5 * κ * F + 15 * V + 3 * G) with hD2
  have hD : u * ((1 + κ + κ ^ 2) * (4 * X + 15 * κ * X + 5 * κ * F + 15 * V + 3 * G)) = (1 + κ + κ ^ 2) * (D1 + D2) := by
    rw [hD1, hD2]; ring
  rw [hD] at hE ⊢
  have d1 : 0 ≤ D1 := by rw [hD1]; positivity
  have d2 : 0 ≤ D2 := by rw [hD2]; positivity
  have hee : e ≤ X := by nlinarith
  have hp : Ap p' p |p' - p| (2 * X) := ⟨le_rfl, by
    have := size_of (s := 1) (X := X) (y' := p') (y := p) (d := X) (by linarith) (by linarith) zero_le_one
    linarith⟩
  have hen : s * |e'| ≤ 2 * X := by linarith [size_of (X := X) (d := X) (y' := e') (y := en) (by linarith) hx' hs.le]
  have g2 := (kick_error hw h0 hu hs hT hr (t := t + 1) ht hp (le_refl (s * |e' - en|)) hen).2
  rw [← hD2] at g2
  have k1 : κ * (s * |e' - en|) + κ * |p' - p| ≤ κ * e := by rw [← mul_add]; exact mul_le_mul_of_nonneg_left (by linarith) hκ
  have k2 : κ ^ 2 * |p' - p| ≤ κ ^ 2 * e := mul_le_mul_of_nonneg_left (by linarith) hκ2
  have kp := mul_nonneg hκ n1
  have ke := mul_nonneg hκ n2
  have kD1 := mul_nonneg hκ d1
  have kD2 := mul_nonneg hκ d2
  have qD1 := mul_nonneg hκ2 d1
  have qD2 := mul_nonneg hκ2 d2
  have hen' : s * |w.rnd (e' - gainR w R (t + 1) p')| ≤ 2 * X := by
    have := size_of (X := X) (y' := w.rnd (e' - gainR w R (t + 1) p')) (y := en - gain Real.sin R (t + 1) p) (d := X)
      (by nlinarith) (by simpa [bwd] using hx1') hs.le
    linarith
  have g1 := (slip_error hw h0 hu (hT.slip t ht) hκ hp g2 hen').2
  rw [← hD1] at g1
  show |w.rnd (p' + w.rnd (R.coef t * w.rnd (e' - gainR w R (t + 1) p'))) - (p + R.coef t * (en - gain Real.sin R (t + 1) p))|
    + s * |w.rnd (e' - gainR w R (t + 1) p') - (en - gain Real.sin R (t + 1) p)| ≤ _
  nlinarith

theorem one_le_growth {κ : ℝ} (hκ : 0 ≤ κ) : 1 ≤ growth κ := by unfold growth; nlinarith [sq_nonneg κ]

/-- errors after `k` turns that start with the error `e` and add `η` per turn -/
def after (κ η e : ℝ) (k : ℕ) : ℝ := growth κ ^ k * (e + k * η)

theorem after_step {κ η e : ℝ} (hκ : 0 ≤ κ) (hη : 0 ≤ η) (k : ℕ) : growth κ * after κ η e k + η ≤ after κ η e (k + 1) := by
  have h1 : 1 ≤ growth κ ^ (k + 1) := one_le_pow₀ (one_le_growth hκ)
  unfold after
  push_cast
  rw [pow_succ] at *
  nlinarith

theorem after_mono {κ η e : ℝ} (hκ : 0 ≤ κ) (hη : 0 ≤ η) (he : 0 ≤ e) {k l : ℕ} (h : k ≤ l) : after κ η e k ≤ after κ η e l := by
  unfold after
  have h1 : growth κ ^ k ≤ growth κ ^ l := pow_le_pow_right₀ (one_le_growth hκ) h
  have h2 : (k : ℝ) ≤ l := by exact_mod_cast h
  have h3 : (k : ℝ) * η ≤ l * η := mul_le_mul_of_nonneg_right h2 hη
  have h4 : (0 : ℝ) ≤ k * η := by positivity
  have h5 : (0 : ℝ) ≤ growth κ ^ l := by have := one_le_growth hκ; positivity
  exact mul_le_mul h1 (by linarith) (by linarith) h5

theorem after_after {κ η e : ℝ} (k l : ℕ) (hκ : 0 ≤ κ) (hη : 0 ≤ η) : after κ η (after κ η e k) l ≤ after κ η e (k + l) := by
  unfold after
  have h1 : 1 ≤ growth κ ^ k := one_le_pow₀ (one_le_growth hκ)
  have h2 : 0 ≤ growth κ ^ l := by have := one_le_growth hκ; positivity
  have h3 : (0 : ℝ) ≤ l * η := by positivity
  have h4 : growth κ ^ k * (e + k * η) + l * η ≤ growth κ ^ k * (e + (k + l : ℕ) * η) := by push_cast; nlinarith
  have := mul_le_mul_of_nonneg_left h4 h2
  rw [pow_add]
  linarith [this]

section
variable (hw : w.Accurate u) (h0 : 0 ≤ u) (hu : u ≤ 1 / 2) {R : Program ℝ} {T : ℕ} {s κ V G F X : ℝ} (hs : 0 < s)
  (hκ : 0 ≤ κ) (hT : Tame R T s κ V G F) (hr : 4 * (1 + |R.h|) * (2 * X + F) * u ≤ 1)
include hw h0 hu hs hκ hT hr

omit hw hu hr in
theorem roundoff_nonneg (hX : 0 ≤ X) : 0 ≤ u * roundoff κ V G F X := by
  have hF : 0 ≤ F := (add_nonneg (abs_nonneg _) (abs_nonneg _)).trans (hT.phase 0 (Nat.zero_le _))
  have hV : 0 ≤ V := le_trans (by positivity) (hT.volt 0 (Nat.zero_le _))
  have hG : 0 ≤ G := le_trans (by positivity) (hT.acc 0 (Nat.zero_le _))
  have := one_le_growth hκ
  unfold roundoff
  positivity

theorem up_error {a k : ℕ} (hk : a + k ≤ T) {x' x : ℝ × ℝ} {e : ℝ} (he : apart s x' x ≤ e)
    (hx : ∀ j, j ≤ k → Held s X (up Real.sin R a j x)) (hE : after κ (u * roundoff κ V G F X) e k ≤ X) :
    apart s (up (α := Rn w) w.sin R a k x') (up Real.sin R a k x) ≤ after κ (u * roundoff κ V G F X) e k := by
  have hX : 0 ≤ X := (abs_nonneg _).trans (hx 0 (Nat.zero_le _)).1
  have hη := roundoff_nonneg h0 hs hκ hT hX
  have he0 : 0 ≤ e := le_trans (by unfold apart; positivity) he
  induction k with
  | zero => simpa [after, up] using he
  | succ k ih =>
    have i1 := ih (by omega) (fun j hj => hx j (by omega)) ((after_mono hκ hη he0 (Nat.le_succ k)).trans hE)
    have st := after_step (e := e) hκ hη k
    exact (fwd_error hw h0 hu hs hκ hT hr (t := a + k) (by omega) i1 (hx k (by omega)) (hx (k + 1) le_rfl) (st.trans hE)).trans st

theorem down_error {a k : ℕ} (ha : a ≤ T) (hk : k ≤ a) {x' x : ℝ × ℝ} {e : ℝ} (he : apart s x' x ≤ e)
    (hx : ∀ j, j ≤ k → Held s X (down Real.sin R a j x)) (hE : after κ (u * roundoff κ V G F X) e k ≤ X) :
    apart s (down (α := Rn w) w.sin R a k x') (down Real.sin R a k x) ≤ after κ (u * roundoff κ V G F X) e k := by
  have hX : 0 ≤ X := (abs_nonneg _).trans (hx 0 (Nat.zero_le _)).1
  have hη := roundoff_nonneg h0 hs hκ hT hX
  have he0 : 0 ≤ e := le_trans (by unfold apart; positivity) he
  induction k with
  | zero => simpa [after, down] using he
  | succ k ih =>
    have i1 := ih (by omega) (fun j hj => hx j (by omega)) ((after_mono hκ hη he0 (Nat.le_succ k)).trans hE)
    have st := after_step (e := e) hκ hη k
    exact (bwd_error hw h0 hu hs hκ hT hr (t := a - (k + 1)) (by omega) i1 (hx k (by omega)) (hx (k + 1) le_rfl) (st.trans hE)).trans st

end

theorem up_transport (R : Program ℝ) (a k : ℕ) (x : ℝ × ℝ) : up Real.sin R a k x = transport Real.sin R a (a + k) x := by
  unfold transport; rw [if_pos (by omega), Nat.add_sub_cancel_left]

theorem down_transport (R : Program ℝ) {a k : ℕ} (h : k ≤ a) (x : ℝ × ℝ) : down Real.sin R a k x = transport Real.sin R a (a - k) x := by
  unfold transport
  by_cases hk : k = 0
  · subst hk; simp [up, down]
  · rw [if_neg (by omega)]; congr 1; omega

end Verif.RTurn

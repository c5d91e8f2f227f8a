import Verif.Props.Tracking
import Verif.Lemmas.RndReach
import Verif.Lemmas.Binary

/-!
# Explicit bounds for the rounding errors of tracking (C118)

The machine arrays and the start coordinates are taken as they are (they are floating point numbers); every operation of the tracking
loop is rounded.  `Tame` collects the sizes of the machine in scaled units, `Held s X` says that a particle stays within `X`.
-/

namespace Verif.Props
open Verif.Spec Verif.Track Verif.RTurn Verif.Rounded

/-- number of turns computed for profile `p` when starting at turn `s` before profile `r`: straight up for later profiles, up to
profile `r` and back down for the others -/
def turnsTo (d r s p : ℕ) : ℕ := if r < p then p * d - s else (r * d - s) + (r * d - p * d)

theorem turnsTo_le {P d r s p : ℕ} {δ : Int} (hr : r < P) (hp : p < P) (hs : (s : Int) = r * d + δ) (h1 : -(d : Int) < δ) (h2 : δ ≤ 0) :
    turnsTo d r s p ≤ P * d := by
  have e1 : r * d + d ≤ P * d := by rw [← Nat.succ_mul]; exact Nat.mul_le_mul_right d hr
  have e2 : p * d + d ≤ P * d := by rw [← Nat.succ_mul]; exact Nat.mul_le_mul_right d hp
  have hs' : (s : Int) = (r * d : ℕ) + δ := by push_cast; exact hs
  unfold turnsTo
  split <;> omega

theorem drifted_eq (u κ V G F X : ℝ) (k : ℕ) : drifted u κ V G F X k = after κ (u * roundoff κ V G F X) 0 k := by
  unfold drifted after; ring

/-- where the code arrives with rounded operations at profile `r` -/
def baseR (w : World) (R : Program ℝ) (d r s : ℕ) (δ : Int) (x : ℝ × ℝ) : ℝ × ℝ :=
  @ite (ℝ × ℝ) (δ < 0) _ (up (α := Rn w) w.sin R s (r * d - s) x) x

/-- what the code stores for profile `p` with rounded operations -/
def rowR (w : World) (R : Program ℝ) (d r s : ℕ) (δ : Int) (x : ℝ × ℝ) (p : ℕ) : ℝ × ℝ :=
  @ite (ℝ × ℝ) (r < p) _ (up (α := Rn w) w.sin R s (p * d - s) x)
    (down (α := Rn w) w.sin R (r * d) (r * d - p * d) (baseR w R d r s δ x))

theorem baseR_neg (w : World) (R : Program ℝ) (d r s : ℕ) {δ : Int} (h : δ < 0) (x : ℝ × ℝ) :
    baseR w R d r s δ x = (show ℝ × ℝ from up (α := Rn w) w.sin R s (r * d - s) x) := if_pos h
theorem baseR_zero (w : World) (R : Program ℝ) (d r s : ℕ) {δ : Int} (h : ¬ δ < 0) (x : ℝ × ℝ) : baseR w R d r s δ x = x := if_neg h
theorem rowR_up (w : World) (R : Program ℝ) (d : ℕ) {r p : ℕ} (s : ℕ) (δ : Int) (x : ℝ × ℝ) (h : r < p) :
    rowR w R d r s δ x p = (show ℝ × ℝ from up (α := Rn w) w.sin R s (p * d - s) x) := if_pos h
theorem rowR_down (w : World) (R : Program ℝ) (d : ℕ) {r p : ℕ} (s : ℕ) (δ : Int) (x : ℝ × ℝ) (h : ¬ r < p) :
    rowR w R d r s δ x p = (show ℝ × ℝ from down (α := Rn w) w.sin R (r * d) (r * d - p * d) (baseR w R d r s δ x)) := if_neg h

/-- rounded against exact, for what the code computes for profile `p` -/
theorem row_error {w : World} {u : ℝ} (hw : w.Accurate u) (h0 : 0 ≤ u) (hu : u ≤ 1 / 2) {R : Program ℝ} {P d r s p : ℕ} {δ : Int}
    {σ κ V G F X : ℝ} (hσ : 0 < σ) (hκ : 0 ≤ κ) (hT : Tame R ((P - 1) * d) σ κ V G F)
    (hrange : 4 * (1 + |R.h|) * (2 * X + F) * u ≤ 1) (hr : r < P) (hs : (s : Int) = r * d + δ) (h1 : -(d : Int) < δ) (h2 : δ ≤ 0)
    (hp : p < P) {x : ℝ × ℝ} (hx : ∀ t, t ≤ (P - 1) * d → Held σ X (transport Real.sin R s t x))
    (small : drifted u κ V G F X (P * d) ≤ X) :
    apart σ (rowR w R d r s δ x p) (transport Real.sin R s (p * d) x) ≤ drifted u κ V G F X (turnsTo d r s p) := by
  have hX : 0 ≤ X := (abs_nonneg _).trans (hx 0 (Nat.zero_le _)).1
  have hη := roundoff_nonneg h0 hσ hκ hT hX
  have hN := turnsTo_le hr hp hs h1 h2
  have hs' : (s : Int) = (r * d : ℕ) + δ := by push_cast; exact hs
  have hrd : r * d ≤ (P - 1) * d := Nat.mul_le_mul_right d (by omega)
  have hpd : p * d ≤ (P - 1) * d := Nat.mul_le_mul_right d (by omega)
  rw [drifted_eq] at small ⊢
  have sm : ∀ k, k ≤ P * d → after κ (u * roundoff κ V G F X) 0 k ≤ X := fun k hk => (after_mono hκ hη le_rfl hk).trans small
  have start : apart σ x x ≤ 0 := by simp [apart]
  unfold turnsTo at hN ⊢
  by_cases hrp : r < p
  · rw [if_pos hrp] at hN
    rw [if_pos hrp, rowR_up w R d s δ x hrp]
    have hle : s ≤ p * d := by
      have : r * d ≤ p * d := Nat.mul_le_mul_right d hrp.le
      omega
    have e : transport Real.sin R s (p * d) x = up Real.sin R s (p * d - s) x := by rw [up_transport]; congr 1; omega
    rw [e]
    refine up_error hw h0 hu hσ hκ hT hrange (by omega) start (fun j hj => ?_) (sm _ hN)
    rw [up_transport]
    exact hx _ (by omega)
  · rw [if_neg hrp] at hN
    rw [if_neg hrp, rowR_down w R d s δ x hrp]
    have hpr : p * d ≤ r * d := Nat.mul_le_mul_right d (by omega)
    have hsr : s ≤ r * d := by omega
    have base : apart σ (baseR w R d r s δ x) (transport Real.sin R s (r * d) x)
        ≤ after κ (u * roundoff κ V G F X) 0 (r * d - s) := by
      have e : transport Real.sin R s (r * d) x = up Real.sin R s (r * d - s) x := by rw [up_transport]; congr 1; omega
      rw [e]
      by_cases hδ : δ < 0
      · rw [baseR_neg w R d r s hδ]
        refine up_error hw h0 hu hσ hκ hT hrange (by omega) start (fun j hj => ?_) (sm _ (by omega))
        rw [up_transport]
        exact hx _ (by omega)
      · have : r * d - s = 0 := by omega
        rw [this, baseR_zero w R d r s hδ]
        simpa [after, up] using start
    have e : transport Real.sin R s (p * d) x = down Real.sin R (r * d) (r * d - p * d) (transport Real.sin R s (r * d) x) := by
      rw [down_transport R (by omega), transport_trans]; congr 1; omega
    rw [e]
    have aa := after_after (κ := κ) (η := u * roundoff κ V G F X) (e := 0) (r * d - s) (r * d - p * d) hκ hη
    refine (down_error hw h0 hu hσ hκ hT hrange hrd (by omega) base (fun j hj => ?_) (aa.trans (sm _ hN))).trans aa
    rw [down_transport R (by omega), transport_trans]
    exact hx _ (by omega)

/-- C118: tracking in floating point of accuracy `u`, from any turn at most one profile distance before profile `r`.  As long as the
particles stay within `X` in exact arithmetic and the bound itself does not exceed `X`, every particle in every profile is off by at
most `k (1+κ+κ²)^k` times the roundings of one turn, `k` being the number of turns computed for that profile.  The bound knows
neither the number of particles nor the data. -/
theorem C118_bound {w : World} {u : ℝ} (hw : w.Accurate u) (h0 : 0 ≤ u) (hu : u ≤ 1 / 2) {m : Mach ℝ} {R : Program ℝ}
    {P n d r s : ℕ} {δ : Int} (hd : 0 < d) (hA : Agrees m ((P - 1) * d) R) (hr : r < P) (hs : (s : Int) = r * d + δ)
    (h1 : -(d : Int) < δ) (h2 : δ ≤ 0) {σ κ V G F X : ℝ} (hσ : 0 < σ) (hκ : 0 ≤ κ) (hT : Tame R ((P - 1) * d) σ κ V G F)
    (hrange : 4 * (1 + |R.h|) * (2 * X + F) * u ≤ 1) (O : ℕ → ℕ → ℝ × ℝ) (c : ℕ → ℝ × ℝ)
    (hc : ∀ i, i < n → ∀ t, t ≤ (P - 1) * d → Held σ X (transport Real.sin R s t (c i)))
    (small : drifted u κ V G F X (P * d) ≤ X) :
    ∃ (st : TS ℝ) (st' : TS (Rn w)) (Y : ℕ → ℕ → ℝ × ℝ),
      cppTrack Real.sin m P n d r δ O c = .ok st ∧ cppTrack (α := Rn w) w.sin m P n d r δ O c = .ok st' ∧
      Holds st.xp st.yp P n (fun p i => transport Real.sin R s (p * d) (c i)) ∧ Holds (α := Rn w) st'.xp st'.yp P n Y ∧
      ∀ p i, p < P → i < n →
        apart σ (Y p i) (transport Real.sin R s (p * d) (c i)) ≤ drifted u κ V G F X (turnsTo d r s p) := by
  obtain ⟨st, g1, g2⟩ := C17_rows_partial Real.sin hd hA hr hs h1 h2 O c (n := n)
  have hA' : Agrees (α := Rn w) m ((P - 1) * d) R := ⟨hA.rf1v, hA.rf2v, hA.phi0, hA.deltaE0, hA.driftCoef, hA.phi12, hA.hratio⟩
  have hrd : r * d ≤ (P - 1) * d := Nat.mul_le_mul_right d (by omega)
  have hs' : (s : Int) = (r * d : ℕ) + δ := by push_cast; exact hs
  obtain ⟨st', g3, g4⟩ := C17_rows_for_every_deltaturn (α := Rn w) w.sin hd hA' hr hs h1 (by omega) (by omega) O c (n := n)
  exact ⟨st, st', fun p i => rowR w R d r s δ (c i) p, g1, g3, g2, g4, fun p i hp hi => row_error hw h0 hu hσ hκ hT hrange hr hs h1 h2 hp (hc i hi) small⟩

/-- C118: how far the particles can go.  Particles that start within `a` stay within `(1+κ)^T (a + T (V+G))` in all `T` turns, so
the hypothesis of `C118_bound` about the exact trajectories is met with that number for `X`. -/
theorem C118_stays {R : Program ℝ} {T : ℕ} {σ κ V G F a : ℝ} (hσ : 0 < σ) (hκ : 0 ≤ κ) (hT : Tame R T σ κ V G F) {s t : ℕ}
    (hs : s ≤ T) (ht : t ≤ T) {x : ℝ × ℝ} (hx : Held σ a x) :
    Held σ ((1 + κ) ^ T * (a + T * (V + G))) (transport Real.sin R s t x) :=
  transport_held hσ hκ hT hs ht hx

theorem apart_comm (s : ℝ) (x y : ℝ × ℝ) : apart s x y = apart s y x := by
  unfold apart; rw [abs_sub_comm x.1, abs_sub_comm x.2]

theorem apart_triangle {s : ℝ} (hs : 0 < s) (x y z : ℝ × ℝ) : apart s x z ≤ apart s x y + apart s y z := by
  unfold apart
  have h1 := abs_sub_le x.1 y.1 z.1
  have h2 := mul_le_mul_of_nonneg_left (abs_sub_le x.2 y.2 z.2) hs.le
  linarith

/-- C118: two units of the same accuracy (say numpy's sine and the fast sine of the C++ library, or the processor and the graphics
card), C++ loop in the one, CuPy loop in the other: the particles are at most twice the bound apart in every profile. -/
theorem C118_two_units {w w' : World} {u : ℝ} (hw : w.Accurate u) (hw' : w'.Accurate u) (h0 : 0 ≤ u) (hu : u ≤ 1 / 2)
    {m : Mach ℝ} {phi12 : ℝ} {R : Program ℝ} {P n d r s : ℕ} {δ : Int} (hd : 0 < d)
    (hA : Agrees (spread m phi12 ((P - 1) * d)) ((P - 1) * d) R) (hr : r < P) (hs : (s : Int) = r * d + δ)
    (h1 : -(d : Int) < δ) (h2 : δ ≤ 0) {σ κ V G F X : ℝ} (hσ : 0 < σ) (hκ : 0 ≤ κ) (hT : Tame R ((P - 1) * d) σ κ V G F)
    (hrange : 4 * (1 + |R.h|) * (2 * X + F) * u ≤ 1) (O : ℕ → ℕ → ℝ × ℝ) (c : ℕ → ℝ × ℝ)
    (hc : ∀ i, i < n → ∀ t, t ≤ (P - 1) * d → Held σ X (transport Real.sin R s t (c i)))
    (small : drifted u κ V G F X (P * d) ≤ X) :
    ∃ (st : TS (Rn w)) (st' : PS (Rn w')) (Y Y' : ℕ → ℕ → ℝ × ℝ),
      cppTrack (α := Rn w) w.sin (spread m phi12 ((P - 1) * d)) P n d r δ O c = .ok st ∧
      kickAndDriftCupy (α := Rn w') w'.sin (rows P n fun p i => (O p i).1) (rows P n fun p i => (O p i).2) (energies n c) (phis n c) m phi12
        d r δ ((P - 1) * d : ℕ) n = .ok st' ∧
      Holds (α := Rn w) st.xp st.yp P n Y ∧ Holds (α := Rn w') st'.outPhi st'.outEn P n Y' ∧
      ∀ p i, p < P → i < n → apart σ (Y p i) (Y' p i) ≤ 2 * drifted u κ V G F X (turnsTo d r s p) := by
  obtain ⟨_, st, Y, _, g1, _, g2, g3⟩ := C118_bound hw h0 hu hd hA hr hs h1 h2 hσ hκ hT hrange O c hc small
  obtain ⟨_, st', Y', _, k1, _, k2, k3⟩ := C118_bound hw' h0 hu hd hA hr hs h1 h2 hσ hκ hT hrange O c hc small
  have hA' : Agrees (α := Rn w') (spread (α := Rn w') m phi12 ((P - 1) * d)) ((P - 1) * d) R :=
    ⟨hA.rf1v, hA.rf2v, hA.phi0, hA.deltaE0, hA.driftCoef, hA.phi12, hA.hratio⟩
  have hrd : r * d ≤ (P - 1) * d := Nat.mul_le_mul_right d (by omega)
  have hs' : (s : Int) = (r * d : ℕ) + δ := by push_cast; exact hs
  obtain ⟨s1, s2, e1, e2, e3, e4⟩ := C18_cupy_eq_cpp (α := Rn w') w'.sin hd hA' hr hs h1 (by omega) (by omega) O c (n := n)
  have : s1 = st' := by
    have := e1.symm.trans k1
    exact Except.ok.inj this
  subst this
  refine ⟨st, s2, Y, Y', g1, e2, g2, ⟨e3.trans k2.1, e4.trans k2.2⟩, fun p i hp hi => ?_⟩
  have t1 := g3 p i hp hi
  have t2 := k3 p i hp hi
  have := apart_triangle hσ (Y p i) (transport Real.sin R s (p * d) (c i)) (Y' p i)
  rw [apart_comm σ (transport Real.sin R s (p * d) (c i))] at this
  linarith

/-- C118: there and back in floating point.  `k` turns forward and the same `k` turns backward bring a particle back up to the
bound of `2k` turns (in exact arithmetic exactly, C16). -/
theorem C118_reversible {w : World} {u : ℝ} (hw : w.Accurate u) (h0 : 0 ≤ u) (hu : u ≤ 1 / 2) {R : Program ℝ} {T a k : ℕ} (hk : a + k ≤ T)
    {σ κ V G F X : ℝ} (hσ : 0 < σ) (hκ : 0 ≤ κ) (hT : Tame R T σ κ V G F) (hrange : 4 * (1 + |R.h|) * (2 * X + F) * u ≤ 1)
    {x : ℝ × ℝ} (hx : ∀ j, j ≤ k → Held σ X (up Real.sin R a j x)) (small : drifted u κ V G F X (2 * k) ≤ X) :
    apart σ (down (α := Rn w) w.sin R (a + k) k (up (α := Rn w) w.sin R a k x)) x ≤ drifted u κ V G F X (2 * k) := by
  have hX : 0 ≤ X := (abs_nonneg _).trans (hx 0 (Nat.zero_le _)).1
  have hη := roundoff_nonneg h0 hσ hκ hT hX
  rw [drifted_eq] at small ⊢
  have start : apart σ x x ≤ 0 := by simp [apart]
  have e1 := up_error hw h0 hu hσ hκ hT hrange hk start hx ((after_mono hκ hη le_rfl (by omega)).trans small)
  have aa := after_after (κ := κ) (η := u * roundoff κ V G F X) (e := 0) k k hκ hη
  rw [← two_mul] at aa
  have e2 := down_error hw h0 hu hσ hκ hT hrange hk (Nat.le_add_left k a) e1 (fun j hj => by
    rw [up_transport, down_transport R (by omega), transport_trans]
    have := hx (k - j) (by omega)
    rw [up_transport] at this
    have e : a + (k - j) = a + k - j := by omega
    rwa [e] at this) (aa.trans small)
  have back : down Real.sin R (a + k) k (up Real.sin R a k x) = x := by
    rw [up_transport, down_transport R (by omega), transport_trans, Nat.add_sub_cancel, transport_self]
  rw [back] at e2
  exact e2.trans aa

theorem drifted_doubles {k : ℕ} (hk : k ≤ 1000) : drifted (2 ^ (-(53 : ℤ))) (1 / 100) (1 / 100) (1 / 100) 14 7 k ≤ 1 / 10 ^ 7 := by
  have hη : (0 : ℝ) ≤ 2 ^ (-(53 : ℤ)) * roundoff (1 / 100) (1 / 100) (1 / 100) 14 7 := by unfold roundoff growth; positivity
  rw [drifted_eq]
  refine (after_mono (by norm_num) hη le_rfl hk).trans ?_
  have g1 : (10101 / 10000 : ℝ) ^ 10 ≤ 1106 / 1000 := by norm_num
  have g2 : (1106 / 1000 : ℝ) ^ 10 ≤ 2739 / 1000 := by norm_num
  have g3 : (2739 / 1000 : ℝ) ^ 10 ≤ 24000 := by norm_num
  have g : (10101 / 10000 : ℝ) ^ 1000 ≤ 24000 := by
    rw [show (1000 : ℕ) = 10 * 10 * 10 from rfl, pow_mul, pow_mul]
    exact (pow_le_pow_left₀ (by positivity) ((pow_le_pow_left₀ (by positivity) g1 10).trans g2) 10).trans g3
  unfold after
  have eg : growth (1 / 100 : ℝ) = 10101 / 10000 := by unfold growth; norm_num
  rw [eg]
  refine (mul_le_mul_of_nonneg_right g (by positivity)).trans ?_
  unfold roundoff growth
  norm_num

/-- C118 in doubles: 10^3 turns, synchrotron phase advance of at most a hundredth radian per turn, phases within 7 radians: the phase
of every particle in every profile is right to 10^-7 radian and its energy to 10^-7 in scaled units. -/
theorem C118_doubles {m : Mach ℝ} {R : Program ℝ} {P n d r s : ℕ} {δ : Int} (hd : 0 < d) (hA : Agrees m ((P - 1) * d) R) (hr : r < P)
    (hs : (s : Int) = r * d + δ) (h1 : -(d : Int) < δ) (h2 : δ ≤ 0) (hN : P * d ≤ 1000) (hh : |R.h| ≤ 10) {σ : ℝ} (hσ : 0 < σ)
    (hT : Tame R ((P - 1) * d) σ (1 / 100) (1 / 100) (1 / 100) 14) (O : ℕ → ℕ → ℝ × ℝ) (c : ℕ → ℝ × ℝ)
    (hc : ∀ i, i < n → ∀ t, t ≤ (P - 1) * d → Held σ 7 (transport Real.sin R s t (c i))) :
    ∃ (st' : TS (Rn (binary 53))) (Y : ℕ → ℕ → ℝ × ℝ),
      cppTrack (α := Rn (binary 53)) (binary 53).sin m P n d r δ O c = .ok st' ∧
      Holds (α := Rn (binary 53)) st'.xp st'.yp P n Y ∧
      ∀ p i, p < P → i < n → |(Y p i).1 - (transport Real.sin R s (p * d) (c i)).1| ≤ 1 / 10 ^ 7 ∧
        σ * |(Y p i).2 - (transport Real.sin R s (p * d) (c i)).2| ≤ 1 / 10 ^ 7 := by
  have hw : (binary 53).Accurate (2 ^ (-(53 : ℤ))) := binary_accurate (by norm_num)
  have h0 : (0 : ℝ) ≤ 2 ^ (-(53 : ℤ)) := by positivity
  have big := fun k (hk : k ≤ 1000) => drifted_doubles hk
  obtain ⟨_, st', Y, _, g1, _, g2, g3⟩ := C118_bound (n := n) hw h0 (by norm_num) hd hA hr hs h1 h2 hσ (by norm_num) hT
    (X := 7) (by
      have : 4 * (1 + |R.h|) * (2 * 7 + 14) * (2 : ℝ) ^ (-(53 : ℤ)) ≤ 4 * (1 + 10) * (2 * 7 + 14) * (2 : ℝ) ^ (-(53 : ℤ)) := by
        gcongr
      refine this.trans (by norm_num)) O c hc ((big _ hN).trans (by norm_num))
  refine ⟨st', Y, g1, g2, fun p i hp hi => ?_⟩
  have e := (g3 p i hp hi).trans (big _ ((turnsTo_le hr hp hs h1 h2).trans hN))
  unfold apart at e
  have n1 := abs_nonneg ((Y p i).1 - (transport Real.sin R s (p * d) (c i)).1)
  have n2 : 0 ≤ σ * |(Y p i).2 - (transport Real.sin R s (p * d) (c i)).2| := by positivity
  exact ⟨by linarith, by linarith⟩

/-- a machine with two harmonics: phase slip and voltages of about a hundredth -/
noncomputable def calmProg : Program ℝ :=
  { rf1 := fun _ => 1 / 200, rf2 := fun _ => 1 / 800, phi0 := fun _ => 1 / 3, dE := fun _ => 1 / 500, coef := fun t => 1 / (t + 100),
    phi12 := fun _ => 1 / 2, h := 2 }

noncomputable def calmMach : Mach ℝ :=
  { rf1v := tab 401 fun _ => 1 / 200, rf2v := tab 401 fun _ => 1 / 800, phi0 := tab 401 fun _ => 1 / 3, deltaE0 := tab 401 fun _ => 1 / 500
    driftCoef := tab 400 fun t => 1 / ((t : ℝ) + 100), phi12 := tab 401 fun _ => 1 / 2, hratio := 2 }

theorem calm_tame (T : ℕ) {V G : ℝ} (hV : 1 / 160 ≤ V) (hG : 1 / 500 ≤ G) : Tame calmProg T 1 (1 / 100) V G 14 := by
  constructor
  · intro t _
    show |1 / ((t : ℝ) + 100)| ≤ _
    rw [abs_of_nonneg (by positivity), mul_one]
    exact one_div_le_one_div_of_le (by norm_num) (by linarith [Nat.cast_nonneg (α := ℝ) t])
  · intro t _
    simp only [calmProg]
    norm_num [abs_of_nonneg]
  · intro t _
    refine le_trans ?_ hV
    simp only [calmProg]
    norm_num [abs_of_nonneg]
  · intro t _
    refine le_trans ?_ hG
    simp only [calmProg]
    norm_num [abs_of_nonneg]
  · intro t _
    simp only [calmProg]
    norm_num [abs_of_nonneg]

/-- the hypotheses of `C118_doubles` are met: 26 profiles 4 turns apart, 50 particles, started three turns before profile 7 -/
example : ∃ (st' : TS (Rn (binary 53))) (Y : ℕ → ℕ → ℝ × ℝ),
    cppTrack (α := Rn (binary 53)) (binary 53).sin calmMach 26 50 4 7 (-3) (fun _ _ => (0, 0)) (fun i => ((i : ℝ) / 1000, 0)) = .ok st' ∧
    Holds (α := Rn (binary 53)) st'.xp st'.yp 26 50 Y ∧
    ∀ p i, p < 26 → i < 50 → |(Y p i).1 - (transport Real.sin calmProg 25 (p * 4) ((i : ℝ) / 1000, 0)).1| ≤ 1 / 10 ^ 7 ∧
      1 * |(Y p i).2 - (transport Real.sin calmProg 25 (p * 4) ((i : ℝ) / 1000, 0)).2| ≤ 1 / 10 ^ 7 := by
  have hA : Agrees calmMach ((26 - 1) * 4) calmProg := by
    constructor
    · intro t ht; exact some_tab _ (show t < 401 by omega)
    · intro t ht; exact some_tab _ (show t < 401 by omega)
    · intro t ht; exact some_tab _ (show t < 401 by omega)
    · intro t ht; exact some_tab _ (show t < 401 by omega)
    · intro t ht; exact some_tab _ (show t < 400 by omega)
    · intro t ht; exact some_tab _ (show t < 401 by omega)
    · rfl
  refine C118_doubles (s := 25) (by norm_num) hA (by norm_num) (by norm_num) (by norm_num) (by norm_num) (by norm_num)
    (by simp only [calmProg]; norm_num [abs_of_nonneg]) one_pos (calm_tame _ (by norm_num) (by norm_num)) _ _ fun i hi t ht => ?_
  have h0 : Held 1 (1 / 20) (((i : ℝ) / 1000, 0) : ℝ × ℝ) := by
    refine ⟨?_, by norm_num⟩
    have : (i : ℝ) ≤ 50 := by exact_mod_cast hi.le
    show |(i : ℝ) / 1000| ≤ _
    rw [abs_of_nonneg (by positivity)]
    linarith
  have h := C118_stays one_pos (by norm_num) (calm_tame ((26 - 1) * 4) le_rfl le_rfl) (s := 25) (by norm_num) ht h0
  refine held_mono h ?_
  have g1 : (1 + 1 / 100 : ℝ) ^ 10 ≤ 1106 / 1000 := by norm_num
  have g2 : (1106 / 1000 : ℝ) ^ 10 ≤ 2739 / 1000 := by norm_num
  have g : (1 + 1 / 100 : ℝ) ^ ((26 - 1) * 4) ≤ 2739 / 1000 := by
    rw [show ((26 - 1) * 4 : ℕ) = 10 * 10 from rfl, pow_mul]
    exact (pow_le_pow_left₀ (by positivity) g1 10).trans g2
  refine (mul_le_mul_of_nonneg_right g (by positivity)).trans ?_
  norm_num

/-- start coordinates of the next example -/
noncomputable def calmStart : ℝ × ℝ := (1 / 10, 0)

/-- the hypotheses of `C118_reversible` are met: 50 turns up and 50 down in doubles -/
example : apart 1 (down (α := Rn (binary 53)) (binary 53).sin calmProg 50 50 (up (α := Rn (binary 53)) (binary 53).sin calmProg 0 50 calmStart))
    calmStart ≤ drifted (2 ^ (-(53 : ℤ))) (1 / 100) (1 / 160) (1 / 500) 14 7 100 := by
  have hT := calm_tame 50 (V := 1 / 160) (G := 1 / 500) le_rfl le_rfl
  have h0 : Held 1 (1 / 10) calmStart := ⟨by norm_num [calmStart, abs_of_nonneg], by norm_num [calmStart]⟩
  have g1 : (1 + 1 / 100 : ℝ) ^ 50 ≤ 2 := by norm_num
  have g2 : (10101 / 10000 : ℝ) ^ 10 ≤ 1106 / 1000 := by norm_num
  have g3 : (1106 / 1000 : ℝ) ^ 10 ≤ 2739 / 1000 := by norm_num
  have g : (10101 / 10000 : ℝ) ^ 100 ≤ 2739 / 1000 := by
    rw [show (100 : ℕ) = 10 * 10 from rfl, pow_mul]
    exact (pow_le_pow_left₀ (by positivity) g2 10).trans g3
  have hw : (binary 53).Accurate (2 ^ (-(53 : ℤ))) := binary_accurate (by norm_num)
  refine C118_reversible (R := calmProg) (a := 0) (k := 50) (T := 50) hw (by positivity) (by norm_num) (by norm_num) one_pos (by norm_num)
    hT (X := 7) ?_ (fun j hj => ?_) ?_
  · simp only [calmProg]
    norm_num [abs_of_nonneg]
  · rw [up_transport]
    refine held_mono (C118_stays one_pos (by norm_num) hT (Nat.zero_le _) (by omega) h0) ?_
    refine (mul_le_mul_of_nonneg_right g1 (by positivity)).trans ?_
    norm_num
  · unfold drifted
    have eg : growth (1 / 100 : ℝ) = 10101 / 10000 := by unfold growth; norm_num
    have nn : (0 : ℝ) ≤ 2 ^ (-(53 : ℤ)) * roundoff (1 / 100) (1 / 160) (1 / 500) 14 7 := by unfold roundoff growth; positivity
    rw [eg]
    refine (mul_le_mul_of_nonneg_right (mul_le_mul_of_nonneg_left g (by positivity)) nn).trans ?_
    unfold roundoff growth
    norm_num

end Verif.Props

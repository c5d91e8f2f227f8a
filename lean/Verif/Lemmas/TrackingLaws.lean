import Verif.Lemmas.TrackingPy
import Mathlib.Algebra.Ring.Defs
import Mathlib.Tactic.Abel

/-! # Algebra of the one-turn map -/

namespace Verif.Spec

section
variable {K : Type _} [Ring K] (sin : K → K) (R : Program K)

theorem bwd_fwd (t : ℕ) (x : K × K) : bwd sin R t (fwd sin R t x) = x := by
  simp [bwd, fwd]

theorem fwd_bwd (t : ℕ) (x : K × K) : fwd sin R t (bwd sin R t x) = x := by
  simp [bwd, fwd]

end

section
variable {α : Type _} [Add α] [Sub α] [Mul α] (sin : α → α) (R : Program α)

theorem up_add (s j k : ℕ) (x : α × α) : up sin R s (j + k) x = up sin R (s + j) k (up sin R s j x) := by
  induction k with
  | zero => rfl
  | succ k ih =>
    show fwd sin R (s + (j + k)) (up sin R s (j + k) x) = fwd sin R (s + j + k) (up sin R (s + j) k (up sin R s j x))
    rw [ih, Nat.add_assoc]

theorem down_add (s j k : ℕ) (x : α × α) : down sin R s (j + k) x = down sin R (s - j) k (down sin R s j x) := by
  induction k with
  | zero => rfl
  | succ k ih =>
    show bwd sin R (s - (j + k + 1)) (down sin R s (j + k) x)
      = bwd sin R (s - j - (k + 1)) (down sin R (s - j) k (down sin R s j x))
    rw [ih, Nat.sub_sub, Nat.add_assoc]

theorem transport_self (s : ℕ) (x : α × α) : transport sin R s s x = x := by
  simp [transport, up]

end

section
variable {K : Type _} [Ring K] (sin : K → K) (R : Program K)

theorem down_up (s k : ℕ) (x : K × K) : down sin R (s + k) k (up sin R s k x) = x := by
  induction k generalizing x with
  | zero => rfl
  | succ k ih =>
    have h : k + 1 = 1 + k := by omega
    conv_lhs => rw [h, down_add]
    have e1 : s + (1 + k) - 1 = s + k := by omega
    have e2 : down sin R (s + (1 + k)) 1 (up sin R s (1 + k) x) = up sin R s k x := by
      rw [← h]
      show bwd sin R (s + (k + 1) - (0 + 1)) (fwd sin R (s + k) (up sin R s k x)) = _
      have : s + (k + 1) - (0 + 1) = s + k := by omega
      rw [this, bwd_fwd]
    rw [e1, e2, ih]

theorem up_down (s k : ℕ) (hk : k ≤ s) (x : K × K) : up sin R (s - k) k (down sin R s k x) = x := by
  induction k generalizing x with
  | zero => rfl
  | succ k ih =>
    have h : k + 1 = 1 + k := by omega
    rw [h, up_add]
    have e1 : s - (1 + k) + 1 = s - k := by omega
    have e2 : up sin R (s - (1 + k)) 1 (down sin R s (1 + k) x) = down sin R s k x := by
      rw [← h]
      show fwd sin R (s - (k + 1) + 0) (bwd sin R (s - (k + 1)) (down sin R s k x)) = _
      rw [Nat.add_zero, fwd_bwd]
    rw [e1, e2, ih (by omega)]

theorem transport_via_zero (s t : ℕ) (x : K × K) : transport sin R s t x = up sin R 0 t (down sin R s s x) := by
  unfold transport
  by_cases h : s ≤ t
  · rw [if_pos h]
    have e : t = s + (t - s) := by omega
    conv_rhs => rw [e, up_add, Nat.zero_add]
    have := up_down sin R s s le_rfl x
    rw [Nat.sub_self] at this
    rw [this]
  · rw [if_neg h]
    have e : s = (s - t) + t := by omega
    have e2 : s - (s - t) = t := by omega
    have : down sin R s s x = down sin R t t (down sin R s (s - t) x) := by
      conv_lhs => rw [show down sin R s s x = down sin R s ((s - t) + t) x by rw [← e], down_add, e2]
    rw [this]
    have h2 := up_down sin R t t le_rfl (down sin R s (s - t) x)
    rw [Nat.sub_self] at h2
    exact h2.symm

theorem transport_trans (s t u : ℕ) (x : K × K) :
    transport sin R t u (transport sin R s t x) = transport sin R s u x := by
  rw [transport_via_zero sin R s t, transport_via_zero sin R t u, transport_via_zero sin R s u]
  have := down_up sin R 0 t (down sin R s s x)
  rw [Nat.zero_add] at this
  rw [this]

end

end Verif.Spec

namespace Verif.Track
open Spec

/-- without a turn offset the rows are the transported cloud, in any arithmetic -/
theorem outRow_zero {α : Type _} [Add α] [Sub α] [Mul α] (sin : α → α) (R : Program α) (d r p : ℕ) (neg : Prop)
    [Decidable neg] (hneg : ¬ neg) (x : α × α) :
    outRow sin R d r (r * d) neg x p = transport sin R (r * d) (p * d) x := by
  unfold outRow baseOf transport
  rw [if_neg hneg]
  by_cases h : r < p
  · rw [if_pos h, if_pos (Nat.mul_le_mul_right d h.le)]
  · rw [if_neg h]
    have h1 : p * d ≤ r * d := Nat.mul_le_mul_right d (by omega)
    by_cases h2 : r * d ≤ p * d
    · have h3 : r * d = p * d := by omega
      rw [if_pos h2, h3, Nat.sub_self]; rfl
    · rw [if_neg h2]

/-- with a non-positive turn offset the rows are the transported cloud, in exact arithmetic -/
theorem outRow_nonpos {K : Type _} [Ring K] (sin : K → K) (R : Program K) {d r s p : ℕ} {δ : Int}
    (hs : (s : Int) = r * d + δ) (h2 : δ ≤ 0) (x : K × K) :
    outRow sin R d r s (δ < 0) x p = transport sin R s (p * d) x := by
  have hrd : ((r * d : ℕ) : Int) = r * d := by push_cast; rfl
  have hsr : s ≤ r * d := by omega
  unfold outRow
  by_cases h : r < p
  · rw [if_pos h]
    have : r * d ≤ p * d := Nat.mul_le_mul_right d h.le
    unfold transport
    rw [if_pos (by omega)]
  · rw [if_neg h]
    have h1 : p * d ≤ r * d := Nat.mul_le_mul_right d (by omega)
    have hb : baseOf sin R d r s (δ < 0) x = transport sin R s (r * d) x := by
      unfold baseOf transport
      rw [if_pos hsr]
      by_cases hn : δ < 0
      · rw [if_pos hn]
      · rw [if_neg hn]
        have : s = r * d := by omega
        rw [this, Nat.sub_self]; rfl
    have hd' : ∀ y, down sin R (r * d) (r * d - p * d) y = transport sin R (r * d) (p * d) y := by
      intro y
      unfold transport
      by_cases h2 : r * d ≤ p * d
      · have h3 : r * d = p * d := by omega
        rw [if_pos h2, h3, Nat.sub_self]; rfl
      · rw [if_neg h2]
    rw [hb, hd', transport_trans]

/-- `wrapper_kick_and_drift_scalar` reads its `phi12` array at index `nturns`, one past the end, whenever the tracking
starts before the last turn. -/
theorem kickAndDriftScalar_oob {α : Type _} [Add α] [Sub α] [Mul α] {sin : α → α} {m : Mach α} {phi12 : α}
    {R : Program α} {P n nturns d r s : ℕ} {δ : Int} (hd : 0 < d)
    (hA : Agrees (spread m phi12 nturns) nturns R) (hn : nturns = (P - 1) * d) (hr : r < P)
    (hs : (s : Int) = r * d + δ) (h1 : -(d : Int) < δ) (h2 : δ < d) (hsn : s < nturns)
    (X : ℕ → ℕ → α × α) (c : ℕ → α × α) :
    kickAndDriftScalar sin (rows P n fun p i => (X p i).1) (rows P n fun p i => (X p i).2)
        (tab n fun i => (c i).2) (tab n fun i => (c i).1) m phi12 d r δ nturns n = .error .oob := by
  obtain ⟨hneg, hpos⟩ := start_div hd hs h1 h2
  have hprof : (if δ < 0 then (r : Int) - 1 else r) = ((s / d : ℕ) : Int) := by
    by_cases h : δ < 0
    · obtain ⟨h3, h4⟩ := hneg h
      rw [if_pos h, h4]; omega
    · rw [if_neg h, hpos (by omega)]
  have hsP : s / d < P := by
    by_cases h : δ < 0
    · have := hneg h; omega
    · have := hpos (by omega); omega
  have hP : nturns < P * d := by
    rw [hn]; exact Nat.mul_lt_mul_of_pos_right (by omega) hd
  have hfuel : ((nturns : Int) - s).toNat = nturns - s := by omega
  have hA' : Agrees { m with phi12 := List.replicate nturns phi12 } (nturns - 1) R :=
    { rf1v := fun t ht => hA.rf1v t (by omega)
      rf2v := fun t ht => hA.rf2v t (by omega)
      phi0 := fun t ht => hA.phi0 t (by omega)
      deltaE0 := fun t ht => hA.deltaE0 t (by omega)
      driftCoef := fun t ht => hA.driftCoef t (by omega)
      phi12 := fun t ht => by
        rw [List.getElem?_replicate, if_pos (by omega), spread_phi12 hA (by omega)]
      hratio := hA.hratio }
  have hst : (⟨rows P n fun p => if p = s / d then fun i => (c i).1 else fun i => (X p i).1,
      rows P n fun p => if p = s / d then fun i => (c i).2 else fun i => (X p i).2,
      tab n fun i => (c i).1, tab n fun i => (c i).2, ((s / d : ℕ) : Int), (s : Int), 0, []⟩ : TS α)
      = mk P n nturns (fun p i => if p = s / d then c i else X p i) c (s / d) s 0 := by
    unfold mk
    congr 1
    · unfold rows; apply tab_congr; intro p _
      by_cases h : p = s / d <;> simp [h]
    · unfold rows; apply tab_congr; intro p _
      by_cases h : p = s / d <;> simp [h]
  unfold kickAndDriftScalar kickAndDrift
  dsimp only
  rw [hprof, storeRow_ok _ _ hsP rfl, bind_ok, storeRow_ok _ _ hsP rfl, bind_ok, ← hs, Int.toNat_natCast, hfuel, hst]
  rw [whileN_error (n := nturns - 1 - s) (e := .oob)
    (g := fun k => mk P n nturns (upRows sin R d s c (fun p i => if p = s / d then c i else X p i) k)
      (fun i => up sin R s k (c i)) ((s + k) / d) (s + k) (0 + k))]
  · rfl
  · apply mk_congr
    · intro p i _ _
      unfold upRows
      rw [if_neg (show ¬ (s / d < p ∧ p ≤ (s + 0) / d) by rw [Nat.add_zero]; omega)]
    · intro i _; rfl
    · rfl
    · rfl
    · rfl
  · omega
  · intro i hi
    unfold mk
    exact decide_eq_true (by dsimp only; omega)
  · intro k hk
    exact upStep_gen (N := nturns - 1) hd (by omega) (mk P n nturns)
      (fun X Y c c' q t k h1 h2 => mk_congr h1 h2 rfl rfl rfl)
      (fun X c q t k ht h => upBody_ok hA' X c ht h) _ c 0 k (by omega)
  · have e : s + (nturns - 1 - s) = nturns - 1 := by omega
    rw [e]
    unfold upBody mk
    dsimp only
    have et : (((nturns - 1 : ℕ) : Int) + 1) = ((nturns : ℕ) : Int) := by omega
    rw [rd_some (spread_driftCoef hA (nturns - 1) (by omega)), bind_ok, driftUp_ok, bind_ok,
      rd_some' et (spread_rf1v hA _ le_rfl), bind_ok, rd_some' et (spread_rf2v hA _ le_rfl), bind_ok,
      rd_some' et (spread_phi0 hA _ le_rfl), bind_ok, rd_eq_oob]
    · rfl
    · rw [List.length_replicate]; omega

end Verif.Track

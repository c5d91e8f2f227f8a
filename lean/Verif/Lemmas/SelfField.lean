import Verif.Spec.SelfField
import Verif.Lemmas.TrackingPy
import Mathlib.Tactic.FieldSimp

/-! # Tracking with self fields: the loops compute `transportS` -/

set_option linter.unusedSectionVars false

namespace Verif.SelfF
open Spec Track
variable {K : Type} [Field K] [LinearOrder K] [IsStrictOrderedRing K] [FloorRing K]

theorem npGet_some {β : Type _} {l : List β} {t : ℕ} {v : β} {z : Int} (hz : z = t) (h : l[t]? = some v) :
    npGet l z = .ok v := by
  subst hz
  simp [npGet, h, show ¬ ((t : Int) < 0) by omega]

theorem bin_nonneg {F : SelfProgram K} {t : ℕ} (hw : 0 < F.wrap) (hd : 0 < F.drad t) (φ : K) : 0 ≤ bin F t φ := by
  unfold bin
  apply div_nonneg _ hd.le
  have h := Int.floor_le (edgePhase F t φ / F.wrap)
  rw [le_div_iff₀ hw] at h
  nlinarith [h]

theorem bin_lt {F : SelfProgram K} {t : ℕ} (hw : 0 < F.wrap) (hd : 0 < F.drad t) (φ : K) :
    bin F t φ < F.wrap / F.drad t := by
  unfold bin
  apply div_lt_div_of_pos_right _ hd
  have h := Int.lt_floor_add_one (edgePhase F t φ / F.wrap)
  rw [div_lt_iff₀ hw] at h
  nlinarith [h]

theorem bin_lt_cols {F : SelfProgram K} {t L : ℕ} (hw : 0 < F.wrap) (hd : 0 < F.drad t)
    (hL : F.wrap ≤ ((L : K) + 1) * F.drad t) (φ : K) : bin F t φ < (L : K) + 1 :=
  lt_of_lt_of_le (bin_lt hw hd φ) ((div_le_iff₀ hd).2 hL)

theorem xpSf_ok {f : SF K} {F : SelfProgram K} {t : ℕ} {w : K} (h1 : f.xorigin = F.xorigin) (h2 : f.phiwrap = F.wrap)
    (h3 : f.hNum * w * f.dtbin = F.drad t) (hw : 0 < F.wrap) (hd : 0 < F.drad t) (φ : K) :
    xpSf f φ (F.R.phi0 t) w = .ok (bin F t φ) := by
  unfold xpSf
  have he : φ + F.R.phi0 t - f.xorigin * f.hNum * w * f.dtbin = edgePhase F t φ := by
    unfold edgePhase
    rw [← h3, h1]; ring
  dsimp only
  rw [he, h2, h3, fdiv_ok hw.ne', bind_ok, fdiv_ok hd.ne']
  rfl

section
variable {m : Mach K} {phi12 : K} {f : SF K} {P N L : ℕ} {F : SelfProgram K} (hA : AgreesS m phi12 f P N L F)
include hA

theorem calcXpSf_ok {t n : ℕ} (ht : t ≤ N) {z : Int} (hz : z = t) (φ : ℕ → K) :
    calcXpSf f m.phi0 z (tab n φ) = .ok (tab n fun i => bin F t (φ i)) := by
  unfold calcXpSf
  obtain ⟨w, h1, h2⟩ := hA.omega t ht
  rw [npGet_some hz (hA.mach.phi0 t ht), bind_ok, npGet_some hz h1, bind_ok]
  exact mapM_tab (g := fun d => bin F t d) n φ fun i _ =>
    xpSf_ok hA.xorigin hA.wrap h2 hA.wrap_pos (hA.drad_pos t ht) (φ i)

theorem lookup_up {p n : ℕ} (hp : p < P - 1) {z : Int} (hz : z = p) (x : ℕ → K) (h0 : ∀ i, i < n → 0 ≤ x i)
    (h1 : ∀ i, i < n → x i < (L : K) + 1 + 1) :
    lookup f z (-1) (tab n x) = .ok (tab n fun i => F.V p (⌊x i⌋ - 1)) := by
  subst hz
  obtain ⟨v, hv, hV, hV'⟩ := hA.table
  unfold lookup
  rw [hv, npGet_tab _ hp, bind_ok]
  refine mapM_tab (g := fun x => F.V p (⌊x⌋ - 1)) n x fun i hi => ?_
  have hf0 : 0 ≤ ⌊x i⌋ := Int.floor_nonneg.2 (h0 i hi)
  have hf1 : ⌊x i⌋ < (L : Int) + 1 + 1 := Int.floor_lt.2 (by push_cast; exact h1 i hi)
  unfold Psi.trunc
  rw [if_pos (h0 i hi)]
  obtain ⟨k, hk⟩ : ∃ k : ℕ, ⌊x i⌋ = k := ⟨⌊x i⌋.toNat, by omega⟩
  rw [hk]
  rcases k with _ | k
  · simp only [Nat.cast_zero, zero_add, zero_sub]
    rw [hV']
    unfold npGet
    simp only [length_tab]
    rw [if_pos (by omega), if_pos (by omega)]
    have : ((-1 : Int) + ((L + 1 : ℕ) : Int)).toNat = L := by omega
    rw [this, some_tab _ (by omega)]
  · have e : (((k + 1 : ℕ) : Int) + -1) = (k : Int) := by push_cast; ring
    have e' : (((k + 1 : ℕ) : Int) - 1) = (k : Int) := by push_cast; ring
    rw [e, e', hV, npGet_tab _ (by omega)]

theorem lookup_down {p n : ℕ} (hp : p < P - 1) {z : Int} (hz : z = p) (x : ℕ → K) (h0 : ∀ i, i < n → 0 ≤ x i)
    (h1 : ∀ i, i < n → x i < (L : K) + 1) :
    lookup f z 0 (tab n x) = .ok (tab n fun i => F.V p ⌊x i⌋) := by
  subst hz
  obtain ⟨v, hv, hV, hV'⟩ := hA.table
  unfold lookup
  rw [hv, npGet_tab _ hp, bind_ok]
  refine mapM_tab (g := fun x => F.V p ⌊x⌋) n x fun i hi => ?_
  have hf0 : 0 ≤ ⌊x i⌋ := Int.floor_nonneg.2 (h0 i hi)
  have hf1 : ⌊x i⌋ < (L : Int) + 1 := Int.floor_lt.2 (by push_cast; exact h1 i hi)
  unfold Psi.trunc
  rw [if_pos (h0 i hi)]
  obtain ⟨k, hk⟩ : ∃ k : ℕ, ⌊x i⌋ = k := ⟨⌊x i⌋.toNat, by omega⟩
  rw [hk, add_zero, hV, npGet_tab _ (by omega)]

theorem toY_ok {n : ℕ} (e : ℕ → K) : toY f (tab n e) = .ok (tab n fun i => e i / f.dEbin + f.synchPartY) := by
  unfold toY
  exact mapM_tab (g := fun e => e / f.dEbin + f.synchPartY) n e fun i _ => by
    rw [fdiv_ok hA.dEbin, bind_ok]; rfl

theorem addSelf_ok {n : ℕ} (e v : ℕ → K) : addSelf f (tab n e) (tab n v) = tab n fun i => e i + v i * F.q := by
  unfold addSelf tab
  rw [List.zipWith_map, List.zipWith_self, hA.q]

end

/-- a particle at turn `t` in image coordinates -/
def conv (f : SF K) (F : SelfProgram K) (t : ℕ) (x : K × K) : K × K := (bin F t x.1, x.2 / f.dEbin + f.synchPartY)

/-- state of the loops: rows `X` (image coordinates), cloud `c` at turn `t` -/
def mkS (F : SelfProgram K) (P n : ℕ) (X : ℕ → ℕ → K × K) (c : ℕ → K × K) (prof : Int) (t : ℕ) : SS K :=
  ⟨rows P n fun p i => (X p i).1, rows P n fun p i => (X p i).2, tab n fun i => (c i).1, tab n fun i => (c i).2,
    tab n fun i => bin F t (c i).1, prof, t⟩

theorem mkS_congr {F : SelfProgram K} {P n : ℕ} {X Y : ℕ → ℕ → K × K} {c c' : ℕ → K × K} {q q' : Int} {t t' : ℕ}
    (h1 : ∀ p i, p < P → i < n → X p i = Y p i) (h2 : ∀ i, i < n → c i = c' i) (hq : q = q') (ht : t = t') :
    mkS F P n X c q t = mkS F P n Y c' q' t' := by
  subst hq ht
  unfold mkS rows
  have e1 : (tab P fun p => tab n fun i => (X p i).1) = tab P fun p => tab n fun i => (Y p i).1 :=
    tab_congr fun p hp => tab_congr fun i hi => by rw [h1 p i hp hi]
  have e2 : (tab P fun p => tab n fun i => (X p i).2) = tab P fun p => tab n fun i => (Y p i).2 :=
    tab_congr fun p hp => tab_congr fun i hi => by rw [h1 p i hp hi]
  have e3 : (tab n fun i => (c i).1) = tab n fun i => (c' i).1 := tab_congr fun i hi => by rw [h2 i hi]
  have e4 : (tab n fun i => (c i).2) = tab n fun i => (c' i).2 := tab_congr fun i hi => by rw [h2 i hi]
  have e5 : (tab n fun i => bin F t (c i).1) = tab n fun i => bin F t (c' i).1 := tab_congr fun i hi => by rw [h2 i hi]
  rw [e1, e2, e3, e4, e5]

section
variable {sin : K → K} {m : Mach K} {phi12 : K} {f : SF K} {P N L n : ℕ} {F : SelfProgram K}
  (hA : AgreesS m phi12 f P N L F)
include hA

theorem upBodySelf_ok (hwrap : ∀ t, t ≤ N → F.wrap ≤ ((L : K) + 1) * F.drad t) (X : ℕ → ℕ → K × K) (c : ℕ → K × K) {t : ℕ}
    (ht : t < N) (hp : t / F.d + 1 < P) :
    upBodySelf sin m phi12 f F.d n (mkS F P n X c (t / F.d : ℕ) t)
      = .ok (mkS F P n
          (if F.d ∣ t + 1 then fun p i => if p = t / F.d + 1 then conv f F (t + 1) (fwdS sin F t (c i)) else X p i else X)
          (fun i => fwdS sin F t (c i)) ((t / F.d + if F.d ∣ t + 1 then 1 else 0 : ℕ) : Int) (t + 1)) := by
  have hM : Agrees (spread m phi12 N) N F.R := hA.mach
  have h12 := spread_phi12 hM ht
  have et : ((t : Int) + 1) = ((t + 1 : ℕ) : Int) := by push_cast; rfl
  have hr : m.hratio = F.R.h := hA.mach.hratio
  unfold upBodySelf mkS
  dsimp only
  rw [rd_some (spread_driftCoef hM t ht), bind_ok, driftUp_ok, bind_ok, calcXpSf_ok hA (Nat.succ_le_of_lt ht) et, bind_ok,
    lookup_up hA (p := t / F.d) (by omega) rfl _ (fun i _ => bin_nonneg hA.wrap_pos (hA.drad_pos _ ht) _)
      (fun i _ => (bin_lt_cols hA.wrap_pos (hA.drad_pos _ ht) (hwrap _ ht) _).trans (lt_add_one _)), bind_ok,
    rd_some' et (spread_rf1v hM _ ht), bind_ok,
    rd_some' et (spread_rf2v hM _ ht), bind_ok, rd_some' et (spread_phi0 hM _ ht), bind_ok,
    rd_some' et (spread_deltaE0 hM _ ht), bind_ok, kickUp_ok, bind_ok, hr, ← h12, addSelf_ok hA]
  have hmod := mod_iff (d := F.d) et
  by_cases hd : F.d ∣ t + 1
  · rw [if_pos (hmod.mpr hd)]
    simp only [if_pos hd]
    rw [setRow_ok _ _ hp (by push_cast; rfl), bind_ok, toY_ok hA, bind_ok, setRow_ok _ _ hp (by push_cast; rfl), bind_ok]
    simp only [pure_eq_ok]
    congr 2
    · unfold rows; apply tab_congr; intro p _
      by_cases h : p = t / F.d + 1 <;> simp [h, fwdS, fwd, conv]
    · unfold rows; apply tab_congr; intro p _
      by_cases h : p = t / F.d + 1 <;> simp [h, fwdS, fwd, gain, energyGain, conv]
  · rw [if_neg (fun h => hd (hmod.mp h))]
    simp only [if_neg hd, pure_eq_ok, Nat.add_zero]
    rfl

theorem downBodySelf_ok (hwrap : ∀ t, t ≤ N → F.wrap ≤ ((L : K) + 1) * F.drad t) (X : ℕ → ℕ → K × K) (c : ℕ → K × K) {t : ℕ}
    (ht : t < N) (hp : t / F.d + 1 < P) :
    downBodySelf sin m phi12 f F.d n (mkS F P n X c (t / F.d : ℕ) (t + 1))
      = .ok (mkS F P n
          (if F.d ∣ t then fun p i => if p = t / F.d then conv f F t (bwdS sin F t (c i)) else X p i else X)
          (fun i => bwdS sin F t (c i)) (((t / F.d : ℕ) : Int) - if F.d ∣ t then 1 else 0) t) := by
  have hM : Agrees (spread m phi12 N) N F.R := hA.mach
  have h12 := spread_phi12 hM ht
  have et : (((t + 1 : ℕ) : Int) - 1) = (t : Int) := by push_cast; ring
  have hr : m.hratio = F.R.h := hA.mach.hratio
  unfold downBodySelf mkS
  dsimp only
  rw [lookup_down hA (p := t / F.d) (by omega) rfl _ (fun i _ => bin_nonneg hA.wrap_pos (hA.drad_pos _ ht) _)
      (fun i _ => bin_lt_cols hA.wrap_pos (hA.drad_pos _ ht) (hwrap _ ht) _), bind_ok,
    rd_some (spread_rf1v hM _ ht), bind_ok,
    rd_some (spread_rf2v hM _ ht), bind_ok, rd_some (spread_phi0 hM _ ht), bind_ok,
    rd_some (spread_deltaE0 hM _ ht), bind_ok, kickDown_ok, bind_ok, hr, ← h12, addSelf_ok hA, et,
    rd_some (spread_driftCoef hM t ht), bind_ok, driftDown_ok, bind_ok, calcXpSf_ok hA ht.le rfl, bind_ok]
  have hmod := mod_iff (t := t) (d := F.d) rfl
  by_cases hd : F.d ∣ t
  · rw [if_pos (hmod.mpr hd)]
    simp only [if_pos hd]
    have hp' : t / F.d < P := by omega
    rw [setRow_ok _ _ hp' rfl, bind_ok, toY_ok hA, bind_ok, setRow_ok _ _ hp' rfl, bind_ok]
    simp only [pure_eq_ok]
    congr 2
    · unfold rows; apply tab_congr; intro p _
      by_cases h : p = t / F.d <;> simp [h, bwdS, gain, energyGain, conv]
    · unfold rows; apply tab_congr; intro p _
      by_cases h : p = t / F.d <;> simp [h, bwdS, gain, energyGain, conv]
  · rw [if_neg (fun h => hd (hmod.mp h))]
    simp only [if_neg hd, pure_eq_ok, sub_zero]
    rfl

/-- rows during the upward loop from turn `r * d`: row `r` and those passed -/
def rowsUp (sin : K → K) (f : SF K) (F : SelfProgram K) (r : ℕ) (c : ℕ → K × K) (t : ℕ) (p i : ℕ) : K × K :=
  if r ≤ p ∧ p * F.d ≤ t then conv f F (p * F.d) (upS sin F (r * F.d) (p * F.d - r * F.d) (c i)) else (0, 0)

/-- rows during the downward loop, at turn `t` -/
def rowsDown (sin : K → K) (f : SF K) (F : SelfProgram K) (r : ℕ) (c : ℕ → K × K) (t : ℕ) (p i : ℕ) : K × K :=
  if r ≤ p then conv f F (p * F.d) (upS sin F (r * F.d) (p * F.d - r * F.d) (c i))
  else if t ≤ p * F.d then conv f F (p * F.d) (downS sin F (r * F.d) (r * F.d - p * F.d) (c i)) else (0, 0)

theorem upLoopSelf (hwrap : ∀ t, t ≤ N → F.wrap ≤ ((L : K) + 1) * F.drad t) (hd : 0 < F.d) (hN : N = (P - 1) * F.d) {r : ℕ}
    (hr : r < P) (c : ℕ → K × K) :
    whileN (N - r * F.d) (fun s : SS K => decide (s.turn < (N : Int))) (upBodySelf sin m phi12 f F.d n)
        (mkS F P n (rowsUp sin f F r c (r * F.d)) c (r : Int) (r * F.d))
      = .ok (mkS F P n (rowsUp sin f F r c N) (fun i => upS sin F (r * F.d) (N - r * F.d) (c i)) ((P - 1 : ℕ) : Int) N) := by
  have hrN : r * F.d ≤ N := by rw [hN]; exact Nat.mul_le_mul_right _ (by omega)
  rw [whileN_eq (n := N - r * F.d) (g := fun k => mkS F P n (rowsUp sin f F r c (r * F.d + k))
    (fun i => upS sin F (r * F.d) k (c i)) (((r * F.d + k) / F.d : ℕ) : Int) (r * F.d + k))]
  · have e : r * F.d + (N - r * F.d) = N := by omega
    simp only [e]
    congr 2
    rw [hN, Nat.mul_div_cancel _ hd]
  · apply mkS_congr (fun _ _ _ _ => rfl) (fun _ _ => rfl) _ rfl
    rw [Nat.add_zero, Nat.mul_div_cancel _ hd]
  · exact le_rfl
  · intro k hk
    have : ((r * F.d + k : ℕ) : Int) < N := by omega
    exact decide_eq_true this
  · intro k hk
    have ht : r * F.d + k < N := by omega
    have hp : (r * F.d + k) / F.d + 1 < P := by
      have : (r * F.d + k) / F.d < P - 1 := (Nat.div_lt_iff_lt_mul hd).2 (by omega)
      omega
    rw [upBodySelf_ok hA hwrap _ _ ht hp]
    congr 1
    apply mkS_congr
    · intro p i hpP _
      have hdm := Nat.div_add_mod (r * F.d + k) F.d
      have hml := Nat.mod_lt (r * F.d + k) hd
      by_cases h : F.d ∣ r * F.d + k + 1
      · rw [if_pos h]
        have hq : ((r * F.d + k) / F.d + 1) * F.d = r * F.d + k + 1 := by
          obtain ⟨q, hq⟩ := h
          have : (r * F.d + k) / F.d + 1 = q := by
            have e1 : (r * F.d + k) / F.d = q - 1 := by
              have hq0 : q ≠ 0 := by rintro rfl; omega
              obtain ⟨q', rfl⟩ : ∃ q', q = q' + 1 := ⟨q - 1, by omega⟩
              rw [Nat.add_sub_cancel]
              rw [Nat.div_eq_iff hd]
              have : F.d * (q' + 1) = q' * F.d + F.d := by ring
              omega
            have hq0 : q ≠ 0 := by rintro rfl; omega
            omega
          rw [this, hq]; ring
        by_cases hpe : p = (r * F.d + k) / F.d + 1
        · rw [if_pos hpe]
          have hpd : p * F.d = r * F.d + k + 1 := by rw [hpe, hq]
          unfold rowsUp
          have hrp : r ≤ p := by
            by_contra hc
            have : p * F.d ≤ r * F.d := Nat.mul_le_mul_right _ (by omega)
            omega
          rw [if_pos ⟨hrp, by omega⟩, hpd]
          have : r * F.d + k + 1 - r * F.d = k + 1 := by omega
          rw [this]
          rfl
        · rw [if_neg hpe]
          unfold rowsUp
          have : (r ≤ p ∧ p * F.d ≤ r * F.d + k) ↔ (r ≤ p ∧ p * F.d ≤ r * F.d + (k + 1)) := by
            refine and_congr_right fun _ => ⟨fun h => by omega, fun h => ?_⟩
            by_contra hc
            have hpd : p * F.d = ((r * F.d + k) / F.d + 1) * F.d := by omega
            exact hpe (Nat.eq_of_mul_eq_mul_right hd hpd)
          simp only [this]
      · rw [if_neg h]
        unfold rowsUp
        have : (r ≤ p ∧ p * F.d ≤ r * F.d + k) ↔ (r ≤ p ∧ p * F.d ≤ r * F.d + (k + 1)) := by
          refine and_congr_right fun _ => ⟨fun h => by omega, fun h' => ?_⟩
          by_contra hc
          exact h ⟨p, by have := mul_comm F.d p; omega⟩
        simp only [this]
    · intro i _; rfl
    · congr 1
      rw [← Nat.add_assoc, Nat.succ_div]
    · omega
  · have : ¬ ((r * F.d + (N - r * F.d) : ℕ) : Int) < N := by omega
    exact decide_eq_false this

theorem downLoopSelf (hwrap : ∀ t, t ≤ N → F.wrap ≤ ((L : K) + 1) * F.drad t) (hd : 0 < F.d) (hN : N = (P - 1) * F.d) {r : ℕ}
    (hr : r < P) (c : ℕ → K × K) :
    whileN (r * F.d) (fun s : SS K => decide (0 < s.turn)) (downBodySelf sin m phi12 f F.d n)
        (mkS F P n (rowsDown sin f F r c (r * F.d)) c ((r : Int) - 1) (r * F.d))
      = .ok (mkS F P n (rowsDown sin f F r c 0) (fun i => downS sin F (r * F.d) (r * F.d) (c i)) (-1) 0) := by
  have hrN : r * F.d ≤ N := by rw [hN]; exact Nat.mul_le_mul_right _ (by omega)
  rw [whileN_eq (n := r * F.d) (g := fun k => mkS F P n (rowsDown sin f F r c (r * F.d - k))
    (fun i => downS sin F (r * F.d) k (c i)) ((((r * F.d - k + (F.d - 1)) / F.d : ℕ) : Int) - 1) (r * F.d - k))]
  · congr 1
    apply mkS_congr
    · intro p i _ _; rw [Nat.sub_self]
    · intros; rfl
    · rw [Nat.sub_self, Nat.zero_add, Nat.div_eq_of_lt (by omega)]; rfl
    · omega
  · apply mkS_congr (fun _ _ _ _ => rfl) (fun _ _ => rfl) _ rfl
    rw [Nat.sub_zero, ceil_mul hd]
  · exact le_rfl
  · intro k hk
    have : (0 : Int) < ((r * F.d - k : ℕ) : Int) := by omega
    exact decide_eq_true this
  · intro k hk
    obtain ⟨t, ht⟩ : ∃ t, r * F.d - k = t + 1 := ⟨r * F.d - k - 1, by omega⟩
    have ht' : r * F.d - (k + 1) = t := by omega
    obtain ⟨c1, c2⟩ := ceil_step hd t
    have htN : t < N := by omega
    have htr : t / F.d < r := (Nat.div_lt_iff_lt_mul hd).2 (by omega)
    have hp : t / F.d + 1 < P ∨ t / F.d + 1 = P := by omega
    have hp : t / F.d + 1 < P := by
      have : t / F.d < P - 1 := (Nat.div_lt_iff_lt_mul hd).2 (by omega)
      omega
    have e : (((t / F.d + 1 : ℕ) : Int) - 1) = ((t / F.d : ℕ) : Int) := by push_cast; ring
    rw [ht, ht', c1, e, downBodySelf_ok hA hwrap _ _ htN hp]
    congr 1
    apply mkS_congr
    · intro p i hpP _
      by_cases h : F.d ∣ t
      · rw [if_pos h]
        have hq : (t / F.d) * F.d = t := Nat.div_mul_cancel h
        by_cases hpe : p = t / F.d
        · rw [if_pos hpe]
          have hpd : p * F.d = t := by rw [hpe, hq]
          unfold rowsDown
          rw [if_neg (by omega), if_pos (by omega), hpd]
          have : r * F.d - t = k + 1 := by omega
          rw [this]
          simp only [downS, ht']
        · rw [if_neg hpe]
          unfold rowsDown
          have : (t + 1 ≤ p * F.d) ↔ (t ≤ p * F.d) := by
            refine ⟨fun h => by omega, fun h => ?_⟩
            by_contra hc
            have hpd : p * F.d = (t / F.d) * F.d := by omega
            exact hpe (Nat.eq_of_mul_eq_mul_right hd hpd)
          simp only [this]
      · rw [if_neg h]
        unfold rowsDown
        have : (t + 1 ≤ p * F.d) ↔ (t ≤ p * F.d) := by
          refine ⟨fun h => by omega, fun h' => ?_⟩
          by_contra hc
          exact h ⟨p, by have := mul_comm F.d p; omega⟩
        simp only [this]
    · intro i _
      simp only [downS, ht']
    · rw [c2]
      clear c1 c2 e hp htr
      generalize t / F.d = u
      by_cases h : F.d ∣ t
      · rw [if_pos h, if_pos h]; push_cast; rfl
      · rw [if_neg h, if_neg h]; push_cast; ring
    · rfl
  · have : ¬ (0 : Int) < ((r * F.d - r * F.d : ℕ) : Int) := by omega
    exact decide_eq_false this

/-- `kick_and_drift_self` stores the transported cloud in image coordinates -/
theorem kickAndDriftSelf_run (hwrap : ∀ t, t ≤ N → F.wrap ≤ ((L : K) + 1) * F.drad t) (hd : 0 < F.d)
    (hN : N = (P - 1) * F.d) {r : ℕ} (hr : r < P) (c : ℕ → K × K) :
    kickAndDriftSelf sin m phi12 f F.d P r (tab n fun i => (c i).2) (tab n fun i => (c i).1)
      = .ok (rows P n fun p i => (conv f F (p * F.d) (transportS sin F (r * F.d) (p * F.d) (c i))).1,
             rows P n fun p i => (conv f F (p * F.d) (transportS sin F (r * F.d) (p * F.d) (c i))).2) := by
  have hrN : r * F.d ≤ N := by rw [hN]; exact Nat.mul_le_mul_right _ (by omega)
  have hNz : (F.d : Int) * ((P : Int) - 1) = (N : Int) := by
    have : ((P - 1 : ℕ) : Int) = (P : Int) - 1 := by omega
    rw [hN, Nat.cast_mul, this]; ring
  have hrz : ((r : Int) * F.d) = ((r * F.d : ℕ) : Int) := by push_cast; rfl
  unfold kickAndDriftSelf
  dsimp only
  rw [length_tab, Int.toNat_natCast, zeros_eq, hNz, hrz, calcXpSf_ok hA hrN rfl, bind_ok, setRow_ok _ _ hr rfl, bind_ok,
    toY_ok hA, bind_ok, setRow_ok _ _ hr rfl, bind_ok]
  have h0 : (⟨rows P n fun p => if p = r then fun i => bin F (r * F.d) (c i).1 else fun _ => 0,
      rows P n fun p => if p = r then fun i => (c i).2 / f.dEbin + f.synchPartY else fun _ => 0,
      tab n fun i => (c i).1, tab n fun i => (c i).2, tab n fun i => bin F (r * F.d) (c i).1, (r : Int),
      ((r * F.d : ℕ) : Int)⟩ : SS K) = mkS F P n (rowsUp sin f F r c (r * F.d)) c (r : Int) (r * F.d) := by
    have hrow : ∀ p i, rowsUp sin f F r c (r * F.d) p i = if p = r then conv f F (r * F.d) (c i) else (0, 0) := by
      intro p i
      unfold rowsUp
      by_cases h : p = r
      · subst h; simp [upS]
      · rw [if_neg h, if_neg]
        rintro ⟨h1, h2⟩
        have := Nat.le_of_mul_le_mul_right h2 hd
        omega
    unfold mkS
    congr 1
    · unfold rows; apply tab_congr; intro p _; apply tab_congr; intro i _
      dsimp only
      rw [hrow]; by_cases h : p = r <;> simp [h, conv]
    · unfold rows; apply tab_congr; intro p _; apply tab_congr; intro i _
      dsimp only
      rw [hrow]; by_cases h : p = r <;> simp [h, conv]
  have hf1 : ((N : Int) - ((r * F.d : ℕ) : Int)).toNat = N - r * F.d := by omega
  rw [h0, hf1, upLoopSelf hA hwrap hd hN hr c, bind_ok, Int.toNat_natCast]
  have hrow : ∀ p, p < P → ∀ i, rowsUp sin f F r c N p i = rowsDown sin f F r c (r * F.d) p i := by
    intro p hp i
    have hpN : p * F.d ≤ N := by rw [hN]; exact Nat.mul_le_mul_right _ (by omega)
    unfold rowsUp rowsDown
    by_cases h : r ≤ p
    · rw [if_pos ⟨h, hpN⟩, if_pos h]
    · rw [if_neg (fun h' => h h'.1), if_neg h, if_neg]
      intro h'
      exact h (Nat.le_of_mul_le_mul_right h' hd)
  have h1 : ({ mkS F P n (rowsUp sin f F r c N) (fun i => upS sin F (r * F.d) (N - r * F.d) (c i)) ((P - 1 : ℕ) : Int) N with
        dphi := tab n fun i => (c i).1, denergy := tab n fun i => (c i).2,
        tempXp := tab n fun i => bin F (r * F.d) (c i).1, profile := (r : Int) - 1, turn := ((r * F.d : ℕ) : Int) } : SS K)
      = mkS F P n (rowsDown sin f F r c (r * F.d)) c ((r : Int) - 1) (r * F.d) := by
    rw [mkS_congr (X := rowsUp sin f F r c N) (Y := rowsDown sin f F r c (r * F.d)) (fun p i hp _ => hrow p hp i)
      (fun _ _ => rfl) rfl rfl]
    rfl
  have hg : getRow (mkS F P n (rowsUp sin f F r c N) (fun i => upS sin F (r * F.d) (N - r * F.d) (c i))
      ((P - 1 : ℕ) : Int) N).xp (r : Int) = .ok (tab n fun i => bin F (r * F.d) (c i).1) := by
    unfold mkS
    dsimp only
    rw [getRow_ok _ hr]
    congr 1; apply tab_congr; intro i _
    unfold rowsUp
    rw [if_pos ⟨le_rfl, hrN⟩, Nat.sub_self]
    rfl
  rw [hg, bind_ok, h1, downLoopSelf hA hwrap hd hN hr c, bind_ok]
  have hfin : ∀ p i, rowsDown sin f F r c 0 p i = conv f F (p * F.d) (transportS sin F (r * F.d) (p * F.d) (c i)) := by
    intro p i
    unfold rowsDown transportS
    by_cases h : r ≤ p
    · rw [if_pos h, if_pos (Nat.mul_le_mul_right _ h)]
    · rw [if_neg h, if_pos (Nat.zero_le _), if_neg]
      intro h'
      exact h (Nat.le_of_mul_le_mul_right h' hd)
  unfold mkS
  simp only [pure_eq_ok, hfin]

end

end Verif.SelfF

namespace Verif.SelfF
open Spec Track Mch
variable {K : Type} [Field K] [LinearOrder K] [IsStrictOrderedRing K] [FloorRing K]

/-! ## The table -/

/-- radians per bin at the turn `calc_self_fields` looks at -/
theorem findWrapLength_ok {L : MathLib K} {m : SMach K} {drad : K} (hd : dradBin m = .ok drad) (h0 : 0 < drad)
    (hpi : 0 < L.pi) :
    ∃ (w : K) (l : ℕ) (k : ℕ), findWrapLength L m = .ok (w, (l : Int)) ∧ w = k * (2 * L.pi) ∧
      m.nbins * drad ≤ w ∧ w < m.nbins * drad + 2 * L.pi ∧ w ≤ l * drad ∧ l * drad < w + drad ∧ m.nbins ≤ l := by
  have h2 : 0 < 2 * L.pi := by linarith
  unfold findWrapLength
  rw [hd, bind_ok, fdiv_ok h2.ne', bind_ok]
  dsimp only
  rw [fdiv_ok h0.ne', bind_ok]
  set r : K := m.nbins * drad / (2 * L.pi) with hr
  have hr0 : 0 ≤ r := div_nonneg (mul_nonneg (Nat.cast_nonneg _) h0.le) h2.le
  have hc0 : 0 ≤ ⌈r⌉ := Int.ceil_nonneg hr0
  obtain ⟨k, hk⟩ : ∃ k : ℕ, ⌈r⌉ = k := ⟨⌈r⌉.toNat, by omega⟩
  have hrk : r ≤ k := by have := Int.le_ceil r; rw [hk] at this; exact_mod_cast this
  have hkr : (k : K) < r + 1 := by have := Int.ceil_lt_add_one r; rw [hk] at this; exact_mod_cast this
  rw [hk]
  have hw : ((k : Int) : K) * 2 * L.pi = k * (2 * L.pi) := by push_cast; ring
  rw [hw]
  set w : K := k * (2 * L.pi) with hwdef
  have hrm : r * (2 * L.pi) = m.nbins * drad := by rw [hr]; field_simp
  have hnw : m.nbins * drad ≤ w := by rw [← hrm]; exact mul_le_mul_of_nonneg_right hrk h2.le
  have hwn : w < m.nbins * drad + 2 * L.pi := by
    rw [← hrm]
    have := mul_lt_mul_of_pos_right hkr h2
    linarith
  have hx0 : 0 ≤ w / drad := div_nonneg (mul_nonneg (Nat.cast_nonneg _) h2.le) h0.le
  obtain ⟨l, hl⟩ : ∃ l : ℕ, ⌈w / drad⌉ = l := ⟨⌈w / drad⌉.toNat, by have := Int.ceil_nonneg hx0; omega⟩
  have hxl : w / drad ≤ l := by have := Int.le_ceil (w / drad); rw [hl] at this; exact_mod_cast this
  have hlx : (l : K) < w / drad + 1 := by have := Int.ceil_lt_add_one (w / drad); rw [hl] at this; exact_mod_cast this
  have hwl : w ≤ l * drad := (div_le_iff₀ h0).1 hxl
  refine ⟨w, l, k, by rw [hl]; rfl, rfl, hnw, hwn, hwl, ?_, ?_⟩
  · have := mul_lt_mul_of_pos_right hlx h0
    rw [add_mul, div_mul_cancel₀ _ h0.ne', one_mul] at this
    exact this
  · have : (m.nbins : K) * drad ≤ l * drad := hnw.trans hwl
    exact_mod_cast le_of_mul_le_mul_right this h0

/-- the self-field coefficient of a profile -/
def coeff (L : MathLib K) (e tiny : K) (m : SMach K) (w b : K) : K :=
  e / w * ((1 / b - b) * m.gCoupling * L.pi * tiny * L.c - m.zwallOverN) / m.dtbin ^ 2

theorem selfFieldCoeffs_ok {L : MathLib K} {e tiny : K} {m : SMach K} {d : ℕ} {w b : ℕ → K} (hd : m.dturns = d)
    (hw : ∀ p, p < m.nprofiles → m.omegaRev0[p * d]? = some (w p) ∧ w p ≠ 0)
    (hb : ∀ p, p < m.nprofiles → m.beta0[p * d]? = some (b p) ∧ b p ≠ 0) (hdt : m.dtbin ≠ 0) :
    selfFieldCoeffs L e tiny m = .ok (tab m.nprofiles fun p => coeff L e tiny m (w p) (b p)) := by
  unfold selfFieldCoeffs
  refine mapM_ok (g := fun p => coeff L e tiny m (w p) (b p)) _ fun p hp => ?_
  have hp : p < m.nprofiles := List.mem_range.1 hp
  have hz : (p : Int) * m.dturns = ((p * d : ℕ) : Int) := by rw [hd]; push_cast; rfl
  dsimp only
  rw [npGet_some hz (hw p hp).1, bind_ok, npGet_some hz (hb p hp).1, bind_ok, fdiv_ok (hw p hp).2, bind_ok,
    fdiv_ok (hb p hp).2, bind_ok, fdiv_ok (pow_ne_zero 2 hdt)]
  rfl

theorem selfRow_ok {charge si sj : K} {nb l : ℕ} (D E : ℕ → K) (h : nb ≤ l) :
    selfRow charge si sj (tab nb D) (tab nb E) nb (l : Int)
      = .ok (tab (l + 1) fun j => if j < nb then 1 / 2 * charge * (si * D j + sj * E j) else 0) := by
  unfold selfRow
  rw [if_neg (by omega)]
  have e1 : (tab nb D).take nb = tab nb D := List.take_of_length_le (by simp)
  have e2 : (tab nb E).take nb = tab nb E := List.take_of_length_le (by simp)
  rw [e1, e2]
  have e3 : List.zipWith (fun a b => 1 / 2 * charge * (si * a + sj * b)) (tab nb D) (tab nb E)
      = tab nb fun j => 1 / 2 * charge * (si * D j + sj * E j) := by
    unfold tab; rw [List.zipWith_map, List.zipWith_self]
  rw [e3]
  dsimp only
  rw [length_tab, if_pos (by omega)]
  simp only [pure_eq_ok]
  congr 1
  have ht : ((l : Int) + 1).toNat - nb = l + 1 - nb := by omega
  rw [ht]
  apply List.ext_getElem
  · simp; omega
  · intro i h1 h2
    simp only [getElem_tab, List.getElem_append, length_tab]
    by_cases hi : i < nb
    · rw [dif_pos hi, if_pos hi]
    · rw [dif_neg hi, if_neg hi]; simp

theorem calculateSelf_ok {L : MathLib K} {e tiny : K} {m : SMach K} {s : ℕ → K} {charge : K} {l : ℕ} (D : ℕ → ℕ → K)
    (hs : selfFieldCoeffs L e tiny m = .ok (tab m.nprofiles s)) (h : m.nbins ≤ l) :
    calculateSelf L e tiny m charge (arr m.nprofiles m.nbins D) (l : Int)
      = .ok (tab (m.nprofiles - 1) fun p => tab (l + 1) fun j =>
          if j < m.nbins then 1 / 2 * charge * (s p * D p j + s (p + 1) * D (p + 1) j) else 0) := by
  unfold calculateSelf
  rw [hs, bind_ok]
  refine mapM_ok (g := fun p => tab (l + 1) fun j =>
          if j < m.nbins then 1 / 2 * charge * (s p * D p j + s (p + 1) * D (p + 1) j) else 0) _ fun p hp => ?_
  have hp : p < m.nprofiles - 1 := List.mem_range.1 hp
  have ez : (p : Int) + 1 = ((p + 1 : ℕ) : Int) := by push_cast; rfl
  rw [ez, npGet_tab _ (by omega), bind_ok, npGet_tab _ (by omega), bind_ok, arr_rows, npGet_tab _ (by omega), bind_ok,
    npGet_tab _ (by omega), bind_ok, selfRow_ok _ _ h]

/-- zero voltages: the motion is that without self fields -/
theorem upS_zero {sin : K → K} {F : SelfProgram K} (hV : ∀ p j, F.V p j = 0) (s k : ℕ) (x : K × K) :
    upS sin F s k x = up sin F.R s k x := by
  induction k with
  | zero => rfl
  | succ k ih => simp only [upS, up, ih, fwdS, hV, zero_mul, add_zero]

theorem downS_zero {sin : K → K} {F : SelfProgram K} (hV : ∀ p j, F.V p j = 0) (s k : ℕ) (x : K × K) :
    downS sin F s k x = down sin F.R s k x := by
  induction k with
  | zero => rfl
  | succ k ih => simp only [downS, down, ih, bwdS, hV, zero_mul, add_zero, bwd]

theorem transportS_zero {sin : K → K} {F : SelfProgram K} (hV : ∀ p j, F.V p j = 0) (s t : ℕ) (x : K × K) :
    transportS sin F s t x = transport sin F.R s t x := by
  unfold transportS transport
  rw [upS_zero hV, downS_zero hV]

/-- one turn up and down -/
theorem bwdS_fwdS {sin : K → K} {F : SelfProgram K} (t : ℕ) (x : K × K) :
    let j := ⌊bin F (t + 1) (x.1 - F.R.coef t * x.2)⌋
    let δ := (F.V (t / F.d) (j - 1) + F.V (t / F.d) j) * F.q
    bwdS sin F t (fwdS sin F t x) = (x.1 + F.R.coef t * δ, x.2 + δ) := by
  simp only [bwdS, fwdS, fwd]
  ext <;> ring

theorem bin_add {F : SelfProgram K} {t : ℕ} (hw : 0 < F.wrap) (φ : K) (k : ℤ) : bin F t (φ + k * F.wrap) = bin F t φ := by
  unfold bin
  have e : edgePhase F t (φ + k * F.wrap) = edgePhase F t φ + k * F.wrap := by unfold edgePhase; ring
  rw [e, add_div, mul_div_cancel_right₀ _ hw.ne', Int.floor_add_intCast]
  push_cast
  congr 1; ring

theorem xpSf_add {f : SF K} (hw : f.phiwrap ≠ 0) (φ p0 w : K) (k : ℤ) :
    xpSf f (φ + k * f.phiwrap) p0 w = xpSf f φ p0 w := by
  unfold xpSf
  dsimp only
  have e : φ + k * f.phiwrap + p0 - f.xorigin * f.hNum * w * f.dtbin
      = (φ + p0 - f.xorigin * f.hNum * w * f.dtbin) + k * f.phiwrap := by ring
  rw [e, fdiv_ok hw, fdiv_ok hw, bind_ok, bind_ok, add_div, mul_div_cancel_right₀ _ hw, Int.floor_add_intCast]
  push_cast
  congr 1; ring

end Verif.SelfF

import Verif.Lemmas.Tracking

/-! # The python, CuPy and CUDA tracking loops -/

set_option linter.unusedSectionVars false

namespace Verif.Track
open Spec

variable {α : Type _} [Add α] [Sub α] [Mul α]

theorem setRow_ok {P n q : ℕ} (X : ℕ → ℕ → α) (v : ℕ → α) (hq : q < P) {z : Int} (hz : z = q) :
    setRow (rows P n X) z (tab n v) = .ok (rows P n fun p => if p = q then v else X p) := by
  subst hz
  unfold setRow rows
  rw [if_pos (by omega), Int.toNat_natCast, length_tab, if_pos hq, set_tab]
  congr 1; apply tab_congr; intro p _
  by_cases h : p = q <;> simp [h]

theorem getRow_ok {P n q : ℕ} (X : ℕ → ℕ → α) (hq : q < P) :
    getRow (rows P n X) q = .ok (tab n (X q)) := by
  unfold getRow rows
  rw [if_pos (by omega), rd_tab _ hq]

def mkP (P n : ℕ) (X : ℕ → ℕ → α × α) (c : ℕ → α × α) (prof turn : ℕ) (_k : ℕ) : PS α :=
  ⟨rows P n fun p i => (X p i).1, rows P n fun p i => (X p i).2, tab n fun i => (c i).1, tab n fun i => (c i).2,
    prof, turn⟩

theorem mkP_congr {P n : ℕ} (X Y : ℕ → ℕ → α × α) (c c' : ℕ → α × α) (q t k : ℕ)
    (h1 : ∀ p i, p < P → i < n → X p i = Y p i) (h2 : ∀ i, i < n → c i = c' i) :
    mkP P n X c q t k = mkP P n Y c' q t k := by
  unfold mkP rows
  have e1 : (tab P fun p => tab n fun i => (X p i).1) = tab P fun p => tab n fun i => (Y p i).1 :=
    tab_congr fun p hp => tab_congr fun i hi => by rw [h1 p i hp hi]
  have e2 : (tab P fun p => tab n fun i => (X p i).2) = tab P fun p => tab n fun i => (Y p i).2 :=
    tab_congr fun p hp => tab_congr fun i hi => by rw [h1 p i hp hi]
  have e3 : (tab n fun i => (c i).1) = tab n fun i => (c' i).1 := tab_congr fun i hi => by rw [h2 i hi]
  have e4 : (tab n fun i => (c i).2) = tab n fun i => (c' i).2 := tab_congr fun i hi => by rw [h2 i hi]
  rw [e1, e2, e3, e4]

theorem mod_iff {t d : ℕ} {z : Int} (hz : z = t) : (z % (d : Int) = 0) ↔ d ∣ t := by
  subst hz
  rw [← Int.natCast_mod]
  norm_cast
  exact (Nat.dvd_iff_mod_eq_zero).symm

theorem tmod_iff {t d : ℕ} {z : Int} (hz : z = t) : (z.tmod (d : Int) = 0) ↔ d ∣ t := by
  subst hz
  rw [← Int.ofNat_tmod]
  norm_cast
  exact (Nat.dvd_iff_mod_eq_zero).symm

/-- a machine whose scalar `phi12` is spread over the turns -/
def spread (m : Mach α) (phi12 : α) (nturns : ℕ) : Mach α :=
  { m with phi12 := List.replicate (nturns + 1) phi12 }

theorem spread_phi12 {m : Mach α} {phi12 : α} {nturns : ℕ} {R : Program α} (hA : Agrees (spread m phi12 nturns) nturns R)
    {t : ℕ} (ht : t ≤ nturns) : R.phi12 t = phi12 := by
  have := hA.phi12 t ht
  unfold spread at this
  simp only [List.getElem?_replicate] at this
  rw [if_pos (by omega)] at this
  exact (Option.some.inj this).symm

section
variable {m : Mach α} {phi12 : α} {nturns : ℕ} {R : Program α} (hA : Agrees (spread m phi12 nturns) nturns R)
include hA
theorem spread_driftCoef : ∀ t, t < nturns → m.driftCoef[t]? = some (R.coef t) := hA.driftCoef
theorem spread_rf1v : ∀ t, t ≤ nturns → m.rf1v[t]? = some (R.rf1 t) := hA.rf1v
theorem spread_rf2v : ∀ t, t ≤ nturns → m.rf2v[t]? = some (R.rf2 t) := hA.rf2v
theorem spread_phi0 : ∀ t, t ≤ nturns → m.phi0[t]? = some (R.phi0 t) := hA.phi0
theorem spread_deltaE0 : ∀ t, t ≤ nturns → m.deltaE0[t]? = some (R.dE t) := hA.deltaE0
end

theorem upBodyPy_ok {sin : α → α} {m : Mach α} {phi12 : α} {R : Program α} {P n nturns d : ℕ}
    (hA : Agrees (spread m phi12 nturns) nturns R) (X : ℕ → ℕ → α × α) (c : ℕ → α × α) {prof t k : ℕ}
    (ht : t < nturns) (hP : d ∣ t + 1 → prof + 1 < P) :
    upBodyPy sin m phi12 d n (mkP P n X c prof t k)
      = .ok (mkP P n
          (if d ∣ t + 1 then fun p i => if p = prof + 1 then fwd sin R t (c i) else X p i else X)
          (fun i => fwd sin R t (c i)) (prof + if d ∣ t + 1 then 1 else 0) (t + 1) (k + 1)) := by
  have h12 := spread_phi12 hA ht
  unfold upBodyPy mkP
  dsimp only
  have et : ((t : Int) + 1) = ((t + 1 : ℕ) : Int) := by push_cast; rfl
  have hr : m.hratio = R.h := hA.hratio
  rw [rd_some (spread_driftCoef hA t ht), bind_ok, driftUp_ok, bind_ok, rd_some' et (spread_rf1v hA _ ht), bind_ok,
    rd_some' et (spread_rf2v hA _ ht), bind_ok, rd_some' et (spread_phi0 hA _ ht), bind_ok,
    rd_some' et (spread_deltaE0 hA _ ht), bind_ok, kickUp_ok, bind_ok, hr, ← h12]
  have hmod := mod_iff (d := d) et
  by_cases hd : d ∣ t + 1
  · rw [if_pos (hmod.mpr hd)]
    have hq := hP hd
    simp only [if_pos hd]
    rw [setRow_ok _ _ hq (by push_cast; rfl), bind_ok, setRow_ok _ _ hq (by push_cast; rfl), bind_ok]
    simp only [pure_eq_ok]
    congr 2
    · unfold rows; apply tab_congr; intro p _
      by_cases h : p = prof + 1 <;> simp [h, fwd]
    · unfold rows; apply tab_congr; intro p _
      by_cases h : p = prof + 1 <;> simp [h, fwd, gain, energyGain]
  · rw [if_neg (fun h => hd (hmod.mp h))]
    simp only [if_neg hd, pure_eq_ok, Nat.add_zero]
    rfl

theorem downBodyPy_ok {sin : α → α} {m : Mach α} {phi12 : α} {R : Program α} {P n nturns d : ℕ}
    (hA : Agrees (spread m phi12 nturns) nturns R) (X : ℕ → ℕ → α × α) (c : ℕ → α × α) {prof t k : ℕ}
    (ht : t < nturns) (hP : d ∣ t → prof ≤ P ∧ 0 < prof) :
    downBodyPy sin m phi12 d n (mkP P n X c prof (t + 1) k)
      = .ok (mkP P n
          (if d ∣ t then fun p i => if p = prof - 1 then bwd sin R t (c i) else X p i else X)
          (fun i => bwd sin R t (c i)) (prof - if d ∣ t then 1 else 0) t (k + 1)) := by
  have h12 := spread_phi12 hA ht
  unfold downBodyPy mkP
  dsimp only
  have et : (((t + 1 : ℕ) : Int) - 1) = (t : Int) := by push_cast; ring
  have hr : m.hratio = R.h := hA.hratio
  rw [rd_some (spread_rf1v hA _ ht), bind_ok,
    rd_some (spread_rf2v hA _ ht), bind_ok, rd_some (spread_phi0 hA _ ht), bind_ok,
    rd_some (spread_deltaE0 hA _ ht), bind_ok, kickDown_ok, bind_ok, hr, et,
    rd_some (spread_driftCoef hA t ht), bind_ok, driftDown_ok, bind_ok, ← h12]
  have hmod := mod_iff (t := t) (d := d) rfl
  by_cases hd : d ∣ t
  · rw [if_pos (hmod.mpr hd)]
    obtain ⟨hq, hq0⟩ := hP hd
    have hq' : prof - 1 < P := by omega
    have e : ((prof : Int) - 1) = ((prof - 1 : ℕ) : Int) := by push_cast [hq0]; rfl
    simp only [if_pos hd]
    rw [setRow_ok _ _ hq' e, bind_ok, setRow_ok _ _ hq' e, bind_ok]
    simp only [pure_eq_ok, e]
    congr 2
    · unfold rows; apply tab_congr; intro p _
      by_cases h : p = prof - 1 <;> simp [h, bwd, gain, energyGain]
    · unfold rows; apply tab_congr; intro p _
      by_cases h : p = prof - 1 <;> simp [h, bwd, gain, energyGain]
  · rw [if_neg (fun h => hd (hmod.mp h))]
    simp only [if_neg hd, pure_eq_ok, Nat.sub_zero]
    rfl

theorem ceil_mul {d r : ℕ} (hd : 0 < d) : (r * d + (d - 1)) / d = r := by
  rw [Nat.div_eq_iff hd]; omega

theorem zeros_eq (P n : ℕ) (zero : α) : List.replicate P (List.replicate n zero) = rows P n fun _ _ => zero := by
  unfold rows tab
  simp [List.map_const']

/-- the python loop computes `transport` for every `deltaturn ≤ 0`, in any arithmetic -/
theorem kickAndDriftPy_run {sin : α → α} {zero : α} {m : Mach α} {phi12 : α} {R : Program α} {P n d r s : ℕ} {δ : Int}
    (hd : 0 < d) (hA : Agrees (spread m phi12 ((P - 1) * d)) ((P - 1) * d) R) (hr : r < P)
    (hs : (s : Int) = r * d + δ) (h1 : -(d : Int) < δ) (h2 : δ ≤ 0) (c : ℕ → α × α) :
    kickAndDriftPy sin zero (tab n fun i => (c i).2) (tab n fun i => (c i).1) m phi12 d P r δ
      = .ok (mkP P n (fun p i => transport sin R s (p * d) (c i)) (fun i => down sin R s s (c i)) 0 0 0) := by
  obtain ⟨hneg, hpos⟩ := start_div hd hs h1 (by omega)
  have hrd : ((r * d : ℕ) : Int) = r * d := by push_cast; rfl
  have hrn : r * d ≤ (P - 1) * d := Nat.mul_le_mul_right d (by omega)
  have hsn : s ≤ (P - 1) * d := by omega
  have hP : (P - 1) * d < P * d := Nat.mul_lt_mul_of_pos_right (by omega) hd
  have hprof : (if δ < 0 then (r : Int) - 1 else r) = ((s / d : ℕ) : Int) := by
    by_cases h : δ < 0
    · obtain ⟨h3, h4⟩ := hneg h
      rw [if_pos h, h4]; omega
    · rw [if_neg h, hpos (by omega)]
  have hceil : (s + (d - 1)) / d = r := by
    rw [Nat.div_eq_iff hd]
    omega
  unfold kickAndDriftPy
  dsimp only
  rw [length_tab, Int.toNat_natCast, zeros_eq, hprof, ← hs]
  have hN : (d : Int) * ((P : Int) - 1) = (((P - 1) * d : ℕ) : Int) := by
    have : ((P - 1 : ℕ) : Int) = (P : Int) - 1 := by omega
    rw [Nat.cast_mul, this]; ring
  rw [hN]
  have hfuel : ((((P - 1) * d : ℕ) : Int) - s).toNat = (P - 1) * d - s := by omega
  rw [hfuel, Int.toNat_natCast]
  obtain ⟨X, hX1, hX2, hX⟩ : ∃ X : ℕ → ℕ → α × α,
      storeStart (rows P n fun _ _ => zero) r δ (tab n fun i => (c i).1)
        = .ok (rows P n fun p i => (X p i).1) ∧
      storeStart (rows P n fun _ _ => zero) r δ (tab n fun i => (c i).2)
        = .ok (rows P n fun p i => (X p i).2) ∧ (δ = 0 → ∀ i, X r i = c i) := by
    refine ⟨fun p i => if δ = 0 ∧ p = r then c i else (zero, zero), ?_, ?_, ?_⟩
    · unfold storeStart
      by_cases h : δ = 0
      · rw [if_pos h, setRow_ok _ _ hr rfl]
        congr 1; unfold rows; apply tab_congr; intro p _
        by_cases hp : p = r <;> simp [h, hp]
      · rw [if_neg h]; simp [h]
    · unfold storeStart
      by_cases h : δ = 0
      · rw [if_pos h, setRow_ok _ _ hr rfl]
        congr 1; unfold rows; apply tab_congr; intro p _
        by_cases hp : p = r <;> simp [h, hp]
      · rw [if_neg h]; simp [h]
    · intro h i; simp [h]
  rw [hX1, bind_ok, hX2, bind_ok]
  have hu := upLoop_gen (sin := sin) (R := R) (P := P) (n := n) hd hP hsn (mkP P n) mkP_congr
    (cond := fun st : PS α => decide (st.turn < (((P - 1) * d : ℕ) : Int))) (body := upBodyPy sin m phi12 d n)
    (fun X c q t k => by unfold mkP; exact decide_eq_decide.mpr (by dsimp only; omega))
    (fun X c q t k ht h => upBodyPy_ok hA X c ht h) X c 0
  unfold mkP at hu
  rw [hu, bind_ok]
  have hdn := downLoop_gen (sin := sin) (R := R) (P := P) (n := n) hd hP hsn (mkP P n) mkP_congr
    (cond := fun st : PS α => decide ((0 : Int) < st.turn)) (body := downBodyPy sin m phi12 d n)
    (fun X c q t k => by unfold mkP; exact decide_eq_decide.mpr (by dsimp only; omega))
    (fun X c q t k ht h => downBodyPy_ok hA X c ht h)
    (upRows sin R d s c X ((P - 1) * d - s)) c 0
  rw [hceil] at hdn
  unfold mkP at hdn
  dsimp only
  rw [hdn]
  congr 1
  apply mkP_congr (k := 0)
  · intro p i hp _
    have hsn' : s + ((P - 1) * d - s) = (P - 1) * d := by omega
    unfold downRows upRows transport
    rw [hsn', Nat.mul_div_cancel _ hd]
    by_cases hps : p * d < s
    · rw [if_pos (show p * d < s ∧ s ≤ p * d + s by omega), if_neg (show ¬ s ≤ p * d by omega)]
    · rw [if_neg (show ¬ (p * d < s ∧ s ≤ p * d + s) by omega), if_pos (show s ≤ p * d by omega)]
      by_cases hsp : s / d < p
      · rw [if_pos (show s / d < p ∧ p ≤ P - 1 from ⟨hsp, by omega⟩)]
      · rw [if_neg (show ¬ (s / d < p ∧ p ≤ P - 1) from fun h => hsp h.1)]
        have hle : p ≤ s / d := by omega
        have h3 : s / d * d ≤ s := Nat.div_mul_le_self s d
        have h4 : p * d ≤ s / d * d := Nat.mul_le_mul_right d hle
        have h5 : p * d = s := by omega
        have h6 : p = s / d := by rw [← h5, Nat.mul_div_cancel _ hd]
        have hδ : δ = 0 := by
          by_contra h
          obtain ⟨h7, h8⟩ := hneg (by omega)
          obtain ⟨q, rfl⟩ : ∃ q, r = q + 1 := ⟨r - 1, by omega⟩
          have : p = q := by omega
          subst this
          have e : (p + 1) * d = p * d + d := by ring
          omega
        have : p = r := by rw [h6]; exact hpos (by omega)
        rw [this, hX hδ, ← this, h5, Nat.sub_self]; rfl
  · intro i _; rfl

/-! ### CuPy -/

theorem upBodyCupy_ok {sin : α → α} {m : Mach α} {phi12 : α} {R : Program α} {P n nturns d : ℕ}
    (hA : Agrees (spread m phi12 nturns) nturns R) (X : ℕ → ℕ → α × α) (c : ℕ → α × α) {prof t k : ℕ}
    (ht : t < nturns) (hP : d ∣ t + 1 → prof + 1 < P) :
    upBodyCupy sin m (List.replicate (nturns + 1) phi12) d n (mkP P n X c prof t k)
      = .ok (mkP P n
          (if d ∣ t + 1 then fun p i => if p = prof + 1 then fwd sin R t (c i) else X p i else X)
          (fun i => fwd sin R t (c i)) (prof + if d ∣ t + 1 then 1 else 0) (t + 1) (k + 1)) := by
  unfold upBodyCupy mkP
  dsimp only
  have et : ((t : Int) + 1) = ((t + 1 : ℕ) : Int) := by push_cast; rfl
  have et' : ((t : Int) + 1 - 1) = (t : Int) := by ring
  have hr : m.hratio = R.h := hA.hratio
  have h12 : (List.replicate (nturns + 1) phi12)[t + 1]? = some (R.phi12 (t + 1)) := hA.phi12 _ ht
  rw [rd_some' et' (spread_driftCoef hA t ht), bind_ok, rd_some' et (spread_rf1v hA _ ht), bind_ok,
    rd_some' et (spread_rf2v hA _ ht), bind_ok, rd_some' et (spread_phi0 hA _ ht), bind_ok, rd_some' et h12, bind_ok,
    rd_some' et (spread_deltaE0 hA _ ht), bind_ok, driftUp_ok, bind_ok, kickUp_ok, bind_ok, hr]
  have hmod := mod_iff (d := d) et
  by_cases hd : d ∣ t + 1
  · rw [if_pos (hmod.mpr hd)]
    have hq := hP hd
    simp only [if_pos hd]
    rw [setRow_ok _ _ hq (by push_cast; rfl), bind_ok, setRow_ok _ _ hq (by push_cast; rfl), bind_ok]
    simp only [pure_eq_ok]
    congr 2
    · unfold rows; apply tab_congr; intro p _
      by_cases h : p = prof + 1 <;> simp [h, fwd]
    · unfold rows; apply tab_congr; intro p _
      by_cases h : p = prof + 1 <;> simp [h, fwd, gain, energyGain]
  · rw [if_neg (fun h => hd (hmod.mp h))]
    simp only [if_neg hd, pure_eq_ok, Nat.add_zero]
    rfl

theorem downBodyCupy_ok {sin : α → α} {m : Mach α} {phi12 : α} {R : Program α} {P n nturns d : ℕ}
    (hA : Agrees (spread m phi12 nturns) nturns R) (X : ℕ → ℕ → α × α) (c : ℕ → α × α) {prof t k : ℕ}
    (ht : t < nturns) (hP : d ∣ t → prof ≤ P ∧ 0 < prof) :
    downBodyCupy sin m (List.replicate (nturns + 1) phi12) d n (mkP P n X c prof (t + 1) k)
      = .ok (mkP P n
          (if d ∣ t then fun p i => if p = prof - 1 then bwd sin R t (c i) else X p i else X)
          (fun i => bwd sin R t (c i)) (prof - if d ∣ t then 1 else 0) t (k + 1)) := by
  unfold downBodyCupy mkP
  dsimp only
  have et : (((t + 1 : ℕ) : Int) - 1) = (t : Int) := by push_cast; ring
  have hr : m.hratio = R.h := hA.hratio
  have h12 : (List.replicate (nturns + 1) phi12)[t + 1]? = some (R.phi12 (t + 1)) := hA.phi12 _ ht
  rw [et, rd_some (spread_driftCoef hA t ht), bind_ok, rd_some (spread_rf1v hA _ ht), bind_ok,
    rd_some (spread_rf2v hA _ ht), bind_ok, rd_some (spread_phi0 hA _ ht), bind_ok, rd_some h12, bind_ok,
    rd_some (spread_deltaE0 hA _ ht), bind_ok, kickDown_ok, bind_ok, driftDown_ok, bind_ok, hr]
  have hmod := mod_iff (t := t) (d := d) rfl
  by_cases hd : d ∣ t
  · rw [if_pos (hmod.mpr hd)]
    obtain ⟨hq, hq0⟩ := hP hd
    have hq' : prof - 1 < P := by omega
    have e : ((prof : Int) - 1) = ((prof - 1 : ℕ) : Int) := by push_cast [hq0]; rfl
    simp only [if_pos hd]
    rw [setRow_ok _ _ hq' e, bind_ok, setRow_ok _ _ hq' e, bind_ok]
    simp only [pure_eq_ok, e]
    congr 2
    · unfold rows; apply tab_congr; intro p _
      by_cases h : p = prof - 1 <;> simp [h, bwd, gain, energyGain]
    · unfold rows; apply tab_congr; intro p _
      by_cases h : p = prof - 1 <;> simp [h, bwd, gain, energyGain]
  · rw [if_neg (fun h => hd (hmod.mp h))]
    simp only [if_neg hd, pure_eq_ok, Nat.sub_zero]
    rfl

theorem kickAndDriftCupy_run {sin : α → α} {m : Mach α} {phi12 : α} {R : Program α} {P n nturns d r s : ℕ} {δ : Int}
    (hd : 0 < d) (hA : Agrees (spread m phi12 nturns) nturns R) (hn : nturns = (P - 1) * d) (hr : r < P)
    (hs : (s : Int) = r * d + δ) (h1 : -(d : Int) < δ) (h2 : δ < d) (hsn : s ≤ nturns)
    (X : ℕ → ℕ → α × α) (c : ℕ → α × α) :
    ∃ st, kickAndDriftCupy sin (rows P n fun p i => (X p i).1) (rows P n fun p i => (X p i).2)
        (tab n fun i => (c i).2) (tab n fun i => (c i).1) m phi12 d r δ nturns n = .ok st ∧
      st.outPhi = (rows P n fun p i => (outRow sin R d r s (δ < 0) (c i) p).1) ∧
      st.outEn = (rows P n fun p i => (outRow sin R d r s (δ < 0) (c i) p).2) := by
  obtain ⟨hneg, hpos⟩ := start_div hd hs h1 h2
  have hprof : (if δ < 0 then (r : Int) - 1 else r) = ((s / d : ℕ) : Int) := by
    by_cases h : δ < 0
    · obtain ⟨h3, h4⟩ := hneg h
      rw [if_pos h, h4]; omega
    · rw [if_neg h, hpos (by omega)]
  have hsP : s / d < P := by
    by_cases h : δ < 0
    · have := hneg h; omega
    · have := hpos (by omega); omega
  have hrn : r * d ≤ nturns := by rw [hn]; exact Nat.mul_le_mul_right d (by omega)
  have hP : nturns < P * d := by
    rw [hn]; exact Nat.mul_lt_mul_of_pos_right (by omega) hd
  unfold kickAndDriftCupy
  dsimp only
  rw [hprof, setRow_ok _ _ hsP rfl, bind_ok, setRow_ok _ _ hsP rfl, bind_ok, ← hs]
  have hfuel : ((nturns : Int) - s).toNat = nturns - s := by omega
  have hrep : ((nturns : Int) + 1).toNat = nturns + 1 := by omega
  have hst : (⟨rows P n fun p => if p = s / d then fun i => (c i).1 else fun i => (X p i).1,
      rows P n fun p => if p = s / d then fun i => (c i).2 else fun i => (X p i).2,
      tab n fun i => (c i).1, tab n fun i => (c i).2, ((s / d : ℕ) : Int), (s : Int)⟩ : PS α)
      = mkP P n (fun p i => if p = s / d then c i else X p i) c (s / d) s 0 := by
    unfold mkP
    congr 1
    · unfold rows; apply tab_congr; intro p _
      by_cases h : p = s / d <;> simp [h]
    · unfold rows; apply tab_congr; intro p _
      by_cases h : p = s / d <;> simp [h]
  have hu := upLoop_gen (sin := sin) (R := R) (P := P) (n := n) hd hP hsn (mkP P n) mkP_congr
    (cond := fun st : PS α => decide (st.turn < (nturns : Int)))
    (body := upBodyCupy sin m (List.replicate (nturns + 1) phi12) d n)
    (fun X c q t k => by unfold mkP; exact decide_eq_decide.mpr (by dsimp only; omega))
    (fun X c q t k ht h => upBodyCupy_ok hA X c ht h) (fun p i => if p = s / d then c i else X p i) c 0
  rw [hfuel, hst, hrep, hu, bind_ok]
  have hfinal := fun {p i : ℕ} (hp : p < P) =>
    rows_total (sin := sin) (R := R) hd hn hr hs h1 h2 hsn X c (p := p) (i := i) hp
  by_cases hr0 : r = 0
  · subst hr0
    rw [if_neg (by simp)]
    refine ⟨_, rfl, ?_, ?_⟩
    · unfold mkP rows
      dsimp only
      apply tab_congr; intro p hp; apply tab_congr; intro i _
      rw [← hfinal hp]; unfold downRows; simp
    · unfold mkP rows
      dsimp only
      apply tab_congr; intro p hp; apply tab_congr; intro i _
      rw [← hfinal hp]; unfold downRows; simp
  · rw [if_pos (by omega)]
    simp only [mkP]
    rw [getRow_ok _ hr, bind_ok, getRow_ok _ hr, bind_ok]
    have ht : ((r : Int) * d).toNat = r * d := by
      rw [← Nat.cast_mul, Int.toNat_natCast]
    have hz : ((r : Int) * d) = ((r * d : ℕ) : Int) := by push_cast; rfl
    rw [ht, hz]
    have hdn := downLoop_gen (sin := sin) (R := R) (P := P) (n := n) hd hP hrn (mkP P n) mkP_congr
      (cond := fun st : PS α => decide ((0 : Int) < st.turn))
      (body := downBodyCupy sin m (List.replicate (nturns + 1) phi12) d n)
      (fun X c q t k => by unfold mkP; exact decide_eq_decide.mpr (by dsimp only; omega))
      (fun X c q t k ht h => downBodyCupy_ok hA X c ht h)
      (upRows sin R d s c (fun p i => if p = s / d then c i else X p i) (nturns - s))
      (upRows sin R d s c (fun p i => if p = s / d then c i else X p i) (nturns - s) r) 0
    rw [ceil_mul hd] at hdn
    unfold mkP at hdn
    refine ⟨_, hdn, ?_, ?_⟩
    · unfold rows
      dsimp only
      apply tab_congr; intro p hp; apply tab_congr; intro i _
      rw [hfinal hp]
    · unfold rows
      dsimp only
      apply tab_congr; intro p hp; apply tab_congr; intro i _
      rw [hfinal hp]

/-! ### CUDA -/

/-- thread `tid` of a launch sees a one-particle cloud; the other columns `Z` belong to other threads -/
def mkG (P n tid : ℕ) (Z : ℕ → ℕ → α × α) (X : ℕ → ℕ → α × α) (c : ℕ → α × α) (prof turn : ℕ) (_k : ℕ) : GS α :=
  ⟨flat P n fun p i => (if i = tid then X p 0 else Z p i).1, flat P n fun p i => (if i = tid then X p 0 else Z p i).2,
    (c 0).1, (c 0).2, prof, turn⟩

theorem mkG_congr {P n tid : ℕ} {Z : ℕ → ℕ → α × α} (X Y : ℕ → ℕ → α × α) (c c' : ℕ → α × α) (q t k : ℕ)
    (h1 : ∀ p i, p < P → i < 1 → X p i = Y p i) (h2 : ∀ i, i < 1 → c i = c' i) :
    mkG P n tid Z X c q t k = mkG P n tid Z Y c' q t k := by
  unfold mkG
  rw [h2 0 (by omega)]
  congr 1
  · apply flat_congr; intro p i hp _
    rw [h1 p 0 hp (by omega)]
  · apply flat_congr; intro p i hp _
    rw [h1 p 0 hp (by omega)]

theorem upd_mkG {P n tid q : ℕ} (htid : tid < n) (hq : q < P) (Z X : ℕ → ℕ → α × α) (v : α × α)
    (f : α × α → α) {z : Int} (hz : z = q) :
    upd (flat P n fun p i => f (if i = tid then X p 0 else Z p i)) ((n : Int) * z + tid) (f v)
      = .ok (flat P n fun p i => f (if i = tid then (if p = q then v else X p 0) else Z p i)) := by
  subst hz
  rw [upd_flat _ _ hq htid (by push_cast; ring)]
  congr 1
  apply flat_congr; intro p i _ _
  unfold upd2
  by_cases h1 : i = tid <;> by_cases h2 : p = q <;> simp [h1, h2]

theorem upBodyCuda_ok {sin : α → α} {m : Mach α} {R : Program α} {P n nturns d tid : ℕ} (htid : tid < n)
    (hA : Agrees m nturns R) (Z X : ℕ → ℕ → α × α) (c : ℕ → α × α) {prof t k : ℕ}
    (ht : t < nturns) (hP : d ∣ t + 1 → prof + 1 < P) :
    upBodyCuda sin m d n tid (mkG P n tid Z X c prof t k)
      = .ok (mkG P n tid Z
          (if d ∣ t + 1 then fun p i => if p = prof + 1 then fwd sin R t (c i) else X p i else X)
          (fun i => fwd sin R t (c i)) (prof + if d ∣ t + 1 then 1 else 0) (t + 1) (k + 1)) := by
  unfold upBodyCuda mkG
  dsimp only
  have et : ((t : Int) + 1) = ((t + 1 : ℕ) : Int) := by push_cast; rfl
  rw [rd_some (hA.driftCoef t ht), bind_ok, rd_some' et (hA.rf1v _ ht), bind_ok,
    rd_some' et (hA.rf2v _ ht), bind_ok, rd_some' et (hA.phi0 _ ht), bind_ok, rd_some' et (hA.phi12 _ ht), bind_ok,
    rd_some' et (hA.deltaE0 _ ht), bind_ok, hA.hratio]
  have hmod := tmod_iff (d := d) et
  by_cases hd : d ∣ t + 1
  · rw [if_pos (hmod.mpr hd)]
    have hq := hP hd
    simp only [if_pos hd]
    have e1 := upd_mkG htid hq Z X (fwd sin R t (c 0)) Prod.fst (z := (prof : Int) + 1) (by push_cast; rfl)
    have e2 := upd_mkG htid hq Z X (fwd sin R t (c 0)) Prod.snd (z := (prof : Int) + 1) (by push_cast; rfl)
    have f1 : (fwd sin R t (c 0)).1 = (c 0).1 - R.coef t * (c 0).2 := rfl
    have f2 : (fwd sin R t (c 0)).2 = (c 0).2 + energyGain sin (R.rf1 (t + 1)) (R.rf2 (t + 1)) (R.phi0 (t + 1))
      (R.phi12 (t + 1)) R.h (R.dE (t + 1)) ((c 0).1 - R.coef t * (c 0).2) := rfl
    rw [f1] at e1
    rw [f2] at e2
    rw [e1, bind_ok, e2, bind_ok]
    rfl
  · rw [if_neg (fun h => hd (hmod.mp h))]
    simp only [if_neg hd, pure_eq_ok, Nat.add_zero]
    rfl

theorem downBodyCuda_ok {sin : α → α} {m : Mach α} {R : Program α} {P n nturns d tid : ℕ} (htid : tid < n)
    (hA : Agrees m nturns R) (Z X : ℕ → ℕ → α × α) (c : ℕ → α × α) {prof t k : ℕ}
    (ht : t < nturns) (hP : d ∣ t → prof ≤ P ∧ 0 < prof) :
    downBodyCuda sin m d n tid (mkG P n tid Z X c prof (t + 1) k)
      = .ok (mkG P n tid Z
          (if d ∣ t then fun p i => if p = prof - 1 then bwd sin R t (c i) else X p i else X)
          (fun i => bwd sin R t (c i)) (prof - if d ∣ t then 1 else 0) t (k + 1)) := by
  unfold downBodyCuda mkG
  dsimp only
  have et : (((t + 1 : ℕ) : Int) - 1) = (t : Int) := by push_cast; ring
  rw [rd_some (hA.rf1v _ ht), bind_ok,
    rd_some (hA.rf2v _ ht), bind_ok, rd_some (hA.phi0 _ ht), bind_ok, rd_some (hA.phi12 _ ht), bind_ok,
    rd_some (hA.deltaE0 _ ht), bind_ok, hA.hratio, et, rd_some (hA.driftCoef t ht), bind_ok]
  have hmod := tmod_iff (t := t) (d := d) rfl
  by_cases hd : d ∣ t
  · rw [if_pos (hmod.mpr hd)]
    obtain ⟨hq, hq0⟩ := hP hd
    have hq' : prof - 1 < P := by omega
    have e : ((prof : Int) - 1) = ((prof - 1 : ℕ) : Int) := by push_cast [hq0]; rfl
    simp only [if_pos hd]
    have e1 := upd_mkG htid hq' Z X (bwd sin R t (c 0)) Prod.fst e
    have e2 := upd_mkG htid hq' Z X (bwd sin R t (c 0)) Prod.snd e
    have f2 : (bwd sin R t (c 0)).2 = (c 0).2 - energyGain sin (R.rf1 (t + 1)) (R.rf2 (t + 1)) (R.phi0 (t + 1))
      (R.phi12 (t + 1)) R.h (R.dE (t + 1)) (c 0).1 := rfl
    have f1 : (bwd sin R t (c 0)).1 = (c 0).1 + R.coef t * ((c 0).2 - energyGain sin (R.rf1 (t + 1)) (R.rf2 (t + 1))
      (R.phi0 (t + 1)) (R.phi12 (t + 1)) R.h (R.dE (t + 1)) (c 0).1) := rfl
    rw [f1] at e1
    rw [f2] at e2
    rw [e1, bind_ok, e2, bind_ok, e]
    rfl
  · rw [if_neg (fun h => hd (hmod.mp h))]
    simp only [if_neg hd, pure_eq_ok, Nat.sub_zero]
    rfl

theorem mkG_self {P n tid : ℕ} (Z : ℕ → ℕ → α × α) (c : ℕ → α × α) (q t : ℕ) :
    mkG P n tid Z (fun p _ => Z p tid) (fun _ => c tid) q t 0
      = ⟨flat P n fun p i => (Z p i).1, flat P n fun p i => (Z p i).2, (c tid).1, (c tid).2, q, t⟩ := by
  unfold mkG
  have : ∀ p i, (if i = tid then Z p tid else Z p i) = Z p i := by
    intro p i; by_cases h : i = tid <;> simp [h]
  simp only [this]

theorem launch_ok {P n threads prof turn : ℕ} (hth : n ≤ threads) (c : ℕ → α × α)
    (F : (ℕ → ℕ → α × α) → ℕ → ℕ → α × α) (loop : ℕ → GS α → M (GS α))
    (hF : ∀ Z Z' p i, Z p i = Z' p i → F Z p i = F Z' p i)
    (h : ∀ tid Z, tid < n → ∃ st, loop tid ⟨flat P n fun p i => (Z p i).1, flat P n fun p i => (Z p i).2,
        (c tid).1, (c tid).2, prof, turn⟩ = .ok st ∧
      st.xp = (flat P n fun p i => (if i = tid then F Z p i else Z p i).1) ∧
      st.yp = (flat P n fun p i => (if i = tid then F Z p i else Z p i).2))
    (Z : ℕ → ℕ → α × α) :
    launch threads n (tab n fun i => (c i).1) (tab n fun i => (c i).2) loop prof turn
        (flat P n fun p i => (Z p i).1) (flat P n fun p i => (Z p i).2)
      = .ok (flat P n fun p i => (F Z p i).1, flat P n fun p i => (F Z p i).2) := by
  unfold launch
  rw [forN_eq (g := fun k => (flat P n fun p i => (if i < k then F Z p i else Z p i).1,
    flat P n fun p i => (if i < k then F Z p i else Z p i).2))]
  · congr 2
    · apply flat_congr; intro p i _ hi; rw [if_pos (by omega)]
    · apply flat_congr; intro p i _ hi; rw [if_pos (by omega)]
  · simp
  · intro tid _
    by_cases ht : tid < n
    · rw [if_pos ht, rd_tab _ ht, bind_ok, rd_tab _ ht, bind_ok]
      obtain ⟨st, h1, h2, h3⟩ := h tid (fun p i => if i < tid then F Z p i else Z p i) ht
      rw [h1, bind_ok, h2, h3]
      have key : ∀ p i, (if i = tid then F (fun p i => if i < tid then F Z p i else Z p i) p i
          else if i < tid then F Z p i else Z p i) = if i < tid + 1 then F Z p i else Z p i := by
        intro p i
        by_cases hi : i = tid
        · subst hi
          rw [if_pos rfl, if_pos (by omega)]
          apply hF; simp
        · rw [if_neg hi]
          have : i < tid + 1 ↔ i < tid := by omega
          simp only [this]
      simp only [key]
      rfl
    · rw [if_neg ht]
      have : ∀ p i, i < n → (if i < tid then F Z p i else Z p i) = if i < tid + 1 then F Z p i else Z p i := by
        intro p i hi
        rw [if_pos (by omega), if_pos (by omega)]
      simp only [pure_eq_ok]
      congr 2
      · apply flat_congr; intro p i _ hi; rw [this p i hi]
      · apply flat_congr; intro p i _ hi; rw [this p i hi]

theorem setFlatRow_ok {P n q : ℕ} (X : ℕ → ℕ → α) (v : ℕ → α) (hq : q < P) :
    setFlatRow (flat P n X) q (tab n v) n = .ok (flat P n fun p i => if p = q then v i else X p i) := by
  unfold setFlatRow
  rw [forN_eq (g := fun k => flat P n fun p i => if p = q ∧ i < k then v i else X p i)]
  · congr 1; apply flat_congr; intro p i _ hi; simp [hi]
  · simp
  · intro i hi
    rw [rd_tab _ hi, bind_ok, upd_flat _ _ hq hi (by push_cast; ring)]
    congr 1; apply flat_congr; intro a b _ _
    unfold upd2
    by_cases h1 : a = q ∧ b = i
    · rw [if_pos h1, if_pos ⟨h1.1, by omega⟩, h1.2]
    · rw [if_neg h1]
      have : (a = q ∧ b < i) ↔ (a = q ∧ b < i + 1) := by omega
      simp only [this]

theorem mapM_range {β : Type _} {n : ℕ} {f : ℕ → M β} {g : ℕ → β} (h : ∀ i, i < n → f i = .ok (g i)) :
    (List.range n).mapM f = .ok (tab n g) := by
  induction n with
  | zero => rfl
  | succ n ih =>
    rw [List.range_succ, List.mapM_append, ih (fun i hi => h i (by omega)), tab_snoc]
    simp [h n (by omega)]

theorem getFlatRow_ok {P n q : ℕ} (X : ℕ → ℕ → α) (hq : q < P) :
    getFlatRow (flat P n X) q n = .ok (tab n (X q)) := by
  unfold getFlatRow
  refine mapM_range (g := X q) ?_
  intro i hi
  rw [rd_flat _ hq hi (by push_cast; ring)]

theorem gridSize_cover {n block : ℕ} (hb : 0 < block) : n ≤ gridSize n block * block := by
  unfold gridSize
  have := Nat.lt_div_mul_add (a := n) hb
  rw [Nat.add_mul, Nat.one_mul]; omega

theorem kickAndDriftCuda_run {sin : α → α} {m : Mach α} {phi12 : α} {R : Program α} {P n nturns d r s block : ℕ}
    {δ : Int} (hb : 0 < block)
    (hd : 0 < d) (hA : Agrees (spread m phi12 nturns) nturns R) (hn : nturns = (P - 1) * d) (hr : r < P)
    (hs : (s : Int) = r * d + δ) (h1 : -(d : Int) < δ) (h2 : δ < d) (hsn : s ≤ nturns)
    (X : ℕ → ℕ → α × α) (c : ℕ → α × α) :
    kickAndDriftCuda sin block (flat P n fun p i => (X p i).1) (flat P n fun p i => (X p i).2)
        (tab n fun i => (c i).2) (tab n fun i => (c i).1) m phi12 d r δ nturns n
      = .ok (flat P n fun p i => (outRow sin R d r s (δ < 0) (c i) p).1,
          flat P n fun p i => (outRow sin R d r s (δ < 0) (c i) p).2) := by
  obtain ⟨hneg, hpos⟩ := start_div hd hs h1 h2
  have hprof : (if δ < 0 then (r : Int) - 1 else r) = ((s / d : ℕ) : Int) := by
    by_cases h : δ < 0
    · obtain ⟨h3, h4⟩ := hneg h
      rw [if_pos h, h4]; omega
    · rw [if_neg h, hpos (by omega)]
  have hsP : s / d < P := by
    by_cases h : δ < 0
    · have := hneg h; omega
    · have := hpos (by omega); omega
  have hrn : r * d ≤ nturns := by rw [hn]; exact Nat.mul_le_mul_right d (by omega)
  have hP : nturns < P * d := by
    rw [hn]; exact Nat.mul_lt_mul_of_pos_right (by omega) hd
  have hrep : ((nturns : Int) + 1).toNat = nturns + 1 := by omega
  unfold kickAndDriftCuda
  dsimp only
  rw [hprof, setFlatRow_ok _ _ hsP, bind_ok, setFlatRow_ok _ _ hsP, bind_ok, ← hs, hrep]
  have hfuel : ((nturns : Int) - s).toNat = nturns - s := by omega
  rw [hfuel]
  have e1 : (flat P n fun p i => if p = s / d then (c i).1 else (X p i).1)
      = flat P n fun p i => (if p = s / d then c i else X p i).1 := by
    apply flat_congr; intro p i _ _
    by_cases h : p = s / d <;> simp [h]
  have e2 : (flat P n fun p i => if p = s / d then (c i).2 else (X p i).2)
      = flat P n fun p i => (if p = s / d then c i else X p i).2 := by
    apply flat_congr; intro p i _ _
    by_cases h : p = s / d <;> simp [h]
  have hA' : Agrees { m with phi12 := List.replicate (nturns + 1) phi12 } nturns R := hA
  rw [e1, e2, launch_ok (P := P) (gridSize_cover hb) c (fun Z => upRows sin R d s c Z (nturns - s)), bind_ok]
  · have hfinal := fun {p i : ℕ} (hp : p < P) =>
      rows_total (sin := sin) (R := R) hd hn hr hs h1 h2 hsn X c (p := p) (i := i) hp
    dsimp only
    by_cases hr0 : r = 0
    · subst hr0
      rw [if_neg (by simp)]
      simp only [pure_eq_ok]
      congr 2
      · apply flat_congr; intro p i hp _
        rw [← hfinal hp]; unfold downRows; simp
      · apply flat_congr; intro p i hp _
        rw [← hfinal hp]; unfold downRows; simp
    · rw [if_pos (by omega), getFlatRow_ok _ hr, bind_ok, getFlatRow_ok _ hr, bind_ok]
      have ht : ((r : Int) * d).toNat = r * d := by
        rw [← Nat.cast_mul, Int.toNat_natCast]
      have hz : ((r : Int) * d) = ((r * d : ℕ) : Int) := by push_cast; rfl
      rw [ht, hz, launch_ok (P := P) (gridSize_cover hb)
        (upRows sin R d s c (fun p i => if p = s / d then c i else X p i) (nturns - s) r)
        (fun Z => downRows sin R d (r * d)
          (upRows sin R d s c (fun p i => if p = s / d then c i else X p i) (nturns - s) r) Z (r * d))]
      · congr 2
        · apply flat_congr; intro p i hp _
          rw [hfinal hp]
        · apply flat_congr; intro p i hp _
          rw [hfinal hp]
      · intro Z Z' p i h
        unfold downRows; rw [h]
      · intro tid Z htid
        have hdn := downLoop_gen (sin := sin) (R := R) (P := P) (n := 1) hd hP hrn (mkG P n tid Z) mkG_congr
          (cond := fun st : GS α => decide ((0 : Int) < st.turn))
          (body := downBodyCuda sin { m with phi12 := List.replicate (nturns + 1) phi12 } d n tid)
          (fun X c q t k => by unfold mkG; exact decide_eq_decide.mpr (by dsimp only; omega))
          (fun X c q t k ht h => downBodyCuda_ok htid hA' Z X c ht h) (fun p _ => Z p tid)
          (fun _ => upRows sin R d s c (fun p i => if p = s / d then c i else X p i) (nturns - s) r tid) 0
        rw [ceil_mul hd,
          mkG_self (c := upRows sin R d s c (fun p i => if p = s / d then c i else X p i) (nturns - s) r)] at hdn
        refine ⟨_, hdn, ?_, ?_⟩
        · unfold mkG
          dsimp only
          apply flat_congr; intro p i _ _
          by_cases h : i = tid
          · rw [if_pos h, if_pos h, h]; rfl
          · rw [if_neg h, if_neg h]
        · unfold mkG
          dsimp only
          apply flat_congr; intro p i _ _
          by_cases h : i = tid
          · rw [if_pos h, if_pos h, h]; rfl
          · rw [if_neg h, if_neg h]
  · intro Z Z' p i h
    unfold upRows; rw [h]
  · intro tid Z htid
    have hu := upLoop_gen (sin := sin) (R := R) (P := P) (n := 1) hd hP hsn (mkG P n tid Z) mkG_congr
      (cond := fun st : GS α => decide (st.turn < (nturns : Int)))
      (body := upBodyCuda sin { m with phi12 := List.replicate (nturns + 1) phi12 } d n tid)
      (fun X c q t k => by unfold mkG; exact decide_eq_decide.mpr (by dsimp only; omega))
      (fun X c q t k ht h => upBodyCuda_ok htid hA' Z X c ht h) (fun p _ => Z p tid) (fun _ => c tid) 0
    rw [mkG_self] at hu
    refine ⟨_, hu, ?_, ?_⟩
    · unfold mkG
      dsimp only
      apply flat_congr; intro p i _ _
      by_cases h : i = tid
      · rw [if_pos h, if_pos h, h]; rfl
      · rw [if_neg h, if_neg h]
    · unfold mkG
      dsimp only
      apply flat_congr; intro p i _ _
      by_cases h : i = tid
      · rw [if_pos h, if_pos h, h]; rfl
      · rw [if_neg h, if_neg h]

end Verif.Track

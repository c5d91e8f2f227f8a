import Verif.Spec.Tracking

/-! # The C++ tracking loop computes `transport` -/

set_option linter.unusedSectionVars false

namespace Verif.Track
open Spec

variable {α : Type _}

theorem tab_snoc {β : Type _} (n : ℕ) (g : ℕ → β) : tab (n + 1) g = tab n g ++ [g n] := by
  simp [tab, List.range_succ]

theorem rd_some {β : Type _} {l : List β} {t : ℕ} {v : β} (h : l[t]? = some v) : rd l (t : Int) = .ok v := by
  simp [rd, h]

theorem rd_some' {β : Type _} {l : List β} {t : ℕ} {v : β} {z : Int} (hz : z = t) (h : l[t]? = some v) :
    rd l z = .ok v := by
  subst hz; exact rd_some h

section ops
variable [Add α] [Sub α] [Mul α]

theorem kickUp_ok (sin : α → α) {n : ℕ} (φ e : ℕ → α) (v1 v2 p0 p12 h acc : α) :
    kickUp sin (tab n φ) (tab n e) v1 v2 p0 p12 h n acc
      = .ok (tab n fun i => e i + energyGain sin v1 v2 p0 p12 h acc (φ i)) := by
  apply pointLoop_eq
  intro i hi g hg
  rw [rd_tab _ hi, bind_ok, rd_tab _ hi, bind_ok, upd_tab _ _ hi, hg]

theorem kickDown_ok (sin : α → α) {n : ℕ} (φ e : ℕ → α) (v1 v2 p0 p12 h acc : α) :
    kickDown sin (tab n φ) (tab n e) v1 v2 p0 p12 h n acc
      = .ok (tab n fun i => e i - energyGain sin v1 v2 p0 p12 h acc (φ i)) := by
  apply pointLoop_eq
  intro i hi g hg
  rw [rd_tab _ hi, bind_ok, rd_tab _ hi, bind_ok, upd_tab _ _ hi, hg]

theorem driftUp_ok {n : ℕ} (φ e : ℕ → α) (c : α) :
    driftUp (tab n φ) (tab n e) c n = .ok (tab n fun i => φ i - c * e i) := by
  apply pointLoop_eq
  intro i hi g hg
  rw [rd_tab _ hi, bind_ok, rd_tab _ hi, bind_ok, upd_tab _ _ hi, hg]

theorem driftDown_ok {n : ℕ} (φ e : ℕ → α) (c : α) :
    driftDown (tab n φ) (tab n e) c n = .ok (tab n fun i => φ i + c * e i) := by
  apply pointLoop_eq
  intro i hi g hg
  rw [rd_tab _ hi, bind_ok, rd_tab _ hi, bind_ok, upd_tab _ _ hi, hg]

theorem storeRow_ok {P n q : ℕ} (X : ℕ → ℕ → α) (v : ℕ → α) (hq : q < P) {z : Int} (hz : z = q) :
    storeRow (rows P n X) z (tab n v) n = .ok (rows P n fun p => if p = q then v else X p) := by
  subst hz
  unfold storeRow rows
  rw [rd_tab _ hq, bind_ok, pointLoop_eq (new := v), bind_ok, upd_tab _ _ hq]
  · congr 1; apply tab_congr; intro p _
    by_cases h : p = q <;> simp [h]
  · intro i hi g _
    rw [rd_tab _ hi, bind_ok, upd_tab _ _ hi]

theorem loadRow_ok {P n q : ℕ} (X : ℕ → ℕ → α) (v : ℕ → α) (hq : q < P) :
    loadRow (tab n v) (rows P n X) q n = .ok (tab n (X q)) := by
  unfold loadRow rows
  rw [rd_tab _ hq, bind_ok, pointLoop_eq (new := X q)]
  intro i hi g _
  rw [rd_tab _ hi, bind_ok, upd_tab _ _ hi]

/-- the state of the C++ loop in terms of clouds: `X p i` is the stored particle, `c i` the current one -/
def mk (P n nturns : ℕ) (X : ℕ → ℕ → α × α) (c : ℕ → α × α) (prof turn k : ℕ) : TS α :=
  ⟨rows P n fun p i => (X p i).1, rows P n fun p i => (X p i).2, tab n fun i => (c i).1, tab n fun i => (c i).2,
    prof, turn, k, tab k fun j => ((j : Int) + 1, (nturns : Int))⟩

theorem mk_congr {P n nturns : ℕ} {X Y : ℕ → ℕ → α × α} {c c' : ℕ → α × α} {prof prof' turn turn' k k' : ℕ}
    (h1 : ∀ p i, p < P → i < n → X p i = Y p i) (h2 : ∀ i, i < n → c i = c' i) (h3 : prof = prof')
    (h4 : turn = turn') (h5 : k = k') :
    mk P n nturns X c prof turn k = mk P n nturns Y c' prof' turn' k' := by
  subst h3 h4 h5
  unfold mk rows
  have e1 : (tab P fun p => tab n fun i => (X p i).1) = tab P fun p => tab n fun i => (Y p i).1 :=
    tab_congr fun p hp => tab_congr fun i hi => by rw [h1 p i hp hi]
  have e2 : (tab P fun p => tab n fun i => (X p i).2) = tab P fun p => tab n fun i => (Y p i).2 :=
    tab_congr fun p hp => tab_congr fun i hi => by rw [h1 p i hp hi]
  have e3 : (tab n fun i => (c i).1) = tab n fun i => (c' i).1 := tab_congr fun i hi => by rw [h2 i hi]
  have e4 : (tab n fun i => (c i).2) = tab n fun i => (c' i).2 := tab_congr fun i hi => by rw [h2 i hi]
  rw [e1, e2, e3, e4]

theorem upBody_ok {sin : α → α} {m : Mach α} {R : Program α} {P n nturns N d : ℕ} (hA : Agrees m N R)
    (X : ℕ → ℕ → α × α) (c : ℕ → α × α) {prof t k : ℕ} (ht : t < N) (hP : d ∣ t + 1 → prof + 1 < P) :
    upBody sin m d nturns n (mk P n nturns X c prof t k)
      = .ok (mk P n nturns
          (if d ∣ t + 1 then fun p i => if p = prof + 1 then fwd sin R t (c i) else X p i else X)
          (fun i => fwd sin R t (c i)) (prof + if d ∣ t + 1 then 1 else 0) (t + 1) (k + 1)) := by
  unfold upBody mk
  dsimp only
  have et : ((t : Int) + 1) = ((t + 1 : ℕ) : Int) := by push_cast; rfl
  have ek : ((k : Int) + 1) = ((k + 1 : ℕ) : Int) := by push_cast; rfl
  rw [rd_some (hA.driftCoef t ht), bind_ok, driftUp_ok, bind_ok, rd_some' et (hA.rf1v _ ht), bind_ok,
    rd_some' et (hA.rf2v _ ht), bind_ok, rd_some' et (hA.phi0 _ ht), bind_ok, rd_some' et (hA.phi12 _ ht), bind_ok,
    rd_some' et (hA.deltaE0 _ ht), bind_ok, kickUp_ok, bind_ok, hA.hratio]
  have hmod : (((t : Int) + 1).tmod (d : Int) = 0) ↔ d ∣ t + 1 := by
    rw [et, ← Int.ofNat_tmod]
    norm_cast
    exact (Nat.dvd_iff_mod_eq_zero).symm
  rw [tab_snoc]
  by_cases hd : d ∣ t + 1
  · rw [if_pos (hmod.mpr hd)]
    have hq := hP hd
    simp only [if_pos hd]
    rw [storeRow_ok _ _ hq (by push_cast; rfl), bind_ok, storeRow_ok _ _ hq (by push_cast; rfl), bind_ok]
    simp only [pure_eq_ok]
    congr 2
    · unfold rows; apply tab_congr; intro p _
      by_cases h : p = prof + 1 <;> simp [h, fwd]
    · unfold rows; apply tab_congr; intro p _
      by_cases h : p = prof + 1 <;> simp [h, fwd, gain, energyGain]
  · rw [if_neg (fun h => hd (hmod.mp h))]
    simp only [if_neg hd, pure_eq_ok, Nat.add_zero]
    rfl

theorem downBody_ok {sin : α → α} {m : Mach α} {R : Program α} {P n nturns N d : ℕ} (hA : Agrees m N R)
    (X : ℕ → ℕ → α × α) (c : ℕ → α × α) {prof t k : ℕ} (ht : t < N) (hP : d ∣ t → prof ≤ P ∧ 0 < prof) :
    downBody sin m d nturns n (mk P n nturns X c prof (t + 1) k)
      = .ok (mk P n nturns
          (if d ∣ t then fun p i => if p = prof - 1 then bwd sin R t (c i) else X p i else X)
          (fun i => bwd sin R t (c i)) (prof - if d ∣ t then 1 else 0) t (k + 1)) := by
  unfold downBody mk
  dsimp only
  have et : (((t + 1 : ℕ) : Int) - 1) = (t : Int) := by push_cast; ring
  rw [rd_some (hA.rf1v _ ht), bind_ok,
    rd_some (hA.rf2v _ ht), bind_ok, rd_some (hA.phi0 _ ht), bind_ok, rd_some (hA.phi12 _ ht), bind_ok,
    rd_some (hA.deltaE0 _ ht), bind_ok, kickDown_ok, bind_ok, hA.hratio, et,
    rd_some (hA.driftCoef t ht), bind_ok, driftDown_ok, bind_ok]
  have hmod : ((t : Int).tmod (d : Int) = 0) ↔ d ∣ t := by
    rw [← Int.ofNat_tmod]
    norm_cast
    exact (Nat.dvd_iff_mod_eq_zero).symm
  rw [tab_snoc]
  by_cases hd : d ∣ t
  · rw [if_pos (hmod.mpr hd)]
    obtain ⟨hq, hq0⟩ := hP hd
    have hq' : prof - 1 < P := by omega
    have e : ((prof : Int) - 1) = ((prof - 1 : ℕ) : Int) := by push_cast [hq0]; rfl
    simp only [if_pos hd]
    rw [storeRow_ok _ _ hq' e, bind_ok, storeRow_ok _ _ hq' e, bind_ok]
    simp only [pure_eq_ok, e]
    congr 2
    · unfold rows; apply tab_congr; intro p _
      by_cases h : p = prof - 1 <;> simp [h, bwd, gain, energyGain]
    · unfold rows; apply tab_congr; intro p _
      by_cases h : p = prof - 1 <;> simp [h, bwd, gain, energyGain]
  · rw [if_neg (fun h => hd (hmod.mp h))]
    simp only [if_neg hd, pure_eq_ok, Nat.sub_zero]
    rfl

/-! ### the loops, for any representation `emb` of (stored rows, current cloud, profile, turn, number of steps) -/

/-- rows after the upward loop has reached turn `s+k` -/
def upRows (sin : α → α) (R : Program α) (d s : ℕ) (c : ℕ → α × α) (X : ℕ → ℕ → α × α) (k : ℕ) :
    ℕ → ℕ → α × α :=
  fun p i => if s / d < p ∧ p ≤ (s + k) / d then up sin R s (p * d - s) (c i) else X p i

theorem upStep_gen {σ : Type _} {sin : α → α} {R : Program α} {P n N d s : ℕ} (hd : 0 < d)
    (hP : N < P * d)
    (emb : (ℕ → ℕ → α × α) → (ℕ → α × α) → ℕ → ℕ → ℕ → σ)
    (hcongr : ∀ X Y c c' q t k, (∀ p i, p < P → i < n → X p i = Y p i) → (∀ i, i < n → c i = c' i) →
      emb X c q t k = emb Y c' q t k) {body : σ → M σ}
    (hbody : ∀ X c q t k, t < N → (d ∣ t + 1 → q + 1 < P) → body (emb X c q t k)
      = .ok (emb (if d ∣ t + 1 then fun p i => if p = q + 1 then fwd sin R t (c i) else X p i else X)
          (fun i => fwd sin R t (c i)) (q + if d ∣ t + 1 then 1 else 0) (t + 1) (k + 1)))
    (X : ℕ → ℕ → α × α) (c : ℕ → α × α) (K k : ℕ) (hk : s + k < N) :
    body (emb (upRows sin R d s c X k) (fun i => up sin R s k (c i)) ((s + k) / d) (s + k) (K + k))
      = .ok (emb (upRows sin R d s c X (k + 1)) (fun i => up sin R s (k + 1) (c i)) ((s + (k + 1)) / d) (s + (k + 1))
          (K + (k + 1))) := by
  have hsd := Nat.succ_div (a := s + k) (b := d)
  rw [hbody _ _ _ _ _ (by omega)]
  · congr 1
    rw [← Nat.succ_div, ← Nat.add_assoc, ← Nat.add_assoc]
    apply hcongr
    · intro p i _ _
      by_cases h : d ∣ s + k + 1
      · simp only [h, if_true] at hsd ⊢
        have hq : ((s + k) / d + 1) * d = s + k + 1 := by
          rw [← hsd]; exact Nat.div_mul_cancel h
        by_cases hp : p = (s + k) / d + 1
        · rw [if_pos hp]
          have h1 : s / d ≤ (s + k) / d := Nat.div_le_div_right (by omega)
          have h2 : s / d < p ∧ p ≤ (s + (k + 1)) / d := ⟨by omega, by rw [← Nat.add_assoc, hsd]; omega⟩
          unfold upRows
          rw [if_pos h2, hp, hq]
          have : s + k + 1 - s = k + 1 := by omega
          rw [this]; rfl
        · rw [if_neg hp]
          unfold upRows
          rw [← Nat.add_assoc, hsd]
          have : (s / d < p ∧ p ≤ (s + k) / d) ↔ (s / d < p ∧ p ≤ (s + k) / d + 1) := by omega
          simp only [this]
      · simp only [h, if_false, Nat.add_zero] at hsd ⊢
        unfold upRows
        rw [← Nat.add_assoc, hsd]
    · intro i _; rfl
  · intro h
    rw [if_pos h] at hsd
    rw [← hsd]
    apply (Nat.div_lt_iff_lt_mul hd).mpr
    omega

theorem upLoop_gen {σ : Type _} {sin : α → α} {R : Program α} {P n nturns d s : ℕ} (hd : 0 < d)
    (hP : nturns < P * d) (hs : s ≤ nturns)
    (emb : (ℕ → ℕ → α × α) → (ℕ → α × α) → ℕ → ℕ → ℕ → σ)
    (hcongr : ∀ X Y c c' q t k, (∀ p i, p < P → i < n → X p i = Y p i) → (∀ i, i < n → c i = c' i) →
      emb X c q t k = emb Y c' q t k)
    {cond : σ → Bool} {body : σ → M σ} (hcond : ∀ X c q t k, cond (emb X c q t k) = decide (t < nturns))
    (hbody : ∀ X c q t k, t < nturns → (d ∣ t + 1 → q + 1 < P) → body (emb X c q t k)
      = .ok (emb (if d ∣ t + 1 then fun p i => if p = q + 1 then fwd sin R t (c i) else X p i else X)
          (fun i => fwd sin R t (c i)) (q + if d ∣ t + 1 then 1 else 0) (t + 1) (k + 1)))
    (X : ℕ → ℕ → α × α) (c : ℕ → α × α) (K : ℕ) :
    whileN (nturns - s) cond body (emb X c (s / d) s K)
      = .ok (emb (upRows sin R d s c X (nturns - s)) (fun i => up sin R s (nturns - s) (c i))
          (nturns / d) nturns (K + (nturns - s))) := by
  rw [whileN_eq (n := nturns - s)
    (g := fun k => emb (upRows sin R d s c X k) (fun i => up sin R s k (c i)) ((s + k) / d) (s + k) (K + k))]
  · have e : s + (nturns - s) = nturns := by omega
    simp only [e]
  · apply hcongr
    · intro p i _ _
      unfold upRows
      rw [if_neg (by rw [Nat.add_zero]; omega)]
    · intros; rfl
  · exact le_rfl
  · intro k hk
    rw [hcond, decide_eq_true_eq]
    omega
  · intro k hk
    exact upStep_gen hd hP emb hcongr hbody X c K k (by omega)
  · rw [hcond, decide_eq_false_iff_not]
    omega

/-- rows after the downward loop from turn `T` has made `k` turns -/
def downRows (sin : α → α) (R : Program α) (d T : ℕ) (b : ℕ → α × α) (X : ℕ → ℕ → α × α) (k : ℕ) :
    ℕ → ℕ → α × α :=
  fun p i => if p * d < T ∧ T ≤ p * d + k then down sin R T (T - p * d) (b i) else X p i

theorem ceil_step {d : ℕ} (hd : 0 < d) (t : ℕ) :
    (t + 1 + (d - 1)) / d = t / d + 1 ∧ (t + (d - 1)) / d = t / d + 1 - if d ∣ t then 1 else 0 := by
  constructor
  · have : t + 1 + (d - 1) = t + d := by omega
    rw [this, Nat.add_div_right _ hd]
  · by_cases h : d ∣ t
    · obtain ⟨q, rfl⟩ := h
      simp only [dvd_mul_right, if_true]
      rw [Nat.mul_div_cancel_left _ hd, Nat.mul_add_div hd, Nat.div_eq_of_lt (by omega)]
      omega
    · rw [if_neg h, Nat.sub_zero]
      have hm : t % d ≠ 0 := fun e => h (Nat.dvd_of_mod_eq_zero e)
      have hlt := Nat.mod_lt t hd
      have e : t + (d - 1) = d * (t / d) + (t % d + (d - 1)) := by
        have := Nat.div_add_mod t d; omega
      rw [e, Nat.mul_add_div hd]
      congr 1
      rw [Nat.div_eq_iff hd]
      omega

theorem downLoop_gen {σ : Type _} {sin : α → α} {R : Program α} {P n nturns d T : ℕ} (hd : 0 < d)
    (hP : nturns < P * d) (hT : T ≤ nturns)
    (emb : (ℕ → ℕ → α × α) → (ℕ → α × α) → ℕ → ℕ → ℕ → σ)
    (hcongr : ∀ X Y c c' q t k, (∀ p i, p < P → i < n → X p i = Y p i) → (∀ i, i < n → c i = c' i) →
      emb X c q t k = emb Y c' q t k)
    {cond : σ → Bool} {body : σ → M σ} (hcond : ∀ X c q t k, cond (emb X c q t k) = decide (0 < t))
    (hbody : ∀ X c q t k, t < nturns → (d ∣ t → q ≤ P ∧ 0 < q) → body (emb X c q (t + 1) k)
      = .ok (emb (if d ∣ t then fun p i => if p = q - 1 then bwd sin R t (c i) else X p i else X)
          (fun i => bwd sin R t (c i)) (q - if d ∣ t then 1 else 0) t (k + 1)))
    (X : ℕ → ℕ → α × α) (b : ℕ → α × α) (K : ℕ) :
    whileN T cond body (emb X b ((T + (d - 1)) / d) T K)
      = .ok (emb (downRows sin R d T b X T) (fun i => down sin R T T (b i)) 0 0 (K + T)) := by
  rw [whileN_eq (n := T)
    (g := fun k => emb (downRows sin R d T b X k) (fun i => down sin R T k (b i))
      ((T - k + (d - 1)) / d) (T - k) (K + k))]
  · congr 2
    · rw [Nat.sub_self, Nat.zero_add, Nat.div_eq_of_lt (by omega)]
    · omega
  · apply hcongr
    · intro p i _ _
      unfold downRows
      rw [if_neg]
      omega
    · intros; rfl
  · exact le_rfl
  · intro k hk
    rw [hcond, decide_eq_true_eq]
    omega
  · intro k hk
    obtain ⟨t, ht⟩ : ∃ t, T - k = t + 1 := ⟨T - k - 1, by omega⟩
    have ht' : T - (k + 1) = t := by omega
    obtain ⟨c1, c2⟩ := ceil_step hd t
    rw [ht, ht', c1, hbody _ _ _ _ _ (by omega)]
    · congr 1
      rw [c2, ← Nat.add_assoc]
      apply hcongr
      · intro p i _ _
        by_cases h : d ∣ t
        · simp only [h, if_true, Nat.add_sub_cancel]
          obtain ⟨q, rfl⟩ := h
          rw [Nat.mul_div_cancel_left _ hd]
          by_cases hp : p = q
          · subst hp
            rw [if_pos rfl]
            unfold downRows
            rw [if_pos ⟨by rw [Nat.mul_comm p d]; omega, by rw [Nat.mul_comm p d]; omega⟩]
            have e : T - p * d = k + 1 := by rw [Nat.mul_comm p d]; omega
            have e2 : T - (k + 1) = d * p := by omega
            rw [e, down, e2]
          · rw [if_neg hp]
            unfold downRows
            have : (p * d < T ∧ T ≤ p * d + k) ↔ (p * d < T ∧ T ≤ p * d + (k + 1)) := by
              have hne : p * d ≠ d * q := by
                rw [Nat.mul_comm]; intro h; exact hp (Nat.eq_of_mul_eq_mul_left hd h)
              omega
            simp only [this]
        · simp only [h, if_false]
          unfold downRows
          have : (p * d < T ∧ T ≤ p * d + k) ↔ (p * d < T ∧ T ≤ p * d + (k + 1)) := by
            have hne : p * d ≠ t := by rintro rfl; exact h (Dvd.intro_left p rfl)
            omega
          simp only [this]
      · intro i _
        rw [down, ht']
    · intro h
      refine ⟨?_, Nat.succ_pos _⟩
      have : t / d < P := (Nat.div_lt_iff_lt_mul hd).mpr (by omega)
      exact this
  · rw [hcond, decide_eq_false_iff_not]
    omega

theorem mk_emb_congr {P n nturns : ℕ} (X Y : ℕ → ℕ → α × α) (c c' : ℕ → α × α) (q t k : ℕ)
    (h1 : ∀ p i, p < P → i < n → X p i = Y p i) (h2 : ∀ i, i < n → c i = c' i) :
    mk P n nturns X c q t k = mk P n nturns Y c' q t k := mk_congr h1 h2 rfl rfl rfl

theorem upLoop_ok {sin : α → α} {m : Mach α} {R : Program α} {P n nturns d s : ℕ} (hd : 0 < d)
    (hA : Agrees m nturns R) (hP : nturns < P * d) (hs : s ≤ nturns) (X : ℕ → ℕ → α × α) (c : ℕ → α × α) :
    whileN (nturns - s) (fun st : TS α => decide (st.turn < (nturns : Int))) (upBody sin m d nturns n)
        (mk P n nturns X c (s / d) s 0)
      = .ok (mk P n nturns (upRows sin R d s c X (nturns - s)) (fun i => up sin R s (nturns - s) (c i))
          (nturns / d) nturns (nturns - s)) := by
  have := upLoop_gen (sin := sin) (R := R) (P := P) (n := n) hd hP hs (mk P n nturns) mk_emb_congr
    (cond := fun st : TS α => decide (st.turn < (nturns : Int))) (body := upBody sin m d nturns n)
    (fun X c q t k => by simp [mk]) (fun X c q t k ht h => upBody_ok hA X c ht h) X c 0
  rw [Nat.zero_add] at this
  exact this

theorem downLoop_ok {sin : α → α} {m : Mach α} {R : Program α} {P n nturns d r : ℕ} (hd : 0 < d)
    (hA : Agrees m nturns R) (hP : nturns < P * d) (hn : r * d ≤ nturns) (X : ℕ → ℕ → α × α) (b : ℕ → α × α)
    (K : ℕ) :
    whileN (r * d) (fun st : TS α => decide ((0 : Int) < st.turn)) (downBody sin m d nturns n)
        (mk P n nturns X b r (r * d) K)
      = .ok (mk P n nturns (downRows sin R d (r * d) b X (r * d)) (fun i => down sin R (r * d) (r * d) (b i))
          0 0 (K + r * d)) := by
  have := downLoop_gen (sin := sin) (R := R) (P := P) (n := n) hd hP hn (mk P n nturns) mk_emb_congr
    (cond := fun st : TS α => decide ((0 : Int) < st.turn)) (body := downBody sin m d nturns n)
    (fun X c q t k => by simp [mk]) (fun X c q t k ht h => downBody_ok hA X c ht h) X b K
  rw [Nat.add_comm (r * d), Nat.add_mul_div_right _ _ hd, Nat.div_eq_of_lt (by omega), Nat.zero_add] at this
  exact this

/-! ### the whole function -/

/-- The cloud the downward loop starts from: what the code takes for the state at turn `r*d`. -/
def baseOf (sin : α → α) (R : Program α) (d r s : ℕ) (neg : Prop) [Decidable neg] (x : α × α) : α × α :=
  if neg then up sin R s (r * d - s) x else x

/-- Row `p` of the result of `kick_and_drift`, for every `deltaturn`. -/
def outRow (sin : α → α) (R : Program α) (d r s : ℕ) (neg : Prop) [Decidable neg] (x : α × α) (p : ℕ) : α × α :=
  if r < p then up sin R s (p * d - s) x
  else down sin R (r * d) (r * d - p * d) (baseOf sin R d r s neg x)

theorem start_div {d r s : ℕ} {δ : Int} (hd : 0 < d) (hs : (s : Int) = r * d + δ) (h1 : -(d : Int) < δ)
    (h2 : δ < d) : (δ < 0 → 0 < r ∧ s / d = r - 1) ∧ (0 ≤ δ → s / d = r) := by
  constructor
  · intro h
    have hr : 0 < r := by
      rcases Nat.eq_zero_or_pos r with h0 | h0
      · subst h0; simp at hs; omega
      · exact h0
    refine ⟨hr, ?_⟩
    obtain ⟨q, rfl⟩ : ∃ q, r = q + 1 := ⟨r - 1, by omega⟩
    rw [Nat.div_eq_iff hd]
    have : ((q + 1 : ℕ) : Int) * d = q * d + d := by push_cast; ring
    rw [this] at hs
    simp only [Nat.add_sub_cancel]
    have hq : ((q * d : ℕ) : Int) = q * d := by push_cast; rfl
    omega
  · intro h
    rw [Nat.div_eq_iff hd]
    have hq : ((r * d : ℕ) : Int) = r * d := by push_cast; rfl
    omega

theorem rows_total {sin : α → α} {R : Program α} {P nturns d r s : ℕ} {δ : Int} (hd : 0 < d)
    (hn : nturns = (P - 1) * d) (hr : r < P) (hs : (s : Int) = r * d + δ) (h1 : -(d : Int) < δ)
    (h2 : δ < d) (hsn : s ≤ nturns) (X : ℕ → ℕ → α × α) (c : ℕ → α × α) {p i : ℕ} (hp : p < P) :
    downRows sin R d (r * d) (upRows sin R d s c (fun p i => if p = s / d then c i else X p i) (nturns - s) r)
      (upRows sin R d s c (fun p i => if p = s / d then c i else X p i) (nturns - s)) (r * d) p i
      = outRow sin R d r s (δ < 0) (c i) p := by
  obtain ⟨hneg, hpos⟩ := start_div hd hs h1 h2
  have hsn' : s + (nturns - s) = nturns := by omega
  have hnd : nturns / d = P - 1 := by rw [hn, Nat.mul_div_cancel _ hd]
  have hbase : ∀ i, upRows sin R d s c (fun p i => if p = s / d then c i else X p i) (nturns - s) r i
      = baseOf sin R d r s (δ < 0) (c i) := by
    intro i
    unfold upRows baseOf
    rw [hsn', hnd]
    by_cases h : δ < 0
    · obtain ⟨hr0, e⟩ := hneg h
      rw [if_pos (by omega), if_pos h]
    · have e := hpos (by omega)
      rw [if_neg (by omega), if_neg h]; dsimp only; rw [if_pos e.symm]
  unfold downRows outRow
  by_cases hpr : p < r
  · rw [if_pos ⟨Nat.mul_lt_mul_of_pos_right hpr hd, by omega⟩, if_neg (by omega), hbase]
  · have hle : r * d ≤ p * d := Nat.mul_le_mul_right d (by omega)
    rw [if_neg (by omega)]
    rcases Nat.lt_or_ge r p with h | h
    · rw [if_pos h]
      unfold upRows
      rw [hsn', hnd, if_pos]
      refine ⟨?_, by omega⟩
      by_cases h0 : δ < 0
      · have := hneg h0; omega
      · have := hpos (by omega); omega
    · have : p = r := by omega
      subst this
      rw [if_neg (by omega), hbase, Nat.sub_self]; rfl

theorem kickAndDrift_run {sin : α → α} {m : Mach α} {R : Program α} {P n nturns d r s : ℕ} {δ : Int} (hd : 0 < d)
    (hA : Agrees m nturns R) (hn : nturns = (P - 1) * d) (hr : r < P) (hs : (s : Int) = r * d + δ)
    (h1 : -(d : Int) < δ) (h2 : δ < d) (hsn : s ≤ nturns) (X : ℕ → ℕ → α × α) (c : ℕ → α × α) :
    kickAndDrift sin (rows P n fun p i => (X p i).1) (rows P n fun p i => (X p i).2) (tab n fun i => (c i).2)
        (tab n fun i => (c i).1) m d r δ nturns n
      = .ok (mk P n nturns (fun p i => outRow sin R d r s (δ < 0) (c i) p)
          (fun i => if r = 0 then up sin R s (nturns - s) (c i)
            else down sin R (r * d) (r * d) (baseOf sin R d r s (δ < 0) (c i)))
          0 0 (nturns - s + r * d)) := by
  obtain ⟨hneg, hpos⟩ := start_div hd hs h1 h2
  have hprof : (if δ < 0 then (r : Int) - 1 else r) = ((s / d : ℕ) : Int) := by
    by_cases h : δ < 0
    · obtain ⟨h3, h4⟩ := hneg h
      rw [if_pos h, h4]; omega
    · rw [if_neg h, hpos (by omega)]
  have hsP : s / d < P := by
    by_cases h : δ < 0
    · have := hneg h; omega
    · have := hpos (by omega); omega
  have hrn : r * d ≤ nturns := by rw [hn]; exact Nat.mul_le_mul_right d (by omega)
  unfold kickAndDrift
  dsimp only
  rw [hprof, storeRow_ok _ _ hsP rfl, bind_ok, storeRow_ok _ _ hsP rfl, bind_ok, ← hs]
  have hfuel : ((nturns : Int) - s).toNat = nturns - s := by omega
  have hst : (⟨rows P n fun p => if p = s / d then fun i => (c i).1 else fun i => (X p i).1,
      rows P n fun p => if p = s / d then fun i => (c i).2 else fun i => (X p i).2,
      tab n fun i => (c i).1, tab n fun i => (c i).2, ((s / d : ℕ) : Int), (s : Int), 0, []⟩ : TS α)
      = mk P n nturns (fun p i => if p = s / d then c i else X p i) c (s / d) s 0 := by
    unfold mk
    congr 1
    · unfold rows; apply tab_congr; intro p _
      by_cases h : p = s / d <;> simp [h]
    · unfold rows; apply tab_congr; intro p _
      by_cases h : p = s / d <;> simp [h]
  have hP : nturns < P * d := by
    rw [hn]; exact Nat.mul_lt_mul_of_pos_right (by omega) hd
  rw [hfuel, hst, upLoop_ok hd hA hP hsn, bind_ok]
  have hfinal := fun {p i : ℕ} (hp : p < P) =>
    rows_total (sin := sin) (R := R) hd hn hr hs h1 h2 hsn X c (p := p) (i := i) hp
  by_cases hr0 : r = 0
  · subst hr0
    rw [if_neg (by simp)]
    simp only [pure_eq_ok]
    congr 1
    have := mk_congr (α := α) (P := P) (n := n) (nturns := nturns) (prof := 0) (turn := 0) (k := nturns - s)
      (X := upRows sin R d s c (fun p i => if p = s / d then c i else X p i) (nturns - s))
      (Y := fun p i => outRow sin R d 0 s (δ < 0) (c i) p)
      (c := fun i => up sin R s (nturns - s) (c i))
      (c' := fun i => if (0 : ℕ) = 0 then up sin R s (nturns - s) (c i)
            else down sin R (0 * d) (0 * d) (baseOf sin R d 0 s (δ < 0) (c i)))
      (prof' := 0) (turn' := 0) (k' := nturns - s + 0 * d)
      (fun p i hp _ => by rw [← hfinal hp]; unfold downRows; simp)
      (fun i _ => by simp) rfl rfl (by simp)
    simp only [if_true] at this ⊢
    rw [← this]
    unfold mk
    simp
  · rw [if_pos (by omega)]
    simp only [mk]
    rw [loadRow_ok _ _ hr, bind_ok, loadRow_ok _ _ hr, bind_ok]
    have ht : ((r : Int) * d).toNat = r * d := by
      rw [← Nat.cast_mul, Int.toNat_natCast]
    have hz : ((r : Int) * d) = ((r * d : ℕ) : Int) := by push_cast; rfl
    rw [ht, hz]
    have := downLoop_ok (sin := sin) (m := m) (R := R) (P := P) (n := n) hd hA hP hrn
      (upRows sin R d s c (fun p i => if p = s / d then c i else X p i) (nturns - s))
      (upRows sin R d s c (fun p i => if p = s / d then c i else X p i) (nturns - s) r) (nturns - s)
    unfold mk at this
    rw [this]
    congr 1
    have hbase := fun i => hfinal (p := r) (i := i) hr
    have := mk_congr (α := α) (P := P) (n := n) (nturns := nturns) (prof := 0) (turn := 0) (k := nturns - s + r * d)
      (fun p i hp (_ : i < n) => hfinal (p := p) (i := i) hp)
      (c := fun i => down sin R (r * d) (r * d)
        (upRows sin R d s c (fun p i => if p = s / d then c i else X p i) (nturns - s) r i))
      (c' := fun i => if r = 0 then up sin R s (nturns - s) (c i)
            else down sin R (r * d) (r * d) (baseOf sin R d r s (δ < 0) (c i)))
      (fun i _ => by
        rw [if_neg hr0]
        have := hbase i
        unfold downRows outRow at this
        rw [if_neg (by omega), if_neg (by omega), Nat.sub_self] at this
        rw [this]; rfl) rfl rfl rfl
    unfold mk at this
    exact this

end ops

end Verif.Track

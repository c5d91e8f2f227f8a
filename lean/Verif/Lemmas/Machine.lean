import Verif.Spec.Machine
import Verif.Lemmas.TrackingPy

/-! Helper lemmas about `Model/Machine.lean`. -/

set_option linter.unusedSectionVars false

namespace Verif.Mch
open Verif.Asrt Verif.Spec

variable {K : Type} [Field K] [LinearOrder K]

/-- `f` with the value at `i` replaced -/
abbrev fset (f : ℕ → K) (i : ℕ) (v : K) : ℕ → K := fun k => if k = i then v else f k

theorem fset_same (f : ℕ → K) (i : ℕ) (v : K) : fset f i v i = v := by simp [fset]
theorem fset_other (f : ℕ → K) {i k : ℕ} (v : K) (h : k ≠ i) : fset f i v k = f k := by simp [fset, h]

theorem rfVoltageAtTime_eq (L : MathLib K) (p : MachinePars K) (t φ : K) : rfVoltageAtTime L p t φ = volt L p t φ := rfl

theorem newton_first {L : MathLib K} {p : MachinePars K} {t x y : K}
    (h : newton L (rfvoltRf1Mch L p t) (drfvoltRf1Mch L p t) x = .ok y) : FirstSystemFrom L p t x y := by
  unfold newton at h
  unfold FirstSystemFrom
  have e : (fun φ => (p.vrf1 + p.vrf1dot * t) * L.sin φ - rampVolt L p) = rfvoltRf1Mch L p t := by
    funext φ
    unfold rampVolt rfvoltRf1Mch rfvoltRf1 vrft
    ring
  rw [e]
  change L.newton (rfvoltRf1Mch L p t) (drfvoltRf1Mch L p t) x = some y
  revert h
  cases L.newton (rfvoltRf1Mch L p t) (drfvoltRf1Mch L p t) x with
  | none => intro h; cases h
  | some z => intro h; cases h; rfl

theorem newton_some {L : MathLib K} {p : MachinePars K} {t x y : K}
    (h : newton L (rfVoltageMch L p t) (drfVoltageMch L p t) x = .ok y) : SynchPhaseFrom L p t x y := by
  unfold newton at h
  unfold SynchPhaseFrom
  have e : (fun φ => volt L p t φ - rampVolt L p) = rfVoltageMch L p t := by
    funext φ
    unfold volt rampVolt rfVoltageMch rfVoltage vrft
    ring
  rw [e]
  have e' : (fun φ => (p.vrf1 + p.vrf1dot * t) * L.cos φ
      + p.hRatio * (p.vrf2 + p.vrf2dot * t) * L.cos (p.hRatio * (φ - p.phi12))) = drfVoltageMch L p t := rfl
  rw [e']
  cases hn : L.newton (rfVoltageMch L p t) (drfVoltageMch L p t) x with
  | none => rw [hn] at h; cases h
  | some z => rw [hn] at h; cases h; rfl

theorem newton_of_some {L : MathLib K} {p : MachinePars K} {t x y : K} (h : SynchPhaseFrom L p t x y) :
    newton L (rfVoltageMch L p t) (drfVoltageMch L p t) x = .ok y := by
  unfold newton
  unfold SynchPhaseFrom at h
  have e : (fun φ => volt L p t φ - rampVolt L p) = rfVoltageMch L p t := by
    funext φ
    unfold volt rampVolt rfVoltageMch rfVoltage vrft
    ring
  rw [e] at h
  have e' : (fun φ => (p.vrf1 + p.vrf1dot * t) * L.cos φ
      + p.hRatio * (p.vrf2 + p.vrf2dot * t) * L.cos (p.hRatio * (φ - p.phi12))) = drfVoltageMch L p t := rfl
  rw [e'] at h
  rw [h]

theorem fdiv_inv {a b r : K} (h : FDiv.fdiv a b = .ok r) : b ≠ 0 ∧ r = a / b := by
  by_cases hb : b = 0
  · subst hb; rw [fdiv_zero] at h; cases h
  · rw [fdiv_ok hb] at h; cases h; exact ⟨hb, rfl⟩

theorem bind_inv {α β : Type _} {x : M α} {f : α → M β} {r : β} (h : (x >>= f) = .ok r) :
    ∃ a, x = .ok a ∧ f a = .ok r := by
  cases x with
  | error e => simp at h
  | ok a => exact ⟨a, rfl, h⟩

theorem lorentzBeta_inv {L : MathLib K} {m e b : K} (h : lorentzBeta L m e = .ok b) :
    e ≠ 0 ∧ b = L.sqrt (1 - (m / e) ^ 2) := by
  obtain ⟨r, h1, h2⟩ := bind_inv h
  obtain ⟨h3, rfl⟩ := fdiv_inv h1
  cases h2
  exact ⟨h3, rfl⟩

theorem lorentzBeta_ok (L : MathLib K) (m : K) {e : K} (h : e ≠ 0) :
    lorentzBeta L m e = .ok (L.sqrt (1 - (m / e) ^ 2)) := by
  unfold lorentzBeta
  rw [fdiv_ok h]; rfl

/-- the state holding the functions -/
abbrev mkMS (N : ℕ) (t ph e b d : ℕ → K) : MS K := ⟨tab N t, tab N ph, tab N e, tab N b, tab N d⟩

/-- One upward pass on tables: only the division, Newton and the velocity can fail. -/
theorem upTurn_eq (L : MathLib K) (p : MachinePars K) {N i : ℕ} (hi : i + 1 < N) (t ph e b d : ℕ → K) {z : Int}
    (hz : z = ((i + 1 : ℕ) : Int)) :
    upTurn L p z (mkMS N t ph e b d) = (do
      let dt ← FDiv.fdiv (2 * L.pi * p.meanOrbitRad) (b i * L.c)
      let y ← newton L (rfVoltageMch L p (t i + dt)) (drfVoltageMch L p (t i + dt)) (ph i)
      let e' := e i + p.q * volt L p (t i + dt) y
      let b' ← lorentzBeta L p.eRest e'
      pure (mkMS N (fset t (i + 1) (t i + dt)) (fset ph (i + 1) y) (fset e (i + 1) e') (fset b (i + 1) b')
        (fset d (i + 1) (e' - e i)))) := by
  have h1 : z - 1 = (i : Int) := by subst hz; push_cast; ring
  unfold upTurn
  dsimp only
  rw [h1, rd_tab _ (by omega), bind_ok, rd_tab _ (by omega), bind_ok]
  cases hdt : FDiv.fdiv (2 * L.pi * p.meanOrbitRad) (b i * L.c) with
  | error x => rfl
  | ok dt =>
    rw [bind_ok, bind_ok, upd_tab' _ _ hz hi, bind_ok, rd_tab' _ hz hi, bind_ok, rd_tab _ (by omega), bind_ok]
    rw [if_pos rfl]
    cases hn : newton L (rfVoltageMch L p (t i + dt)) (drfVoltageMch L p (t i + dt)) (ph i) with
    | error x => rfl
    | ok y =>
      rw [bind_ok, bind_ok, upd_tab' _ _ hz hi, bind_ok, rd_tab _ (by omega), bind_ok, upd_tab' _ _ hz hi, bind_ok,
        rd_tab' _ hz hi, bind_ok, if_pos rfl, rfVoltageAtTime_eq]
      cases hb : lorentzBeta L p.eRest (e i + p.q * volt L p (t i + dt) y) with
      | error x => rfl
      | ok b' =>
        rw [bind_ok, bind_ok, upd_tab' _ _ hz hi, bind_ok, upd_tab' _ _ hz hi, bind_ok]

/-- One downward pass on tables. -/
theorem downTurn_eq (L : MathLib K) (p : MachinePars K) {N i : ℕ} (hi : i + 1 < N) (t ph e b d : ℕ → K) {z : Int}
    (hz : z = (i : Int)) :
    downTurn L p z (mkMS N t ph e b d) = (do
      let e' := e (i + 1) - p.q * volt L p (t (i + 1)) (ph (i + 1))
      let b' ← lorentzBeta L p.eRest e'
      let dt ← FDiv.fdiv (2 * L.pi * p.meanOrbitRad) (b' * L.c)
      let y ← newton L (rfVoltageMch L p (t (i + 1) - dt)) (drfVoltageMch L p (t (i + 1) - dt)) (ph (i + 1))
      pure (mkMS N (fset t i (t (i + 1) - dt)) (fset ph i y) (fset e i e') (fset b i b')
        (fset d i (e (i + 1) - e')))) := by
  have h1 : z + 1 = ((i + 1 : ℕ) : Int) := by subst hz; push_cast; ring
  have hi' : i < N := by omega
  unfold downTurn
  dsimp only
  rw [h1, rd_tab _ hi, bind_ok, rd_tab _ hi, bind_ok, rd_tab _ hi, bind_ok, upd_tab' _ _ hz hi', bind_ok,
    rd_tab' _ hz hi', bind_ok, if_pos rfl, rfVoltageAtTime_eq]
  cases hb : lorentzBeta L p.eRest (e (i + 1) - p.q * volt L p (t (i + 1)) (ph (i + 1))) with
  | error x => rfl
  | ok b' =>
    rw [bind_ok, bind_ok, upd_tab' _ _ hz hi', bind_ok, upd_tab' _ _ hz hi', bind_ok]
    cases hdt : FDiv.fdiv (2 * L.pi * p.meanOrbitRad) (b' * L.c) with
    | error x => rfl
    | ok dt =>
      rw [bind_ok, bind_ok, upd_tab' _ _ hz hi', bind_ok, rd_tab' _ hz hi', bind_ok, if_pos rfl]
      cases hn : newton L (rfVoltageMch L p (t (i + 1) - dt)) (drfVoltageMch L p (t (i + 1) - dt)) (ph (i + 1)) with
      | error x => rfl
      | ok y => rw [bind_ok, bind_ok, upd_tab' _ _ hz hi', bind_ok]

/-- what the loops establish for the recorded energy steps `d` -/
structure StepLaws (i0 lo hi : ℕ) (e d : ℕ → K) : Prop where
  up : ∀ i, i0 ≤ i → i < hi → d (i + 1) = e (i + 1) - e i
  down : ∀ i, lo ≤ i → i < i0 → d i = e (i + 1) - e i
  ref : d i0 = 0

theorem turnLaws_extendUp {L : MathLib K} {p : MachinePars K} {i0 hi : ℕ} {t ph e b : ℕ → K}
    (h : TurnLaws L p i0 i0 hi t ph e b) (hlo : i0 ≤ hi) {dt y b' : K}
    (hb : b hi * L.c ≠ 0) (hdt : dt = 2 * L.pi * p.meanOrbitRad / (b hi * L.c))
    (hy : SynchPhaseFrom L p (t hi + dt) (ph hi) y)
    (he : e hi + p.q * volt L p (t hi + dt) y ≠ 0)
    (hb' : b' = L.sqrt (1 - (p.eRest / (e hi + p.q * volt L p (t hi + dt) y)) ^ 2)) :
    TurnLaws L p i0 i0 (hi + 1) (fset t (hi + 1) (t hi + dt)) (fset ph (hi + 1) y)
      (fset e (hi + 1) (e hi + p.q * volt L p (t hi + dt) y)) (fset b (hi + 1) b') := by
  constructor
  · rw [fset_other _ _ (by omega)]; exact h.time0
  · rw [fset_other _ _ (by omega)]; exact h.energy0
  · rw [fset_other _ _ (by omega), fset_other _ _ (by omega), fset_other _ _ (by omega)]; exact h.phase0
  · intro i h1 h2
    by_cases hi' : i = hi + 1
    · subst hi'; rw [fset_same, fset_same]; exact ⟨he, hb'⟩
    · rw [fset_other _ _ hi', fset_other _ _ hi']; exact h.beta i h1 (by omega)
  · intro i h1 h2
    rw [fset_other b _ (by omega : i ≠ hi + 1), fset_other t _ (by omega : i ≠ hi + 1)]
    by_cases hi' : i = hi
    · subst hi'; rw [fset_same]; exact ⟨hb, by rw [hdt]⟩
    · rw [fset_other _ _ (by omega)]; exact h.time i h1 (by omega)
  · intro i h1 h2
    rw [fset_other e _ (by omega : i ≠ hi + 1)]
    by_cases hi' : i = hi
    · subst hi'; rw [fset_same, fset_same, fset_same]
    · rw [fset_other _ _ (by omega), fset_other _ _ (by omega), fset_other _ _ (by omega)]; exact h.energy i h1 (by omega)
  · intro i h1 h2
    rw [fset_other ph _ (by omega : i ≠ hi + 1)]
    by_cases hi' : i = hi
    · subst hi'; rw [fset_same, fset_same]; exact hy
    · rw [fset_other _ _ (by omega), fset_other _ _ (by omega)]; exact h.phaseUp i h1 (by omega)
  · intro i h1 h2; omega

theorem StepLaws.extendUp {i0 hi : ℕ} {e d : ℕ → K} (h : StepLaws i0 i0 hi e d) (hlo : i0 ≤ hi) (v : K) :
    StepLaws i0 i0 (hi + 1) (fset e (hi + 1) v) (fset d (hi + 1) (v - e hi)) := by
  constructor
  · intro i h1 h2
    rw [fset_other e _ (by omega : i ≠ hi + 1)]
    by_cases hi' : i = hi
    · subst hi'; rw [fset_same, fset_same]
    · rw [fset_other _ _ (by omega), fset_other _ _ (by omega)]; exact h.up i h1 (by omega)
  · intro i h1 h2; omega
  · rw [fset_other _ _ (by omega)]; exact h.ref

theorem turnLaws_extendDown {L : MathLib K} {p : MachinePars K} {i0 lo hi : ℕ} {t ph e b : ℕ → K}
    (h : TurnLaws L p i0 (lo + 1) hi t ph e b) (h0 : lo + 1 ≤ i0) {dt y b' e' : K}
    (hE : e' = e (lo + 1) - p.q * volt L p (t (lo + 1)) (ph (lo + 1)))
    (he : e' ≠ 0) (hb' : b' = L.sqrt (1 - (p.eRest / e') ^ 2)) (hb : b' * L.c ≠ 0)
    (hdt : dt = 2 * L.pi * p.meanOrbitRad / (b' * L.c)) (hy : SynchPhaseFrom L p (t (lo + 1) - dt) (ph (lo + 1)) y) :
    TurnLaws L p i0 lo hi (fset t lo (t (lo + 1) - dt)) (fset ph lo y) (fset e lo e') (fset b lo b') := by
  constructor
  · rw [fset_other _ _ (by omega)]; exact h.time0
  · rw [fset_other _ _ (by omega)]; exact h.energy0
  · rw [fset_other _ _ (by omega), fset_other _ _ (by omega), fset_other _ _ (by omega)]; exact h.phase0
  · intro i h1 h2
    by_cases hi' : i = lo
    · subst hi'; rw [fset_same, fset_same]; exact ⟨he, hb'⟩
    · rw [fset_other _ _ hi', fset_other _ _ hi']; exact h.beta i (by omega) (by omega)
  · intro i h1 h2
    rw [fset_other t _ (by omega : i + 1 ≠ lo)]
    by_cases hi' : i = lo
    · subst hi'; rw [fset_same, fset_same]; exact ⟨hb, by rw [hdt]; ring⟩
    · rw [fset_other _ _ (by omega), fset_other _ _ (by omega)]; exact h.time i (by omega) (by omega)
  · intro i h1 h2
    rw [fset_other t _ (by omega : i + 1 ≠ lo), fset_other ph _ (by omega : i + 1 ≠ lo),
      fset_other e _ (by omega : i + 1 ≠ lo)]
    by_cases hi' : i = lo
    · subst hi'; rw [fset_same, hE]; ring
    · rw [fset_other _ _ (by omega)]; exact h.energy i (by omega) (by omega)
  · intro i h1 h2
    rw [fset_other t _ (by omega : i + 1 ≠ lo), fset_other ph _ (by omega : i + 1 ≠ lo), fset_other ph _ (by omega)]
    exact h.phaseUp i h1 h2
  · intro i h1 h2
    rw [fset_other ph _ (by omega : i + 1 ≠ lo)]
    by_cases hi' : i = lo
    · subst hi'; rw [fset_same, fset_same]; exact hy
    · rw [fset_other _ _ (by omega), fset_other _ _ (by omega)]; exact h.phaseDown i (by omega) (by omega)

theorem StepLaws.extendDown {i0 lo hi : ℕ} {e d : ℕ → K} (h : StepLaws i0 (lo + 1) hi e d) (h0 : lo + 1 ≤ i0) (v : K) :
    StepLaws i0 lo hi (fset e lo v) (fset d lo (e (lo + 1) - v)) := by
  constructor
  · intro i h1 h2
    rw [fset_other e _ (by omega : i + 1 ≠ lo), fset_other e _ (by omega), fset_other _ _ (by omega)]
    exact h.up i h1 (by omega)
  · intro i h1 h2
    rw [fset_other e _ (by omega : i + 1 ≠ lo)]
    by_cases hi' : i = lo
    · subst hi'; rw [fset_same, fset_same]
    · rw [fset_other _ _ (by omega), fset_other _ _ (by omega)]; exact h.down i (by omega) (by omega)
  · rw [fset_other _ _ (by omega)]; exact h.ref

/-- the state satisfies the laws on `lo..hi` -/
def Inv (L : MathLib K) (p : MachinePars K) (N i0 lo hi : ℕ) (s : MS K) : Prop :=
  ∃ t ph e b d, s = mkMS N t ph e b d ∧ TurnLaws L p i0 lo hi t ph e b ∧ StepLaws i0 lo hi e d

theorem upTurn_inv {L : MathLib K} {p : MachinePars K} {N i0 hi : ℕ} (h0 : i0 ≤ hi) (hN : hi + 1 < N) {s s' : MS K}
    {z : Int} (hz : z = ((hi + 1 : ℕ) : Int))
    (h : Inv L p N i0 i0 hi s) (hs : upTurn L p z s = .ok s') : Inv L p N i0 i0 (hi + 1) s' := by
  obtain ⟨t, ph, e, b, d, rfl, h1, h2⟩ := h
  rw [upTurn_eq L p hN t ph e b d hz] at hs
  obtain ⟨dt, hdt, hs⟩ := bind_inv hs
  obtain ⟨y, hy, hs⟩ := bind_inv hs
  dsimp only at hs
  obtain ⟨b', hb', hs⟩ := bind_inv hs
  cases hs
  obtain ⟨hb0, hdt⟩ := fdiv_inv hdt
  obtain ⟨he0, hb'⟩ := lorentzBeta_inv hb'
  exact ⟨_, _, _, _, _, rfl, turnLaws_extendUp h1 h0 hb0 hdt (newton_some hy) he0 hb', h2.extendUp h0 _⟩

theorem downTurn_inv {L : MathLib K} {p : MachinePars K} {N i0 lo hi : ℕ} (h0 : lo + 1 ≤ i0) (hhi : i0 ≤ hi)
    (hN : hi < N) {s s' : MS K} {z : Int} (hz : z = (lo : Int))
    (h : Inv L p N i0 (lo + 1) hi s) (hs : downTurn L p z s = .ok s') : Inv L p N i0 lo hi s' := by
  obtain ⟨t, ph, e, b, d, rfl, h1, h2⟩ := h
  rw [downTurn_eq L p (by omega) t ph e b d hz] at hs
  dsimp only at hs
  obtain ⟨b', hb', hs⟩ := bind_inv hs
  obtain ⟨dt, hdt, hs⟩ := bind_inv hs
  obtain ⟨y, hy, hs⟩ := bind_inv hs
  cases hs
  obtain ⟨hb0, hdt⟩ := fdiv_inv hdt
  obtain ⟨he0, hb'⟩ := lorentzBeta_inv hb'
  exact ⟨_, _, _, _, _, rfl, turnLaws_extendDown h1 h0 rfl he0 hb' hb0 hdt (newton_some hy), h2.extendDown h0 _⟩

theorem turnLoops_inv {L : MathLib K} {p : MachinePars K} {i0 A : ℕ} (hi0 : p.machineRefFrame * p.dturns = (i0 : Int))
    (hA : i0 ≤ A) {s s' : MS K} (h : Inv L p (A + 1) i0 i0 i0 s) (hs : turnLoops L p (A : Int) s = .ok s') :
    Inv L p (A + 1) i0 0 A s' := by
  unfold turnLoops at hs
  dsimp only at hs
  rw [hi0] at hs
  obtain ⟨u, hu, hs⟩ := bind_inv hs
  have e1 : ((A : Int) - i0).toNat = A - i0 := by omega
  rw [e1] at hu
  rw [Int.toNat_natCast] at hs
  have hu' := forN_post (P := fun k s => Inv L p (A + 1) i0 i0 (i0 + k) s) h
    (fun k a b hk ha hb => upTurn_inv (hi := i0 + k) (by omega) (by omega) (by push_cast; ring) ha hb) hu
  have e2 : i0 + (A - i0) = A := by omega
  rw [e2] at hu'
  have hd := forN_post (P := fun k s => Inv L p (A + 1) i0 (i0 - k) A s) hu' (fun k a b hk ha hb => by
    have e3 : i0 - k = (i0 - (k + 1)) + 1 := by omega
    rw [e3] at ha
    exact downTurn_inv (by omega) hA (by omega) (by push_cast [Nat.cast_sub (show k + 1 ≤ i0 by omega)]; ring) ha hb) hs
  simpa using hd

theorem zeros_inv {n : Int} {l : List K} (h : zeros n = .ok l) : 0 ≤ n ∧ l = tab n.toNat fun _ => 0 := by
  unfold zeros at h
  split at h
  · cases h
  · cases h; exact ⟨by omega, rfl⟩

/-- The initial values: `_array_initial_values` needs the reference turn to be inside the arrays. -/
theorem lim_mid {L : MathLib K} {p : MachinePars K} {e : K} {lim : K × K} (h2 : (2 : K) ≠ 0)
    (hlim : findPhiLowerUpper L p e = .ok lim) : (lim.1 + lim.2) / 2 = firstGuess L p e := by
  unfold findPhiLowerUpper at hlim
  obtain ⟨g, hg, hlim⟩ := bind_inv hlim
  obtain ⟨_, rfl⟩ := fdiv_inv hg
  unfold firstGuess
  by_cases hq : 0 < p.q * (p.transGamma - e / p.eRest)
  · rw [if_pos hq] at hlim ⊢
    cases hlim
    dsimp only
    rw [neg_add_cancel, zero_div]
  · rw [if_neg hq] at hlim ⊢
    cases hlim
    dsimp only
    rw [zero_add, mul_div_cancel_left₀ _ h2]

theorem arrayInitialValues_inv {L : MathLib K} {p : MachinePars K} {N : ℕ} {s' : MS K}
    (h0 : 0 ≤ p.machineRefFrame * p.dturns)
    (hs : arrayInitialValues L p (mkMS N (fun _ => 0) (fun _ => 0) (fun _ => 0) (fun _ => 0) (fun _ => 0)) = .ok s') :
    ∃ i0 : ℕ, p.machineRefFrame * p.dturns = (i0 : Int) ∧ i0 < N ∧ Inv L p N i0 i0 i0 s' := by
  obtain ⟨i0, hi0⟩ := Int.eq_ofNat_of_zero_le h0
  have hi : i0 < N := by
    by_contra hn
    unfold arrayInitialValues at hs
    dsimp only at hs
    rw [hi0, upd_eq_oob _ _ (by simp; omega)] at hs
    cases hs
  refine ⟨i0, hi0, hi, ?_⟩
  unfold arrayInitialValues at hs
  dsimp only at hs
  rw [hi0, upd_tab _ _ hi, bind_ok, upd_tab _ _ hi, bind_ok, rd_tab _ hi, bind_ok, if_pos rfl] at hs
  obtain ⟨b, hb, hs⟩ := bind_inv hs
  rw [upd_tab _ _ hi, bind_ok] at hs
  obtain ⟨lim, hlim, hs⟩ := bind_inv hs
  rw [rd_tab _ hi, bind_ok] at hs
  obtain ⟨y, hy, hs⟩ := bind_inv hs
  rw [upd_tab _ _ hi, bind_ok] at hs
  cases hs
  obtain ⟨he, hb⟩ := lorentzBeta_inv hb
  refine ⟨fset (fun _ => 0) i0 0, fset (fun _ => 0) i0 y, fset (fun _ => 0) i0 _, fset (fun _ => 0) i0 b, fun _ => 0, rfl, ?_, ?_⟩
  · constructor
    · rw [fset_same]
    · rw [fset_same]; rfl
    · rw [fset_same, fset_same, fset_same]
      obtain ⟨x0, hx0, hy'⟩ := bind_inv hy
      obtain ⟨x1, hx1, hy2⟩ := bind_inv hy'
      simp only [if_true] at hy2 hx1
      obtain ⟨h2, rfl⟩ := fdiv_inv hx0
      refine ⟨x1, ?_, newton_some hy2⟩
      have hx := lim_mid h2 hlim
      rw [← hx]
      exact newton_first hx1
    · intro i h1 h2
      obtain rfl : i = i0 := by omega
      rw [fset_same, fset_same]; exact ⟨he, hb⟩
    all_goals intro i h1 h2; omega
  · constructor
    · intro i h1 h2; omega
    · intro i h1 h2; omega
    · rfl

theorem mapM_range_inv {β : Type} [Inhabited β] {n : ℕ} {f : ℕ → M β} {l : List β}
    (h : (List.range n).mapM f = .ok l) : ∃ g : ℕ → β, l = tab n g ∧ ∀ i, i < n → f i = .ok (g i) := by
  have hall : ∀ i, i < n → ∃ v, f i = .ok v := by
    induction n generalizing l with
    | zero => intro i hi; omega
    | succ n ih =>
      rw [List.range_succ, List.mapM_append] at h
      obtain ⟨a, ha, h⟩ := bind_inv h
      obtain ⟨b, hb, h⟩ := bind_inv h
      intro i hi
      by_cases hin : i = n
      · subst hin
        rw [List.mapM_cons] at hb
        obtain ⟨v, hv, _⟩ := bind_inv hb
        exact ⟨v, hv⟩
      · exact ih ha i (by omega)
  classical
  let g : ℕ → β := fun i => if hi : i < n then (hall i hi).choose else default
  have hg : ∀ i, i < n → f i = .ok (g i) := by
    intro i hi
    simp only [g, dif_pos hi]
    exact (hall i hi).choose_spec
  refine ⟨g, ?_, hg⟩
  rw [Track.mapM_range hg] at h
  cases h; rfl

theorem map_tab {β γ : Type _} (n : ℕ) (f : ℕ → β) (g : β → γ) : (tab n f).map g = tab n fun i => g (f i) := by
  simp [tab, List.map_map, Function.comp_def]

theorem valuesAtTurnsOf_inv {L : MathLib K} {p : MachinePars K} {o : MachineOut K} (hd : 0 < p.dturns)
    (hr : 0 ≤ p.machineRefFrame) (h : valuesAtTurnsOf L p = .ok o) :
    ∃ (i0 A : ℕ) (t ph e b d eta coef om : ℕ → K),
      (i0 : Int) = p.machineRefFrame * p.dturns ∧ (A : Int) = (p.nprofiles - 1) * p.dturns ∧ i0 ≤ A ∧
      TurnArrays L p i0 A t ph e b d eta coef om o ∧ StepLaws i0 0 A e d := by
  have : Inhabited K := ⟨0⟩
  unfold valuesAtTurnsOf at h
  dsimp only at h
  obtain ⟨s0, hs0, h⟩ := bind_inv h
  obtain ⟨z, hz, hs0⟩ := bind_inv hs0
  obtain ⟨hA0, hz⟩ := zeros_inv hz
  cases hs0
  obtain ⟨s1, hs1, h⟩ := bind_inv h
  have hi0 : 0 ≤ p.machineRefFrame * p.dturns := Int.mul_nonneg hr hd.le
  rw [hz] at hs1
  obtain ⟨i0, e0, hi, hinv⟩ := arrayInitialValues_inv hi0 hs1
  have hA1 : 0 ≤ (p.nprofiles - 1) * p.dturns := by
    by_contra hn
    have : ((p.nprofiles - 1) * p.dturns + 1).toNat = 0 := by omega
    omega
  obtain ⟨A, hA⟩ := Int.eq_ofNat_of_zero_le hA1
  have hN : ((p.nprofiles - 1) * p.dturns + 1).toNat = A + 1 := by omega
  rw [hN] at hi hinv
  obtain ⟨s2, hs2, h⟩ := bind_inv h
  rw [hA] at hs2
  obtain ⟨t, ph, e, b, d, rfl, h1, h2⟩ := turnLoops_inv e0 (by omega) hinv hs2
  obtain ⟨eta, heta, h⟩ := bind_inv h
  obtain ⟨coef, hcoef, h⟩ := bind_inv h
  obtain ⟨om, hom, h⟩ := bind_inv h
  cases h
  obtain ⟨g, hg, heta⟩ := bind_inv heta
  obtain ⟨hg0, rfl⟩ := fdiv_inv hg
  cases heta
  unfold findDphase at hcoef
  unfold revolutionFreq at hom
  dsimp only at hcoef hom
  rw [length_tab] at hcoef hom
  obtain ⟨cf, rfl, hcf⟩ := mapM_range_inv hcoef
  obtain ⟨of, rfl, hof⟩ := mapM_range_inv hom
  refine ⟨i0, A, t, ph, e, b, d, _, cf, of, e0.symm, hA.symm, by omega, ⟨rfl, rfl, rfl, rfl, rfl, map_tab _ _ _, rfl, rfl,
    map_tab _ _ _, map_tab _ _ _, h1, fun hg => hg0 (by rw [hg]; ring), fun i _ => rfl, ?_, ?_⟩, h2⟩
  · intro i hi
    have := hcf i (by omega)
    rw [rd_tab _ (by omega), bind_ok, rd_tab _ (by omega), bind_ok, map_tab, rd_tab _ (by omega), bind_ok] at this
    obtain ⟨x1, x2⟩ := fdiv_inv this
    exact ⟨x1, x2⟩
  · intro i hi
    have := hof i (by omega)
    rw [rd_tab _ (by omega), bind_ok] at this
    exact (fdiv_inv this).2

section total
variable [IsStrictOrderedRing K]

/-- what the external functions must do for the turn computation to succeed -/
structure Works (L : MathLib K) (p : MachinePars K) : Prop where
  sqrt_pos : ∀ x, 0 < x → 0 < L.sqrt x
  c_pos : 0 < L.c
  /-- Newton converges for the first harmonic alone at the reference frame -/
  start : ∀ x, ∃ y, L.newton (rfvoltRf1Mch L p 0) (drfvoltRf1Mch L p 0) x = some y
  /-- Newton converges to an exact root -/
  step : ∀ t x, ∃ y, SynchPhaseFrom L p t x y ∧ volt L p t y = rampVolt L p

/-- energy of the synchronous particle at turn `i` in a linearly ramping field -/
def rampEnergy (L : MathLib K) (p : MachinePars K) (i0 i : ℕ) : K :=
  L.sqrt ((p.q * p.b0 * p.bendingRad * L.c) ^ 2 + p.eRest ^ 2) + ((i : K) - (i0 : K)) * (p.q * rampVolt L p)

theorem energy_ramp {L : MathLib K} {p : MachinePars K} {i0 lo hi : ℕ} {t ph e b : ℕ → K}
    (h : TurnLaws L p i0 lo hi t ph e b) (h0 : lo ≤ i0) (h1 : i0 ≤ hi)
    (hv : ∀ i, lo ≤ i → i ≤ hi → volt L p (t i) (ph i) = rampVolt L p) :
    ∀ i, lo ≤ i → i ≤ hi → e i = rampEnergy L p i0 i := by
  have step : ∀ i, lo ≤ i → i < hi → e (i + 1) - rampEnergy L p i0 (i + 1) = e i - rampEnergy L p i0 i := by
    intro i a1 a2
    rw [h.energy i a1 a2, hv (i + 1) (by omega) (by omega)]
    unfold rampEnergy
    push_cast
    ring
  have base : e i0 - rampEnergy L p i0 i0 = 0 := by
    rw [h.energy0]; unfold rampEnergy; ring
  have all : ∀ k, lo + k ≤ hi → e (lo + k) - rampEnergy L p i0 (lo + k) = e lo - rampEnergy L p i0 lo := by
    intro k
    induction k with
    | zero => intro _; rfl
    | succ k ih => intro hk; rw [← ih (by omega)]; exact step (lo + k) (by omega) (by omega)
  intro i a1 a2
  have x1 := all (i - lo) (by omega)
  have x2 := all (i0 - lo) (by omega)
  rw [show lo + (i - lo) = i by omega] at x1
  rw [show lo + (i0 - lo) = i0 by omega, base] at x2
  rw [← x2] at x1
  linarith

theorem beta_ne {L : MathLib K} {p : MachinePars K} (W : Works L p) (hm : 0 < p.eRest) {e : K} (he : p.eRest < e) :
    0 < L.sqrt (1 - (p.eRest / e) ^ 2) := by
  apply W.sqrt_pos
  have he0 : 0 < e := hm.trans he
  have h1 : p.eRest / e < 1 := (div_lt_one he0).mpr he
  have h0 : 0 < p.eRest / e := div_pos hm he0
  nlinarith

/-- the state satisfies the laws on `lo..hi` with phases following the ramp -/
def Inv' (L : MathLib K) (p : MachinePars K) (N i0 lo hi : ℕ) (s : MS K) : Prop :=
  ∃ t ph e b d, s = mkMS N t ph e b d ∧ TurnLaws L p i0 lo hi t ph e b ∧ StepLaws i0 lo hi e d ∧
    ∀ i, lo ≤ i → i ≤ hi → volt L p (t i) (ph i) = rampVolt L p

theorem upTurn_total {L : MathLib K} {p : MachinePars K} (W : Works L p) (hm : 0 < p.eRest) {N i0 hi : ℕ}
    (h0 : i0 ≤ hi) (hN : hi + 1 < N) (hE : ∀ i, i < N → p.eRest < rampEnergy L p i0 i) {s : MS K} {z : Int}
    (hz : z = ((hi + 1 : ℕ) : Int)) (h : Inv' L p N i0 i0 hi s) :
    ∃ s', upTurn L p z s = .ok s' ∧ Inv' L p N i0 i0 (hi + 1) s' := by
  obtain ⟨t, ph, e, b, d, rfl, h1, h2, h3⟩ := h
  have he := energy_ramp h1 le_rfl h0 h3 hi h0 le_rfl
  have hb : b hi * L.c ≠ 0 := by
    rw [(h1.beta hi h0 le_rfl).2, he]
    exact (mul_pos (beta_ne W hm (hE hi (by omega))) W.c_pos).ne'
  obtain ⟨y, hy, hv⟩ := W.step (t hi + 2 * L.pi * p.meanOrbitRad / (b hi * L.c)) (ph hi)
  have he' : e hi + p.q * volt L p (t hi + 2 * L.pi * p.meanOrbitRad / (b hi * L.c)) y = rampEnergy L p i0 (hi + 1) := by
    rw [hv, he]; unfold rampEnergy; push_cast; ring
  have hpos := hE (hi + 1) hN
  have hne : e hi + p.q * volt L p (t hi + 2 * L.pi * p.meanOrbitRad / (b hi * L.c)) y ≠ 0 := by
    rw [he']; exact (hm.trans hpos).ne'
  refine ⟨_, ?_, _, _, _, _, _, rfl, turnLaws_extendUp h1 h0 hb rfl hy hne rfl, h2.extendUp h0 _, ?_⟩
  · rw [upTurn_eq L p hN t ph e b d hz, fdiv_ok hb, bind_ok, newton_of_some hy, bind_ok]
    dsimp only
    rw [lorentzBeta_ok _ _ hne, bind_ok]; rfl
  · intro i a1 a2
    by_cases hi' : i = hi + 1
    · subst hi'; rw [fset_same, fset_same]; exact hv
    · rw [fset_other _ _ hi', fset_other _ _ hi']; exact h3 i a1 (by omega)

theorem downTurn_total {L : MathLib K} {p : MachinePars K} (W : Works L p) (hm : 0 < p.eRest) {N i0 lo hi : ℕ}
    (h0 : lo + 1 ≤ i0) (hhi : i0 ≤ hi) (hN : hi < N) (hE : ∀ i, i < N → p.eRest < rampEnergy L p i0 i) {s : MS K}
    {z : Int} (hz : z = (lo : Int)) (h : Inv' L p N i0 (lo + 1) hi s) :
    ∃ s', downTurn L p z s = .ok s' ∧ Inv' L p N i0 lo hi s' := by
  obtain ⟨t, ph, e, b, d, rfl, h1, h2, h3⟩ := h
  have he := energy_ramp h1 h0 hhi h3 (lo + 1) le_rfl (by omega)
  have hv0 := h3 (lo + 1) le_rfl (by omega)
  have he' : e (lo + 1) - p.q * volt L p (t (lo + 1)) (ph (lo + 1)) = rampEnergy L p i0 lo := by
    rw [he, hv0]; unfold rampEnergy; push_cast; ring
  have hpos := hE lo (by omega)
  have hne : e (lo + 1) - p.q * volt L p (t (lo + 1)) (ph (lo + 1)) ≠ 0 := by
    rw [he']; exact (hm.trans hpos).ne'
  have hb : L.sqrt (1 - (p.eRest / (e (lo + 1) - p.q * volt L p (t (lo + 1)) (ph (lo + 1)))) ^ 2) * L.c ≠ 0 := by
    rw [he']
    exact (mul_pos (beta_ne W hm hpos) W.c_pos).ne'
  obtain ⟨y, hy, hv⟩ := W.step (t (lo + 1) - 2 * L.pi * p.meanOrbitRad /
    (L.sqrt (1 - (p.eRest / (e (lo + 1) - p.q * volt L p (t (lo + 1)) (ph (lo + 1)))) ^ 2) * L.c)) (ph (lo + 1))
  refine ⟨_, ?_, _, _, _, _, _, rfl, turnLaws_extendDown h1 h0 rfl hne rfl hb rfl hy, h2.extendDown h0 _, ?_⟩
  · rw [downTurn_eq L p (by omega) t ph e b d hz]
    dsimp only
    rw [lorentzBeta_ok _ _ hne, bind_ok, fdiv_ok hb, bind_ok, newton_of_some hy, bind_ok]; rfl
  · intro i a1 a2
    by_cases hi' : i = lo
    · subst hi'; rw [fset_same, fset_same]; exact hv
    · rw [fset_other _ _ hi', fset_other _ _ hi']; exact h3 i (by omega) (by omega)

theorem turnLoops_total {L : MathLib K} {p : MachinePars K} (W : Works L p) (hm : 0 < p.eRest) {i0 A : ℕ}
    (hi0 : p.machineRefFrame * p.dturns = (i0 : Int)) (hA : i0 ≤ A)
    (hE : ∀ i, i < A + 1 → p.eRest < rampEnergy L p i0 i) {s : MS K} (h : Inv' L p (A + 1) i0 i0 i0 s) :
    ∃ s', turnLoops L p (A : Int) s = .ok s' ∧ Inv' L p (A + 1) i0 0 A s' := by
  unfold turnLoops
  dsimp only
  rw [hi0]
  have e1 : ((A : Int) - i0).toNat = A - i0 := by omega
  rw [e1, Int.toNat_natCast]
  obtain ⟨u, hu, hu'⟩ := forN_inv (n := A - i0) (f := fun k s => upTurn L p (i0 + 1 + k) s)
    (P := fun k s => Inv' L p (A + 1) i0 i0 (i0 + k) s) h
    (fun k a hk ha => upTurn_total (hi := i0 + k) W hm (by omega) (by omega) hE (by push_cast; ring) ha)
  have e2 : i0 + (A - i0) = A := by omega
  rw [e2] at hu'
  obtain ⟨v, hv, hv'⟩ := forN_inv (n := i0) (f := fun k s => downTurn L p (i0 - 1 - k) s)
    (P := fun k s => Inv' L p (A + 1) i0 (i0 - k) A s) hu' (fun k a hk ha => by
    have e3 : i0 - k = (i0 - (k + 1)) + 1 := by omega
    rw [e3] at ha
    exact downTurn_total W hm (by omega) hA (by omega) hE
      (by push_cast [Nat.cast_sub (show k + 1 ≤ i0 by omega)]; ring) ha)
  refine ⟨v, ?_, by simpa using hv'⟩
  rw [hu, bind_ok, hv]

theorem bToE_gt {L : MathLib K} {p : MachinePars K} (W : Works L p) (hm : 0 < p.eRest) :
    0 < L.sqrt ((p.q * p.b0 * p.bendingRad * L.c) ^ 2 + p.eRest ^ 2) :=
  W.sqrt_pos _ (by positivity)

theorem valuesAtTurnsOf_total {L : MathLib K} {p : MachinePars K} (W : Works L p) (hm : 0 < p.eRest) {i0 A : ℕ}
    (hi0 : p.machineRefFrame * p.dturns = (i0 : Int)) (hA : (p.nprofiles - 1) * p.dturns = (A : Int)) (hle : i0 ≤ A)
    (hE : ∀ i, i ≤ A → p.eRest < rampEnergy L p i0 i) (hg : p.transGamma ≠ 0) (hR : p.meanOrbitRad ≠ 0) :
    ∃ o, valuesAtTurnsOf L p = .ok o := by
  unfold valuesAtTurnsOf
  dsimp only
  rw [hA]
  have hz : initArrays (K := K) (A : Int) =
      .ok (mkMS (A + 1) (fun _ => 0) (fun _ => 0) (fun _ => 0) (fun _ => 0) (fun _ => 0)) := by
    unfold initArrays zeros
    rw [if_neg (by omega)]
    have : ((A : Int) + 1).toNat = A + 1 := by omega
    rw [this]; rfl
  rw [hz, bind_ok]
  have hi : i0 < A + 1 := by omega
  have hne := (bToE_gt W hm).ne'
  have hinit : ∃ s1, arrayInitialValues L p
      (mkMS (A + 1) (fun _ => 0) (fun _ => 0) (fun _ => 0) (fun _ => 0) (fun _ => 0)) = .ok s1 ∧
      Inv' L p (A + 1) i0 i0 i0 s1 := by
    unfold arrayInitialValues
    dsimp only
    rw [hi0, upd_tab _ _ hi, bind_ok, upd_tab _ _ hi, bind_ok, rd_tab _ hi, bind_ok, if_pos rfl]
    unfold bToE
    rw [lorentzBeta_ok L _ hne, bind_ok, upd_tab _ _ hi, bind_ok]
    have hlim : ∃ lim, findPhiLowerUpper L p (L.sqrt ((p.q * p.b0 * p.bendingRad * L.c) ^ 2 + p.eRest ^ 2)) = .ok lim := by
      unfold findPhiLowerUpper
      rw [fdiv_ok hm.ne', bind_ok]
      split
      · exact ⟨_, rfl⟩
      · exact ⟨_, rfl⟩
    obtain ⟨lim, hlim⟩ := hlim
    rw [hlim, bind_ok, rd_tab _ hi, bind_ok, if_pos rfl]
    unfold findSynchPhase
    rw [fdiv_ok (two_ne_zero), bind_ok]
    obtain ⟨x, hx⟩ := W.start ((lim.1 + lim.2) / 2)
    have hx' : newton L (rfvoltRf1Mch L p 0) (drfvoltRf1Mch L p 0) ((lim.1 + lim.2) / 2) = .ok x := by
      unfold newton; rw [hx]
    rw [hx', bind_ok]
    obtain ⟨y, hy, hv⟩ := W.step 0 x
    rw [newton_of_some hy, bind_ok, upd_tab _ _ hi, bind_ok]
    refine ⟨_, rfl, fset (fun _ => 0) i0 0, fset (fun _ => 0) i0 y, fset (fun _ => 0) i0 _, fset (fun _ => 0) i0 _,
      fun _ => 0, rfl, ?_, ?_, ?_⟩
    · constructor
      · rw [fset_same]
      · rw [fset_same]
      · rw [fset_same, fset_same, fset_same, ← lim_mid two_ne_zero hlim]; exact ⟨x, newton_first hx', hy⟩
      · intro i h1 h2
        obtain rfl : i = i0 := by omega
        rw [fset_same, fset_same]; exact ⟨hne, rfl⟩
      all_goals intro i h1 h2; omega
    · constructor
      · intro i h1 h2; omega
      · intro i h1 h2; omega
      · rfl
    · intro i h1 h2
      obtain rfl : i = i0 := by omega
      rw [fset_same, fset_same]; exact hv
  obtain ⟨s1, hs1, hinv⟩ := hinit
  rw [hs1, bind_ok]
  obtain ⟨s2, hs2, t, ph, e, b, d, rfl, h1, h2, h3⟩ := turnLoops_total W hm hi0 hle (fun i hi => hE i (by omega)) hinv
  rw [hs2, bind_ok]
  have he := energy_ramp h1 (Nat.zero_le _) hle h3
  have hb : ∀ i, i ≤ A → e i * b i ^ 2 ≠ 0 := by
    intro i hi
    rw [(h1.beta i (Nat.zero_le _) hi).2, he i (Nat.zero_le _) hi]
    have := beta_ne W hm (hE i hi)
    have := hm.trans (hE i hi)
    positivity
  have heta : phaseSlipFactor p (mkMS (A + 1) t ph e b d).beta0 =
      .ok (tab (A + 1) fun i => 1 - b i ^ 2 - 1 / p.transGamma ^ 2) := by
    unfold phaseSlipFactor
    rw [fdiv_ok (pow_ne_zero 2 hg), bind_ok, map_tab]; rfl
  rw [heta, bind_ok]
  have hcoef : findDphase L p (mkMS (A + 1) t ph e b d) (tab (A + 1) fun i => 1 - b i ^ 2 - 1 / p.transGamma ^ 2) =
      .ok (tab (A + 1) fun i => 2 * L.pi * p.hNum * (1 - b i ^ 2 - 1 / p.transGamma ^ 2) / (e i * b i ^ 2)) := by
    unfold findDphase
    dsimp only
    rw [length_tab]
    apply Track.mapM_range
    intro i hi
    rw [rd_tab _ (by omega), bind_ok, rd_tab _ (by omega), bind_ok, rd_tab _ (by omega), bind_ok, fdiv_ok (hb i (by omega))]
  rw [hcoef, bind_ok]
  have hom : revolutionFreq L p (mkMS (A + 1) t ph e b d).beta0 = .ok (tab (A + 1) fun i => b i * L.c / p.meanOrbitRad) := by
    unfold revolutionFreq
    dsimp only
    rw [length_tab]
    apply Track.mapM_range
    intro i hi
    rw [rd_tab _ (by omega), bind_ok, fdiv_ok hR]
  rw [hom, bind_ok]
  exact ⟨_, rfl⟩

end total
end Verif.Mch

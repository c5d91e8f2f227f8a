import Verif.Lemmas.Machine

/-!
# The turn loops succeed when the searches succeed on a set of phases they stay in
-/

namespace Verif.Mch
open Verif.Spec Verif.Asrt

variable {K : Type} [Field K] [LinearOrder K] [IsStrictOrderedRing K]

/-- energy at the reference frame -/
def refEnergy (L : MathLib K) (p : MachinePars K) : K := L.sqrt ((p.q * p.b0 * p.bendingRad * L.c) ^ 2 + p.eRest ^ 2)

/-- searches started in `Good` end in `Good`, where a turn changes the energy by at most `U` -/
structure Stays (L : MathLib K) (p : MachinePars K) (Good : K → Prop) (U : K) : Prop where
  sqrt_pos : ∀ x, 0 < x → 0 < L.sqrt x
  c_pos : 0 < L.c
  start : ∃ x, FirstSystemFrom L p 0 (firstGuess L p (refEnergy L p)) x ∧ Good x
  step : ∀ t x, Good x → ∃ y, SynchPhaseFrom L p t x y ∧ Good y
  gain : ∀ t y, Good y → |p.q * volt L p t y| ≤ U

theorem newton_of_first {L : MathLib K} {p : MachinePars K} {t x y : K} (h : FirstSystemFrom L p t x y) :
    newton L (rfvoltRf1Mch L p t) (drfvoltRf1Mch L p t) x = .ok y := by
  unfold FirstSystemFrom at h
  have e : (fun φ => (p.vrf1 + p.vrf1dot * t) * L.sin φ - rampVolt L p) = rfvoltRf1Mch L p t := by
    funext φ
    unfold rampVolt rfvoltRf1Mch rfvoltRf1 vrft
    ring
  rw [e] at h
  change L.newton (rfvoltRf1Mch L p t) (drfvoltRf1Mch L p t) x = some y at h
  unfold newton
  rw [h]

variable {L : MathLib K} {p : MachinePars K} {Good : K → Prop} {U : K}

def InvG (L : MathLib K) (p : MachinePars K) (Good : K → Prop) (N i0 lo hi : ℕ) (s : MS K) : Prop :=
  ∃ t ph e b d, s = mkMS N t ph e b d ∧ TurnLaws L p i0 lo hi t ph e b ∧ StepLaws i0 lo hi e d ∧
    ∀ i, lo ≤ i → i ≤ hi → Good (ph i)

theorem energy_near (S : Stays L p Good U) {i0 lo hi : ℕ} {t ph e b : ℕ → K} (h : TurnLaws L p i0 lo hi t ph e b) (h0 : lo ≤ i0)
    (h1 : i0 ≤ hi) (hG : ∀ i, lo ≤ i → i ≤ hi → Good (ph i)) :
    ∀ i, lo ≤ i → i ≤ hi → |e i - refEnergy L p| ≤ ((i - i0 : ℕ) : K) * U + ((i0 - i : ℕ) : K) * U := by
  have hst : ∀ i, lo ≤ i → i < hi → |e (i + 1) - e i| ≤ U := by
    intro i a1 a2
    rw [h.energy i a1 a2, add_sub_cancel_left]
    exact S.gain _ _ (hG _ (by omega) (by omega))
  have e0 : e i0 = refEnergy L p := h.energy0
  have up : ∀ k, i0 + k ≤ hi → |e (i0 + k) - refEnergy L p| ≤ (k : K) * U := by
    intro k
    induction k with
    | zero => intro _; simp [e0]
    | succ k ih =>
      intro hk
      have a := hst (i0 + k) (by omega) (by omega)
      have b := ih (by omega)
      have : e (i0 + (k + 1)) - refEnergy L p = (e (i0 + k + 1) - e (i0 + k)) + (e (i0 + k) - refEnergy L p) := by
        rw [add_assoc]; ring
      rw [this]
      push_cast
      linarith [abs_add_le (e (i0 + k + 1) - e (i0 + k)) (e (i0 + k) - refEnergy L p)]
  have dn : ∀ k, k ≤ i0 → lo ≤ i0 - k → |e (i0 - k) - refEnergy L p| ≤ (k : K) * U := by
    intro k
    induction k with
    | zero => intro _ _; simp [e0]
    | succ k ih =>
      intro hk hlo
      have a := hst (i0 - (k + 1)) (by omega) (by omega)
      have b := ih (by omega) (by omega)
      rw [show i0 - (k + 1) + 1 = i0 - k by omega, abs_sub_comm] at a
      have : e (i0 - (k + 1)) - refEnergy L p = (e (i0 - (k + 1)) - e (i0 - k)) + (e (i0 - k) - refEnergy L p) := by ring
      rw [this]
      push_cast
      linarith [abs_add_le (e (i0 - (k + 1)) - e (i0 - k)) (e (i0 - k) - refEnergy L p)]
  intro i a1 a2
  rcases le_total i0 i with hi | hi
  · obtain ⟨k, rfl⟩ := Nat.exists_eq_add_of_le hi
    have := up k a2
    rw [show i0 + k - i0 = k by omega, show i0 - (i0 + k) = 0 by omega]
    simpa using this
  · have := dn (i0 - i) (by omega) (by omega)
    rw [show i0 - (i0 - i) = i by omega] at this
    rw [show i - i0 = 0 by omega]
    simpa using this

theorem gain_nonneg (S : Stays L p Good U) : 0 ≤ U := by
  obtain ⟨x, _, hx⟩ := S.start
  exact le_trans (abs_nonneg _) (S.gain 0 x hx)

theorem energy_above (S : Stays L p Good U) {i0 lo hi N : ℕ} {t ph e b : ℕ → K} (h : TurnLaws L p i0 lo hi t ph e b) (h0 : lo ≤ i0)
    (h1 : i0 ≤ hi) (hG : ∀ i, lo ≤ i → i ≤ hi → Good (ph i)) (hN : hi < N) (hE : p.eRest < refEnergy L p - (N : K) * U) {i : ℕ}
    (a1 : lo ≤ i) (a2 : i ≤ hi) : p.eRest < e i - U := by
  have := energy_near S h h0 h1 hG i a1 a2
  have hU := gain_nonneg S
  have : ((i - i0 : ℕ) : K) * U + ((i0 - i : ℕ) : K) * U + U ≤ (N : K) * U := by
    rw [← add_mul, ← Nat.cast_add, ← add_one_mul, ← Nat.cast_succ]
    exact mul_le_mul_of_nonneg_right (by exact_mod_cast (show (i - i0 + (i0 - i)).succ ≤ N by omega)) hU
  have h3 := (abs_le.mp (energy_near S h h0 h1 hG i a1 a2)).1
  linarith

theorem beta_pos (S : Stays L p Good U) (hm : 0 < p.eRest) {e : K} (he : p.eRest < e) : 0 < L.sqrt (1 - (p.eRest / e) ^ 2) := by
  apply S.sqrt_pos
  have he0 : 0 < e := hm.trans he
  have h1 : p.eRest / e < 1 := (div_lt_one he0).mpr he
  have h0 : 0 < p.eRest / e := div_pos hm he0
  nlinarith

theorem upTurn_good (S : Stays L p Good U) (hm : 0 < p.eRest) {N i0 hi : ℕ} (h0 : i0 ≤ hi) (hN : hi + 1 < N)
    (hE : p.eRest < refEnergy L p - (N : K) * U) {s : MS K} {z : Int} (hz : z = ((hi + 1 : ℕ) : Int))
    (h : InvG L p Good N i0 i0 hi s) : ∃ s', upTurn L p z s = .ok s' ∧ InvG L p Good N i0 i0 (hi + 1) s' := by
  obtain ⟨t, ph, e, b, d, rfl, h1, h2, h3⟩ := h
  have hU := gain_nonneg S
  have he := energy_above S h1 le_rfl h0 h3 (by omega) hE h0 le_rfl
  have hb : b hi * L.c ≠ 0 := by
    rw [(h1.beta hi h0 le_rfl).2]
    exact (mul_pos (beta_pos S hm (by linarith)) S.c_pos).ne'
  obtain ⟨y, hy, hv⟩ := S.step (t hi + 2 * L.pi * p.meanOrbitRad / (b hi * L.c)) (ph hi) (h3 hi h0 le_rfl)
  have hg := (abs_le.mp (S.gain (t hi + 2 * L.pi * p.meanOrbitRad / (b hi * L.c)) y hv)).1
  have hne : e hi + p.q * volt L p (t hi + 2 * L.pi * p.meanOrbitRad / (b hi * L.c)) y ≠ 0 := by
    have : 0 < e hi + p.q * volt L p (t hi + 2 * L.pi * p.meanOrbitRad / (b hi * L.c)) y := by linarith
    exact this.ne'
  refine ⟨_, ?_, _, _, _, _, _, rfl, turnLaws_extendUp h1 h0 hb rfl hy hne rfl, h2.extendUp h0 _, ?_⟩
  · rw [upTurn_eq L p hN t ph e b d hz, fdiv_ok hb, bind_ok, newton_of_some hy, bind_ok]
    dsimp only
    rw [lorentzBeta_ok _ _ hne, bind_ok]; rfl
  · intro i a1 a2
    by_cases hi' : i = hi + 1
    · subst hi'; rw [fset_same]; exact hv
    · rw [fset_other _ _ hi']; exact h3 i a1 (by omega)

theorem downTurn_good (S : Stays L p Good U) (hm : 0 < p.eRest) {N i0 lo hi : ℕ} (h0 : lo + 1 ≤ i0) (hhi : i0 ≤ hi) (hN : hi < N)
    (hE : p.eRest < refEnergy L p - (N : K) * U) {s : MS K} {z : Int} (hz : z = (lo : Int))
    (h : InvG L p Good N i0 (lo + 1) hi s) : ∃ s', downTurn L p z s = .ok s' ∧ InvG L p Good N i0 lo hi s' := by
  obtain ⟨t, ph, e, b, d, rfl, h1, h2, h3⟩ := h
  have he := energy_above S h1 h0 hhi h3 hN hE le_rfl (by omega : lo + 1 ≤ hi)
  have hg := (abs_le.mp (S.gain (t (lo + 1)) (ph (lo + 1)) (h3 (lo + 1) le_rfl (by omega)))).2
  have hpos : p.eRest < e (lo + 1) - p.q * volt L p (t (lo + 1)) (ph (lo + 1)) := by linarith
  have hne : e (lo + 1) - p.q * volt L p (t (lo + 1)) (ph (lo + 1)) ≠ 0 := (hm.trans hpos).ne'
  have hb : L.sqrt (1 - (p.eRest / (e (lo + 1) - p.q * volt L p (t (lo + 1)) (ph (lo + 1)))) ^ 2) * L.c ≠ 0 :=
    (mul_pos (beta_pos S hm hpos) S.c_pos).ne'
  obtain ⟨y, hy, hv⟩ := S.step (t (lo + 1) - 2 * L.pi * p.meanOrbitRad /
    (L.sqrt (1 - (p.eRest / (e (lo + 1) - p.q * volt L p (t (lo + 1)) (ph (lo + 1)))) ^ 2) * L.c)) (ph (lo + 1))
    (h3 (lo + 1) le_rfl (by omega))
  refine ⟨_, ?_, _, _, _, _, _, rfl, turnLaws_extendDown h1 h0 rfl hne rfl hb rfl hy, h2.extendDown h0 _, ?_⟩
  · rw [downTurn_eq L p (by omega) t ph e b d hz]
    dsimp only
    rw [lorentzBeta_ok _ _ hne, bind_ok, fdiv_ok hb, bind_ok, newton_of_some hy, bind_ok]; rfl
  · intro i a1 a2
    by_cases hi' : i = lo
    · subst hi'; rw [fset_same]; exact hv
    · rw [fset_other _ _ hi']; exact h3 i (by omega) (by omega)

theorem turnLoops_good (S : Stays L p Good U) (hm : 0 < p.eRest) {i0 A : ℕ} (hi0 : p.machineRefFrame * p.dturns = (i0 : Int))
    (hA : i0 ≤ A) (hE : p.eRest < refEnergy L p - ((A + 1 : ℕ) : K) * U) {s : MS K} (h : InvG L p Good (A + 1) i0 i0 i0 s) :
    ∃ s', turnLoops L p (A : Int) s = .ok s' ∧ InvG L p Good (A + 1) i0 0 A s' := by
  unfold turnLoops
  dsimp only
  rw [hi0]
  have e1 : ((A : Int) - i0).toNat = A - i0 := by omega
  rw [e1, Int.toNat_natCast]
  obtain ⟨u, hu, hu'⟩ := forN_inv (n := A - i0) (f := fun k s => upTurn L p (i0 + 1 + k) s)
    (P := fun k s => InvG L p Good (A + 1) i0 i0 (i0 + k) s) h
    (fun k a hk ha => upTurn_good (hi := i0 + k) S hm (by omega) (by omega) hE (by push_cast; ring) ha)
  have e2 : i0 + (A - i0) = A := by omega
  rw [e2] at hu'
  obtain ⟨v, hv, hv'⟩ := forN_inv (n := i0) (f := fun k s => downTurn L p (i0 - 1 - k) s)
    (P := fun k s => InvG L p Good (A + 1) i0 (i0 - k) A s) hu' (fun k a hk ha => by
    have e3 : i0 - k = (i0 - (k + 1)) + 1 := by omega
    rw [e3] at ha
    exact downTurn_good S hm (by omega) hA (by omega) hE
      (by push_cast [Nat.cast_sub (show k + 1 ≤ i0 by omega)]; ring) ha)
  refine ⟨v, ?_, by simpa using hv'⟩
  rw [hu, bind_ok, hv]

/-- the whole computation succeeds -/
theorem valuesAtTurnsOf_good (S : Stays L p Good U) (hm : 0 < p.eRest) {i0 A : ℕ}
    (hi0 : p.machineRefFrame * p.dturns = (i0 : Int)) (hA : (p.nprofiles - 1) * p.dturns = (A : Int)) (hle : i0 ≤ A)
    (hE : p.eRest < refEnergy L p - ((A + 1 : ℕ) : K) * U) (hg : p.transGamma ≠ 0) (hR : p.meanOrbitRad ≠ 0) :
    ∃ o, valuesAtTurnsOf L p = .ok o := by
  unfold valuesAtTurnsOf
  dsimp only
  rw [hA]
  have hz : initArrays (K := K) (A : Int) =
      .ok (mkMS (A + 1) (fun _ => 0) (fun _ => 0) (fun _ => 0) (fun _ => 0) (fun _ => 0)) := by
    unfold initArrays zeros
    rw [if_neg (by omega)]
    have : ((A : Int) + 1).toNat = A + 1 := by omega
    rw [this]; rfl
  rw [hz, bind_ok]
  have hi : i0 < A + 1 := by omega
  have hU := gain_nonneg S
  have hAU : 0 ≤ ((A + 1 : ℕ) : K) * U := mul_nonneg (by positivity) hU
  have hne : refEnergy L p ≠ 0 := by
    have : 0 < refEnergy L p := by linarith
    exact this.ne'
  have hinit : ∃ s1, arrayInitialValues L p
      (mkMS (A + 1) (fun _ => 0) (fun _ => 0) (fun _ => 0) (fun _ => 0) (fun _ => 0)) = .ok s1 ∧
      InvG L p Good (A + 1) i0 i0 i0 s1 := by
    unfold arrayInitialValues
    dsimp only
    rw [hi0, upd_tab _ _ hi, bind_ok, upd_tab _ _ hi, bind_ok, rd_tab _ hi, bind_ok, if_pos rfl]
    change ∃ s1, (lorentzBeta L p.eRest (refEnergy L p) >>= _) = _ ∧ _
    rw [lorentzBeta_ok L _ hne, bind_ok, upd_tab _ _ hi, bind_ok]
    change ∃ s1, (findPhiLowerUpper L p (refEnergy L p) >>= _) = _ ∧ _
    have hlim : ∃ lim, findPhiLowerUpper L p (refEnergy L p) = .ok lim := by
      unfold findPhiLowerUpper
      rw [fdiv_ok hm.ne', bind_ok]
      split
      · exact ⟨_, rfl⟩
      · exact ⟨_, rfl⟩
    obtain ⟨lim, hlim⟩ := hlim
    rw [hlim, bind_ok, rd_tab _ hi, bind_ok, if_pos rfl]
    unfold findSynchPhase
    rw [fdiv_ok (two_ne_zero), bind_ok]
    obtain ⟨x, hx, hxG⟩ := S.start
    rw [lim_mid two_ne_zero hlim, newton_of_first hx, bind_ok]
    obtain ⟨y, hy, hv⟩ := S.step 0 x hxG
    rw [newton_of_some hy, bind_ok, upd_tab _ _ hi, bind_ok]
    refine ⟨_, rfl, fset (fun _ => 0) i0 0, fset (fun _ => 0) i0 y, fset (fun _ => 0) i0 (refEnergy L p), fset (fun _ => 0) i0 _,
      fun _ => 0, rfl, ?_, ?_, ?_⟩
    · constructor
      · rw [fset_same]
      · rw [fset_same]; rfl
      · rw [fset_same, fset_same, fset_same]; exact ⟨x, hx, hy⟩
      · intro i h1 h2
        obtain rfl : i = i0 := by omega
        rw [fset_same, fset_same]; exact ⟨hne, rfl⟩
      all_goals intro i h1 h2; omega
    · constructor
      · intro i h1 h2; omega
      · intro i h1 h2; omega
      · rfl
    · intro i h1 h2
      obtain rfl : i = i0 := by omega
      rw [fset_same]; exact hv
  obtain ⟨s1, hs1, hinv⟩ := hinit
  rw [hs1, bind_ok]
  obtain ⟨s2, hs2, t, ph, e, b, d, rfl, h1, h2, h3⟩ := turnLoops_good S hm hi0 hle hE hinv
  rw [hs2, bind_ok]
  have hb : ∀ i, i ≤ A → e i * b i ^ 2 ≠ 0 := by
    intro i hi
    have := energy_above S h1 (Nat.zero_le _) hle h3 (by omega) hE (Nat.zero_le i) hi
    have he : p.eRest < e i := by linarith
    rw [(h1.beta i (Nat.zero_le _) hi).2]
    have := beta_pos S hm he
    have := hm.trans he
    positivity
  have heta : phaseSlipFactor p (mkMS (A + 1) t ph e b d).beta0 =
      .ok (tab (A + 1) fun i => 1 - b i ^ 2 - 1 / p.transGamma ^ 2) := by
    unfold phaseSlipFactor
    rw [fdiv_ok (pow_ne_zero 2 hg), bind_ok, map_tab]; rfl
  rw [heta, bind_ok]
  have hcoef : findDphase L p (mkMS (A + 1) t ph e b d) (tab (A + 1) fun i => 1 - b i ^ 2 - 1 / p.transGamma ^ 2) =
      .ok (tab (A + 1) fun i => 2 * L.pi * p.hNum * (1 - b i ^ 2 - 1 / p.transGamma ^ 2) / (e i * b i ^ 2)) := by
    unfold findDphase
    dsimp only
    rw [length_tab]
    apply Track.mapM_range
    intro i hi
    rw [rd_tab _ (by omega), bind_ok, rd_tab _ (by omega), bind_ok, rd_tab _ (by omega), bind_ok, fdiv_ok (hb i (by omega))]
  rw [hcoef, bind_ok]
  have hom : revolutionFreq L p (mkMS (A + 1) t ph e b d).beta0 = .ok (tab (A + 1) fun i => b i * L.c / p.meanOrbitRad) := by
    unfold revolutionFreq
    dsimp only
    rw [length_tab]
    apply Track.mapM_range
    intro i hi
    rw [rd_tab _ (by omega), bind_ok, fdiv_ok hR]
  rw [hom, bind_ok]
  exact ⟨_, rfl⟩

end Verif.Mch

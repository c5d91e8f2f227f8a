import Verif.Lemmas.Rnd
import Verif.Model.Tracking

/-!
# Tracking in rounded arithmetic
-/

namespace Verif.Rounded
open Filter Topology

theorem MRel.while {A B : Type} {R : (World → A) → B → Prop} {fuel : ℕ} {c : World → A → Bool} {c' : B → Bool}
    {f : World → A → M A} {g : B → M B} {s : World → A} {t : B} (h0 : R s t)
    (hc : ∀ x y, R x y → ∀ w, c w (x w) = c' y)
    (hs : ∀ x y, R x y → MRel R (fun w => f w (x w)) (g y)) :
    MRel R (fun w => Verif.whileN fuel (c w) (f w) (s w)) (Verif.whileN fuel c' g t) := by
  induction fuel generalizing s t with
  | zero =>
    intro y hy
    unfold Verif.whileN at hy ⊢
    simp only [hc s t h0]
    by_cases hcc : c' t = true
    · rw [if_pos hcc] at hy; cases hy
    · rw [if_neg hcc] at hy
      cases hy
      exact ⟨s, Eventually.of_forall fun w => by rw [if_neg hcc], h0⟩
  | succ n ih =>
    intro y hy
    unfold Verif.whileN at hy ⊢
    simp only [hc s t h0]
    by_cases hcc : c' t = true
    · rw [if_pos hcc] at hy
      cases hg : g t with
      | error e => rw [hg] at hy; cases hy
      | ok t' =>
        rw [hg] at hy
        obtain ⟨s', h1, h2⟩ := hs s t h0 t' hg
        obtain ⟨z, h3, h4⟩ := ih h2 y hy
        exact ⟨z, by filter_upwards [h1, h3] with w e1 e2; rw [if_pos hcc, e1]; exact e2, h4⟩
    · rw [if_neg hcc] at hy
      cases hy
      exact ⟨s, Eventually.of_forall fun w => by rw [if_neg hcc], h0⟩

/-- rows of numbers -/
def LLRel (X : World → List (List ℝ)) (Y : List (List ℝ)) : Prop :=
  (∀ᶠ w in arith, (X w).length = Y.length) ∧ ∀ k, LRel (fun w => (X w).getD k []) (Y.getD k [])

theorem LLRel.rd {X : World → List (List ℝ)} {Y : List (List ℝ)} (h : LLRel X Y) (i : Int) :
    MRel LRel (fun w => Verif.rd (X w) i) (Verif.rd Y i) := by
  intro y hy
  obtain ⟨h0, hg⟩ := rd_ok hy
  refine ⟨fun w => (X w).getD i.toNat [], ?_, ?_⟩
  · filter_upwards [h.1] with w hw
    have hlt : i.toNat < (X w).length := by rw [hw]; exact (List.getElem?_eq_some_iff.mp hg).1
    unfold Verif.rd
    rw [if_pos h0, List.getElem?_eq_getElem hlt]
    simp [List.getD_eq_getElem?_getD, List.getElem?_eq_getElem hlt]
  · have := h.2 i.toNat
    rwa [show Y.getD i.toNat [] = y by rw [List.getD_eq_getElem?_getD, hg]; rfl] at this

theorem LLRel.upd {X : World → List (List ℝ)} {Y : List (List ℝ)} (h : LLRel X Y) (i : Int) {v : World → List ℝ} {v' : List ℝ}
    (hv : LRel v v') : MRel LLRel (fun w => Verif.upd (X w) i (v w)) (Verif.upd Y i v') := by
  intro y hy
  unfold Verif.upd at hy
  split at hy
  · next hi =>
    cases hy
    refine ⟨fun w => (X w).set i.toNat (v w), ?_, ?_, ?_⟩
    · filter_upwards [h.1] with w hw
      unfold Verif.upd
      rw [if_pos ⟨hi.1, by rw [hw]; exact hi.2⟩]
    · filter_upwards [h.1] with w hw
      simp [hw]
    · intro k
      by_cases hk : k = i.toNat
      · subst hk
        have e : (Y.set i.toNat v').getD i.toNat [] = v' := by
          simp [List.getD_eq_getElem?_getD, hi.2]
        rw [e]
        refine ⟨?_, fun k => ?_⟩
        · filter_upwards [h.1, hv.1] with w hw h2
          have : i.toNat < (X w).length := by rw [hw]; exact hi.2
          simpa [List.getD_eq_getElem?_getD, this] using h2
        · refine Tendsto.congr' ?_ (hv.2 k)
          filter_upwards [h.1] with w hw
          have : i.toNat < (X w).length := by rw [hw]; exact hi.2
          simp [List.getD_eq_getElem?_getD, this]
      · have e : ∀ (l : List (List ℝ)) x, (l.set i.toNat x).getD k [] = l.getD k [] := fun l x => by
          rw [List.getD_eq_getElem?_getD, List.getD_eq_getElem?_getD, List.getElem?_set_ne (Ne.symm hk)]
        simp only [e]
        exact h.2 k
  · cases hy

theorem LLRel.const (Y : List (List ℝ)) : LLRel (fun _ => Y) Y :=
  ⟨Eventually.of_forall fun _ => rfl, fun _ => LRel.const _⟩

/-- the arrays of the machine -/
structure MachRel (m : World → Track.Mach ℝ) (m' : Track.Mach ℝ) : Prop where
  rf1v : LRel (fun w => (m w).rf1v) m'.rf1v
  rf2v : LRel (fun w => (m w).rf2v) m'.rf2v
  phi0 : LRel (fun w => (m w).phi0) m'.phi0
  deltaE0 : LRel (fun w => (m w).deltaE0) m'.deltaE0
  driftCoef : LRel (fun w => (m w).driftCoef) m'.driftCoef
  phi12 : LRel (fun w => (m w).phi12) m'.phi12
  hratio : TRel (fun w => (m w).hratio) m'.hratio

theorem rel_energyGain {a b c d e f g : World → ℝ} {a' b' c' d' e' f' g' : ℝ} (ha : TRel a a') (hb : TRel b b') (hc : TRel c c')
    (hd : TRel d d') (he : TRel e e') (hf : TRel f f') (hg : TRel g g') :
    TRel (fun w => (Track.energyGain (α := Rn w) w.sin (a w) (b w) (c w) (d w) (e w) (f w) (g w) : Rn w))
      (Track.energyGain Real.sin a' b' c' d' e' f' g') := by
  unfold Track.energyGain
  exact ((ha.mul (hg.add hc).sin).add (hb.mul (he.mul ((hg.add hc).sub hd)).sin)).sub hf

theorem rel_kickUp {P E : World → List ℝ} {P' E' : List ℝ} (hP : LRel P P') (hE : LRel E E') (n : ℕ)
    {a b c d e f : World → ℝ} {a' b' c' d' e' f' : ℝ} (ha : TRel a a') (hb : TRel b b') (hc : TRel c c')
    (hd : TRel d d') (he : TRel e e') (hf : TRel f f') :
    MRel LRel (fun w => (Track.kickUp (α := Rn w) w.sin (P w) (E w) (a w) (b w) (c w) (d w) (e w) n (f w) : M (List (Rn w))))
      (Track.kickUp Real.sin P' E' a' b' c' d' e' n f') := by
  unfold Track.kickUp
  refine MRel.forN hE fun i _ X Y hXY => ?_
  refine MRel.bind (hP.rd _) fun v v' hv => ?_
  refine MRel.bind (hXY.rd _) fun u u' hu => ?_
  exact hXY.upd _ (hu.add (rel_energyGain ha hb hc hd he hf hv))

theorem rel_kickDown {P E : World → List ℝ} {P' E' : List ℝ} (hP : LRel P P') (hE : LRel E E') (n : ℕ)
    {a b c d e f : World → ℝ} {a' b' c' d' e' f' : ℝ} (ha : TRel a a') (hb : TRel b b') (hc : TRel c c')
    (hd : TRel d d') (he : TRel e e') (hf : TRel f f') :
    MRel LRel (fun w => (Track.kickDown (α := Rn w) w.sin (P w) (E w) (a w) (b w) (c w) (d w) (e w) n (f w) : M (List (Rn w))))
      (Track.kickDown Real.sin P' E' a' b' c' d' e' n f') := by
  unfold Track.kickDown
  refine MRel.forN hE fun i _ X Y hXY => ?_
  refine MRel.bind (hP.rd _) fun v v' hv => ?_
  refine MRel.bind (hXY.rd _) fun u u' hu => ?_
  exact hXY.upd _ (hu.sub (rel_energyGain ha hb hc hd he hf hv))

theorem rel_driftUp {P E : World → List ℝ} {P' E' : List ℝ} (hP : LRel P P') (hE : LRel E E') (n : ℕ)
    {a : World → ℝ} {a' : ℝ} (ha : TRel a a') :
    MRel LRel (fun w => (Track.driftUp (α := Rn w) (P w) (E w) (a w) n : M (List (Rn w)))) (Track.driftUp P' E' a' n) := by
  unfold Track.driftUp
  refine MRel.forN hP fun i _ X Y hXY => ?_
  refine MRel.bind (hXY.rd _) fun v v' hv => ?_
  refine MRel.bind (hE.rd _) fun u u' hu => ?_
  exact hXY.upd _ (hv.sub (ha.mul hu))

theorem rel_driftDown {P E : World → List ℝ} {P' E' : List ℝ} (hP : LRel P P') (hE : LRel E E') (n : ℕ)
    {a : World → ℝ} {a' : ℝ} (ha : TRel a a') :
    MRel LRel (fun w => (Track.driftDown (α := Rn w) (P w) (E w) (a w) n : M (List (Rn w)))) (Track.driftDown P' E' a' n) := by
  unfold Track.driftDown
  refine MRel.forN hP fun i _ X Y hXY => ?_
  refine MRel.bind (hXY.rd _) fun v v' hv => ?_
  refine MRel.bind (hE.rd _) fun u u' hu => ?_
  exact hXY.upd _ (hv.add (ha.mul hu))

theorem rel_storeRow {X : World → List (List ℝ)} {Y : List (List ℝ)} (h : LLRel X Y) (p : Int) {v : World → List ℝ} {v' : List ℝ}
    (hv : LRel v v') (n : ℕ) :
    MRel LLRel (fun w => (Track.storeRow (α := Rn w) (X w) p (v w) n : M (List (List (Rn w))))) (Track.storeRow Y p v' n) := by
  unfold Track.storeRow
  refine MRel.bind (h.rd p) fun r r' hr => ?_
  refine MRel.bind (R := LRel) (MRel.forN hr fun i _ A B hAB => ?_) fun s s' hs => h.upd p hs
  exact MRel.bind (hv.rd _) fun t t' ht => hAB.upd _ ht

theorem rel_loadRow {X : World → List (List ℝ)} {Y : List (List ℝ)} (h : LLRel X Y) (p : Int) {v : World → List ℝ} {v' : List ℝ}
    (hv : LRel v v') (n : ℕ) :
    MRel LRel (fun w => (Track.loadRow (α := Rn w) (v w) (X w) p n : M (List (Rn w)))) (Track.loadRow v' Y p n) := by
  unfold Track.loadRow
  refine MRel.bind (h.rd p) fun r r' hr => MRel.forN hv fun i _ A B hAB => ?_
  exact MRel.bind (hr.rd _) fun t t' ht => hAB.upd _ ht

/-- the variables of the loop: the integers are the same -/
structure TSRel (X : World → Track.TS ℝ) (Y : Track.TS ℝ) : Prop where
  xp : LLRel (fun w => (X w).xp) Y.xp
  yp : LLRel (fun w => (X w).yp) Y.yp
  dphi : LRel (fun w => (X w).dphi) Y.dphi
  denergy : LRel (fun w => (X w).denergy) Y.denergy
  profile : ∀ w, (X w).profile = Y.profile
  turn : ∀ w, (X w).turn = Y.turn
  progress : ∀ w, (X w).progress = Y.progress
  calls : ∀ w, (X w).calls = Y.calls

theorem rel_upBody {m : World → Track.Mach ℝ} {m' : Track.Mach ℝ} (hm : MachRel m m') (dturns nturns : Int) (n : ℕ)
    {X : World → Track.TS ℝ} {Y : Track.TS ℝ} (h : TSRel X Y) :
    MRel TSRel (fun w => (Track.upBody (α := Rn w) w.sin (m w) dturns nturns n (X w) : M (Track.TS (Rn w))))
      (Track.upBody Real.sin m' dturns nturns n Y) := by
  unfold Track.upBody
  simp only [h.turn, h.profile, h.progress, h.calls]
  refine MRel.bind (hm.driftCoef.rd _) fun co co' hco => ?_
  refine MRel.bind (rel_driftUp h.dphi h.denergy n hco) fun P P' hP => ?_
  refine MRel.bind (hm.rf1v.rd _) fun v1 v1' h1 => ?_
  refine MRel.bind (hm.rf2v.rd _) fun v2 v2' h2 => ?_
  refine MRel.bind (hm.phi0.rd _) fun p0 p0' h3 => ?_
  refine MRel.bind (hm.phi12.rd _) fun p12 p12' h4 => ?_
  refine MRel.bind (hm.deltaE0.rd _) fun ac ac' h5 => ?_
  refine MRel.bind (rel_kickUp hP h.denergy n h1 h2 h3 h4 hm.hratio h5) fun E E' hE => ?_
  split
  · refine MRel.bind (rel_storeRow h.xp _ hP n) fun A A' hA => ?_
    refine MRel.bind (rel_storeRow h.yp _ hE n) fun B B' hB => ?_
    exact MRel.pure ⟨hA, hB, hP, hE, fun _ => rfl, fun _ => rfl, fun _ => rfl, fun _ => rfl⟩
  · exact MRel.pure ⟨h.xp, h.yp, hP, hE, fun _ => rfl, fun _ => rfl, fun _ => rfl, fun _ => rfl⟩

theorem rel_downBody {m : World → Track.Mach ℝ} {m' : Track.Mach ℝ} (hm : MachRel m m') (dturns nturns : Int) (n : ℕ)
    {X : World → Track.TS ℝ} {Y : Track.TS ℝ} (h : TSRel X Y) :
    MRel TSRel (fun w => (Track.downBody (α := Rn w) w.sin (m w) dturns nturns n (X w) : M (Track.TS (Rn w))))
      (Track.downBody Real.sin m' dturns nturns n Y) := by
  unfold Track.downBody
  simp only [h.turn, h.profile, h.progress, h.calls]
  refine MRel.bind (hm.rf1v.rd _) fun v1 v1' h1 => ?_
  refine MRel.bind (hm.rf2v.rd _) fun v2 v2' h2 => ?_
  refine MRel.bind (hm.phi0.rd _) fun p0 p0' h3 => ?_
  refine MRel.bind (hm.phi12.rd _) fun p12 p12' h4 => ?_
  refine MRel.bind (hm.deltaE0.rd _) fun ac ac' h5 => ?_
  refine MRel.bind (rel_kickDown h.dphi h.denergy n h1 h2 h3 h4 hm.hratio h5) fun E E' hE => ?_
  refine MRel.bind (hm.driftCoef.rd _) fun co co' hco => ?_
  refine MRel.bind (rel_driftDown h.dphi hE n hco) fun P P' hP => ?_
  split
  · refine MRel.bind (rel_storeRow h.xp _ hP n) fun A A' hA => ?_
    refine MRel.bind (rel_storeRow h.yp _ hE n) fun B B' hB => ?_
    exact MRel.pure ⟨hA, hB, hP, hE, fun _ => rfl, fun _ => rfl, fun _ => rfl, fun _ => rfl⟩
  · exact MRel.pure ⟨h.xp, h.yp, hP, hE, fun _ => rfl, fun _ => rfl, fun _ => rfl, fun _ => rfl⟩

theorem rel_kickAndDrift {m : World → Track.Mach ℝ} {m' : Track.Mach ℝ} (hm : MachRel m m') (dturns recProf deltaturn nturns : Int)
    (n : ℕ) {A B : World → List (List ℝ)} {A' B' : List (List ℝ)} (hA : LLRel A A') (hB : LLRel B B')
    {E P : World → List ℝ} {E' P' : List ℝ} (hE : LRel E E') (hP : LRel P P') :
    MRel TSRel (fun w => (Track.kickAndDrift (α := Rn w) w.sin (A w) (B w) (E w) (P w) (m w) dturns recProf deltaturn nturns n :
        M (Track.TS (Rn w))))
      (Track.kickAndDrift Real.sin A' B' E' P' m' dturns recProf deltaturn nturns n) := by
  unfold Track.kickAndDrift
  refine MRel.bind (rel_storeRow hA _ hP n) fun C C' hC => ?_
  refine MRel.bind (rel_storeRow hB _ hE n) fun D D' hD => ?_
  refine MRel.bind (R := TSRel) (MRel.while (R := TSRel)
    ⟨hC, hD, hP, hE, fun _ => rfl, fun _ => rfl, fun _ => rfl, fun _ => rfl⟩ (fun x y h w => ?_)
    fun x y h => rel_upBody hm dturns nturns n h) fun s s' hs => ?_
  · exact congrArg (fun t => decide (t < nturns)) (h.turn w)
  dsimp only
  split
  · refine MRel.bind (rel_loadRow hs.xp recProf hs.dphi n) fun F F' hF => ?_
    refine MRel.bind (rel_loadRow hs.yp recProf hs.denergy n) fun G G' hG => ?_
    refine MRel.while (R := TSRel) ⟨hs.xp, hs.yp, hF, hG, fun _ => rfl, fun _ => rfl, hs.progress, hs.calls⟩ (fun x y h w => ?_)
      fun x y h => rel_downBody hm dturns nturns n h
    exact congrArg (fun t => decide (0 < t)) (h.turn w)
  · exact MRel.pure ⟨hs.xp, hs.yp, hs.dphi, hs.denergy, fun _ => rfl, fun _ => rfl, hs.progress, hs.calls⟩

/-- a pair of coordinate arrays -/
def XYRel (X : World → List (List ℝ) × List (List ℝ)) (Y : List (List ℝ) × List (List ℝ)) : Prop :=
  LLRel (fun w => (X w).1) Y.1 ∧ LLRel (fun w => (X w).2) Y.2

theorem rel_trackArray {m : World → Track.Mach ℝ} {m' : Track.Mach ℝ} (hm : MachRel m m') (nprofiles dturns recprof deltaturn : Int)
    {E P : World → List ℝ} {E' P' : List ℝ} (hE : LRel E E') (hP : LRel P P') (hl : ∀ w, (P w).length = P'.length) :
    MRel XYRel (fun w => (Track.trackArray (α := Rn w) w.sin 0 (m w) nprofiles dturns recprof deltaturn (P w) (E w) :
        M (List (List (Rn w)) × List (List (Rn w)))))
      (Track.trackArray Real.sin 0 m' nprofiles dturns recprof deltaturn P' E') := by
  unfold Track.trackArray
  split
  · exact MRel.error
  · next r hr =>
    have e : ∀ w, List.length (α := Rn w) (P w) = P'.length := hl
    simp only [e]
    refine MRel.bind (rel_kickAndDrift hm dturns r deltaturn _ _ (LLRel.const _) (LLRel.const _) hE hP) fun s s' hs => ?_
    exact MRel.pure ⟨hs.xp, hs.yp⟩

end Verif.Rounded

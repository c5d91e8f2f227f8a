import Verif.Spec.TrackObj
import Verif.Lemmas.Run
import Verif.Lemmas.SelfField

/-! # Steps of a tracker -/

set_option linter.unusedSectionVars false

namespace Verif.TrkO
open Verif.Mch Verif.Psi Verif.Part Verif.SelfF

variable {K : Type} [Field K] [LinearOrder K] [FloorRing K] {L : MathLib K}

/-- what an automatic distribution does to a tracker depends on its machine only, apart from attributes that survive a failure -/
theorem homogeneous_same {t t' : Trk K} (hm : t.mach = t'.mach) (r d : Int) :
    (homogeneous L t r d).2 = (homogeneous L t' r d).2 ∧
      ((homogeneous L t r d).2 = .ok () → (homogeneous L t r d).1.parts = (homogeneous L t' r d).1.parts ∧
        (homogeneous L t r d).1.machDEbin = (homogeneous L t' r d).1.machDEbin) := by
  unfold homogeneous
  rw [hm]
  rcases findLimits L t'.mach.toArea with e | ⟨xo, dE, lim⟩
  · exact ⟨rfl, fun h => by cases h⟩
  · dsimp only
    rcases cellPoints t'.mach.snpt lim with e | pts
    · exact ⟨rfl, fun h => by cases h⟩
    · dsimp only
      rcases binToPhysical t'.mach.toArea xo dE r d pts with e | c
      · exact ⟨rfl, fun h => by cases h⟩
      · exact ⟨rfl, fun _ => ⟨rfl, rfl⟩⟩

/-- what an automatic distribution changes -/
theorem homogeneous_keeps (t : Trk K) (r d : Int) : ∃ p b, (homogeneous L t r d).1 = { t with parts := p, machDEbin := b } := by
  unfold homogeneous
  rcases findLimits L t.mach.toArea with e | ⟨xo, dE, lim⟩
  · exact ⟨_, _, rfl⟩
  · dsimp only
    rcases cellPoints t.mach.snpt lim with e | pts
    · exact ⟨_, _, rfl⟩
    · dsimp only
      rcases binToPhysical t.mach.toArea xo dE r d pts with e | c
      · exact ⟨_, _, rfl⟩
      · exact ⟨_, _, rfl⟩

/-- the area attributes after an automatic distribution -/
theorem homogeneous_area (t : Trk K) (r d : Int) :
    ((homogeneous L t r d).1.parts.xorigin = ((areaOf L t.mach).map Prod.fst).orElse (fun _ => t.parts.xorigin)) ∧
    ((homogeneous L t r d).1.parts.dEbin = ((areaOf L t.mach).map Prod.snd).orElse (fun _ => t.parts.dEbin)) ∧
    ((homogeneous L t r d).1.machDEbin = ((areaOf L t.mach).map Prod.snd).orElse (fun _ => t.machDEbin)) := by
  unfold homogeneous areaOf
  rcases findLimits L t.mach.toArea with e | ⟨xo, dE, lim⟩
  · exact ⟨rfl, rfl, rfl⟩
  · dsimp only
    rcases cellPoints t.mach.snpt lim with e | pts
    · exact ⟨rfl, rfl, rfl⟩
    · dsimp only
      rcases binToPhysical t.mach.toArea xo dE r d pts with e | c
      · exact ⟨rfl, rfl, rfl⟩
      · exact ⟨rfl, rfl, rfl⟩

/-- an automatic distribution that succeeds: the particles are those of `homogeneousDistribution` -/
theorem homogeneous_ok {t t' : Trk K} {r d : Int} (h : homogeneous L t r d = (t', .ok ())) :
    ∃ xo dE lim pts, findLimits L t.mach.toArea = .ok (xo, dE, lim) ∧ homogeneousDistribution L t.mach.toArea r d = .ok pts ∧
      t' = { t with parts := ⟨some dE, some xo, some lim, some (pts.map Prod.fst, pts.map Prod.snd)⟩, machDEbin := some dE } := by
  unfold homogeneous at h
  unfold homogeneousDistribution
  revert h
  rcases findLimits L t.mach.toArea with e | ⟨xo, dE, lim⟩
  · intro h
    cases h
  · dsimp only
    simp only [bind_ok]
    rcases cellPoints t.mach.snpt lim with e | pts
    · intro h
      cases h
    · dsimp only
      simp only [bind_ok]
      rcases binToPhysical t.mach.toArea xo dE r d pts with e | c
      · intro h
        cases h
      · intro h
        refine ⟨xo, dE, lim, c, rfl, rfl, ?_⟩
        exact (congrArg Prod.fst h).symm

theorem follow_keeps (past : K) (t : Trk K) (r d : Int) (c : List K × List K) :
    ∃ x, (follow L past t r d c).1 = { t with parts := { t.parts with coords := x }, init := some c } := by
  unfold follow
  dsimp only
  rcases (if t.selfFlag then followSelf L past { t with init := some c } r c.1 c.2 else followPlain L past t.mach r d c.1 c.2) with
    e | ⟨o, n⟩
  · exact ⟨t.parts.coords, rfl⟩
  · exact ⟨_, rfl⟩

/-- the attributes no tracking and no creation of particles touches -/
structure Kept (t t' : Trk K) : Prop where
  mach : t'.mach = t.mach
  nturns : t'.nturns = t.nturns
  selfFlag : t'.selfFlag = t.selfFlag
  fortran : t'.fortran = t.fortran
  charge : t'.charge = t.charge
  phiwrap : t'.phiwrap = t.phiwrap
  vself : t'.vself = t.vself

theorem Kept.refl (t : Trk K) : Kept t t := ⟨rfl, rfl, rfl, rfl, rfl, rfl, rfl⟩

theorem Kept.trans {a b c : Trk K} (h : Kept a b) (g : Kept b c) : Kept a c :=
  ⟨g.1.trans h.1, g.2.trans h.2, g.3.trans h.3, g.4.trans h.4, g.5.trans h.5, g.6.trans h.6, g.7.trans h.7⟩

theorem homogeneous_kept (t : Trk K) (r d : Int) : Kept t (homogeneous L t r d).1 := by
  obtain ⟨p, b, h⟩ := homogeneous_keeps (L := L) t r d
  rw [h]
  exact ⟨rfl, rfl, rfl, rfl, rfl, rfl, rfl⟩

theorem follow_kept (past : K) (t : Trk K) (r d : Int) (c : List K × List K) :
    Kept t (follow L past t r d c).1 ∧ (follow L past t r d c).1.parts.xorigin = t.parts.xorigin ∧
      (follow L past t r d c).1.parts.dEbin = t.parts.dEbin ∧ (follow L past t r d c).1.machDEbin = t.machDEbin ∧
      (follow L past t r d c).1.init = some c := by
  obtain ⟨x, h⟩ := follow_keeps (L := L) past t r d c
  rw [h]
  exact ⟨⟨rfl, rfl, rfl, rfl, rfl, rfl, rfl⟩, rfl, rfl, rfl, rfl⟩

/-- the three area attributes -/
def AreaEq (t t' : Trk K) : Prop :=
  t'.parts.xorigin = t.parts.xorigin ∧ t'.parts.dEbin = t.parts.dEbin ∧ t'.machDEbin = t.machDEbin

theorem trackUser_kept (past : K) (t : Trk K) (r d : Int) (x y : List K) :
    Kept t (trackUser L past t r d x y).1 ∧ AreaEq t (trackUser L past t r d x y).1 := by
  unfold trackUser
  rcases Track.trackCheck t.mach.nprofiles t.mach.dturns r d with e | r'
  · exact ⟨Kept.refl t, rfl, rfl, rfl⟩
  · dsimp only
    by_cases hl : x.length ≠ y.length
    · rw [if_pos hl]
      exact ⟨Kept.refl t, rfl, rfl, rfl⟩
    · rw [if_neg hl]
      have h := follow_kept (L := L) past { t with parts := { t.parts with coords := some (x, y) } } r' d (x, y)
      exact ⟨⟨h.1.1, h.1.2, h.1.3, h.1.4, h.1.5, h.1.6, h.1.7⟩, h.2.1, h.2.2.1, h.2.2.2.1⟩

theorem trackAuto_kept (past : K) (t : Trk K) (r d : Int) :
    Kept t (trackAuto L past t r d).1 ∧
      (∀ e, Track.trackCheck t.mach.nprofiles t.mach.dturns r d = .error e → AreaEq t (trackAuto L past t r d).1) ∧
      ∀ r', Track.trackCheck t.mach.nprofiles t.mach.dturns r d = .ok r' →
        AreaEq (homogeneous L t r' d).1 (trackAuto L past t r d).1 := by
  unfold trackAuto
  rcases Track.trackCheck t.mach.nprofiles t.mach.dturns r d with e | r'
  · exact ⟨Kept.refl t, fun _ _ => ⟨rfl, rfl, rfl⟩, fun _ h => by cases h⟩
  · dsimp only
    have hk := homogeneous_kept (L := L) t r' d
    suffices h : Kept t (match homogeneous L t r' d with
        | (t, .error e) => (t, .error e)
        | (t, .ok _) =>
          match t.parts.coords with
          | none => (t, .error (.exc .typeError))
          | some c => follow L past t r' d c : Trk K × M (List (List K) × List (List K))).1 ∧
        AreaEq (homogeneous L t r' d).1 (match homogeneous L t r' d with
        | (t, .error e) => (t, .error e)
        | (t, .ok _) =>
          match t.parts.coords with
          | none => (t, .error (.exc .typeError))
          | some c => follow L past t r' d c : Trk K × M (List (List K) × List (List K))).1 by
      exact ⟨h.1, (fun _ h => by cases h), fun r'' h' => by cases h'; exact h.2⟩
    revert hk
    rcases homogeneous L t r' d with ⟨t1, e | u⟩
    · exact fun hk => ⟨hk, rfl, rfl, rfl⟩
    · intro hk
      dsimp only at hk ⊢
      rcases t1.parts.coords with _ | c
      · exact ⟨hk, rfl, rfl, rfl⟩
      · have h := follow_kept (L := L) past t1 r' d c
        exact ⟨hk.trans h.1, h.2.1, h.2.2.1, h.2.2.2.1⟩

/-- with the number of turns of the machine, the tracking with self fields is the one of `Model/SelfField.lean` -/
theorem kickAndDriftSelfO_eq (sin : K → K) (m : Track.Mach K) (phi12 : K) (f : SF K) (dturns nprofiles recProf : Int)
    (denergy dphi : List K) :
    (kickAndDriftSelfO sin m phi12 f (dturns * (nprofiles - 1)) dturns nprofiles recProf denergy dphi).map Prod.fst
      = kickAndDriftSelf sin m phi12 f dturns nprofiles recProf denergy dphi := by
  unfold kickAndDriftSelfO kickAndDriftSelf
  dsimp only
  rcases calcXpSf f m.phi0 (recProf * dturns) dphi with e | x
  · rfl
  simp only [bind_ok]
  rcases Track.setRow _ recProf x with e | a
  · rfl
  simp only [bind_ok]
  rcases toY f denergy with e | y
  · rfl
  simp only [bind_ok]
  rcases Track.setRow _ recProf y with e | b
  · rfl
  simp only [bind_ok]
  rcases whileN _ _ _ _ with e | s
  · rfl
  simp only [bind_ok]
  rcases Track.getRow s.xp recProf with e | x'
  · rfl
  simp only [bind_ok]
  rcases whileN _ _ _ _ with e | s'
  · rfl
  rfl

end Verif.TrkO

namespace Verif.TrkO
open Verif.Mch Verif.Psi Verif.Part Verif.SelfF Verif.Spec Verif.Track

section
variable {K : Type} [Field K] [LinearOrder K] [FloorRing K] {L : MathLib K}

/-- what a tracking returns, and what it leaves when it succeeds, when everything it reads is the same -/
theorem follow_same (past : K) {t t' : Trk K} (hm : t.mach = t'.mach) (hf : t.selfFlag = t'.selfFlag)
    (hs : t.selfFlag = true → t.parts = t'.parts ∧ t.phiwrap = t'.phiwrap ∧ t.vself = t'.vself ∧ t.nturns = t'.nturns)
    (r d : Int) (c : List K × List K) :
    (follow L past t r d c).2 = (follow L past t' r d c).2 ∧
      (∀ o, (follow L past t r d c).2 = .ok o →
        (follow L past t r d c).1.parts.coords = (follow L past t' r d c).1.parts.coords) := by
  have he : (if t.selfFlag then followSelf L past { t with init := some c } r c.1 c.2 else followPlain L past t.mach r d c.1 c.2) =
      (if t'.selfFlag then followSelf L past { t' with init := some c } r c.1 c.2 else followPlain L past t'.mach r d c.1 c.2) := by
    rw [← hf, hm]
    by_cases h : t.selfFlag = true
    · obtain ⟨h1, h2, h3, h4⟩ := hs h
      rw [if_pos h, if_pos h]
      unfold followSelf
      dsimp only
      rw [h1, h2, h3, h4]
    · rw [if_neg h, if_neg h]
  unfold follow
  dsimp only
  rw [he]
  rcases (if t'.selfFlag then followSelf L past { t' with init := some c } r c.1 c.2 else followPlain L past t'.mach r d c.1 c.2) with
    e | ⟨o, n⟩
  · exact ⟨rfl, fun _ h => by cases h⟩
  · exact ⟨rfl, fun _ _ => rfl⟩

theorem follow_parts (past : K) (t : Trk K) (r d : Int) (c : List K × List K) :
    (follow L past t r d c).1.parts = { t.parts with coords := (follow L past t r d c).1.parts.coords } := by
  obtain ⟨x, h⟩ := follow_keeps (L := L) past t r d c
  rw [h]

theorem trackUser_same (past : K) {t t' : Trk K} (hm : t.mach = t'.mach) (hf : t.selfFlag = false) (hf' : t'.selfFlag = false)
    (r d : Int) (x y : List K) :
    (trackUser L past t r d x y).2 = (trackUser L past t' r d x y).2 ∧
      (∀ o, (trackUser L past t r d x y).2 = .ok o →
        (trackUser L past t r d x y).1.parts.coords = (trackUser L past t' r d x y).1.parts.coords ∧
        (trackUser L past t r d x y).1.init = some (x, y)) := by
  unfold trackUser
  rw [hm]
  rcases trackCheck t'.mach.nprofiles t'.mach.dturns r d with e | r'
  · exact ⟨rfl, fun _ h => by cases h⟩
  · dsimp only
    by_cases hl : x.length ≠ y.length
    · rw [if_pos hl, if_pos hl]
      exact ⟨rfl, fun _ h => by cases h⟩
    · rw [if_neg hl, if_neg hl]
      have h := follow_same (L := L) past (t := { t with parts := { t.parts with coords := some (x, y) } })
        (t' := { t' with parts := { t'.parts with coords := some (x, y) } }) hm (hf.trans hf'.symm)
        (fun h => by rw [hf] at h; cases h) r' d (x, y)
      have hi := (follow_kept (L := L) past { t with parts := { t.parts with coords := some (x, y) } } r' d (x, y)).2.2.2.2
      rw [hm] at h hi
      exact ⟨h.1, fun o ho => ⟨h.2 o ho, hi⟩⟩

theorem trackAuto_same (past : K) {t t' : Trk K} (hm : t.mach = t'.mach) (hf : t.selfFlag = t'.selfFlag)
    (hs : t.selfFlag = true → t.phiwrap = t'.phiwrap ∧ t.vself = t'.vself ∧ t.nturns = t'.nturns) (r d : Int) :
    (trackAuto L past t r d).2 = (trackAuto L past t' r d).2 ∧
      (∀ o, (trackAuto L past t r d).2 = .ok o →
        (trackAuto L past t r d).1.parts = (trackAuto L past t' r d).1.parts ∧
        (trackAuto L past t r d).1.init = (trackAuto L past t' r d).1.init ∧
        (trackAuto L past t r d).1.machDEbin = (trackAuto L past t' r d).1.machDEbin) := by
  unfold trackAuto
  rw [hm]
  rcases trackCheck t'.mach.nprofiles t'.mach.dturns r d with e | r'
  · exact ⟨rfl, fun _ h => by cases h⟩
  · dsimp only
    obtain ⟨h1, h2⟩ := homogeneous_same (L := L) hm r' d
    have k := homogeneous_kept (L := L) t r' d
    have k' := homogeneous_kept (L := L) t' r' d
    revert h1 h2 k k'
    rcases homogeneous L t r' d with ⟨t1, e | u⟩ <;> rcases homogeneous L t' r' d with ⟨t2, e' | u'⟩
    · intro h1 _ _ _
      exact ⟨by cases h1; rfl, fun _ h => by cases h⟩
    · intro h1
      cases h1
    · intro h1
      cases h1
    · intro h1 h2 k k'
      dsimp only at h1 h2 k k' ⊢
      obtain ⟨hp, hb⟩ := h2 rfl
      rw [hp]
      rcases hc : t2.parts.coords with _ | c
      · exact ⟨rfl, fun _ h => by cases h⟩
      · dsimp only
        have h := follow_same (L := L) past (t := t1) (t' := t2) (by rw [k.mach, k'.mach, hm])
          (by rw [k.selfFlag, k'.selfFlag, hf]) (fun hself => by
            obtain ⟨s1, s2, s3⟩ := hs (by rw [← k.selfFlag, hself])
            exact ⟨hp, by rw [k.phiwrap, k'.phiwrap, s1], by rw [k.vself, k'.vself, s2], by rw [k.nturns, k'.nturns, s3]⟩) r' d c
        refine ⟨h.1, fun o ho => ⟨?_, ?_, ?_⟩⟩
        · rw [follow_parts, h.2 o ho, hp, ← follow_parts]
        · rw [(follow_kept (L := L) past t1 r' d c).2.2.2.2, (follow_kept (L := L) past t2 r' d c).2.2.2.2]
        · rw [(follow_kept (L := L) past t1 r' d c).2.2.2.1, (follow_kept (L := L) past t2 r' d c).2.2.2.1, hb]

/-- the tables of the self fields of a tracker -/
def Fields (t : Trk K) (s : Option (K × List (List K))) : Prop :=
  t.phiwrap = s.map Prod.fst ∧ t.vself = s.map Prod.snd ∧ t.selfFlag = s.isSome

/-- the area of a tracker, also stored in the machine -/
def HasArea (t : Trk K) (a : Option (K × K)) : Prop :=
  t.parts.xorigin = a.map Prod.fst ∧ t.parts.dEbin = a.map Prod.snd ∧ t.machDEbin = a.map Prod.snd

theorem Kept.fields {t t' : Trk K} (h : Kept t t') {s : Option (K × List (List K))} (hs : Fields t s) : Fields t' s :=
  ⟨h.phiwrap.trans hs.1, h.vself.trans hs.2.1, h.selfFlag.trans hs.2.2⟩

theorem AreaEq.area {t t' : Trk K} (h : AreaEq t t') {a : Option (K × K)} (ha : HasArea t a) : HasArea t' a :=
  ⟨h.1.trans ha.1, h.2.1.trans ha.2.1, h.2.2.trans ha.2.2⟩

theorem homogeneous_hasArea {t : Trk K} {a : Option (K × K)} (ha : HasArea t a) (r d : Int) :
    HasArea (homogeneous L t r d).1 ((areaOf L t.mach).orElse fun _ => a) := by
  obtain ⟨h1, h2, h3⟩ := homogeneous_area (L := L) t r d
  unfold HasArea
  rw [h1, h2, h3, ha.1, ha.2.1, ha.2.2]
  rcases areaOf L t.mach with _ | b
  · exact ⟨rfl, rfl, rfl⟩
  · exact ⟨rfl, rfl, rfl⟩

/-- one step: machine, number of turns, tables, area -/
theorem step_state (t : Trk K) (o : Op K) {s : Option (K × List (List K))} (hs : Fields t s) {a : Option (K × K)} (ha : HasArea t a) :
    (step L t o).1.mach = machAfter t.mach [o] ∧ (step L t o).1.nturns = t.nturns ∧ Fields (step L t o).1 (fieldsAfter s [o]) ∧
      HasArea (step L t o).1 (areaAfter L t.mach a [o]) := by
  cases o with
  | machine m => exact ⟨rfl, rfl, hs, ha⟩
  | fortranOutput q => cases q <;> exact ⟨rfl, rfl, hs, ha⟩
  | selfFields w v => rcases w with _ | w <;> rcases v with _ | v <;> first | exact ⟨rfl, rfl, hs, ha⟩ | exact ⟨rfl, rfl, ⟨rfl, rfl, rfl⟩, ha⟩
  | create r d =>
    have e : (step L t (.create r d)).1 = (homogeneous L t r d).1 := by
      unfold step
      dsimp only
      rcases homogeneous L t r d with ⟨t1, e | u⟩ <;> rfl
    rw [e]
    have k := homogeneous_kept (L := L) t r d
    exact ⟨k.mach, k.nturns, k.fields hs, homogeneous_hasArea ha r d⟩
  | coords x y =>
    unfold step
    dsimp only
    by_cases hl : x.length ≠ y.length
    · rw [if_pos hl]
      exact ⟨rfl, rfl, hs, ha⟩
    · rw [if_neg hl]
      exact ⟨rfl, rfl, hs, ha⟩
  | auto past r d =>
    obtain ⟨k, h1, h2⟩ := trackAuto_kept (L := L) past t r d
    refine ⟨k.mach, k.nturns, k.fields hs, ?_⟩
    show HasArea (trackAuto L past t r d).1 (if searches t.mach (.auto past r d) then (areaOf L t.mach).orElse (fun _ => a) else a)
    rcases hc : trackCheck t.mach.nprofiles t.mach.dturns r d with e | r'
    · have hn : ¬ searches t.mach (.auto past r d) = true := by
        unfold searches
        dsimp only
        rw [hc]
        simp
      rw [if_neg hn]
      exact (h1 e hc).area ha
    · have hn : searches t.mach (.auto past r d) = true := by
        unfold searches
        dsimp only
        rw [hc]
      rw [if_pos hn]
      exact (h2 r' hc).area (homogeneous_hasArea ha r' d)
  | user past r d x y =>
    obtain ⟨k, h1⟩ := trackUser_kept (L := L) past t r d x y
    exact ⟨k.mach, k.nturns, k.fields hs, h1.area ha⟩

theorem machAfter_cons (m : Run.Mach K) (o : Op K) (os : List (Op K)) : machAfter m (o :: os) = machAfter (machAfter m [o]) os := by
  cases o <;> rfl

theorem fieldsAfter_cons (s : Option (K × List (List K))) (o : Op K) (os : List (Op K)) :
    fieldsAfter s (o :: os) = fieldsAfter (fieldsAfter s [o]) os := by
  rcases o with _ | _ | ⟨_ | w, _ | v⟩ | _ | _ | _ | _ <;> rfl

theorem areaAfter_cons (m : Run.Mach K) (a : Option (K × K)) (o : Op K) (os : List (Op K)) :
    areaAfter L m a (o :: os) = areaAfter L (machAfter m [o]) (areaAfter L m a [o]) os := by
  cases o <;> rfl

/-- a history -/
theorem run_state (ops : List (Op K)) : ∀ (t : Trk K) {s : Option (K × List (List K))}, Fields t s → ∀ {a : Option (K × K)}, HasArea t a →
    (runOps L t ops).mach = machAfter t.mach ops ∧ (runOps L t ops).nturns = t.nturns ∧
      Fields (runOps L t ops) (fieldsAfter s ops) ∧ HasArea (runOps L t ops) (areaAfter L t.mach a ops) := by
  induction ops with
  | nil => exact fun t s hs a ha => ⟨rfl, rfl, hs, ha⟩
  | cons o os ih =>
    intro t s hs a ha
    obtain ⟨h1, h2, h3, h4⟩ := step_state (L := L) t o hs ha
    obtain ⟨g1, g2, g3, g4⟩ := ih (step L t o).1 h3 h4
    rw [machAfter_cons, fieldsAfter_cons, areaAfter_cons, ← h1]
    exact ⟨g1, g2.trans h2, g3, g4⟩

end

section
variable {K : Type} [Field K] [LinearOrder K] [IsStrictOrderedRing K] [FloorRing K] {L : MathLib K}

theorem pairs_tab (x y : List K) (h : x.length = y.length) :
    x = tab x.length (fun i => (x.getD i 0, y.getD i 0).1) ∧ y = tab x.length (fun i => (x.getD i 0, y.getD i 0).2) := by
  constructor
  · simpa using Run.map_getD x 0 id
  · rw [h]
    simpa using Run.map_getD y 0 id

/-- a tracking without self fields on a loaded machine -/
theorem followPlain_ok {m : Run.Mach K} {P d : ℕ} {A : Turns K} (hm : Loaded m P d A) (past : K) {rec δ : ℤ} {r : ℤ}
    (hr : trackCheck P d rec δ = .ok r) {x y : List K} (hl : x.length = y.length) :
    ∃ xp yp : List (List K), followPlain L past m r δ x y = .ok ((xp, yp),
      (xp.getD (if 0 < r then 0 else P - 1) [], yp.getD (if 0 < r then 0 else P - 1) [])) ∧ xp.length = P ∧ yp.length = P := by
  obtain ⟨⟨h1, h2, -⟩, h3, h4, h5⟩ := (Props.C23_accepts_iff_partial _ _ _ _ _).mp hr
  obtain ⟨h3a, h3b⟩ := abs_lt.mp h3
  have hd : 0 < d := by
    have := abs_nonneg δ
    omega
  obtain ⟨r', rfl⟩ := Int.eq_ofNat_of_zero_le h1
  obtain ⟨s, hs⟩ := Int.eq_ofNat_of_zero_le h4
  have hP : ((P - 1 : ℕ) : Int) = (P : Int) - 1 := by omega
  have hs' : (s : ℤ) = r' * d + δ := by rw [← hs]; ring
  have hsn : s < (P - 1) * d := by
    have : (s : ℤ) < ((P - 1 : ℕ) : ℤ) * d := by rw [hP, ← hs]; linarith [mul_comm (d : ℤ) ((P : ℤ) - 1)]
    exact_mod_cast this
  have hP1 : 0 < P - 1 := by
    rcases Nat.eq_zero_or_pos (P - 1) with h | h
    · rw [h] at hsn; omega
    · exact h
  have hrun := kickAndDrift_run (sin := L.sin) hd (Run.agrees hm past) rfl (show r' < P by omega) hs' h3a h3b hsn.le
    (fun _ _ => ((0 : K), (0 : K))) (n := x.length) (fun i => (x.getD i 0, y.getD i 0))
  obtain ⟨e1, e2⟩ := pairs_tab x y hl
  have hz : List.replicate P (List.replicate x.length (0 : K)) = rows P x.length fun _ _ => (0 : K) := zeros_eq P _ _
  have hN : m.dturns * ((m.nprofiles : ℤ) - 1) = (((P - 1) * d : ℕ) : ℤ) := by
    rw [hm.dturns, hm.nprofiles]
    push_cast
    rw [hP]
    ring
  unfold followPlain
  dsimp only
  rw [hN, hm.nprofiles, hm.dturns, hz]
  rw [← e1, ← e2] at hrun
  rw [hrun, bind_ok]
  refine ⟨rows P x.length fun p i => (outRow L.sin (ring m P d A past) d r' s (δ < 0) (x.getD i 0, y.getD i 0) p).1,
    rows P x.length fun p i => (outRow L.sin (ring m P d A past) d r' s (δ < 0) (x.getD i 0, y.getD i 0) p).2, ?_,
    length_tab _ _, length_tab _ _⟩
  have hget : ∀ (f : ℕ → ℕ → K) (p : ℕ), p < P → (rows P x.length f).getD p [] = tab x.length (f p) := by
    intro f p hp
    unfold rows
    rw [List.getD_eq_getElem?_getD, getElem?_tab, if_pos hp]
    rfl
  show Except.ok _ = Except.ok _
  congr 2
  by_cases h0 : r' = 0
  · subst h0
    have hneg : ¬ δ < 0 := by
      have : (0 : ℤ) ≤ s := by omega
      simp at hs'
      omega
    simp only [Nat.cast_zero, lt_irrefl, if_false, if_true, Track.mk]
    rw [hget _ _ (by omega), hget _ _ (by omega)]
    unfold outRow
    simp only [if_pos hP1]
  · have h0' : (0 : ℤ) < (r' : ℤ) := by omega
    simp only [h0', h0, if_false, if_true, Track.mk]
    rw [hget _ _ (by omega), hget _ _ (by omega)]
    unfold outRow
    simp

end
end Verif.TrkO

import Verif.Lemmas.TrackObj
import Verif.Props.Run

/-!
# C105: a tracker used again and again
-/

set_option linter.unusedSectionVars false

namespace Verif.Props
open Verif.TrkO Verif.Mch Verif.Psi Verif.Part Verif.Spec

section
variable {K : Type} [Field K] [LinearOrder K] [FloorRing K] {L : MathLib K}

theorem fresh_fields (m : Run.Mach K) : Fields (fresh m) none := ⟨rfl, rfl, rfl⟩

theorem fresh_area (m : Run.Mach K) : HasArea (fresh m) none := ⟨rfl, rfl, rfl⟩

/-- C105.  After every history without self fields, `track` on an old tracker gives what a tracker made just now on the machine as it is now
gives: the same coordinates or the same error; and when it succeeds the particles left are the same, with an automatic distribution
all their attributes. -/
theorem C105_as_new (L : MathLib K) (m : Run.Mach K) (ops : List (Op K)) (hs : fieldsAfter none ops = none) (past : K) (r δ : ℤ)
    (x y : List K) :
    (step L (runOps L (fresh m) ops) (.auto past r δ)).2 = (step L (fresh (machAfter m ops)) (.auto past r δ)).2 ∧
    (step L (runOps L (fresh m) ops) (.user past r δ x y)).2 = (step L (fresh (machAfter m ops)) (.user past r δ x y)).2 ∧
    (∀ o, (step L (runOps L (fresh m) ops) (.auto past r δ)).2 = .ok o →
      (step L (runOps L (fresh m) ops) (.auto past r δ)).1.parts = (step L (fresh (machAfter m ops)) (.auto past r δ)).1.parts) ∧
    (∀ o, (step L (runOps L (fresh m) ops) (.user past r δ x y)).2 = .ok o →
      (step L (runOps L (fresh m) ops) (.user past r δ x y)).1.parts.coords =
        (step L (fresh (machAfter m ops)) (.user past r δ x y)).1.parts.coords) := by
  obtain ⟨h1, -, h3, -⟩ := run_state (L := L) ops (fresh m) (fresh_fields m) (fresh_area m)
  have hf : (runOps L (fresh m) ops).selfFlag = false := by rw [h3.2.2, hs]; rfl
  have ha := trackAuto_same (L := L) past (t := runOps L (fresh m) ops) (t' := fresh (machAfter m ops)) h1 hf
    (fun h => by rw [hf] at h; cases h) r δ
  have hu := trackUser_same (L := L) past (t := runOps L (fresh m) ops) (t' := fresh (machAfter m ops)) h1 hf rfl r δ x y
  exact ⟨ha.1, hu.1, fun o ho => (ha.2 o ho).1, fun o ho => (hu.2 o ho).1⟩

/-- C105 with self fields (partial: automatic distributions, and the machine has as many turns as it had when the tracker was made; both
are needed, see `C105_violated_user` and `C105_violated_turns`).  After every history the tracker gives what a tracker made just now on the
machine as it is now, with the tables enabled last, gives. -/
theorem C105_self_partial (L : MathLib K) (m : Run.Mach K) (ops : List (Op K))
    (hn : (machAfter m ops).dturns * (((machAfter m ops).nprofiles : ℤ) - 1) = m.dturns * ((m.nprofiles : ℤ) - 1)) (past : K) (r δ : ℤ) :
    (step L (runOps L (fresh m) ops) (.auto past r δ)).2 =
      (step L (made (machAfter m ops) (fieldsAfter none ops)) (.auto past r δ)).2 ∧
    (∀ o, (step L (runOps L (fresh m) ops) (.auto past r δ)).2 = .ok o →
      (step L (runOps L (fresh m) ops) (.auto past r δ)).1.parts =
        (step L (made (machAfter m ops) (fieldsAfter none ops)) (.auto past r δ)).1.parts) := by
  obtain ⟨h1, h2, h3, -⟩ := run_state (L := L) ops (fresh m) (fresh_fields m) (fresh_area m)
  have ha := trackAuto_same (L := L) past (t := runOps L (fresh m) ops) (t' := made (machAfter m ops) (fieldsAfter none ops)) h1 h3.2.2
    (fun _ => ⟨h3.1, h3.2.1, h2.trans hn.symm⟩) r δ
  exact ⟨ha.1, fun o ho => (ha.2 o ho).1⟩

/-- C105 (self fields): after a history that found an area and gave tables, with the number of turns of the first machine, the particles of the
user are tracked with the tables and the area of the history by the loops of `Model/SelfField.lean`, which `C62_rows` is about. -/
theorem C105_self_user_partial (L : MathLib K) (m : Run.Mach K) (ops : List (Op K)) {xo dEb w : K} {v : List (List K)}
    (hn : (machAfter m ops).dturns * (((machAfter m ops).nprofiles : ℤ) - 1) = m.dturns * ((m.nprofiles : ℤ) - 1))
    (hs : fieldsAfter none ops = some (w, v)) (ha : areaAfter L m none ops = some (xo, dEb)) (past : K) {rec δ r : ℤ} {x y : List K}
    (hl : x.length = y.length) (hr : Track.trackCheck (machAfter m ops).nprofiles (machAfter m ops).dturns rec δ = .ok r) :
    (step L (runOps L (fresh m) ops) (.user past rec δ x y)).2 =
      SelfF.kickAndDriftSelf L.sin (Run.trackMach (machAfter m ops) past) (machAfter m ops).phi12
        (selfFields (machAfter m ops) xo dEb w v) (machAfter m ops).dturns (machAfter m ops).nprofiles r y x := by
  obtain ⟨h1, h2, h3, h4⟩ := run_state (L := L) ops (fresh m) (fresh_fields m) (fresh_area m)
  have hm : (fresh m).mach = m := rfl
  rw [hm] at h1 h4
  rw [hs] at h3
  rw [ha] at h4
  obtain ⟨f1, f2, f3⟩ := h3
  obtain ⟨a1, a2, -⟩ := h4
  have hN : m.dturns * ((m.nprofiles : ℤ) - 1) = (runOps L (fresh m) ops).nturns := h2.symm
  rw [← kickAndDriftSelfO_eq, hn, hN]
  show (trackUser L past (runOps L (fresh m) ops) rec δ x y).2 = _
  unfold trackUser
  rw [h1, hr]
  dsimp only
  rw [if_neg (not_not.mpr hl)]
  unfold follow
  dsimp only
  rw [if_pos (show (runOps L (fresh m) ops).selfFlag = true from f3)]
  unfold followSelf
  dsimp only
  rw [a1, a2, f1, f2]
  dsimp only [Option.map]
  rcases kickAndDriftSelfO L.sin _ _ _ _ _ _ _ _ _ with e | z <;> rfl

/-- C105.  The origin and the height of a bin kept with the particles, and the height stored in the machine, are always those of the machine at
the last search that found an area: changing the machine, giving particles and failing calls leave them. -/
theorem C105_area (L : MathLib K) (m : Run.Mach K) (ops : List (Op K)) :
    (runOps L (fresh m) ops).parts.xorigin = (areaAfter L m none ops).map Prod.fst ∧
    (runOps L (fresh m) ops).parts.dEbin = (areaAfter L m none ops).map Prod.snd ∧
    (runOps L (fresh m) ops).machDEbin = (areaAfter L m none ops).map Prod.snd :=
  (run_state (L := L) ops (fresh m) (fresh_fields m) (fresh_area m)).2.2.2

/-- C105.  A `track` that succeeds keeps a copy of the distribution it started from: the one given, or the one spread over the area. -/
theorem C105_start (L : MathLib K) (t : Trk K) (past : K) (r δ : ℤ) :
    (∀ x y o, (step L t (.user past r δ x y)).2 = .ok o → (step L t (.user past r δ x y)).1.init = some (x, y)) ∧
    (∀ o, (step L t (.auto past r δ)).2 = .ok o → ∃ r' pts, Track.trackCheck t.mach.nprofiles t.mach.dturns r δ = .ok r' ∧
      homogeneousDistribution L t.mach.toArea r' δ = .ok pts ∧
      (step L t (.auto past r δ)).1.init = some (pts.map Prod.fst, pts.map Prod.snd)) := by
  constructor
  · intro x y o
    show (trackUser L past t r δ x y).2 = .ok o → (trackUser L past t r δ x y).1.init = some (x, y)
    unfold trackUser
    rcases Track.trackCheck t.mach.nprofiles t.mach.dturns r δ with e | r'
    · intro h
      cases h
    · dsimp only
      by_cases hl : x.length ≠ y.length
      · rw [if_pos hl]
        intro h
        cases h
      · rw [if_neg hl]
        exact fun _ => (follow_kept (L := L) past _ r' δ (x, y)).2.2.2.2
  · intro o
    show (trackAuto L past t r δ).2 = .ok o → ∃ r' pts, _ ∧ _ ∧ (trackAuto L past t r δ).1.init = some _
    unfold trackAuto
    rcases Track.trackCheck t.mach.nprofiles t.mach.dturns r δ with e | r'
    · intro h
      cases h
    · dsimp only
      rcases hh : homogeneous L t r' δ with ⟨t1, e | u⟩
      · intro h
        cases h
      · obtain ⟨xo, dE, lim, pts, -, h2, rfl⟩ := homogeneous_ok hh
        exact fun _ => ⟨r', pts, rfl, h2, (follow_kept (L := L) past _ r' δ _).2.2.2.2⟩

end

section
variable {K : Type} [Field K] [LinearOrder K] [IsStrictOrderedRing K] [FloorRing K] {L : MathLib K}

/-- C105: what a successful `track` without self fields leaves in the particles.  The arrays of the start are worked on in place: they end as
the coordinates at the first profile, or, when the start is at the first profile, as those at the last one.  So a caller who reads
`particles.coordinates_dphi_denergy` after the call does not get the distribution the call started from. -/
theorem C105_particles {t : Trk K} {P d : ℕ} {A : Turns K} (hm : Loaded t.mach P d A) (hf : t.selfFlag = false) (past : K) {rec δ r : ℤ}
    (hr : Track.trackCheck P d rec δ = .ok r) {x y : List K} (hl : x.length = y.length) :
    ∃ xp yp : List (List K), (step L t (.user past rec δ x y)).2 = .ok (xp, yp) ∧ xp.length = P ∧ yp.length = P ∧
      (step L t (.user past rec δ x y)).1.parts.coords =
        some (xp.getD (if 0 < r then 0 else P - 1) [], yp.getD (if 0 < r then 0 else P - 1) []) := by
  obtain ⟨xp, yp, h1, h2, h3⟩ := followPlain_ok (L := L) hm past hr hl
  have e : step L t (.user past rec δ x y) =
      follow L past { t with parts := { t.parts with coords := some (x, y) } } r δ (x, y) := by
    show trackUser L past t rec δ x y = _
    unfold trackUser
    rw [hm.nprofiles, hm.dturns, hr]
    dsimp only
    rw [if_neg (not_not.mpr hl)]
  rw [e]
  unfold follow
  dsimp only
  rw [hf]
  simp only [Bool.false_eq_true, if_false]
  rw [h1]
  exact ⟨xp, yp, rfl, h2, h3, rfl⟩

end

/-! ## Examples and violations -/

/-- the coordinates returned, or the error -/
def returned (w : Trk ℚ × M (List (List ℚ) × List (List ℚ))) : Except Fault (List (List ℚ) × List (List ℚ)) := w.2

/-- the machine of the examples, twice the energy range -/
def tallMach : Run.Mach ℚ := { runMach with demax := 12 }

/-- the machine of the examples, twice the energy range and a time range that ends beyond the image -/
def wideMach : Run.Mach ℚ := { runMach with demax := 12, maxDt := 9 / 14 }

/-- tables of self fields -/
def someFields : ℚ × List (List ℚ) := (4 / 7, [[1, 0, 0, 0, 1], [0, 1, 0, 0, 0]])

def enable : Op ℚ := .selfFields (some someFields.1) (some someFields.2)

/-- the hypotheses of `C105_self_user_partial`: a machine changed and changed back, tables, and an area -/
example : let ops := [.machine tallMach, enable, .create 1 0, .machine runMach]
    fieldsAfter none ops = some someFields ∧ areaAfter libQ runMach none ops = some (-2, 6) ∧ (machAfter runMach ops).dturns = runMach.dturns ∧
    Track.trackCheck (machAfter runMach ops).nprofiles (machAfter runMach ops).dturns 1 0 = .ok 1 ∧
    (step libQ (runOps libQ (fresh runMach) ops) (.user 0 1 0 [0] [1])).2.toOption.isSome = true := by decide +kernel

/-- a long history: two trackings, one of them refused, other particles, another machine -/
def someOps : List (Op ℚ) := [.auto 0 1 0, .auto 0 7 0, .machine tallMach, .coords [1] [2], .user 0 0 0 [0, 1] [1], .selfFields none none,
  .fortranOutput (some 3), .create 0 0]

example : fieldsAfter none someOps = none ∧ areaAfter libQ runMach none someOps = some (-2, 6) ∧
    returned (step libQ (runOps libQ (fresh runMach) someOps) (.user 0 0 0 [0] [1])) =
      .ok ([[0], [-1 / 21], [-41 / 441]], [[1], [20 / 21], [379 / 441]]) := by decide +kernel

example : (step libQ (runOps libQ (fresh runMach) [.machine tallMach, enable, .create 1 0]) (.auto 0 0 0)).2.toOption.isSome = true := by
  decide +kernel

example : (step libQ (fresh runMach) (.user 0 1 0 [1 / 7] [3])).1.parts.coords ≠ some ([1 / 7], [3]) ∧
    (step libQ (fresh runMach) (.user 0 1 0 [1 / 7] [3])).1.init = some ([1 / 7], [3]) := by decide +kernel

example : Loaded (fresh runMach).mach 3 1 (runTurns (fun _ => 0) fun _ => 1 / 21) ∧ Track.trackCheck 3 1 1 0 = .ok 1 :=
  ⟨runMach_loaded, by decide +kernel⟩

/-- C105 violated with self fields and particles given by the user.  As long as no search has found an area, every such call that passes the checks
stops with a `TypeError`, because `particles.xorigin` and `particles.dEbin` are set by the automatic distribution only
(particles.py:146-148, tracking.py:382-389).  After an automatic distribution the same call on the same machine succeeds: the
outcome depends on the history. -/
theorem C105_violated_user :
    (∀ {K : Type} [Field K] [LinearOrder K] [FloorRing K] (L : MathLib K) (m : Run.Mach K) (ops : List (Op K)) (past : K) (rec δ r : ℤ)
      (x y : List K), areaAfter L m none ops = none → fieldsAfter none ops ≠ none → x.length = y.length →
      Track.trackCheck (machAfter m ops).nprofiles (machAfter m ops).dturns rec δ = .ok r →
      (step L (runOps L (fresh m) ops) (.user past rec δ x y)).2 = .error (.exc .typeError)) ∧
    returned (step libQ (runOps libQ (fresh runMach) [enable]) (.user 0 0 0 [0] [1])) = .error (.exc .typeError) ∧
    returned (step libQ (runOps libQ (fresh runMach) [enable, .create 0 0]) (.user 0 0 0 [0] [1])) =
      .ok ([[2], [5 / 3], [64 / 63]], [[7 / 3], [167 / 63], [3445 / 1323]]) := by
  refine ⟨?_, by decide +kernel, by decide +kernel⟩
  intro K _ _ _ L m ops past rec δ r x y ha hf hl hr
  obtain ⟨h1, -, h3, h4⟩ := run_state (L := L) ops (fresh m) (fresh_fields m) (fresh_area m)
  have hm : (fresh m).mach = m := rfl
  rw [hm] at h1 h4
  show (trackUser L past (runOps L (fresh m) ops) rec δ x y).2 = _
  unfold trackUser
  rw [h1, hr]
  dsimp only
  rw [if_neg (not_not.mpr hl)]
  unfold follow
  dsimp only
  have hflag : (runOps L (fresh m) ops).selfFlag = true := by
    rw [h3.2.2]
    exact Option.isSome_iff_ne_none.mpr hf
  rw [if_pos hflag]
  unfold followSelf
  dsimp only
  rw [h4.1, ha]
  rfl

/-- C105 violated with self fields after the machine got more profiles.  The number of turns is taken when the tracker is made
(__tracking.py:68) and used by the tracking with self fields only (tracking.py:393).  A tracker made for two profiles returns zeros
for the third one of the machine as it is now, without any error; a new tracker follows the particle. -/
theorem C105_violated_turns :
    returned (step libQ (runOps libQ (fresh { runMach with nprofiles := 2 }) [enable, .machine runMach, .create 0 0]) (.user 0 0 0 [0] [1])) =
      .ok ([[2], [5 / 3], [0]], [[7 / 3], [167 / 63], [0]]) ∧
    returned (step libQ (runOps libQ (fresh runMach) [enable, .create 0 0]) (.user 0 0 0 [0] [1])) =
      .ok ([[2], [5 / 3], [64 / 63]], [[7 / 3], [167 / 63], [3445 / 1323]]) := by decide +kernel

/-- C105 violated: the area kept with the particles is not that of the machine.  After an automatic distribution the machine gets twice the
energy range and the user's particles are tracked: the particles keep bins of height 3 instead of 6, so the conversion to the image,
which takes its scale from the particles, puts a particle of energy 3 into the row 3 instead of 2.5. -/
theorem C105_violated_area :
    (runOps libQ (fresh runMach) [.auto 0 0 0, .machine tallMach, .user 0 0 0 [0] [3]]).parts.dEbin = some 3 ∧
    areaOf libQ tallMach = some (-2, 6) ∧
    physicalToCoords tallMach.toArea (-2) 3 ⟨1, [[0], [0], [0]]⟩ ⟨1, [[3], [3], [3]]⟩ =
      .ok (⟨1, [[2], [2], [2]]⟩, ⟨1, [[3], [3], [3]]⟩) ∧
    physicalToCoords tallMach.toArea (-2) 6 ⟨1, [[0], [0], [0]]⟩ ⟨1, [[3], [3], [3]]⟩ =
      .ok (⟨1, [[2], [2], [2]]⟩, ⟨1, [[5 / 2], [5 / 2], [5 / 2]]⟩) := by decide +kernel

/-- C105 violated: a call that raises changes the particles.  The automatic distribution stores the bins before it makes the particles
(particles.py:146-175); when the particles cannot be made (`IndexError`, C51) the new height of the bins stays next to the limits and the
particles of the machine before. -/
theorem C105_violated_failure :
    let t := runOps libQ (fresh runMach) [.create 0 0, .machine wideMach]
    let s := step libQ t (.create 0 0)
    s.2 = .error (.exc .indexError) ∧ t.parts.dEbin = some 3 ∧ s.1.parts.dEbin = some 6 ∧ s.1.machDEbin = some 6 ∧
      s.1.parts.coords = t.parts.coords ∧ s.1.parts.lim = t.parts.lim ∧ t.parts.coords ≠ none := by decide +kernel

end Verif.Props

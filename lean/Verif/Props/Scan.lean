import Verif.Lemmas.Scan
import Verif.Props.MachineObj
import Verif.Props.Programs
import Verif.Props.Shortcuts

/-!
# C110: scans with one machine and one `Tomography` object
-/

set_option linter.unusedSectionVars false

namespace Verif.Props
open Verif.Mch Verif.Asrt Verif.MObj Verif.Obj Verif.Scan

section
variable {K : Type} [Field K] [LinearOrder K] [FloorRing K]

theorem withValue_put {o : Dict K} {name : String} {v : Val K} {o' : Dict K} (hn : name ≠ "nbins") (hn' : name ≠ "_nbins")
    (h : WithValue o name v o') : SameSettings (put o name v) o' := by
  intro k hk
  rw [getattr_put]
  unfold stored
  by_cases hb : k = "nbins"
  · rw [if_pos hb, if_neg (Ne.symm hn'), h.2 k hk (by rw [hb]; exact Ne.symm hn)]
  · rw [if_neg hb]
    by_cases hkn : k = name
    · rw [if_pos hkn, hkn, h.1]
    · rw [if_neg hkn, h.2 k hk hkn]

theorem withValue_after {o o1 : Dict K} {name : String} {w v : Val K} {o' : Dict K} (hn' : name ≠ "_nbins")
    (hs : SameSettings o1 (put o name w)) (h : WithValue o name v o') : WithValue o1 name v o' := by
  refine ⟨h.1, fun k hk hkn => ?_⟩
  rw [hs k hk, h.2 k hk hkn, getattr_put, if_neg]
  unfold stored
  by_cases hb : k = "nbins"
  · rw [if_pos hb]
    exact Ne.symm hn'
  · rw [if_neg hb]
    exact hkn

theorem pure_app {σ β : Type} (b : β) (s : σ) : (pure b : Ob σ β) s = (s, .ok b) := rfl

/-- C110, the voltage calibration (`EX_03`): after any statements on a machine and a `Tomography` object (attributes changed, arrays
computed, particles tracked, coordinates set, reconstructions, failures that were caught), the discrepancy of every voltage of the
scan is the one that new objects give: a machine that has this voltage and otherwise the same settings, and a new `Tomography`
object on the same waterfall.  If a voltage fails, the scan ends with the exception new objects raise for it. -/
theorem C110_calibration (L : MathLib K) (past : K) (junk junk' : Option (MachineOut K)) (o : Dict K) (wf : List K) (np nb : ℕ)
    (stmts : List (Stmt K)) (vs : List (Val K)) (made : Val K → Dict K)
    (hm : ∀ v ∈ vs, WithValue (session L past (fresh o wf np nb) stmts).attrs "vrf1" v (made v)) :
    (calibration L past junk vs (session L past (fresh o wf np nb) stmts)).2
      = vs.mapM fun v => (calibrationPoint L past junk' (fresh (made v) wf np nb)).2 := by
  have hs : Sound wf np nb (session L past (fresh o wf np nb) stmts).tomo := session_sound L past stmts (sound_new wf np nb)
  generalize session L past (fresh o wf np nb) stmts = s at hm hs
  induction vs generalizing s with
  | nil => rfl
  | cons v vs ih =>
    rw [List.mapM_cons, (point_eq L past junk' (s := fresh (made v) wf np nb) (sound_new wf np nb)).1]
    unfold calibration
    rw [bind_pair, assign_eq (by decide)]
    dsimp only
    rw [bind_pair]
    have hw := hm v List.mem_cons_self
    obtain ⟨p1, p2, p3⟩ := point_eq L past junk (s := { s with attrs := put s.attrs "vrf1" v }) hs
    rw [p1, pointValue_congr (withValue_put (by decide) (by decide) hw)]
    show _ = pointValue L past (made v) wf np nb >>= _
    cases pointValue L past (made v) wf np nb with
    | error e => rfl
    | ok d =>
      simp only [bind_ok]
      rw [bind_pair, ih _ (fun w hw' => withValue_after (by decide) p2 (hm w (List.mem_cons_of_mem _ hw'))) p3]
      cases vs.mapM fun v => (calibrationPoint L past junk' (fresh (made v) wf np nb)).2 <;> rfl

/-- C110, settings the arrays do not depend on: two machines that agree in the attributes of `arrayAttrs` have the same arrays, whenever
`values_at_turns` accepts them.  All other attributes (bins, points per cell, iterations, films, limits of the area, …) can be changed
without computing the arrays again. -/
theorem C110_no_need (L : MathLib K) {s s' : Session K} (h : UpToDate L s) (h' : UpToDate L s')
    (hk : ∀ k ∈ arrayAttrs, getattr s.attrs k = getattr s'.attrs k) : s.arrays = s'.arrays := by
  obtain ⟨a, out, ha, hv, e⟩ := h
  obtain ⟨a', out', ha', hv', e'⟩ := h'
  unfold valuesAtTurns at hv hv'
  obtain ⟨p, hp, hv⟩ := bind_inv hv
  obtain ⟨p', hp', hv'⟩ := bind_inv hv'
  have := pars_congr hk ha ha' hp hp'
  subst this
  rw [hv] at hv'
  cases hv'
  rw [e, e']

/-- C110, `EX_04`: with the arrays of the machine computed once, the scan over the number of points per cell, in which exceptions are caught,
gives for every value the discrepancy that new objects give, without the values for which new objects raise an exception. -/
theorem C110_varying (L : MathLib K) (past : K) (junk : Option (MachineOut K)) (o : Dict K) (wf : List K) (np nb : ℕ)
    (stmts : List (Stmt K)) (hup : UpToDate L (session L past (fresh o wf np nb) stmts)) (vs : List (Val K))
    (hv : ∀ v ∈ vs, ∃ n : Int, v = .int n ∧ 0 < n) (made : Val K → Dict K)
    (hm : ∀ v ∈ vs, WithValue (session L past (fresh o wf np nb) stmts).attrs "snpt" v (made v)) :
    (varying L past vs (session L past (fresh o wf np nb) stmts)).2
      = successes (fun v => (calibrationPoint L past junk (fresh (made v) wf np nb)).2) vs := by
  have hs : Sound wf np nb (session L past (fresh o wf np nb) stmts).tomo := session_sound L past stmts (sound_new wf np nb)
  generalize session L past (fresh o wf np nb) stmts = s at hm hs hup
  obtain ⟨a, out, ha, hva, harr⟩ := hup
  have hmade : ∀ v ∈ vs, argsOf (made v) >>= (fun a => valuesAtTurns L a) = .ok out := by
    intro v hmem
    obtain ⟨n, rfl, hn⟩ := hv v hmem
    rw [argsOf_snpt ha (hm _ hmem), bind_ok]
    unfold valuesAtTurns at hva ⊢
    obtain ⟨p, hp, hva⟩ := bind_inv hva
    rw [assert_snpt hn hp, bind_ok, hva]
  clear ha hva
  induction vs generalizing s with
  | nil => rfl
  | cons v vs ih =>
    have hw := hm v List.mem_cons_self
    have hpt : (calibrationPoint L past junk (fresh (made v) wf np nb)).2
        = outcome L past (made v) (some out) wf np nb >>= fun d => npGet d (-1) := by
      rw [(point_eq L past junk (s := fresh (made v) wf np nb) (sound_new wf np nb)).1]
      have h1 := hmade v List.mem_cons_self
      unfold pointValue
      show (argsOf (made v) >>= _) = _
      cases hav : argsOf (made v) with
      | error e => rw [hav] at h1; cases h1
      | ok b =>
        rw [hav, bind_ok] at h1
        rw [bind_ok, h1, bind_ok]
        rfl
    unfold varying successes
    rw [hpt, bind_pair, assign_eq (by decide)]
    dsimp only
    rw [bind_pair]
    have hs1 : Sound wf np nb ({ s with attrs := put s.attrs "snpt" v } : Session K).tomo := hs
    obtain ⟨a1, a2, a3⟩ := attempt_eq L past hs1
    have hset := withValue_put (by decide) (by decide) hw
    have hout : outcome L past (put s.attrs "snpt" v) s.arrays wf np nb = outcome L past (made v) (some out) wf np nb := by
      rw [harr]
      exact outcome_congr (fun k hk => hset k (trackAttrs_ne k hk)) _ _ _ _
    have hih := ih (fun w hw' => hv w (List.mem_cons_of_mem _ hw')) (attempt L past { s with attrs := put s.attrs "snpt" v }).1
      (fun w hw' => withValue_after (by decide) a3.settings (hm w (List.mem_cons_of_mem _ hw')))
      a3.sound (a3.arrays.trans harr) (fun w hw' => hmade w (List.mem_cons_of_mem _ hw'))
    dsimp only at a1 a2
    rw [hout] at a1 a2
    unfold caught
    revert a1 a2 hih
    generalize attempt L past { s with attrs := put s.attrs "snpt" v } = r
    obtain ⟨s2, r2⟩ := r
    intro a1 a2 hih
    dsimp only at a1 a2 hih
    cases ho : outcome L past (made v) (some out) wf np nb with
    | error e =>
      rw [ho] at a1
      dsimp only [Except.map] at a1
      subst a1
      cases e with
      | exc x =>
        dsimp only
        rw [bind_pair]
        simp only [Bool.false_eq_true, if_false]
        rw [pure_app]
        dsimp only
        rw [bind_pair, hih]
        cases successes (fun v => (calibrationPoint L past junk (fresh (made v) wf np nb)).2) vs <;> rfl
      | _ => rfl
    | ok d =>
      rw [ho] at a1
      dsimp only [Except.map] at a1
      subst a1
      dsimp only
      rw [bind_pair]
      simp only [if_true, bind_ok]
      rw [bind_pair, lastDiff_eq _ (a2 d ho)]
      dsimp only
      obtain ⟨x, hx⟩ := npGet_last (outcome_ne_nil ho)
      rw [hx]
      dsimp only
      rw [pure_app]
      dsimp only
      rw [bind_pair, hih]
      cases successes (fun v => (calibrationPoint L past junk (fresh (made v) wf np nb)).2) vs <;> rfl

/-- C110, arrays that are not computed again: an attribute the tracking does not read itself (the voltages and their slopes, the magnetic
field, the mean radius, …) has no effect on tracking and reconstruction until `values_at_turns` is called. -/
theorem C110_stale (L : MathLib K) (past : K) (o : Dict K) (wf : List K) (np nb : ℕ) (stmts : List (Stmt K)) (name : String) (v : Val K)
    (hk : name ∈ ["vrf1", "vrf1dot", "vrf2", "vrf2dot", "b0", "bdot", "mean_orbit_rad", "bending_rad", "e_rest", "trans_gamma",
      "machine_ref_frame"]) :
    ((assign name v >>= fun _ => attempt L past >>= fun _ => lastDiff) (session L past (fresh o wf np nb) stmts)).2
      = ((attempt L past >>= fun _ => lastDiff) (session L past (fresh o wf np nb) stmts)).2 := by
  have hs : Sound wf np nb (session L past (fresh o wf np nb) stmts).tomo := session_sound L past stmts (sound_new wf np nb)
  generalize session L past (fresh o wf np nb) stmts = s at hs
  have key : ∀ t : Session K, Sound wf np nb t.tomo →
      ((attempt L past >>= fun _ => lastDiff) t).2 = outcome L past t.attrs t.arrays wf np nb >>= fun d => npGet d (-1) := by
    intro t ht
    obtain ⟨a1, a2, _⟩ := attempt_eq L past ht
    rw [bind_pair, a1]
    cases ho : outcome L past t.attrs t.arrays wf np nb with
    | error e => rfl
    | ok d =>
      simp only [Except.map]
      rw [lastDiff_eq _ (a2 d ho), bind_ok]
  have hn : name ≠ "nbins" ∧ ∀ k ∈ trackAttrs, stored k ≠ name := by
    revert name
    decide +kernel
  have hs1 : Sound wf np nb ({ s with attrs := put s.attrs name v } : Session K).tomo := hs
  rw [bind_pair, assign_eq hn.1, key s hs]
  dsimp only
  rw [key _ hs1]
  congr 1
  refine outcome_congr (fun k hk' => ?_) _ _ _ _
  rw [getattr_put, if_neg (hn.2 k hk')]

theorem niter_of_mach {o : Dict K} {arr : Option (MachineOut K)} {m : Run.Mach K} (h : machOf o arr = .ok m) :
    (getattr o "niter" >>= asInt).map Int.toNat = .ok m.niter := by
  unfold machOf at h
  iterate 12 (obtain ⟨_, -, h⟩ := bind_inv h)
  iterate 8 (obtain ⟨_, -, h⟩ := bind_inv h)
  obtain ⟨n, hn, h⟩ := bind_inv h
  rw [hn]
  cases arr with
  | none => cases h
  | some out => cases h; rfl

theorem outcome_run [IsStrictOrderedRing K] {L : MathLib K} {past : K} {o : Dict K} {out : MachineOut K} {m : Run.Mach K}
    (hm : machOf o (some out) = .ok m) {wf : Arr2 K} {w : List K}
    (hw : Tomo.initWaterfall wf.flatten wf.rows.length wf.cols = .ok w) {self : Verif.M (Run.Tracked K)} {r : Run.Out K}
    (hr : Run.runMachine L m past self wf none false = .ok r) :
    outcome L past o (some out) w wf.rows.length wf.cols = .ok r.diff := by
  unfold Run.runMachine at hr
  obtain ⟨t, ht, hr⟩ := bind_inv hr
  obtain ⟨⟨dE, x, y⟩, hc, hr⟩ := bind_inv hr
  obtain ⟨to_, hto, hr⟩ := bind_inv hr
  obtain ⟨fs, hfs, hr⟩ := bind_inv hr
  obtain ⟨⟨tr, er, ps⟩, _, hr⟩ := bind_inv hr
  obtain ⟨d, _, hr⟩ := bind_inv hr
  cases hr
  dsimp only
  have hsf : t.selfField = false := by
    unfold Run.newTracker at ht
    split_ifs at ht
    cases ht
    rfl
  unfold Run.coordinates at hc
  simp only [Bool.false_eq_true, if_false] at hc
  rw [hsf] at hc
  simp only [Bool.false_eq_true, if_false] at hc
  obtain ⟨q, hq, hc⟩ := bind_inv hc
  obtain ⟨⟨x', y'⟩, hrd, hc⟩ := bind_inv hc
  obtain ⟨-, rfl, rfl⟩ : q.dEbin = dE ∧ x' = x ∧ y' = y := by
    cases hc
    exact ⟨rfl, rfl, rfl⟩
  clear hc
  have hco : coords L past o (some out) = .ok x' := by
    unfold coords
    rw [hm, bind_ok, (track_run L m past _ _).1, ht, bind_ok]
    show Except.map Prod.fst (Run.trackCoords L m past m.filmstart >>= _) = _
    have hq' : Run.trackCoords L m past m.filmstart = .ok q := hq
    rw [hq', bind_ok, hrd]
    rfl
  unfold outcome
  rw [hco, bind_ok, niter_of_mach hm]
  unfold Run.tomogram at hto
  rw [hw, bind_ok] at hto
  unfold Tomo.coordInit at hto
  revert hto
  rcases hx : Tomo.setXp ⟨wf.rows.length, wf.cols, none, none, none⟩ (Run.pyArray x') with ⟨c, _ | e⟩
  · dsimp only
    rcases hy : Tomo.setYp c (Run.pyArray y') with ⟨c', _ | e⟩
    · dsimp only
      obtain ⟨h1, h2, -⟩ := setYp_xp c (Run.pyArray y')
      rw [hy] at h1 h2
      dsimp only at h1 h2
      rw [h1, h2]
      cases hcx : c.xp with
      | none => intro h; cases h
      | some xx =>
        cases hcn : c.nparts with
        | none => intro h; cases h
        | some n =>
          dsimp only [Option.getD]
          intro h
          obtain ⟨st, hst, h⟩ := bind_inv h
          cases h
          rw [bind_ok, hst]
          rfl
    · intro h; cases h
  · intro h; cases h

/-- C110, what new objects give: the last discrepancy of the whole program (`tomo_run.run`) on a machine with these attributes, whenever
the program ends without an exception. -/
theorem C110_as_run [IsStrictOrderedRing K] {L : MathLib K} {past : K} (junk : Option (MachineOut K)) {o : Dict K} {a : MachineArgs K} {out : MachineOut K}
    (ha : argsOf o = .ok a) (hv : valuesAtTurns L a = .ok out) {m : Run.Mach K} (hm : machOf o (some out) = .ok m)
    {wf : Arr2 K} {w : List K} (hw : Tomo.initWaterfall wf.flatten wf.rows.length wf.cols = .ok w)
    {self : Verif.M (Run.Tracked K)} {r : Run.Out K} (hr : Run.runMachine L m past self wf none false = .ok r) :
    (calibrationPoint L past junk (fresh o w wf.rows.length wf.cols)).2 = npGet r.diff (-1) := by
  rw [(point_eq L past junk (s := fresh o w wf.rows.length wf.cols) (sound_new w _ _)).1]
  unfold pointValue
  show (argsOf o >>= _) = _
  rw [ha, bind_ok, hv, bind_ok]
  show outcome L past o (some out) w wf.rows.length wf.cols >>= _ = _
  rw [outcome_run hm hw hr, bind_ok]

/-- attributes set one after the other -/
def putAll (o : Dict K) (prep : Dict K) : Dict K := prep.foldl (fun o e => put o e.1 e.2) o

theorem putAll_with {o o' : Dict K} {v : Val K} (prep : Dict K) (hp : ∀ e ∈ prep, e.1 ≠ "vrf1") (h : WithValue o "vrf1" v o') :
    WithValue (putAll o prep) "vrf1" v (putAll o' prep) := by
  unfold putAll
  induction prep generalizing o o' with
  | nil => exact h
  | cons e prep ih =>
    refine ih (fun e' he => hp e' (List.mem_cons_of_mem _ he)) ⟨?_, fun k hk hkn => ?_⟩
    · rw [getattr_put, if_neg, h.1]
      exact Ne.symm (hp e List.mem_cons_self)
    · rw [getattr_put, getattr_put, h.2 k hk hkn]

theorem attrs_vrf1 (kw : Dict K) (n : K) (up dturns vrf1 vrf1' rad rho b0 gamma energy nprof nbins dtbin : Val K) (k : String)
    (hk : k ≠ "vrf1") :
    (attrs kw n up dturns vrf1 rad rho b0 gamma energy nprof nbins dtbin).lookup k
      = (attrs kw n up dturns vrf1' rad rho b0 gamma energy nprof nbins dtbin).lookup k := by
  unfold attrs
  simp only [List.cons_append, lookup_cons, hk, if_false]

/-- C110, the machines to compare with: two machines made with the same arguments but the first voltage, and prepared in the same way, have
the same attributes but this voltage. -/
theorem C110_made {pos pos' : List (Val K)} {kw kw' : Dict K} (hnd : (kw.map Prod.fst).Nodup) (hnd' : (kw'.map Prod.fst).Nodup)
    (hp : ∀ k ∈ parameters, k ≠ "vrf1" → argument pos kw k = argument pos' kw' k)
    (ho : ∀ k ∈ known, k ∉ parameters → kw.lookup k = kw'.lookup k) {o o' : Dict K} {now now' v : Val K}
    (h : machineInit pos kw = .ok (o, now)) (h' : machineInit pos' kw' = .ok (o', now')) (hv : argument pos' kw' "vrf1" = some v)
    (prep : Dict K) (hprep : ∀ e ∈ prep, e.1 ≠ "vrf1") :
    WithValue (putAll o prep) "vrf1" v (putAll o' prep) := by
  apply putAll_with prep hprep
  have ho' : ∀ k ∈ known, isOpt k = true → kw.lookup k = kw'.lookup k := by
    intro k hk hi
    refine ho k hk (fun hk' => ?_)
    unfold isOpt at hi
    have : parameters.contains k = false := by
      rw [Bool.not_eq_true'] at hi
      exact hi
    rw [List.contains_iff_mem.mpr hk'] at this
    cases this
  obtain ⟨dturns, vrf1, rad, rho, b0, gamma, energy, nprof, nbins, dtbin, nw, n, up, hB, c1, c2, hn, hu, hr⟩ :=
    (machineInit_iff hnd _).mp h
  obtain ⟨dturns', vrf1', rad', rho', b0', gamma', energy', nprof', nbins', dtbin', nw', n', up', hB', c1', c2', hn', hu', hr'⟩ :=
    (machineInit_iff hnd' _).mp h'
  have hg : ∀ k ∈ parameters, k ≠ "vrf1" → ∀ {a b : Val K}, given pos kw k = some a → given pos' kw' k = some b → b = a := by
    intro k hk hkn a b ha hb
    rw [given_eq, hp k hk hkn, ← given_eq, hb] at ha
    exact Option.some.inj ha
  have e1 := hg "dturns" (by decide) (by decide) hB.dturns hB'.dturns
  have e2 := hg "mean_orbit_rad" (by decide) (by decide) hB.rad hB'.rad
  have e3 := hg "bending_rad" (by decide) (by decide) hB.rho hB'.rho
  have e4 := hg "b0" (by decide) (by decide) hB.b0 hB'.b0
  have e5 := hg "trans_gamma" (by decide) (by decide) hB.gamma hB'.gamma
  have e6 := hg "rest_energy" (by decide) (by decide) hB.energy hB'.energy
  have e7 := hg "nprofiles" (by decide) (by decide) hB.nprof hB'.nprof
  have e8 := hg "nbins" (by decide) (by decide) hB.nbins hB'.nbins
  have e9 := hg "dtbin" (by decide) (by decide) hB.dtbin hB'.dtbin
  have ev : vrf1' = v := by
    have := hB'.vrf1
    rw [given_eq, hv] at this
    exact (Option.some.inj this).symm
  subst e1 e2 e3 e4 e5 e6 e7 e8 e9 ev
  rw [hn] at hn'
  cases hn'
  rw [upper_congr ho', hu'] at hu
  cases hu
  obtain ⟨rfl, -⟩ := Prod.mk.inj hr
  obtain ⟨rfl, -⟩ := Prod.mk.inj hr'
  constructor
  · unfold getattr MObj.lookup attrs
    simp only [List.cons_append, lookup_cons, String.reduceEq, if_true, if_false]
  · intro k _ hkn
    unfold getattr MObj.lookup
    rw [← attrs_congr ho']
    rw [attrs_vrf1]
    by_cases hb : k = "nbins"
    · rw [if_pos hb]
      decide
    · rw [if_neg hb]
      exact hkn

/-- the attributes that loading the profiles changes -/
def loadedAttrs (m : Run.Mach K) : Dict K :=
  [("_nbins", .int m.nbins), ("nprofiles", .int m.nprofiles), ("dtbin", .num m.dtbin), ("synch_part_x", .num m.synchPartX),
   ("synch_part_y", .num m.synchPartY)]

theorem getattr_loaded (o : Dict K) (m : Run.Mach K) (k : String) :
    getattr (putAll o (loadedAttrs m)) k = if k = "synch_part_y" then .ok (.num m.synchPartY) else
      if k = "synch_part_x" then .ok (.num m.synchPartX) else if k = "dtbin" then .ok (.num m.dtbin) else
      if k = "nprofiles" then .ok (.int m.nprofiles) else if stored k = "_nbins" then .ok (.int m.nbins) else getattr o k := by
  unfold putAll loadedAttrs
  simp only [List.foldl_cons, List.foldl_nil, getattr_put]
  unfold stored
  by_cases hb : k = "nbins"
  · subst hb
    simp
  · rw [if_neg hb]

/-- C110, the machine of a parameter file: made from the keywords of the file, and with the attributes that loading changes, the tracking
reads from it the machine the whole program works with. -/
theorem C110_file_machine {S : Type} {L : MathLib K} {R : Inp.Reader S K} {qe : K} {params : List S} {data : List K} {m : Run.Mach K}
    {wf : Arr2 K} (h : Run.loadFile L R qe params data = .ok (m, wf)) (text : S → String) :
    ∃ p o a out, Inp.txtInputToMachine R params = .ok p ∧ newMachine L [] (fileKwargs text p) = .ok (o, some out) ∧
      argsOf o = .ok a ∧ valuesAtTurns L a = .ok out ∧ machOf (putAll o (loadedAttrs m)) (some out) = .ok m := by
  unfold Run.loadFile at h
  obtain ⟨p, hp, h⟩ := bind_inv h
  obtain ⟨out, hout, h⟩ := bind_inv h
  obtain ⟨out', hout', h⟩ := bind_inv h
  rw [hout] at hout'
  cases hout'
  obtain ⟨w, _, h⟩ := bind_inv h
  obtain ⟨⟨r, wf'⟩, _, h⟩ := bind_inv h
  obtain ⟨_, _, h⟩ := bind_inv h
  obtain ⟨m', hfit, h⟩ := bind_inv h
  obtain ⟨rfl, rfl⟩ : m' = m ∧ wf' = wf := by cases h; exact ⟨rfl, rfl⟩
  obtain ⟨o, hn, ho, hq, hmin, hmax, hy⟩ := C109_file L text p
  rw [hout] at hn
  have hn' : newMachine L [] (fileKwargs text p) = .ok (o, some out) := hn
  have harr : ∃ a, argsOf o = .ok a ∧ valuesAtTurns L a = .ok out := by
    unfold newMachine at hn'
    obtain ⟨⟨o1, now⟩, hi, hn'⟩ := bind_inv hn'
    dsimp only at hn'
    split_ifs at hn'
    · obtain ⟨a, ha, hn'⟩ := bind_inv hn'
      obtain ⟨ot, hot, hn'⟩ := bind_inv hn'
      cases hn'
      exact ⟨a, ha, hot⟩
    · cases hn'
  obtain ⟨a, ha, hva⟩ := harr
  refine ⟨p, o, a, out, hp, hn', ha, hva, ?_⟩
  have hm : ∃ x, m' = { Run.loadedMach p out r with synchPartX := x } := by
    unfold Run.fitStep at hfit
    split_ifs at hfit
    · obtain ⟨⟨x, _, _⟩, _, hfit⟩ := bind_inv hfit
      cases hfit
      exact ⟨x, rfl⟩
    · cases hfit
      exact ⟨_, rfl⟩
  obtain ⟨x, rfl⟩ := hm
  unfold optionalAttrs fileKwargs at ho
  unfold requiredAttrs fileKwargs at hq
  simp only [List.mem_cons, List.not_mem_nil, or_false, forall_eq_or_imp, forall_eq, String.reduceEq, Prod.mk.injEq, true_and, false_and,
    false_or, or_false, exists_eq_left] at ho hq
  obtain ⟨o1, o2, o3, o4, o5, o6, o7, o8, o9, o10, o11, o12, o13, o14, o15, o16, o17, o18, o19, o20, o21, o22, o23⟩ := ho
  obtain ⟨q1, -⟩ := hq
  unfold machOf
  simp only [getattr_loaded, String.reduceEq, if_true, if_false, stored, hmin, hmax, o1, o6, o7, o8, o9, o14, o15, o17, o18, o19, o20, o21,
    o22, q1, bind_ok, asInt, asNum, truthy, Int.toNat_natCast]
  rfl

/-- C110, the first point of a scan: tracking and reconstruction with the machine of a parameter file and a new `Tomography` object on its
profiles end with the last discrepancy of `tomo_run.run` on this file. -/
theorem C110_file {S : Type} [IsStrictOrderedRing K] {L : MathLib K} {R : Inp.Reader S K} {qe past : K} {params : List S} {data : List K}
    {m : Run.Mach K} {wf : Arr2 K} (h : Run.loadFile L R qe params data = .ok (m, wf)) {self : Verif.M (Run.Tracked K)} {r : Run.Out K}
    (hr : Run.runFile L R qe past self params data none false = .ok r) (text : S → String) {w : List K}
    (hw : Tomo.initWaterfall wf.flatten wf.rows.length wf.cols = .ok w) :
    ∃ p o out, Inp.txtInputToMachine R params = .ok p ∧ newMachine L [] (fileKwargs text p) = .ok (o, some out) ∧
      ((attempt L past >>= fun _ => lastDiff)
        ⟨putAll o (loadedAttrs m), some out, new w wf.rows.length wf.cols⟩).2 = npGet r.diff (-1) := by
  obtain ⟨p, o, a, out, hp, hn, _, _, hm⟩ := C110_file_machine h text
  unfold Run.runFile at hr
  rw [h, bind_ok] at hr
  have ho := outcome_run hm hw hr
  refine ⟨p, o, out, hp, hn, ?_⟩
  obtain ⟨a1, a2, _⟩ := attempt_eq L past (s := ⟨putAll o (loadedAttrs m), some out, new w wf.rows.length wf.cols⟩) (sound_new w _ _)
  rw [bind_pair, a1]
  dsimp only
  rw [ho]
  dsimp only [Except.map]
  rw [lastDiff_eq _ (a2 _ ho)]

/-- C110 violated: the upper limit of the reconstructed area is computed from bins and bin width in the constructor only.  A machine made
with other values of them has another limit; after an assignment the old limit stays. -/
theorem C110_violated_limits (o : Dict K) (n : Int) (v : Val K) :
    (setattr o "nbins" (.int n) >>= fun o' => getattr o' "max_dt") = getattr o "max_dt" ∧
    (setattr o "dtbin" v >>= fun o' => getattr o' "max_dt") = getattr o "max_dt" := by
  constructor
  · unfold setattr
    rw [if_pos rfl]
    simp only [asNum, bind_ok]
    show getattr (put (put o "_nbins" _) "synch_part_y" _) "max_dt" = _
    rw [getattr_put, getattr_put, if_neg (by decide), if_neg (by decide)]
  · unfold setattr
    rw [if_neg (by decide), bind_ok, getattr_put, if_neg (by decide)]

/-- C110, machines from programs: after any changes of the attributes but the mean radius, on a machine that was given a phase program or
nothing for the phase, `values_at_turns` gives what a new machine with these attributes has. -/
theorem C110_program_again (L : MathLib K) (p : PObj K) (fuel : ℕ) (hr : p.rad0 = p.args.meanOrbitRad)
    (hph : p.args.phase = .missing ∨ ∃ t a b, p.args.phase = .program t a b) :
    valuesAgain L p fuel = Prog.valuesAtTurns L p.args fuel := by
  have hb : ({ p.args with meanOrbitRad := p.rad0, phase := phaseNow p } : Prog.PArgs K) = p.args := by
    have : phaseNow p = p.args.phase := by
      unfold phaseNow
      rcases hph with h | ⟨t, a, b, h⟩ <;> rw [h]
    rw [hr, this]
  have hl : phaseLost p = false := by
    unfold phaseLost
    rcases hph with h | ⟨t, a, b, h⟩ <;> rw [h]
  unfold valuesAgain Prog.valuesAtTurns
  rw [hb, hl]
  simp only [Bool.false_eq_true, if_false]
  refine bind_congr fun x => bind_congr fun v1 => bind_congr fun _ => bind_congr fun y => bind_congr fun o => bind_congr fun d => ?_
  cases d <;> rfl

/-- C110 violated: a machine from programs that was given no phases keeps none: `values_at_turns` discards the phases that were
assigned or calculated by `calc_phi12`. -/
theorem C110_violated_phases_lost (L : MathLib K) (p : PObj K) (fuel : ℕ) (hph : p.args.phase = .missing) {out : Prog.POut K}
    (h : valuesAgain L p fuel = .ok out) : out.phi12 = none := by
  unfold valuesAgain at h
  have hn : phaseNow p = .missing := by unfold phaseNow; rw [hph]
  have hl : phaseLost p = false := by unfold phaseLost; rw [hph]
  obtain ⟨⟨time, moms⟩, _, h⟩ := bind_inv h
  obtain ⟨v1, _, h⟩ := bind_inv h
  obtain ⟨_, _, h⟩ := bind_inv h
  obtain ⟨⟨v2, ratio⟩, _, h⟩ := bind_inv h
  obtain ⟨o, ho, h⟩ := bind_inv h
  rw [hl] at h
  simp only [Bool.false_eq_true, if_false] at h
  unfold Prog.phaseDifference at h
  rw [hn] at h
  simp only [bind_ok] at h
  cases h
  unfold Prog.turnArrays at ho
  obtain ⟨_, _, ho⟩ := bind_inv ho
  obtain ⟨_, _, ho⟩ := bind_inv ho
  obtain ⟨_, _, ho⟩ := bind_inv ho
  obtain ⟨_, _, ho⟩ := bind_inv ho
  obtain ⟨_, _, ho⟩ := bind_inv ho
  obtain ⟨_, _, ho⟩ := bind_inv ho
  obtain ⟨_, _, ho⟩ := bind_inv ho
  obtain ⟨_, _, ho⟩ := bind_inv ho
  cases ho
  rfl

/-- C110 violated: phases in an attribute that was given to the constructor, an array after `calc_phi12`: the next `values_at_turns` is a
TypeError or another exception, never a machine. -/
theorem C110_violated_phases_array (L : MathLib K) (p : PObj K) (fuel : ℕ) {x : K} (hph : p.args.phase = .number x) {t : List K}
    (ht : p.phi12 = .turns t) (out : Prog.POut K) : valuesAgain L p fuel ≠ .ok out := by
  intro h
  unfold valuesAgain at h
  have hn : phaseNow p = .array t := by unfold phaseNow; rw [hph, ht]
  obtain ⟨⟨time, moms⟩, _, h⟩ := bind_inv h
  obtain ⟨v1, _, h⟩ := bind_inv h
  obtain ⟨_, hc, h⟩ := bind_inv h
  unfold Prog.checkArray at hc
  rw [hn] at hc
  cases hc

end

/-- C110 violated: the mean radius of a machine from programs.  After an assignment, `values_at_turns` takes the revolution periods
from the circumference of the old radius: the arrays are not those of a new machine. -/
theorem C110_violated_circumference :
    ∃ (p : PObj ℚ) (r : ℚ), p = newPObj p.args ∧
      (valuesAgain libQ { p with args := { p.args with meanOrbitRad := r } } 50).map Prog.POut.timeAtTurn
        ≠ (Prog.valuesAtTurns libQ { p.args with meanOrbitRad := r } 50).map Prog.POut.timeAtTurn ∧
      (Prog.valuesAtTurns libQ { p.args with meanOrbitRad := r } 50).toOption.isSome = true ∧
      (valuesAgain libQ { p with args := { p.args with meanOrbitRad := r } } 50).toOption.isSome = true :=
  ⟨newPObj (rampProg 1 3), 1 / 12, rfl, by decide +kernel, by decide +kernel, by decide +kernel⟩

/-- the machine of the example file as it is after loading, and the waterfall of a `Tomography` object -/
def scanStart : Verif.M (Dict ℚ × List ℚ) := do
  let p ← Inp.txtInputToMachine textReader (fileLines fileVals)
  let (o, _) ← machineInit [] (fileKwargs (fun _ => "out") p)
  let (m, wf) ← Run.loadFile libQ textReader 1 (fileLines fileVals) fileRaw
  let w ← Tomo.initWaterfall wf.flatten wf.rows.length wf.cols
  pure (putAll o [("_nbins", .int m.nbins), ("nprofiles", .int m.nprofiles), ("dtbin", .num m.dtbin), ("synch_part_x", .num m.synchPartX),
    ("synch_part_y", .num m.synchPartY), ("min_dt", .num m.minDt), ("max_dt", .num m.maxDt)], w)

/-- the hypotheses of `C110_calibration` and its conclusion on the example file: three voltages after other voltages were tried.  The
machines to compare with are the first one with the voltage assigned to it. -/
example : (scanStart >>= fun r => (calibration libQ 7 none [.num 1, .num 2, .num (1/2)]
      (session libQ 7 (fresh r.1 r.2 3 4) [.track, .set "vrf1" (.num 3), .values none, .track])).2)
    = .ok [536651/77763000, 468833/13749768, 185639601516869/12223030473189126] := by decide +kernel

example (o : Dict ℚ) (v : Val ℚ) : WithValue o "vrf1" v (put o "vrf1" v) := by
  refine ⟨?_, fun k _ hk => ?_⟩
  · rw [getattr_put]
    rfl
  · rw [getattr_put, if_neg]
    unfold stored
    split_ifs
    · decide
    · exact hk

/-- without `values_at_turns` a new voltage has no effect (`C110_stale`): the discrepancy is that of the voltage in the file -/
example : (scanStart >>= fun r => ((assign "vrf1" (.num 2) >>= fun _ => attempt libQ 7 >>= fun _ => lastDiff)
      (session libQ 7 (fresh r.1 r.2 3 4) [.values none])).2.map fun d => [d]) = .ok [53922059202149/17609003865573984] := by decide +kernel

/-- the scan over the points per cell (`C110_varying`); 0 points is not a value the constructor accepts -/
example : ((scanStart >>= fun r => (varying libQ 7 [.int 1, .int 2] (session libQ 7 (fresh r.1 r.2 3 4) [.values none])).2).map
      fun l => l.map Prod.snd)
    = .ok [53922059202149/17609003865573984, 4891925158042433657/3435018374711893644675] := by decide +kernel

theorem made_some {α : Type} {x : Verif.M α} (h : x.toOption.isSome = true) : ∃ a, x = .ok a := by
  cases x with
  | ok a => exact ⟨a, rfl⟩
  | error e => cases h

/-- `C110_made`: two voltages, by position and by name -/
example : ∃ o o' now now', machineInit tenArgs [] = .ok (o, now) ∧
    machineInit (tenArgs.take 1) [("dtbin", .num (1/2)), ("vrf1", .num 9), ("mean_orbit_rad", .num 10), ("bending_rad", .num 8), ("b0", .num 1),
      ("trans_gamma", .num 5), ("rest_energy", .num 3), ("nprofiles", .int 3), ("nbins", .int 6)] = .ok (o', now') ∧
    WithValue (putAll o [("snpt", .int 7)]) "vrf1" (.num 9) (putAll o' [("snpt", .int 7)]) := by
  have h : (machineInit tenArgs []).toOption.isSome = true := by decide +kernel
  have h' : (machineInit (tenArgs.take 1) [("dtbin", .num (1/2)), ("vrf1", .num 9), ("mean_orbit_rad", .num 10), ("bending_rad", .num 8),
      ("b0", .num 1), ("trans_gamma", .num 5), ("rest_energy", .num 3), ("nprofiles", .int 3), ("nbins", .int 6)]).toOption.isSome = true := by
    decide +kernel
  obtain ⟨⟨o, now⟩, ho⟩ := made_some h
  obtain ⟨⟨o', now'⟩, ho'⟩ := made_some h'
  exact ⟨o, o', now, now', ho, ho', C110_made (by decide +kernel) (by decide +kernel) (by decide +kernel) (by decide +kernel) ho ho'
    (by decide +kernel) _ (by decide +kernel)⟩

/-- `C110_as_run`: the program on the machine of the example file ends with the same discrepancy -/
example : (Run.runFile libQ textReader 1 7 (.error .oob) (fileLines fileVals) fileRaw none false >>= fun r => (npGet r.diff (-1)).map fun d => [d])
    = .ok [53922059202149/17609003865573984] ∧
    (scanStart >>= fun r => (calibrationPoint libQ 7 none (fresh r.1 r.2 3 4)).2.map fun d => [d]) = .ok [53922059202149/17609003865573984] := by
  decide +kernel

/-- `C110_violated_limits`: six bins of width 1/2; with 12 bins a new machine has another limit -/
example : attrOf tenArgs [] "max_dt" = .ok (.num 3) ∧ attrOf (tenArgs.take 8 ++ [.int 12, .num (1/2)]) [] "max_dt" = .ok (.num 6) ∧
    ((newMachine libQ (tenArgs ++ [.flag false]) [] >>= fun r => setattr r.1 "nbins" (.int 12)) >>= fun o => getattr o "max_dt")
      = .ok (.num 3) := by decide +kernel

/-- `C110_program_again` on the ramp, with another voltage program -/
example : (valuesAgain libQ { newPObj (rampProg 1 3) with args := { rampProg 1 3 with volt1 := [2, 52] } } 50).map Prog.POut.vrf1AtTurn
    ≠ (valuesAgain libQ (newPObj (rampProg 1 3)) 50).map Prog.POut.vrf1AtTurn ∧
    (valuesAgain libQ { newPObj (rampProg 1 3) with args := { rampProg 1 3 with volt1 := [2, 52] } } 50).toOption.isSome = true := by
  decide +kernel

/-- `C110_violated_phases_lost` on the ramp without phases -/
example : (valuesAgain libQ { newPObj { rampProg 1 3 with phase := .missing } with phi12 := .turns [1, 2, 3] } 50).toOption.isSome = true := by
  decide +kernel

end Verif.Props

import Verif.Spec.Scan
import Verif.Lemmas.ObjectLife
import Verif.Lemmas.MachineObj

/-!
# Lemmas on scans
-/

set_option linter.unusedSectionVars false

namespace Verif.Scan
open Verif.Mch Verif.Asrt Verif.Psi Verif.Part Verif.Run Verif.MObj Verif.Obj Verif.Recon Verif.Tomo

section
variable {K : Type} [Field K] [LinearOrder K] [FloorRing K]

/-- the name under which an attribute is stored -/
def stored (name : String) : String := if name = "nbins" then "_nbins" else name

theorem getattr_put (o : Dict K) (k k' : String) (v : Val K) :
    getattr (put o k v) k' = if stored k' = k then .ok v else getattr o k' := by
  unfold getattr lookup put
  rw [lookup_cons]
  unfold stored
  by_cases h : (if k' = "nbins" then "_nbins" else k') = k
  · rw [if_pos h, if_pos h]
  · rw [if_neg h, if_neg h]

theorem argsOf_congr {a b : Dict K} (h : ∀ k, k ≠ "dEbin" → getattr a k = getattr b k) : argsOf a = argsOf b := by
  unfold argsOf
  rw [h "dtbin" (by decide), h "dturns" (by decide), h "filmstart" (by decide), h "filmstop" (by decide), h "filmstep" (by decide),
    h "niter" (by decide), h "snpt" (by decide), h "machine_ref_frame" (by decide), h "beam_ref_frame" (by decide), h "h_num" (by decide),
    h "h_ratio" (by decide), h "b0" (by decide), h "mean_orbit_rad" (by decide), h "bending_rad" (by decide), h "e_rest" (by decide),
    h "pickup_sensitivity" (by decide), h "g_coupling" (by decide), h "vrf1" (by decide), h "vrf1dot" (by decide), h "vrf2" (by decide),
    h "vrf2dot" (by decide), h "phi12" (by decide), h "q" (by decide), h "bdot" (by decide), h "trans_gamma" (by decide),
    h "nprofiles" (by decide)]

/-- the attributes `machOf` reads -/
def trackAttrs : List String :=
  ["nbins", "synch_part_x", "synch_part_y", "dtbin", "min_dt", "max_dt", "demax", "beam_ref_frame", "filmstart", "filmstop", "filmstep",
   "dturns", "full_pp_flag", "self_field_flag", "h_num", "h_ratio", "q", "phi12", "snpt", "nprofiles", "niter"]

theorem machOf_congr {a b : Dict K} (h : ∀ k ∈ trackAttrs, getattr a k = getattr b k) (arrays : Option (MachineOut K)) :
    machOf a arrays = machOf b arrays := by
  unfold trackAttrs at h
  simp only [List.mem_cons, List.not_mem_nil, or_false, forall_eq_or_imp, forall_eq] at h
  obtain ⟨h1, h2, h3, h4, h5, h6, h7, h8, h9, h10, h11, h12, h13, h14, h15, h16, h17, h18, h19, h20, h21⟩ := h
  unfold machOf
  rw [h1, h2, h3, h4, h5, h6, h7, h8, h9, h10, h11, h12, h13, h14, h15, h16, h17, h18, h19, h20, h21]

/-- the x-coordinates computed by the tracking -/
def coords (L : MathLib K) (past : K) (o : Dict K) (arrays : Option (MachineOut K)) : Verif.M (Arr2 Int) :=
  machOf o arrays >>= fun m => (Short.track L m past ⟨none, ⟨0, []⟩⟩ (some m.filmstart)).2.map Prod.fst

/-- the discrepancies of a reconstruction, without objects -/
def outcome (L : MathLib K) (past : K) (o : Dict K) (arrays : Option (MachineOut K)) (wf : List K) (np nb : ℕ) : Verif.M (List K) :=
  coords L past o arrays >>= fun x =>
    match setXp ⟨np, nb, none, none, none⟩ (pyArray x) with
    | (_, some e) => .error (.exc e)
    | (c, none) => (getattr o "niter" >>= asInt).map Int.toNat >>= fun n =>
      match c.xp with
      | none => .error (.exc .coordinateError)
      | some (_, xs) => (reconstruct L.sqrt xs wf n nb (c.nparts.getD 0) np).2.map fun st => st.discr

/-- what a script leaves as it was -/
structure Keeps (wf : List K) (np nb : ℕ) (s s' : Session K) : Prop where
  settings : SameSettings s'.attrs s.attrs
  arrays : s'.arrays = s.arrays
  sound : Sound wf np nb s'.tomo

theorem tracked_eq (L : MathLib K) (past : K) (s : Session K) :
    (tracked L past s).2 = coords L past s.attrs s.arrays ∧ (tracked L past s).1.arrays = s.arrays ∧
    (tracked L past s).1.tomo = s.tomo ∧ SameSettings (tracked L past s).1.attrs s.attrs := by
  unfold tracked coords
  cases machOf s.attrs s.arrays with
  | error e => exact ⟨rfl, rfl, rfl, fun _ _ => rfl⟩
  | ok m =>
    dsimp only
    cases (Short.track L m past ⟨none, ⟨0, []⟩⟩ (some m.filmstart)).1.dEbin with
    | none => exact ⟨rfl, rfl, rfl, fun _ _ => rfl⟩
    | some d =>
      refine ⟨rfl, rfl, rfl, fun k hk => ?_⟩
      dsimp only
      rw [getattr_put, if_neg]
      unfold stored
      split
      · decide
      · exact hk

theorem setXp_any {c c' : Coords} (h1 : c.nprofs = c'.nprofs) (h2 : c.nbins = c'.nbins) (v : PyVal) :
    (setXp c v).2 = (setXp c' v).2 ∧
    ((setXp c v).2 = none → (setXp c v).1.xp = (setXp c' v).1.xp ∧ (setXp c v).1.nparts = (setXp c' v).1.nparts) := by
  cases v with
  | none => simp [setXp]
  | scalar => simp [setXp]
  | array shape data =>
    unfold setXp
    rw [h1, h2]
    dsimp only
    split
    · exact ⟨rfl, fun h => (by cases h)⟩
    · split
      · exact ⟨rfl, fun h => (by cases h)⟩
      · split
        · exact ⟨rfl, fun h => (by cases h)⟩
        · exact ⟨rfl, fun _ => ⟨rfl, rfl⟩⟩

theorem bind_pair {σ β γ : Type} (a : Ob σ β) (f : β → Ob σ γ) (s : σ) :
    (a >>= f) s = match (a s).2 with
      | .ok b => f b (a s).1
      | .error e => ((a s).1, .error e) := by
  show Ob.bind a f s = _
  unfold Ob.bind
  rcases a s with ⟨s', _ | _⟩ <;> rfl

theorem onTomo_app (sqrt : K → K) (op : Op K) (s : Session K) :
    onTomo sqrt op s = ({ s with tomo := (step sqrt op s.tomo).1 }, (step sqrt op s.tomo).2.map fun _ => ()) := rfl

theorem niterOf_app (s : Session K) : niterOf s = (s, (getattr s.attrs "niter" >>= asInt).map Int.toNat) := rfl

theorem step_run_done (sqrt : K → K) (n : ℕ) (o : TObj K) : step sqrt (.run n .done) o =
    match o.c.xp with
    | none => (o, .error (.exc .coordinateError))
    | some (_, x) =>
      match (reconstruct sqrt x o.wf n o.c.nbins o.nparts o.c.nprofs).2 with
      | .error e => (o, .error e)
      | .ok st => ({ o with weight := some st.weights, diff := some st.discr, recreated := st.flatRec }, .ok (.weights st.weights)) := by
  rw [step]
  rcases o.c.xp with _ | ⟨sh, x⟩
  · rfl
  · dsimp only
    rw [calls.eq_def]
    dsimp only
    rcases (reconstruct sqrt x o.wf n o.c.nbins o.nparts o.c.nprofs).2 with _ | _ <;> rfl

theorem attempt_eq (L : MathLib K) (past : K) {wf : List K} {np nb : ℕ} {s : Session K} (hs : Sound wf np nb s.tomo) :
    (attempt L past s).2 = (outcome L past s.attrs s.arrays wf np nb).map (fun _ => ()) ∧
    (∀ d, outcome L past s.attrs s.arrays wf np nb = .ok d → (attempt L past s).1.tomo.diff = some d) ∧
    Keeps wf np nb s (attempt L past s).1 := by
  obtain ⟨t1, t2, t3, t4⟩ := tracked_eq L past s
  unfold attempt outcome
  rw [bind_pair, t1]
  cases coords L past s.attrs s.arrays with
  | error e => exact ⟨rfl, fun d h => (by cases h), t4, t2, t3 ▸ hs⟩
  | ok x =>
    dsimp only
    rw [bind_ok]
    generalize (tracked L past s).1 = s1 at t2 t3 t4
    have hs1 : Sound wf np nb s1.tomo := t3 ▸ hs
    rw [bind_pair]
    have hstep := step_xp L.sqrt (pyArray x) s1.tomo
    have hany := setXp_any (c := s1.tomo.c) (c' := ⟨np, nb, none, none, none⟩) hs1.np hs1.nb (pyArray x)
    have hs2 := step_sound L.sqrt (.xp (pyArray x)) hs1
    rw [onTomo_app]
    dsimp only
    rw [hstep]
    rw [hstep] at hs2
    rcases h1 : setXp s1.tomo.c (pyArray x) with ⟨c1, e1⟩
    rcases h2 : setXp ⟨np, nb, none, none, none⟩ (pyArray x) with ⟨c2, e2⟩
    rw [h1, h2] at hany
    rw [h1] at hs2
    dsimp only at hany hs2 ⊢
    obtain ⟨he, hc⟩ := hany
    subst he
    cases e1 with
    | some e => exact ⟨rfl, fun d h => (by cases h), t4, t2, hs2⟩
    | none =>
      obtain ⟨hx, hn⟩ := hc rfl
      have hn1 : getattr s1.attrs "niter" = getattr s.attrs "niter" := t4 _ (by decide)
      dsimp only [Except.map]
      rw [bind_pair]
      rw [niterOf_app]
      dsimp only
      rw [hn1]
      cases (getattr s.attrs "niter" >>= asInt) with
      | error e => exact ⟨rfl, fun d h => (by cases h), t4, t2, hs2⟩
      | ok n =>
        dsimp only [Except.map]
        rw [bind_ok, bind_pair, onTomo_app]
        have hx' : ({ s1.tomo with c := c1 } : TObj K).c.xp = c2.xp := hx
        have hnn : TObj.nparts { s1.tomo with c := c1 } = c2.nparts.getD 0 := by
          unfold TObj.nparts
          rw [hn]
        generalize ({ s1.tomo with c := c1 } : TObj K) = t at hs2 hnn hx' ⊢
        have hs3 := step_sound L.sqrt (.run n.toNat .done) hs2
        have hwf := hs2.wf
        have hnp := hs2.np
        have hnb := hs2.nb
        have hrun := step_run_done L.sqrt n.toNat t
        dsimp only at hwf hnp hnb hrun ⊢
        rw [hx'] at hrun
        cases hc2 : c2.xp with
        | none =>
          rw [hc2] at hrun
          rw [hrun] at hs3 ⊢
          exact ⟨rfl, fun d h => (by cases h), t4, t2, hs3⟩
        | some p =>
          obtain ⟨sh, xs⟩ := p
          rw [hc2] at hrun
          dsimp only at hrun ⊢
          rw [hnn, hwf, hnp, hnb] at hrun
          cases hr : (reconstruct L.sqrt xs wf n.toNat nb (c2.nparts.getD 0) np).2 with
          | error e =>
            rw [hr] at hrun
            rw [hrun] at hs3 ⊢
            exact ⟨rfl, fun d h => (by cases h), t4, t2, hs3⟩
          | ok st =>
            rw [hr] at hrun
            have hs4 := step_sound L.sqrt (.xp .none) hs3
            rw [hrun] at hs4 ⊢
            dsimp only [Except.map] at hs4 ⊢
            rw [onTomo_app]
            dsimp only
            rw [step_xp] at hs4 ⊢
            exact ⟨rfl, fun d h => (by cases h; rfl), t4, t2, hs4⟩

/-- the point of a calibration, without objects -/
def pointValue (L : MathLib K) (past : K) (o : Dict K) (wf : List K) (np nb : ℕ) : Verif.M K :=
  argsOf o >>= fun a => valuesAtTurns L a >>= fun out => outcome L past o (some out) wf np nb >>= fun d => npGet d (-1)

theorem coords_congr {L : MathLib K} {past : K} {o o' : Dict K} (h : ∀ k ∈ trackAttrs, getattr o k = getattr o' k)
    (arrays : Option (MachineOut K)) : coords L past o arrays = coords L past o' arrays := by
  unfold coords
  rw [machOf_congr h]

theorem outcome_congr {L : MathLib K} {past : K} {o o' : Dict K} (h : ∀ k ∈ trackAttrs, getattr o k = getattr o' k)
    (arrays : Option (MachineOut K)) (wf : List K) (np nb : ℕ) :
    outcome L past o arrays wf np nb = outcome L past o' arrays wf np nb := by
  unfold outcome
  rw [coords_congr h, h "niter" (by decide +kernel)]

theorem trackAttrs_ne : ∀ k ∈ trackAttrs, k ≠ "dEbin" := by decide +kernel

theorem pointValue_congr {L : MathLib K} {past : K} {o o' : Dict K} (h : SameSettings o o') (wf : List K) (np nb : ℕ) :
    pointValue L past o wf np nb = pointValue L past o' wf np nb := by
  unfold pointValue
  rw [argsOf_congr h]
  congr 1
  funext a
  congr 1
  funext out
  rw [outcome_congr (fun k hk => h k (trackAttrs_ne k hk))]

theorem values_eq (L : MathLib K) (junk : Option (MachineOut K)) (s : Session K) :
    (values L junk s).2 = (argsOf s.attrs >>= fun a => valuesAtTurns L a).map (fun _ => ()) ∧
    (∀ out, (argsOf s.attrs >>= fun a => valuesAtTurns L a) = .ok out → (values L junk s).1.arrays = some out) ∧
    (values L junk s).1.attrs = s.attrs ∧ (values L junk s).1.tomo = s.tomo := by
  unfold values
  cases argsOf s.attrs with
  | error e => exact ⟨rfl, fun out h => (by cases h), rfl, rfl⟩
  | ok a =>
    simp only [bind_ok]
    unfold valuesAtTurns
    cases assertMachineInput a with
    | error e => exact ⟨rfl, fun out h => (by cases h), rfl, rfl⟩
    | ok p =>
      simp only [bind_ok]
      cases valuesAtTurnsOf L p with
      | error e => exact ⟨rfl, fun out h => (by cases h), rfl, rfl⟩
      | ok out => exact ⟨rfl, fun out h => (by cases h; rfl), rfl, rfl⟩

theorem lastDiff_eq (s : Session K) {d : List K} (h : s.tomo.diff = some d) : lastDiff s = (s, npGet d (-1)) := by
  unfold lastDiff
  rw [h]

theorem point_eq (L : MathLib K) (past : K) (junk : Option (MachineOut K)) {wf : List K} {np nb : ℕ} {s : Session K}
    (hs : Sound wf np nb s.tomo) :
    (calibrationPoint L past junk s).2 = pointValue L past s.attrs wf np nb ∧
    SameSettings (calibrationPoint L past junk s).1.attrs s.attrs ∧ Sound wf np nb (calibrationPoint L past junk s).1.tomo := by
  obtain ⟨v1, v2, v3, v4⟩ := values_eq L junk s
  unfold calibrationPoint pointValue
  rw [bind_pair, v1]
  cases ha : argsOf s.attrs with
  | error e => exact ⟨rfl, fun k _ => congrArg (getattr · k) v3, v4 ▸ hs⟩
  | ok a =>
    rw [ha] at v2
    simp only [bind_ok] at v2 ⊢
    cases hv : valuesAtTurns L a with
    | error e => exact ⟨rfl, fun k _ => congrArg (getattr · k) v3, v4 ▸ hs⟩
    | ok out =>
      have harr := v2 out hv
      simp only [Except.map, bind_ok]
      generalize (values L junk s).1 = s1 at harr v3 v4
      rw [bind_pair]
      have hs1 : Sound wf np nb s1.tomo := v4 ▸ hs
      obtain ⟨a1, a2, a3⟩ := attempt_eq L past hs1
      rw [v3, harr] at a1 a2
      rw [a1]
      have hset : SameSettings (attempt L past s1).1.attrs s.attrs := fun k hk => by rw [a3.settings k hk, v3]
      cases ho : outcome L past s.attrs (some out) wf np nb with
      | error e => exact ⟨rfl, hset, a3.sound⟩
      | ok d =>
        simp only [Except.map, bind_ok]
        rw [lastDiff_eq _ (a2 d ho)]
        exact ⟨rfl, hset, a3.sound⟩

theorem assign_eq {name : String} (hn : name ≠ "nbins") (v : Val K) (s : Session K) :
    assign name v s = ({ s with attrs := put s.attrs name v }, .ok ()) := by
  unfold assign setattr
  rw [if_neg hn]

/-- a statement keeps the waterfall -/
theorem after_sound (L : MathLib K) (past : K) {wf : List K} {np nb : ℕ} {s : Session K} (hs : Sound wf np nb s.tomo) (st : Stmt K) :
    Sound wf np nb (after L past s st).tomo := by
  cases st with
  | set name v =>
    show Sound wf np nb (assign name v s).1.tomo
    unfold assign
    cases setattr s.attrs name v <;> exact hs
  | values junk =>
    show Sound wf np nb (values L junk s).1.tomo
    rw [(values_eq L junk s).2.2.2]
    exact hs
  | track =>
    show Sound wf np nb (tracked L past s).1.tomo
    rw [(tracked_eq L past s).2.2.1]
    exact hs
  | tomo op => exact step_sound L.sqrt op hs

theorem session_sound (L : MathLib K) (past : K) {wf : List K} {np nb : ℕ} (stmts : List (Stmt K)) {s : Session K}
    (hs : Sound wf np nb s.tomo) : Sound wf np nb (session L past s stmts).tomo := by
  induction stmts generalizing s with
  | nil => exact hs
  | cons st stmts ih => exact ih (after_sound L past hs st)

theorem argsOf_fields {o : Dict K} {a : MachineArgs K} (h : argsOf o = .ok a) :
    (getattr o "dturns" >>= optInt) = .ok a.dturns ∧ (getattr o "nprofiles" >>= asInt) = .ok a.nprofiles ∧
    (getattr o "machine_ref_frame" >>= optInt) = .ok a.machineRefFrame ∧ (getattr o "h_num" >>= optNum) = .ok a.hNum ∧
    (getattr o "h_ratio" >>= optNum) = .ok a.hRatio ∧ (getattr o "b0" >>= optNum) = .ok a.b0 ∧
    (getattr o "mean_orbit_rad" >>= optNum) = .ok a.meanOrbitRad ∧ (getattr o "bending_rad" >>= optNum) = .ok a.bendingRad ∧
    (getattr o "e_rest" >>= optNum) = .ok a.eRest ∧ (getattr o "vrf1" >>= asNum) = .ok a.vrf1 ∧
    (getattr o "vrf1dot" >>= asNum) = .ok a.vrf1dot ∧ (getattr o "vrf2" >>= asNum) = .ok a.vrf2 ∧
    (getattr o "vrf2dot" >>= asNum) = .ok a.vrf2dot ∧ (getattr o "phi12" >>= asNum) = .ok a.phi12 ∧
    (getattr o "q" >>= asNum) = .ok a.q ∧ (getattr o "bdot" >>= asNum) = .ok a.bdot ∧
    (getattr o "trans_gamma" >>= asNum) = .ok a.transGamma := by
  unfold argsOf at h
  obtain ⟨x1, h1, h⟩ := bind_inv h
  obtain ⟨x2, h2, h⟩ := bind_inv h
  obtain ⟨x3, h3, h⟩ := bind_inv h
  obtain ⟨x4, h4, h⟩ := bind_inv h
  obtain ⟨x5, h5, h⟩ := bind_inv h
  obtain ⟨x6, h6, h⟩ := bind_inv h
  obtain ⟨x7, h7, h⟩ := bind_inv h
  obtain ⟨x8, h8, h⟩ := bind_inv h
  obtain ⟨x9, h9, h⟩ := bind_inv h
  obtain ⟨x10, h10, h⟩ := bind_inv h
  obtain ⟨x11, h11, h⟩ := bind_inv h
  obtain ⟨x12, h12, h⟩ := bind_inv h
  obtain ⟨x13, h13, h⟩ := bind_inv h
  obtain ⟨x14, h14, h⟩ := bind_inv h
  obtain ⟨x15, h15, h⟩ := bind_inv h
  obtain ⟨x16, h16, h⟩ := bind_inv h
  obtain ⟨x17, h17, h⟩ := bind_inv h
  obtain ⟨x18, h18, h⟩ := bind_inv h
  obtain ⟨x19, h19, h⟩ := bind_inv h
  obtain ⟨x20, h20, h⟩ := bind_inv h
  obtain ⟨x21, h21, h⟩ := bind_inv h
  obtain ⟨x22, h22, h⟩ := bind_inv h
  obtain ⟨x23, h23, h⟩ := bind_inv h
  obtain ⟨x24, h24, h⟩ := bind_inv h
  obtain ⟨x25, h25, h⟩ := bind_inv h
  obtain ⟨x26, h26, h⟩ := bind_inv h
  cases h
  exact ⟨h2, h26, h8, h10, h11, h12, h13, h14, h15, h18, h19, h20, h21, h22, h23, h24, h25⟩

/-- another number of points per cell -/
theorem argsOf_snpt {o o' : Dict K} {a : MachineArgs K} {n : Int} (h : argsOf o = .ok a) (hw : WithValue o "snpt" (.int n) o') :
    argsOf o' = .ok { a with snpt := some n } := by
  obtain ⟨hv, hs⟩ := hw
  unfold argsOf at h ⊢
  obtain ⟨x1, h1, h⟩ := bind_inv h
  obtain ⟨x2, h2, h⟩ := bind_inv h
  obtain ⟨x3, h3, h⟩ := bind_inv h
  obtain ⟨x4, h4, h⟩ := bind_inv h
  obtain ⟨x5, h5, h⟩ := bind_inv h
  obtain ⟨x6, h6, h⟩ := bind_inv h
  obtain ⟨x7, h7, h⟩ := bind_inv h
  obtain ⟨x8, h8, h⟩ := bind_inv h
  obtain ⟨x9, h9, h⟩ := bind_inv h
  obtain ⟨x10, h10, h⟩ := bind_inv h
  obtain ⟨x11, h11, h⟩ := bind_inv h
  obtain ⟨x12, h12, h⟩ := bind_inv h
  obtain ⟨x13, h13, h⟩ := bind_inv h
  obtain ⟨x14, h14, h⟩ := bind_inv h
  obtain ⟨x15, h15, h⟩ := bind_inv h
  obtain ⟨x16, h16, h⟩ := bind_inv h
  obtain ⟨x17, h17, h⟩ := bind_inv h
  obtain ⟨x18, h18, h⟩ := bind_inv h
  obtain ⟨x19, h19, h⟩ := bind_inv h
  obtain ⟨x20, h20, h⟩ := bind_inv h
  obtain ⟨x21, h21, h⟩ := bind_inv h
  obtain ⟨x22, h22, h⟩ := bind_inv h
  obtain ⟨x23, h23, h⟩ := bind_inv h
  obtain ⟨x24, h24, h⟩ := bind_inv h
  obtain ⟨x25, h25, h⟩ := bind_inv h
  obtain ⟨x26, h26, h⟩ := bind_inv h
  cases h
  have hq : (getattr o' "snpt" >>= optInt) = .ok (some n) := by rw [hv]; rfl
  rw [hq, hs "dtbin" (by decide) (by decide), hs "dturns" (by decide) (by decide), hs "filmstart" (by decide) (by decide),
    hs "filmstop" (by decide) (by decide), hs "filmstep" (by decide) (by decide), hs "niter" (by decide) (by decide),
    hs "machine_ref_frame" (by decide) (by decide), hs "beam_ref_frame" (by decide) (by decide), hs "h_num" (by decide) (by decide),
    hs "h_ratio" (by decide) (by decide), hs "b0" (by decide) (by decide), hs "mean_orbit_rad" (by decide) (by decide),
    hs "bending_rad" (by decide) (by decide), hs "e_rest" (by decide) (by decide), hs "pickup_sensitivity" (by decide) (by decide),
    hs "g_coupling" (by decide) (by decide), hs "vrf1" (by decide) (by decide), hs "vrf1dot" (by decide) (by decide),
    hs "vrf2" (by decide) (by decide), hs "vrf2dot" (by decide) (by decide), hs "phi12" (by decide) (by decide),
    hs "q" (by decide) (by decide), hs "bdot" (by decide) (by decide), hs "trans_gamma" (by decide) (by decide),
    hs "nprofiles" (by decide) (by decide),
    h1, h2, h3, h4, h5, h6, h8, h9, h10, h11, h12, h13, h14, h15, h16, h17, h18, h19, h20, h21, h22, h23, h24, h25, h26]
  rfl

theorem assert_snpt {a : MachineArgs K} {p : MachinePars K} {n : Int} (hn : 0 < n) (h : assertMachineInput a = .ok p) :
    assertMachineInput { a with snpt := some n } = .ok p := by
  unfold assertMachineInput at h ⊢
  obtain ⟨x1, h1, h⟩ := bind_inv h
  obtain ⟨x2, h2, h⟩ := bind_inv h
  obtain ⟨x3, h3, h⟩ := bind_inv h
  obtain ⟨x4, h4, h⟩ := bind_inv h
  obtain ⟨x5, h5, h⟩ := bind_inv h
  obtain ⟨x6, h6, h⟩ := bind_inv h
  obtain ⟨x7, h7, h⟩ := bind_inv h
  obtain ⟨x8, h8, h⟩ := bind_inv h
  obtain ⟨x9, h9, h⟩ := bind_inv h
  have hg : assertGreater n 0 Exn.machineParameterError = .ok () := by
    unfold assertGreater
    rw [if_neg (by omega)]
  dsimp only
  rw [h1, bind_ok, h2, bind_ok, h3, bind_ok, h4, bind_ok, h5, bind_ok, h6, bind_ok, h7, bind_ok]
  simp only [notNone, bind_ok, hg]
  exact h

theorem notNone_inv {A : Type} {x : Option A} {e : Exn} {v : A} (h : notNone x e = .ok v) : x = some v := by
  cases x with
  | none => cases h
  | some w => cases h; rfl

/-- what the assertions hand on -/
theorem assert_fields {a : MachineArgs K} {p : MachinePars K} (h : assertMachineInput a = .ok p) :
    a.dturns = some p.dturns ∧ a.nprofiles = p.nprofiles ∧ a.machineRefFrame = some p.machineRefFrame ∧ a.hNum = some p.hNum ∧
    a.hRatio = some p.hRatio ∧ a.b0 = some p.b0 ∧ a.meanOrbitRad = some p.meanOrbitRad ∧ a.bendingRad = some p.bendingRad ∧
    a.eRest = some p.eRest ∧ a.vrf1 = p.vrf1 ∧ a.vrf1dot = p.vrf1dot ∧ a.vrf2 = p.vrf2 ∧ a.vrf2dot = p.vrf2dot ∧ a.phi12 = p.phi12 ∧
    a.q = p.q ∧ a.bdot = p.bdot ∧ a.transGamma = p.transGamma := by
  unfold assertMachineInput at h
  obtain ⟨x1, h1, h⟩ := bind_inv h
  obtain ⟨_, _, h⟩ := bind_inv h
  obtain ⟨x3, h3, h⟩ := bind_inv h
  obtain ⟨_, _, h⟩ := bind_inv h
  obtain ⟨_, _, h⟩ := bind_inv h
  obtain ⟨_, _, h⟩ := bind_inv h
  obtain ⟨_, _, h⟩ := bind_inv h
  obtain ⟨_, _, h⟩ := bind_inv h
  obtain ⟨_, _, h⟩ := bind_inv h
  obtain ⟨x5, h5, h⟩ := bind_inv h
  obtain ⟨_, _, h⟩ := bind_inv h
  obtain ⟨_, _, h⟩ := bind_inv h
  obtain ⟨_, _, h⟩ := bind_inv h
  obtain ⟨x6, h6, h⟩ := bind_inv h
  obtain ⟨_, _, h⟩ := bind_inv h
  obtain ⟨x7, h7, h⟩ := bind_inv h
  obtain ⟨_, _, h⟩ := bind_inv h
  obtain ⟨x8, h8, h⟩ := bind_inv h
  obtain ⟨_, _, h⟩ := bind_inv h
  obtain ⟨x9, h9, h⟩ := bind_inv h
  obtain ⟨_, _, h⟩ := bind_inv h
  obtain ⟨x10, h10, h⟩ := bind_inv h
  obtain ⟨_, _, h⟩ := bind_inv h
  obtain ⟨x11, h11, h⟩ := bind_inv h
  obtain ⟨_, _, h⟩ := bind_inv h
  obtain ⟨_, _, h⟩ := bind_inv h
  obtain ⟨_, _, h⟩ := bind_inv h
  cases h
  exact ⟨notNone_inv h3, rfl, notNone_inv h5, notNone_inv h6, notNone_inv h7, notNone_inv h8, notNone_inv h9, notNone_inv h10,
    notNone_inv h11, rfl, rfl, rfl, rfl, rfl, rfl, rfl, rfl⟩

theorem pars_congr {o o' : Dict K} {a a' : MachineArgs K} {p p' : MachinePars K} (h : ∀ k ∈ arrayAttrs, getattr o k = getattr o' k)
    (ha : argsOf o = .ok a) (ha' : argsOf o' = .ok a') (hp : assertMachineInput a = .ok p) (hp' : assertMachineInput a' = .ok p') :
    p = p' := by
  unfold arrayAttrs at h
  simp only [List.mem_cons, List.not_mem_nil, or_false, forall_eq_or_imp, forall_eq] at h
  obtain ⟨e1, e2, e3, e4, e5, e6, e7, e8, e9, e10, e11, e12, e13, e14, e15, e16, e17⟩ := h
  obtain ⟨f1, f2, f3, f4, f5, f6, f7, f8, f9, f10, f11, f12, f13, f14, f15, f16, f17⟩ := argsOf_fields ha
  obtain ⟨g1, g2, g3, g4, g5, g6, g7, g8, g9, g10, g11, g12, g13, g14, g15, g16, g17⟩ := argsOf_fields ha'
  obtain ⟨k1, k2, k3, k4, k5, k6, k7, k8, k9, k10, k11, k12, k13, k14, k15, k16, k17⟩ := assert_fields hp
  obtain ⟨l1, l2, l3, l4, l5, l6, l7, l8, l9, l10, l11, l12, l13, l14, l15, l16, l17⟩ := assert_fields hp'
  rw [e1, g1, k1, l1] at f1
  rw [e2, g2, k2, l2] at f2
  rw [e3, g3, k3, l3] at f3
  rw [e4, g4, k4, l4] at f4
  rw [e5, g5, k5, l5] at f5
  rw [e6, g6, k6, l6] at f6
  rw [e7, g7, k7, l7] at f7
  rw [e8, g8, k8, l8] at f8
  rw [e9, g9, k9, l9] at f9
  rw [e10, g10, k10, l10] at f10
  rw [e11, g11, k11, l11] at f11
  rw [e12, g12, k12, l12] at f12
  rw [e13, g13, k13, l13] at f13
  rw [e14, g14, k14, l14] at f14
  rw [e15, g15, k15, l15] at f15
  rw [e16, g16, k16, l16] at f16
  rw [e17, g17, k17, l17] at f17
  simp only [Except.ok.injEq, Option.some.injEq] at f1 f2 f3 f4 f5 f6 f7 f8 f9 f10 f11 f12 f13 f14 f15 f16 f17
  cases p
  cases p'
  simp only [MachinePars.mk.injEq]
  simp only at f1 f2 f3 f4 f5 f6 f7 f8 f9 f10 f11 f12 f13 f14 f15 f16 f17
  simp only [f1, f2, f3, f4, f5, f6, f7, f8, f9, f10, f11, f12, f13, f14, f15, f16, f17, and_self]

theorem map_inv {A B : Type} {f : A → B} {m : Verif.M A} {b : B} (h : m.map f = .ok b) : ∃ a, m = .ok a ∧ b = f a := by
  cases m with
  | error e => cases h
  | ok a => cases h; exact ⟨a, rfl, rfl⟩

theorem upd_ne_nil {A : Type} {l l' : List A} {i : Int} {v : A} (h : upd l i v = .ok l') : l' ≠ [] := by
  rintro rfl
  have := Verif.upd_length h
  rw [List.length_nil] at this
  have h0 : l = [] := List.eq_nil_of_length_eq_zero this.symm
  subst h0
  unfold upd at h
  split_ifs at h with hi
  simp at hi

/-- a reconstruction leaves a discrepancy -/
theorem reconstruct_discr {sqrt : K → K} {xp : List Int} {wf : List K} {niter nbins npart nprof : ℕ} {st : RState K}
    (h : (reconstruct sqrt xp wf niter nbins npart nprof).2 = .ok st) : st.discr ≠ [] := by
  unfold reconstruct reconstructOn at h
  cases hp : prepare (α := K) xp nbins npart nprof with
  | error e => rw [hp] at h; cases h
  | ok q =>
    obtain ⟨rp, fp⟩ := q
    rw [hp] at h
    dsimp only at h
    cases hf : firstStep (tab npart fun _ => (0 : K)) fp wf npart nprof with
    | error e => rw [hf] at h; cases h
    | ok w =>
      rw [hf] at h
      dsimp only at h
      generalize iterLoop (iterBody sqrt fp wf rp nbins npart nprof) niter niter _ = r at h
      obtain ⟨log, r⟩ := r
      cases r with
      | error e => cases h
      | ok st' =>
        dsimp only at h
        cases hl : finalStep sqrt fp wf nbins npart nprof niter st' with
        | error e => rw [hl] at h; cases h
        | ok st'' =>
          rw [hl] at h
          cases h
          unfold finalStep at hl
          obtain ⟨_, _, hl⟩ := bind_inv hl
          obtain ⟨_, _, hl⟩ := bind_inv hl
          obtain ⟨_, _, hl⟩ := bind_inv hl
          obtain ⟨_, _, hl⟩ := bind_inv hl
          obtain ⟨_, hu, hl⟩ := bind_inv hl
          cases hl
          exact upd_ne_nil hu

theorem outcome_ne_nil {L : MathLib K} {past : K} {o : Dict K} {arrays : Option (MachineOut K)} {wf : List K} {np nb : ℕ} {d : List K}
    (h : outcome L past o arrays wf np nb = .ok d) : d ≠ [] := by
  unfold outcome at h
  obtain ⟨x, _, h⟩ := bind_inv h
  split at h
  · cases h
  · obtain ⟨n, _, h⟩ := bind_inv h
    split at h
    · cases h
    · obtain ⟨st, hst, rfl⟩ := map_inv h
      exact reconstruct_discr hst

theorem npGet_last {A : Type} {d : List A} (h : d ≠ []) : ∃ x, npGet d (-1) = .ok x := by
  have hl : 0 < d.length := List.length_pos_iff.mpr h
  unfold npGet
  simp only [show (-1 : Int) < 0 by omega, if_true]
  rw [if_pos (by omega)]
  have hk : (-1 + (d.length : Int)).toNat < d.length := by omega
  rw [List.getElem?_eq_getElem hk]
  exact ⟨_, rfl⟩

end
end Verif.Scan

import Verif.Lemmas.Object
import Verif.Spec.Object

/-!
# One statement on a `Tomography` object; two objects side by side (helper lemmas)
-/

set_option linter.unusedSectionVars false

namespace Verif.Obj
open Verif.Spec Verif.Recon Verif.Tomo Verif.Multi

variable {α : Type _} [Add α] [Sub α] [Mul α] [Zero α] [One α] [NatCast α] [IntCast α]
  [LT α] [LE α] [DecidableLT α] [DecidableLE α] [DecidableEq α] [FDiv α]

/-- what all objects on the waterfall `wf` have in common -/
structure Sound (wf : List α) (n m : ℕ) (o : TObj α) : Prop where
  wf : o.wf = wf
  np : o.c.nprofs = n
  nb : o.c.nbins = m
  len : o.recreated.length = n * m

theorem sound_new (wf : List α) (n m : ℕ) : Sound wf n m (new wf n m) := ⟨rfl, rfl, rfl, by simp [new]⟩

theorem setXp_sizes (c : Coords) (v : PyVal) : (setXp c v).1.nprofs = c.nprofs ∧ (setXp c v).1.nbins = c.nbins := by
  cases v with
  | none => simp [setXp]
  | scalar => simp [setXp]
  | array shape data =>
    unfold setXp
    dsimp only
    split
    · simp
    · split
      · simp
      · split <;> simp

theorem setYp_sizes (c : Coords) (v : PyVal) : (setYp c v).1.nprofs = c.nprofs ∧ (setYp c v).1.nbins = c.nbins := by
  cases v with
  | none => simp [setYp]
  | scalar => simp [setYp]
  | array shape data =>
    unfold setYp
    dsimp only
    split
    · simp
    · split <;> simp

theorem setYp_x (c : Coords) (v : PyVal) : (setYp c v).1.xp = c.xp ∧ (setYp c v).1.nparts = c.nparts := by
  cases v with
  | none => simp [setYp]
  | scalar => simp [setYp]
  | array shape data =>
    unfold setYp
    dsimp only
    split
    · simp
    · split <;> simp

/-- The setter of `xp` looks at the sizes only. -/
theorem setXp_agree {c c' : Coords} (h1 : c.nprofs = c'.nprofs) (h2 : c.nbins = c'.nbins) (hx : c.xp = c'.xp) (hn : c.nparts = c'.nparts)
    (v : PyVal) : (setXp c v).2 = (setXp c' v).2 ∧ (setXp c v).1.xp = (setXp c' v).1.xp ∧ (setXp c v).1.nparts = (setXp c' v).1.nparts := by
  cases v with
  | none => simp [setXp]
  | scalar => simp [setXp, hx, hn]
  | array shape data =>
    unfold setXp
    rw [h1, h2]
    dsimp only
    split
    · simp [hx, hn]
    · split
      · simp [hx, hn]
      · split <;> simp [hx, hn]

/-- The setter of `yp` looks at `xp` only. -/
theorem setYp_agree {c c' : Coords} (hx : c.xp = c'.xp) (v : PyVal) : (setYp c v).2 = (setYp c' v).2 := by
  cases v with
  | none => simp [setYp]
  | scalar => simp [setYp]
  | array shape data =>
    unfold setYp
    rw [hx]
    dsimp only
    split
    · rfl
    · split <;> rfl

theorem setXp_failed (c : Coords) (v : PyVal) {e : Exn} (h : (setXp c v).2 = some e) : (setXp c v).1 = c := by
  cases v with
  | none => simp [setXp] at h
  | scalar => simp [setXp]
  | array shape data =>
    unfold setXp at h ⊢
    dsimp only at h ⊢
    split
    · rfl
    · rename_i h1
      rw [if_neg h1] at h
      split
      · rfl
      · rename_i h2
        rw [if_neg h2] at h
        split
        · rfl
        · rename_i h3
          rw [if_neg h3] at h
          simp at h

theorem setYp_failed (c : Coords) (v : PyVal) {e : Exn} (h : (setYp c v).2 = some e) : (setYp c v).1 = c := by
  cases v with
  | none => simp [setYp] at h
  | scalar => simp [setYp]
  | array shape data =>
    unfold setYp at h ⊢
    dsimp only at h ⊢
    split
    · rfl
    · rename_i h1
      rw [h1] at h
      dsimp only at h
      split
      · rename_i h2
        rw [if_pos h2] at h
        simp at h
      · rfl

/-! ## Single statements -/

theorem hybridO_none {o : TObj α} (hx : o.c.xp = none) (sqrt : α → α) (niter : ℕ) :
    hybridO sqrt niter o = (o, .error (.exc .coordinateError)) := by
  unfold hybridO
  show (match o.c.xp with
    | none => _
    | some (_, x) => _ : Ob (TObj α) (List α)) o = _
  rw [hx]
  rfl

theorem hybridMultiO_none {o : TObj α} (hx : o.c.xp = none) (sqrt : α → α) (centers : List Int) (cuts : List (Int × Int)) (niter : ℕ) :
    hybridMultiO sqrt centers cuts niter o = (o, .error (.exc .coordinateError)) := by
  unfold hybridMultiO
  show (match o.c.xp with
    | none => _
    | some (_, x) => _ : Ob (TObj α) (List (List α))) o = _
  rw [hx]
  rfl

theorem hybridFlatO_none {o : TObj α} (hx : o.c.xp = none) (sqrt : α → α) (centers : List Int) (cuts : List (Int × Int)) (niter : ℕ) :
    hybridFlatO sqrt centers cuts niter o = (o, .error (.exc .coordinateError)) := by
  unfold hybridFlatO
  show (match o.c.xp with
    | none => _
    | some (_, x) => _ : Ob (TObj α) Unit) o = _
  rw [hx]
  rfl

theorem step_xp (sqrt : α → α) (v : PyVal) (o : TObj α) : step sqrt (.xp v) o = ({ o with c := (setXp o.c v).1 },
    match (setXp o.c v).2 with | none => .ok .none | some e => .error (.exc e)) := by
  rw [step]
  rcases setXp o.c v with ⟨c, _ | e⟩ <;> rfl

theorem step_yp (sqrt : α → α) (v : PyVal) (o : TObj α) : step sqrt (.yp v) o = ({ o with c := (setYp o.c v).1 },
    match (setYp o.c v).2 with | none => .ok .none | some e => .error (.exc e)) := by
  rw [step]
  rcases setYp o.c v with ⟨c, _ | e⟩ <;> rfl

theorem step_hybrid {wf : List α} {n m : ℕ} {o : TObj α} (ho : Sound wf n m o) (sqrt : α → α) (niter : ℕ) {sh : List ℕ} {x : List Int}
    (hx : o.c.xp = some (sh, x)) :
    Frame1 o (step sqrt (.hybrid niter) o).1 ∧
    (∀ e, runHybrid sqrt x wf niter m o.nparts n = .error e → (step sqrt (.hybrid niter) o).2 = .error e) ∧
    ∀ st, runHybrid sqrt x wf niter m o.nparts n = .ok st →
      step sqrt (.hybrid niter) o = ({ o with diff := some st.discr, recreated := st.flatRec }, .ok (.weights st.weights)) := by
  obtain ⟨rfl, rfl, rfl, hl⟩ := ho
  have h := hybridO_sim hl hx sqrt niter
  have hs : step sqrt (.hybrid niter) o = returns .weights (hybridO sqrt niter o) := by rw [step]
  rcases he : hybridO sqrt niter o with ⟨o', r⟩
  rw [he] at hs
  refine ⟨?_, fun e hm => ?_, fun st hm => ?_⟩
  · have := h.keeps
    rw [he] at this
    rw [hs]
    exact this
  · have := h.error hm
    rw [he] at this
    dsimp only at this
    rw [hs, this]
    rfl
  · obtain ⟨w, h1, h2, h3⟩ := h.ok hm
    rw [he] at h1 h3
    dsimp only at h1 h3
    rw [hs, h1, h2, h3]
    rfl

theorem step_hybridMulti {wf : List α} {n m : ℕ} {o : TObj α} (ho : Sound wf n m o) (sqrt : α → α) (centers : List Int)
    (cuts : List (Int × Int)) (niter : ℕ) {sh : List ℕ} {x : List Int} (hx : o.c.xp = some (sh, x)) :
    Frame2 o (step sqrt (.hybridMulti centers cuts niter) o).1 ∧
    (∀ e, runHybridMulti sqrt x wf centers cuts niter m o.nparts n = .error e →
      (step sqrt (.hybridMulti centers cuts niter) o).2 = .error e) ∧
    ∀ st, runHybridMulti sqrt x wf centers cuts niter m o.nparts n = .ok st →
      step sqrt (.hybridMulti centers cuts niter) o =
        ({ o with diff := some st.discr, recreated := st.flatRec, full := some st.flatRec }, .ok (.rows st.weights)) := by
  obtain ⟨rfl, rfl, rfl, hl⟩ := ho
  have h := hybridMultiO_sim hl hx sqrt centers cuts niter
  have hs : step sqrt (.hybridMulti centers cuts niter) o = returns .rows (hybridMultiO sqrt centers cuts niter o) := by rw [step]
  rcases he : hybridMultiO sqrt centers cuts niter o with ⟨o', r⟩
  rw [he] at hs
  refine ⟨?_, fun e hm => ?_, fun st hm => ?_⟩
  · have := h.keeps
    rw [he] at this
    rw [hs]
    exact this
  · have := h.error hm
    rw [he] at this
    dsimp only at this
    rw [hs, this]
    rfl
  · obtain ⟨w, h1, h2, h3⟩ := h.ok hm
    rw [he] at h1 h3
    dsimp only at h1 h3
    rw [hs, h1, h2, h3]
    rfl

/-- the slices of the weights -/
def slices (w : List α) (nc npart : ℕ) : List (List α) := (List.range nc).map fun i => npRange w (i * npart) ((i + 1) * npart)

theorem step_multiHybrid {wf : List α} {n m : ℕ} {o : TObj α} (ho : Sound wf n m o) (sqrt : α → α) (centers : List Int)
    (cuts : List (Int × Int)) (niter : ℕ) {sh : List ℕ} {x : List Int} (hx : o.c.xp = some (sh, x)) :
    (∀ e, runHybridFlat sqrt x wf centers cuts niter m o.nparts n = .error e →
      (step sqrt (.multiHybrid centers cuts niter) o).2 = .error e ∧ Frame o (step sqrt (.multiHybrid centers cuts niter) o).1) ∧
    ∀ st, runHybridFlat sqrt x wf centers cuts niter m o.nparts n = .ok st →
      st.flatRec.length = n * m ∧ step sqrt (.multiHybrid centers cuts niter) o =
        ({ o with
            diff := some st.discr, split := some st.split, recreated := st.flatRec, full := some st.flatRec,
            combined := some st.weights, bunches := some (slices st.weights centers.length o.nparts) }, .ok .none) := by
  obtain ⟨rfl, rfl, rfl, hl⟩ := ho
  obtain ⟨a, ha, h⟩ := hybridFlatO_sim hl hx sqrt centers cuts niter
  have hs : step sqrt (.multiHybrid centers cuts niter) o = returns (fun _ => .none) (hybridFlatO sqrt centers cuts niter o) := by rw [step]
  rw [ha] at hs
  have hb : (a >>= fun w => Ob.modify (storeWeights w centers.length)) o = Ob.bind a (fun w => Ob.modify (storeWeights w centers.length)) o := rfl
  rw [hb, Ob.bind] at hs
  have hk := h.keeps
  rcases he : a o with ⟨o', r⟩
  rw [he] at hs hk
  refine ⟨fun e hm => ?_, fun st hm => ?_⟩
  · have := h.error hm
    rw [he] at this
    dsimp only at this
    rw [hs, this]
    exact ⟨rfl, hk⟩
  · obtain ⟨w, h1, h2, h3⟩ := h.ok hm
    rw [he] at h1 h3
    dsimp only at h1 h3
    have hlen := hk.len
    rw [h3] at hlen
    refine ⟨hlen, ?_⟩
    rw [hs, h1, h2, h3]
    rfl

/-! ## All statements keep an object sound -/

theorem Frame.sound {wf : List α} {n m : ℕ} {o o' : TObj α} (ho : Sound wf n m o) (h : Frame o o') : Sound wf n m o' :=
  ⟨h.wf.trans ho.wf, by rw [h.c, ho.np], by rw [h.c, ho.nb], by rw [h.len, ho.np, ho.nb]⟩

theorem splitWeights_fields (w : List α) (centers : List Int) (o : TObj α) :
    ∃ b, (splitWeights w centers o).1 = { o with bunches := b } := by
  unfold splitWeights
  split
  · exact ⟨_, rfl⟩
  · exact ⟨_, rfl⟩

mutual

theorem step_sound {wf : List α} {n m : ℕ} (sqrt : α → α) : ∀ (op : Op α) {o : TObj α}, Sound wf n m o → Sound wf n m (step sqrt op o).1
  | .xp v, o, ho => by
    rw [step_xp]
    exact ⟨ho.wf, (setXp_sizes o.c v).1.trans ho.np, (setXp_sizes o.c v).2.trans ho.nb, ho.len⟩
  | .yp v, o, ho => by
    rw [step_yp]
    exact ⟨ho.wf, (setYp_sizes o.c v).1.trans ho.np, (setYp_sizes o.c v).2.trans ho.nb, ho.len⟩
  | .run niter cb, o, ho => by
    rw [step]
    rcases hx : o.c.xp with _ | ⟨sh, x⟩
    · exact ho
    · dsimp only
      have hc := calls_sound sqrt cb (reconstruct sqrt x o.wf niter o.c.nbins o.nparts o.c.nprofs).1.length ho
      split
      · rename_i o' e h
        rw [h] at hc; exact hc
      · rename_i o' h
        rw [h] at hc
        split
        · exact hc
        · rename_i st hr
          have hl := reconstruct_len (log := (reconstruct sqrt x o.wf niter o.c.nbins o.nparts o.c.nprofs).1) (Prod.ext rfl hr)
          exact ⟨hc.wf, hc.np, hc.nb, by rw [← ho.np, ← ho.nb, ← hl]⟩
  | .hybrid niter, o, ho => by
    rcases hx : o.c.xp with _ | ⟨sh, x⟩
    · have h : step sqrt (.hybrid niter) o = (o, .error (.exc .coordinateError)) := by rw [step, hybridO_none hx]; rfl
      rw [h]; exact ho
    · exact Frame.sound ho (step_hybrid ho sqrt niter hx).1.toFrame
  | .hybridMulti centers cuts niter, o, ho => by
    rcases hx : o.c.xp with _ | ⟨sh, x⟩
    · have h : step sqrt (.hybridMulti centers cuts niter) o = (o, .error (.exc .coordinateError)) := by rw [step, hybridMultiO_none hx]; rfl
      rw [h]; exact ho
    · exact Frame.sound ho (step_hybridMulti ho sqrt centers cuts niter hx).1.toFrame
  | .runOld niter, o, ho => by
    rw [step]
    split
    · exact ho
    · exact ⟨ho.wf, ho.np, ho.nb, ho.len⟩
  | .multi centers cl cr niter cb junk, o, ho => by
    rw [step]
    rcases hx : o.c.xp with _ | ⟨sh, x⟩
    · exact ho
    · dsimp only
      have hc := calls_sound sqrt cb (runMulti sqrt junk x o.wf centers cl cr niter o.c.nbins o.nparts o.c.nprofs).1.length ho
      split
      · rename_i o' e h
        rw [h] at hc; exact hc
      · rename_i o' h
        rw [h] at hc
        split
        · exact hc
        · rename_i b hr
          obtain ⟨bu, hbu⟩ := splitWeights_fields b.weightCombined centers
            { o' with diff := some b.diff, split := some b.diffSplit, recreated := b.recreated, combined := some b.weightCombined }
          rw [hbu]
          exact ⟨hc.wf, hc.np, hc.nb, by rw [← ho.np, ← ho.nb, ← runMulti_len hr]⟩
  | .multiHybrid centers cuts niter, o, ho => by
    rcases hx : o.c.xp with _ | ⟨sh, x⟩
    · have h : step sqrt (.multiHybrid centers cuts niter) o = (o, .error (.exc .coordinateError)) := by rw [step, hybridFlatO_none hx]; rfl
      rw [h]; exact ho
    · obtain ⟨h1, h2⟩ := step_multiHybrid ho sqrt centers cuts niter hx
      cases hr : runHybridFlat sqrt x wf centers cuts niter m o.nparts n with
      | error e => exact Frame.sound ho (h1 e hr).2
      | ok st =>
        rw [(h2 st hr).2]
        exact ⟨ho.wf, ho.np, ho.nb, (h2 st hr).1⟩

theorem calls_sound {wf : List α} {n m : ℕ} (sqrt : α → α) : ∀ (cb : Calls α) (k : ℕ) {o : TObj α}, Sound wf n m o →
    Sound wf n m (calls sqrt cb k o).1
  | .done, _, o, ho => by rw [calls]; exact ho
  | .call _ _ _, 0, o, ho => by rw [calls]; exact ho
  | .call ops (some e) _, k + 1, o, ho => by rw [calls]; exact runOps_sound sqrt ops ho
  | .call ops none rest, k + 1, o, ho => by rw [calls]; exact calls_sound sqrt rest k (runOps_sound sqrt ops ho)

theorem runOps_sound {wf : List α} {n m : ℕ} (sqrt : α → α) : ∀ (ops : Ops α) {o : TObj α}, Sound wf n m o →
    Sound wf n m (runOps sqrt ops o)
  | .nil, o, ho => by rw [runOps]; exact ho
  | .cons op rest, o, ho => by rw [runOps]; exact runOps_sound sqrt rest (step_sound sqrt op ho)

end

/-! ## Two objects side by side -/

/-- two objects on the same waterfall with the same x-coordinates -/
structure Agree (wf : List α) (n m : ℕ) (o1 o2 : TObj α) : Prop where
  left : Sound wf n m o1
  right : Sound wf n m o2
  same : SameX o1 o2

theorem Agree.c {wf : List α} {n m : ℕ} {o1 o2 : TObj α} (h : Agree wf n m o1 o2) :
    o1.c.xp = o2.c.xp ∧ o1.nparts = o2.nparts ∧ o1.wf = o2.wf ∧ o1.c.nprofs = o2.c.nprofs ∧ o1.c.nbins = o2.c.nbins :=
  ⟨h.same.1, by rw [TObj.nparts, h.same.2]; rfl, h.left.wf.trans h.right.wf.symm, h.left.np.trans h.right.np.symm,
    h.left.nb.trans h.right.nb.symm⟩

/-- what the two objects show after the same statement -/
def Alike (op : Op α) (p1 p2 : TObj α × M (Ret α)) : Prop :=
  SameX p1.1 p2.1 ∧ p1.2 = p2.2 ∧ ((∃ r, p1.2 = .ok r) → results op p1.1 = results op p2.1)

theorem splitWeights_alike {w : List α} {centers : List Int} {o1 o2 : TObj α} (h : SameX o1 o2) :
    SameX (splitWeights w centers o1).1 (splitWeights w centers o2).1 ∧ (splitWeights w centers o1).2 = (splitWeights w centers o2).2 ∧
    (splitWeights w centers o1).1.bunches = (splitWeights w centers o2).1.bunches := by
  unfold splitWeights
  rw [h.2]
  split
  · exact ⟨h, rfl, rfl⟩
  · exact ⟨h, rfl, rfl⟩

mutual

theorem step_alike {wf : List α} {n m : ℕ} (sqrt : α → α) : ∀ (op : Op α) {o1 o2 : TObj α}, Agree wf n m o1 o2 →
    Alike op (step sqrt op o1) (step sqrt op o2)
  | .xp v, o1, o2, h => by
    have hc := setXp_agree h.c.2.2.2.1 h.c.2.2.2.2 h.c.1 h.same.2 v
    rw [step_xp, step_xp]
    exact ⟨⟨hc.2.1, hc.2.2⟩, by rw [hc.1], fun _ => rfl⟩
  | .yp v, o1, o2, h => by
    have hc := setYp_agree h.c.1 v
    rw [step_yp, step_yp]
    refine ⟨⟨?_, ?_⟩, by rw [hc], fun _ => rfl⟩
    · rw [(setYp_x o1.c v).1, (setYp_x o2.c v).1, h.c.1]
    · rw [(setYp_x o1.c v).2, (setYp_x o2.c v).2, h.same.2]
  | .run niter cb, o1, o2, h => by
    obtain ⟨h1, h2, h3, h4, h5⟩ := h.c
    rw [step, step, h1, h2, h3, h4, h5]
    rcases hx : o2.c.xp with _ | ⟨sh, x⟩
    · exact ⟨h.same, rfl, fun _ => by simp_all⟩
    · dsimp only
      obtain ⟨ha, he⟩ := calls_alike sqrt cb (reconstruct sqrt x o2.wf niter o2.c.nbins o2.nparts o2.c.nprofs).1.length h
      rcases e1 : calls sqrt cb (reconstruct sqrt x o2.wf niter o2.c.nbins o2.nparts o2.c.nprofs).1.length o1 with ⟨o1', x1⟩
      rcases e2 : calls sqrt cb (reconstruct sqrt x o2.wf niter o2.c.nbins o2.nparts o2.c.nprofs).1.length o2 with ⟨o2', x2⟩
      rw [e1, e2] at ha he
      dsimp only at ha he
      subst he
      cases x1 with
      | some e => exact ⟨ha.same, rfl, fun ⟨_, hr⟩ => by simp at hr⟩
      | none =>
        dsimp only
        cases (reconstruct sqrt x o2.wf niter o2.c.nbins o2.nparts o2.c.nprofs).2 with
        | error e => exact ⟨ha.same, rfl, fun ⟨_, hr⟩ => by simp at hr⟩
        | ok st => exact ⟨ha.same, rfl, fun _ => rfl⟩
  | .hybrid niter, o1, o2, h => by
    obtain ⟨h1, h2, h3, h4, h5⟩ := h.c
    rcases hx : o2.c.xp with _ | ⟨sh, x⟩
    · rw [step, step, hybridO_none (h1.trans hx), hybridO_none hx]
      exact ⟨h.same, rfl, fun ⟨_, hr⟩ => by simp [returns, Except.map] at hr⟩
    · obtain ⟨f1, a1, b1⟩ := step_hybrid h.left sqrt niter (h1.trans hx)
      obtain ⟨f2, a2, b2⟩ := step_hybrid h.right sqrt niter hx
      have hs : SameX (step sqrt (.hybrid niter) o1).1 (step sqrt (.hybrid niter) o2).1 := by
        unfold SameX; rw [f1.c, f2.c]; exact h.same
      rw [h2] at a1 b1
      cases hr : runHybrid sqrt x wf niter m o2.nparts n with
      | error e => exact ⟨hs, by rw [a1 e hr, a2 e hr], fun ⟨_, hr'⟩ => by rw [a1 e hr] at hr'; simp at hr'⟩
      | ok st => rw [b1 st hr, b2 st hr]; exact ⟨h.same, rfl, fun _ => rfl⟩
  | .hybridMulti centers cuts niter, o1, o2, h => by
    obtain ⟨h1, h2, h3, h4, h5⟩ := h.c
    rcases hx : o2.c.xp with _ | ⟨sh, x⟩
    · rw [step, step, hybridMultiO_none (h1.trans hx), hybridMultiO_none hx]
      exact ⟨h.same, rfl, fun ⟨_, hr⟩ => by simp [returns, Except.map] at hr⟩
    · obtain ⟨f1, a1, b1⟩ := step_hybridMulti h.left sqrt centers cuts niter (h1.trans hx)
      obtain ⟨f2, a2, b2⟩ := step_hybridMulti h.right sqrt centers cuts niter hx
      have hs : SameX (step sqrt (.hybridMulti centers cuts niter) o1).1 (step sqrt (.hybridMulti centers cuts niter) o2).1 := by
        unfold SameX; rw [f1.c, f2.c]; exact h.same
      rw [h2] at a1 b1
      cases hr : runHybridMulti sqrt x wf centers cuts niter m o2.nparts n with
      | error e => exact ⟨hs, by rw [a1 e hr, a2 e hr], fun ⟨_, hr'⟩ => by rw [a1 e hr] at hr'; simp at hr'⟩
      | ok st => rw [b1 st hr, b2 st hr]; exact ⟨h.same, rfl, fun _ => rfl⟩
  | .runOld niter, o1, o2, h => by
    rw [step, step, h.c.1]
    split
    · exact ⟨h.same, rfl, fun _ => rfl⟩
    · exact ⟨h.same, rfl, fun _ => rfl⟩
  | .multi centers cl cr niter cb junk, o1, o2, h => by
    obtain ⟨h1, h2, h3, h4, h5⟩ := h.c
    rw [step, step, h1, h2, h3, h4, h5]
    rcases hx : o2.c.xp with _ | ⟨sh, x⟩
    · exact ⟨h.same, rfl, fun ⟨_, hr⟩ => by simp at hr⟩
    · dsimp only
      obtain ⟨ha, he⟩ := calls_alike sqrt cb (runMulti sqrt junk x o2.wf centers cl cr niter o2.c.nbins o2.nparts o2.c.nprofs).1.length h
      rcases e1 : calls sqrt cb (runMulti sqrt junk x o2.wf centers cl cr niter o2.c.nbins o2.nparts o2.c.nprofs).1.length o1 with ⟨o1', x1⟩
      rcases e2 : calls sqrt cb (runMulti sqrt junk x o2.wf centers cl cr niter o2.c.nbins o2.nparts o2.c.nprofs).1.length o2 with ⟨o2', x2⟩
      rw [e1, e2] at ha he
      dsimp only at ha he
      subst he
      cases x1 with
      | some e => exact ⟨ha.same, rfl, fun ⟨_, hr⟩ => by simp at hr⟩
      | none =>
        dsimp only
        cases (runMulti sqrt junk x o2.wf centers cl cr niter o2.c.nbins o2.nparts o2.c.nprofs).2 with
        | error e => exact ⟨ha.same, rfl, fun ⟨_, hr⟩ => by simp at hr⟩
        | ok b =>
          dsimp only
          have hsame : SameX
            { o1' with diff := some b.diff, split := some b.diffSplit, recreated := b.recreated, combined := some b.weightCombined }
            { o2' with diff := some b.diff, split := some b.diffSplit, recreated := b.recreated, combined := some b.weightCombined } :=
            ha.same
          obtain ⟨k1, k2, k3⟩ := splitWeights_alike (w := b.weightCombined) (centers := centers) hsame
          refine ⟨k1, k2, fun _ => ?_⟩
          obtain ⟨b1, q1⟩ := splitWeights_fields b.weightCombined centers
            { o1' with diff := some b.diff, split := some b.diffSplit, recreated := b.recreated, combined := some b.weightCombined }
          obtain ⟨b2, q2⟩ := splitWeights_fields b.weightCombined centers
            { o2' with diff := some b.diff, split := some b.diffSplit, recreated := b.recreated, combined := some b.weightCombined }
          rw [q1, q2] at k3 ⊢
          dsimp only at k3
          simp only [results, k3]
  | .multiHybrid centers cuts niter, o1, o2, h => by
    obtain ⟨h1, h2, h3, h4, h5⟩ := h.c
    rcases hx : o2.c.xp with _ | ⟨sh, x⟩
    · rw [step, step, hybridFlatO_none (h1.trans hx), hybridFlatO_none hx]
      exact ⟨h.same, rfl, fun ⟨_, hr⟩ => by simp [returns, Except.map] at hr⟩
    · obtain ⟨a1, b1⟩ := step_multiHybrid h.left sqrt centers cuts niter (h1.trans hx)
      obtain ⟨a2, b2⟩ := step_multiHybrid h.right sqrt centers cuts niter hx
      rw [h2] at a1 b1
      cases hr : runHybridFlat sqrt x wf centers cuts niter m o2.nparts n with
      | error e =>
        refine ⟨?_, by rw [(a1 e hr).1, (a2 e hr).1], fun ⟨_, hr'⟩ => by rw [(a1 e hr).1] at hr'; simp at hr'⟩
        unfold SameX
        rw [(a1 e hr).2.c, (a2 e hr).2.c]
        exact h.same
      | ok st => rw [(b1 st hr).2, (b2 st hr).2]; exact ⟨h.same, rfl, fun _ => rfl⟩

theorem calls_alike {wf : List α} {n m : ℕ} (sqrt : α → α) : ∀ (cb : Calls α) (k : ℕ) {o1 o2 : TObj α}, Agree wf n m o1 o2 →
    Agree wf n m (calls sqrt cb k o1).1 (calls sqrt cb k o2).1 ∧ (calls sqrt cb k o1).2 = (calls sqrt cb k o2).2
  | .done, _, o1, o2, h => by rw [calls, calls]; exact ⟨h, rfl⟩
  | .call _ _ _, 0, o1, o2, h => by rw [calls, calls]; exact ⟨h, rfl⟩
  | .call ops (some e) _, k + 1, o1, o2, h => by rw [calls, calls]; exact ⟨runOps_alike sqrt ops h, rfl⟩
  | .call ops none rest, k + 1, o1, o2, h => by rw [calls, calls]; exact calls_alike sqrt rest k (runOps_alike sqrt ops h)

theorem runOps_alike {wf : List α} {n m : ℕ} (sqrt : α → α) : ∀ (ops : Ops α) {o1 o2 : TObj α}, Agree wf n m o1 o2 →
    Agree wf n m (runOps sqrt ops o1) (runOps sqrt ops o2)
  | .nil, o1, o2, h => by rw [runOps, runOps]; exact h
  | .cons op rest, o1, o2, h => by
    rw [runOps, runOps]
    exact runOps_alike sqrt rest ⟨step_sound sqrt op h.left, step_sound sqrt op h.right, (step_alike sqrt op h).1⟩

end

/-- a callback that does nothing to the object -/
theorem calls_quiet (sqrt : α → α) : ∀ (cb : Calls α) (_ : Quiet cb) (k : ℕ) (o : TObj α), (calls sqrt cb k o).1 = o
  | .done, _, _, o => by rw [calls]
  | .call _ _ _, _, 0, o => by rw [calls]
  | .call ops (some e) _, hq, k + 1, o => by rw [calls, hq.1, runOps]
  | .call ops none rest, hq, k + 1, o => by rw [calls, hq.1, runOps]; exact calls_quiet sqrt rest hq.2 k o

/-! ## Coordinates are changed by the setters only -/

theorem splitWeights_c (w : List α) (centers : List Int) (o : TObj α) : (splitWeights w centers o).1.c = o.c := by
  obtain ⟨b, h⟩ := splitWeights_fields w centers o
  rw [h]

mutual

theorem step_coords {wf : List α} {n m : ℕ} (P : Coords → Prop) (hx : ∀ c v, P c → P (setXp c v).1) (hy : ∀ c v, P c → P (setYp c v).1)
    (sqrt : α → α) : ∀ (op : Op α) {o : TObj α}, Sound wf n m o → P o.c → P (step sqrt op o).1.c
  | .xp v, o, _, h => by rw [step_xp]; exact hx _ _ h
  | .yp v, o, _, h => by rw [step_yp]; exact hy _ _ h
  | .run niter cb, o, ho, h => by
    rw [step]
    split
    · exact h
    · dsimp only
      rename_i x _
      have hc := calls_coords P hx hy sqrt cb (reconstruct sqrt x o.wf niter o.c.nbins o.nparts o.c.nprofs).1.length ho h
      split
      · rename_i o' e h; rw [h] at hc; exact hc
      · rename_i o' h
        rw [h] at hc
        split <;> exact hc
  | .hybrid niter, o, ho, h => by
    rcases hx : o.c.xp with _ | ⟨sh, x⟩
    · rw [step, hybridO_none hx]; exact h
    · rw [(step_hybrid ho sqrt niter hx).1.c]; exact h
  | .hybridMulti centers cuts niter, o, ho, h => by
    rcases hx : o.c.xp with _ | ⟨sh, x⟩
    · rw [step, hybridMultiO_none hx]; exact h
    · rw [(step_hybridMulti ho sqrt centers cuts niter hx).1.c]; exact h
  | .runOld niter, o, ho, h => by rw [step]; split <;> exact h
  | .multi centers cl cr niter cb junk, o, ho, h => by
    rw [step]
    split
    · exact h
    · dsimp only
      rename_i x _
      have hc := calls_coords P hx hy sqrt cb (runMulti sqrt junk x o.wf centers cl cr niter o.c.nbins o.nparts o.c.nprofs).1.length ho h
      split
      · rename_i o' e h; rw [h] at hc; exact hc
      · rename_i o' h
        rw [h] at hc
        split
        · exact hc
        · rw [splitWeights_c]; exact hc
  | .multiHybrid centers cuts niter, o, ho, h => by
    rcases hx : o.c.xp with _ | ⟨sh, x⟩
    · rw [step, hybridFlatO_none hx]; exact h
    · obtain ⟨a1, b1⟩ := step_multiHybrid ho sqrt centers cuts niter hx
      cases hr : runHybridFlat sqrt x wf centers cuts niter m o.nparts n with
      | error e => rw [(a1 e hr).2.c]; exact h
      | ok st => rw [(b1 st hr).2]; exact h

theorem calls_coords {wf : List α} {n m : ℕ} (P : Coords → Prop) (hx : ∀ c v, P c → P (setXp c v).1) (hy : ∀ c v, P c → P (setYp c v).1)
    (sqrt : α → α) : ∀ (cb : Calls α) (k : ℕ) {o : TObj α}, Sound wf n m o → P o.c → P (calls sqrt cb k o).1.c
  | .done, _, o, _, h => by rw [calls]; exact h
  | .call _ _ _, 0, o, _, h => by rw [calls]; exact h
  | .call ops (some e) _, k + 1, o, ho, h => by rw [calls]; exact runOps_coords P hx hy sqrt ops ho h
  | .call ops none rest, k + 1, o, ho, h => by
    rw [calls]; exact calls_coords P hx hy sqrt rest k (runOps_sound sqrt ops ho) (runOps_coords P hx hy sqrt ops ho h)

theorem runOps_coords {wf : List α} {n m : ℕ} (P : Coords → Prop) (hx : ∀ c v, P c → P (setXp c v).1) (hy : ∀ c v, P c → P (setYp c v).1)
    (sqrt : α → α) : ∀ (ops : Ops α) {o : TObj α}, Sound wf n m o → P o.c → P (runOps sqrt ops o).c
  | .nil, o, _, h => by rw [runOps]; exact h
  | .cons op rest, o, ho, h => by
    rw [runOps]; exact runOps_coords P hx hy sqrt rest (step_sound sqrt op ho) (step_coords P hx hy sqrt op ho h)

end

/-- There are coordinates exactly when there is a number of particles. -/
def Paired (c : Coords) : Prop := c.xp.isSome = c.nparts.isSome

theorem setXp_paired (c : Coords) (v : PyVal) (h : Paired c) : Paired (setXp c v).1 := by
  cases v with
  | none => simp [setXp, Paired]
  | scalar => simpa [setXp] using h
  | array shape data =>
    unfold setXp
    dsimp only
    split
    · exact h
    · rename_i h1
      split
      · exact h
      · split
        · exact h
        · have h1 := not_not.mp h1
          match shape, h1 with
          | [a, b], _ => simp [Paired]

theorem setYp_paired (c : Coords) (v : PyVal) (h : Paired c) : Paired (setYp c v).1 := by
  unfold Paired
  rw [(setYp_x c v).1, (setYp_x c v).2]
  exact h

theorem runOps_paired (sqrt : α → α) (ops : Ops α) (wf : List α) (n m : ℕ) : Paired (runOps sqrt ops (new wf n m)).c :=
  runOps_coords Paired setXp_paired setYp_paired sqrt ops (sound_new wf n m) rfl

end Verif.Obj

import Verif.Model.Object
import Verif.Lemmas.Assertions

/-!
# Python code on a `Tomography` object follows the functions without an object (helper lemmas)
-/

set_option linter.unusedSectionVars false

namespace Verif.Obj
open Verif.Recon Verif.Tomo Verif.Multi Verif.Asrt

/-! ## Lengths -/

theorem forN_len {β : Type _} {n : ℕ} {f : ℕ → List β → M (List β)} {s s' : List β}
    (h : ∀ i a b, f i a = .ok b → b.length = a.length) (e : forN n f s = .ok s') : s'.length = s.length :=
  forN_post (fun _ a => a.length = s.length) rfl (fun i a b _ ha hb => by rw [h i a b hb, ha]) e

section
variable {α : Type _} [Add α] [Sub α] [Mul α] [Zero α] [One α] [NatCast α] [IntCast α]
  [LT α] [LE α] [DecidableLT α] [DecidableLE α] [DecidableEq α] [FDiv α]

theorem project_len {r r' : List α} {fp : List Int} {w : List α} {npart nprof : ℕ} (h : project r fp w npart nprof = .ok r') :
    r'.length = r.length := by
  refine forN_len (fun i a b hb => forN_len (fun j a b hb => ?_) hb) h
  obtain ⟨_, _, hb⟩ := bind_ok_iff.mp hb
  obtain ⟨_, _, hb⟩ := bind_ok_iff.mp hb
  obtain ⟨_, _, hb⟩ := bind_ok_iff.mp hb
  exact upd_length hb

theorem normalizeProfiles_len {r r' : List α} {nprof nbins : ℕ} (h : normalizeProfiles r nprof nbins = .ok r') :
    r'.length = r.length := by
  unfold normalizeProfiles at h
  split at h
  · obtain ⟨_, _, h⟩ := bind_ok_iff.mp h
    refine forN_len (fun i a b hb => forN_len (fun j a b hb => ?_) hb) h
    obtain ⟨_, _, hb⟩ := bind_ok_iff.mp hb
    obtain ⟨_, _, hb⟩ := bind_ok_iff.mp hb
    obtain ⟨_, _, hb⟩ := bind_ok_iff.mp hb
    exact upd_length hb
  · simp at h

theorem normalize_len {r r' : List α} {nprof nbins : ℕ} (h : normalize r nprof nbins = .ok r') : r'.length = r.length := by
  unfold normalize at h
  obtain ⟨⟨q, s⟩, h1, h⟩ := bind_ok_iff.mp h
  have h2 : q.length = r.length := by
    refine forN_post (fun _ (p : List α × α) => p.1.length = r.length) rfl (fun i a b _ ha hb => ?_) h1
    obtain ⟨_, _, hb⟩ := bind_ok_iff.mp hb
    obtain ⟨v, hv, hb⟩ := bind_ok_iff.mp hb
    simp only [pure_eq_ok, Except.ok.injEq] at hb
    rw [← hb, ← ha]
    refine forN_len (fun j a b hb => ?_) hv
    obtain ⟨_, _, hb⟩ := bind_ok_iff.mp hb
    obtain ⟨_, _, hb⟩ := bind_ok_iff.mp hb
    exact upd_length hb
  dsimp only at h
  split at h
  · simp at h
  · have h : q = r' := by simpa using h
    rw [← h, h2]

theorem projectMulti_len {r r' : List α} {fp : List Int} {w : List α} {centers : List Int} {npart nprof nc : ℕ}
    (h : projectMulti r fp w centers npart nprof nc = .ok r') : r'.length = r.length := by
  unfold projectMulti at h
  refine forN_len (fun i a b hb => forN_len (fun j a b hb => forN_len (fun j a b hb => ?_) hb) hb) h
  obtain ⟨_, _, hb⟩ := bind_ok_iff.mp hb
  obtain ⟨_, _, hb⟩ := bind_ok_iff.mp hb
  obtain ⟨_, _, hb⟩ := bind_ok_iff.mp hb
  obtain ⟨_, _, hb⟩ := bind_ok_iff.mp hb
  exact upd_length hb

/-- A reconstruction returns recreated profiles of the size of the waterfall. -/
theorem reconstruct_len {sqrt : α → α} {xp : List Int} {wf : List α} {niter nbins npart nprof : ℕ} {log : List (ℕ × ℕ)} {st : RState α}
    (h : reconstruct sqrt xp wf niter nbins npart nprof = (log, .ok st)) : st.flatRec.length = nprof * nbins := by
  have loop : ∀ (body : ℕ → RState α → M (RState α)) (hb : ∀ i a b, body i a = .ok b → b.flatRec.length = a.flatRec.length)
      (k : ℕ) (s s' : RState α) (log : List (ℕ × ℕ)), iterLoop body niter k s = (log, .ok s') → s'.flatRec.length = s.flatRec.length := by
    intro body hb k
    induction k with
    | zero => intro s s' log h; simp only [iterLoop, Prod.mk.injEq, Except.ok.injEq] at h; rw [h.2]
    | succ k ih =>
      intro s s' log h
      simp only [iterLoop] at h
      split at h
      · simp at h
      · rename_i l1 s1 e1
        split at h
        · simp at h
        · rename_i s2 e2
          simp only [Prod.mk.injEq, Except.ok.injEq] at h
          rw [← h.2, hb k _ _ e2, ih _ _ _ e1]
  unfold reconstruct reconstructOn at h
  split at h
  · simp at h
  · split at h
    · simp at h
    · split at h
      · simp at h
      · rename_i w _ l1 s1 e1
        split at h
        · simp at h
        · rename_i s2 e2
          simp only [Prod.mk.injEq, Except.ok.injEq] at h
          have h1 := loop _ (fun i a b hb => by
            unfold iterBody at hb
            obtain ⟨r1, k1, hb⟩ := bind_ok_iff.mp hb
            obtain ⟨r2, k2, hb⟩ := bind_ok_iff.mp hb
            obtain ⟨_, _, hb⟩ := bind_ok_iff.mp hb
            obtain ⟨_, _, hb⟩ := bind_ok_iff.mp hb
            obtain ⟨_, _, hb⟩ := bind_ok_iff.mp hb
            obtain ⟨_, _, hb⟩ := bind_ok_iff.mp hb
            obtain ⟨_, _, hb⟩ := bind_ok_iff.mp hb
            obtain ⟨_, _, hb⟩ := bind_ok_iff.mp hb
            obtain ⟨_, _, hb⟩ := bind_ok_iff.mp hb
            split at hb
            · simp at hb
            · simp only [pure_eq_ok, Except.ok.injEq] at hb
              rw [← hb]
              show r2.length = _
              rw [normalize_len k2, project_len k1]) _ _ _ _ e1
          have h2 : s2.flatRec.length = s1.flatRec.length := by
            unfold finalStep at e2
            obtain ⟨r1, k1, e2⟩ := bind_ok_iff.mp e2
            obtain ⟨r2, k2, e2⟩ := bind_ok_iff.mp e2
            obtain ⟨_, _, e2⟩ := bind_ok_iff.mp e2
            obtain ⟨_, _, e2⟩ := bind_ok_iff.mp e2
            obtain ⟨_, _, e2⟩ := bind_ok_iff.mp e2
            simp only [pure_eq_ok, Except.ok.injEq] at e2
            rw [← e2]
            show r2.length = _
            rw [normalize_len k2, project_len k1]
          rw [← h.2, h2, h1]
          simp

theorem runMulti_len {sqrt : α → α} {junk : α} {xp : List Int} {wf : List α} {centers cl cr : List Int} {niter nbins npart nprof : ℕ}
    {b : Bunches α} (h : (runMulti sqrt junk xp wf centers cl cr niter nbins npart nprof).2 = .ok b) :
    b.recreated.length = nprof * nbins := by
  have loop : ∀ (body : ℕ → MState α → M (MState α)) (hb : ∀ i a b, body i a = .ok b → b.flatRec.length = a.flatRec.length)
      (k : ℕ) (s s' : MState α) (log : List (ℕ × ℕ)), loopMulti body niter k s = (log, .ok s') → s'.flatRec.length = s.flatRec.length := by
    intro body hb k
    induction k with
    | zero => intro s s' log h; simp only [loopMulti, Prod.mk.injEq, Except.ok.injEq] at h; rw [h.2]
    | succ k ih =>
      intro s s' log h
      simp only [loopMulti] at h
      split at h
      · simp at h
      · rename_i l1 s1 e1
        split at h
        · simp at h
        · rename_i s2 e2
          simp only [Prod.mk.injEq, Except.ok.injEq] at h
          rw [← h.2, hb k _ _ e2, ih _ _ _ e1]
  unfold runMulti at h
  split at h
  · simp at h
  · rename_i log st e
    unfold unpack at h
    obtain ⟨_, _, h⟩ := bind_ok_iff.mp h
    simp only [pure_eq_ok, Except.ok.injEq] at h
    rw [← h]
    show st.flatRec.length = _
    unfold reconstructMulti at e
    split at e
    · simp at e
    · split at e
      · simp at e
      · split at e
        · simp at e
        · rename_i w _ l1 s1 e1
          split at e
          · simp at e
          · rename_i s2 e2
            simp only [Prod.mk.injEq, Except.ok.injEq] at e
            have h1 := loop _ (fun i a b hb => by
              unfold iterMulti at hb
              obtain ⟨r1, k1, hb⟩ := bind_ok_iff.mp hb
              obtain ⟨r2, k2, hb⟩ := bind_ok_iff.mp hb
              obtain ⟨_, _, hb⟩ := bind_ok_iff.mp hb
              obtain ⟨_, _, hb⟩ := bind_ok_iff.mp hb
              obtain ⟨_, _, hb⟩ := bind_ok_iff.mp hb
              obtain ⟨_, _, hb⟩ := bind_ok_iff.mp hb
              obtain ⟨_, _, hb⟩ := bind_ok_iff.mp hb
              obtain ⟨_, _, hb⟩ := bind_ok_iff.mp hb
              obtain ⟨_, _, hb⟩ := bind_ok_iff.mp hb
              obtain ⟨_, _, hb⟩ := bind_ok_iff.mp hb
              split at hb
              · simp at hb
              · simp only [pure_eq_ok, Except.ok.injEq] at hb
                rw [← hb]
                show r2.length = _
                rw [normalize_len k2, projectMulti_len k1]) _ _ _ _ e1
            have h2 : s2.flatRec.length = s1.flatRec.length := by
              unfold finalMulti at e2
              obtain ⟨r1, k1, e2⟩ := bind_ok_iff.mp e2
              obtain ⟨r2, k2, e2⟩ := bind_ok_iff.mp e2
              obtain ⟨_, _, e2⟩ := bind_ok_iff.mp e2
              obtain ⟨_, _, e2⟩ := bind_ok_iff.mp e2
              obtain ⟨_, _, e2⟩ := bind_ok_iff.mp e2
              obtain ⟨_, _, e2⟩ := bind_ok_iff.mp e2
              simp only [pure_eq_ok, Except.ok.injEq] at e2
              rw [← e2]
              show r2.length = _
              rw [normalize_len k2, projectMulti_len k1]
            rw [← e.2, h2, h1]
            simp

end

/-! ## Simulation -/

section
variable {σ β γ β' γ' : Type _}

/-- Run from `s`, the code `a` on the object keeps `F`, fails exactly as `m` does, and otherwise its result is related to that of `m`. -/
def Sim (F : σ → Prop) (s : σ) (a : Ob σ β) (m : M γ) (R : β → γ → σ → Prop) : Prop :=
  F (a s).1 ∧ match (a s).2, m with
    | .ok b, .ok c => R b c (a s).1
    | .error e, .error e' => e = e'
    | _, _ => False

theorem Sim.mono {F : σ → Prop} {s : σ} {a : Ob σ β} {m : M γ} {R R' : β → γ → σ → Prop} (h : Sim F s a m R)
    (hR : ∀ b c s', F s' → m = .ok c → R b c s' → R' b c s') : Sim F s a m R' := by
  obtain ⟨h1, h2⟩ := h
  refine ⟨h1, ?_⟩
  cases e1 : (a s).2 <;> cases e2 : m <;> rw [e1, e2] at h2 <;> simp_all

theorem Sim.bind {F : σ → Prop} {s : σ} {a : Ob σ β} {m : M γ} {R : β → γ → σ → Prop} {f : β → Ob σ β'} {g : γ → M γ'}
    {R' : β' → γ' → σ → Prop} (h : Sim F s a m R) (hf : ∀ b c s', F s' → m = .ok c → R b c s' → Sim F s' (f b) (g c) R') :
    Sim F s (a >>= f) (m >>= g) R' := by
  obtain ⟨h1, h2⟩ := h
  show Sim F s (Ob.bind a f) _ _
  unfold Sim Ob.bind
  rcases e : a s with ⟨s', r⟩
  rw [e] at h1 h2
  cases r with
  | error e' =>
    cases m with
    | error e'' => exact ⟨h1, h2⟩
    | ok c => exact h2.elim
  | ok b =>
    cases m with
    | error e'' => exact h2.elim
    | ok c => exact hf b c s' h1 rfl h2

theorem Sim.pure {F : σ → Prop} {s : σ} (hs : F s) (b : β) (c : γ) {R : β → γ → σ → Prop} (h : R b c s) :
    Sim F s (Pure.pure b) (Pure.pure c) R := ⟨hs, h⟩

theorem Sim.lift {F : σ → Prop} {s : σ} (hs : F s) (m : M β) : Sim F s (Ob.lift m) m fun b c s' => b = c ∧ s' = s := by
  refine ⟨hs, ?_⟩
  unfold Ob.lift
  cases m <;> simp

/-- a read of the object -/
theorem Sim.get {F : σ → Prop} {s : σ} {f : σ → Ob σ β} {m : M γ} {R : β → γ → σ → Prop} (h : Sim F s (f s) m R) :
    Sim F s (Ob.get >>= f) m R := h

/-- a write to the object -/
theorem Sim.modify {F : σ → Prop} {s : σ} {g : σ → σ} {f : Unit → Ob σ β} {m : M γ} {R : β → γ → σ → Prop}
    (h : Sim F (g s) (f ()) m R) : Sim F s (Ob.modify g >>= f) m R := h

/-- a write at the end -/
theorem Sim.modify' {F : σ → Prop} {s : σ} {g : σ → σ} (hs : F (g s)) (c : γ) {R : Unit → γ → σ → Prop} (h : R () c (g s)) :
    Sim F s (Ob.modify g) (.ok c) R := ⟨hs, h⟩

/-- a computation whose result is stored in the object -/
theorem Sim.lift_modify {F : σ → Prop} {s : σ} (hs : F s) (m : M β) (g : β → σ → σ) (h : ∀ b, m = .ok b → F (g b s)) :
    Sim F s (Ob.lift m >>= fun b => Ob.modify (g b)) m fun _ c s' => s' = g c s := by
  cases m with
  | error e => exact ⟨hs, rfl⟩
  | ok b => exact ⟨h b rfl, rfl⟩

theorem Sim.lift_bind {F : σ → Prop} {s : σ} (hs : F s) (m : M β) {f : β → Ob σ β'} {g : β → M γ'} {R : β' → γ' → σ → Prop}
    (h : ∀ b, m = .ok b → Sim F s (f b) (g b) R) : Sim F s (Ob.lift m >>= f) (m >>= g) R :=
  Sim.bind (Sim.lift hs m) (fun b c s' _ hm hR => by rw [hR.1, hR.2]; exact h c hm)

theorem Sim.forO {F : σ → Prop} {s : σ} (hs : F s) {n : ℕ} {f : ℕ → β → Ob σ β} {g : ℕ → γ → M γ} {b : β} {c : γ} (R : β → γ → σ → Prop)
    (h0 : R b c s) (h : ∀ i b c s', F s' → R b c s' → Sim F s' (f i b) (g i c) R) :
    Sim F s (Ob.forO n f b) (forN n g c) R := by
  induction n with
  | zero => exact ⟨hs, h0⟩
  | succ n ih =>
    rw [forN_succ]
    exact Sim.bind ih (fun b' c' s' hs' _ hR => h n b' c' s' hs' hR)

theorem Ob.assoc (a : Ob σ β) (f : β → Ob σ γ) (g : γ → Ob σ γ') : (a >>= f) >>= g = a >>= fun b => f b >>= g := by
  funext s
  show Ob.bind (Ob.bind a f) g s = Ob.bind a (fun b => Ob.bind (f b) g) s
  unfold Ob.bind
  rcases a s with ⟨s', r⟩
  cases r <;> rfl

theorem Ob.pure_then (b : β) (f : β → Ob σ γ) : (Pure.pure b : Ob σ β) >>= f = f b := rfl

/-- Only the invariant. -/
theorem Sim.keeps {F : σ → Prop} {s : σ} {a : Ob σ β} {m : M γ} {R : β → γ → σ → Prop} (h : Sim F s a m R) : F (a s).1 := h.1

theorem Sim.ok {F : σ → Prop} {s : σ} {a : Ob σ β} {m : M γ} {R : β → γ → σ → Prop} (h : Sim F s a m R) {c : γ} (hm : m = .ok c) :
    ∃ b, (a s).2 = .ok b ∧ R b c (a s).1 := by
  obtain ⟨_, h2⟩ := h
  rw [hm] at h2
  cases e : (a s).2 with
  | error e' => rw [e] at h2; exact h2.elim
  | ok b => rw [e] at h2; exact ⟨b, rfl, h2⟩

theorem Sim.error {F : σ → Prop} {s : σ} {a : Ob σ β} {m : M γ} {R : β → γ → σ → Prop} (h : Sim F s a m R) {e : Fault}
    (hm : m = .error e) : (a s).2 = .error e := by
  obtain ⟨_, h2⟩ := h
  rw [hm] at h2
  cases e : (a s).2 with
  | error e' => rw [e] at h2; rw [h2]
  | ok b => rw [e] at h2; exact h2.elim

end

/-! ## The reconstructions written in python -/

section
variable {α : Type _} [Add α] [Sub α] [Mul α] [Zero α] [One α] [NatCast α] [IntCast α]
  [LT α] [LE α] [DecidableLT α] [DecidableLE α] [DecidableEq α] [FDiv α]

/-- What no reconstruction changes before it succeeds; the size of `recreated`. -/
structure Frame (o0 o : TObj α) : Prop where
  wf : o.wf = o0.wf
  c : o.c = o0.c
  weight : o.weight = o0.weight
  combined : o.combined = o0.combined
  bunches : o.bunches = o0.bunches
  len : o.recreated.length = o0.c.nprofs * o0.c.nbins

/-- of `run_hybrid` -/
structure Frame1 (o0 o : TObj α) : Prop extends Frame o0 o where
  split : o.split = o0.split
  full : o.full = o0.full

/-- of `run_hybrid_multi` -/
structure Frame2 (o0 o : TObj α) : Prop extends Frame o0 o where
  split : o.split = o0.split

theorem setDiff_sim {F : TObj α → Prop} {o : TObj α} (hd : ∀ o v, F o → F { o with diff := v }) (ho : F o) {discr : List α}
    (hv : o.diff = some discr) (i : ℕ) (d : α) :
    Sim F o (setDiff i d) (upd discr (i : Int) d) fun _ v o' => o' = { o with diff := some v } := by
  unfold Sim setDiff
  rw [hv]
  dsimp only
  cases upd discr (i : Int) d with
  | error e => exact ⟨ho, rfl⟩
  | ok v => exact ⟨hd _ _ ho, rfl⟩

theorem setSplit_sim {F : TObj α → Prop} {o : TObj α} (hd : ∀ o v, F o → F { o with split := v }) (ho : F o) {split : List (List α)}
    (hv : o.split = some split) (i : ℕ) (ds : List α) :
    Sim F o (setSplit i ds) (setColumn split i ds) fun _ v o' => o' = { o with split := some v } := by
  unfold Sim setSplit
  rw [hv]
  dsimp only
  cases setColumn split i ds with
  | error e => exact ⟨ho, rfl⟩
  | ok v => exact ⟨hd _ _ ho, rfl⟩

theorem projectO_sim {o0 o : TObj α} (ho : Frame1 o0 o) (fp : List Int) (w : List α) :
    Sim (Frame1 o0) o (projectO fp w) (projectPy fp w o0.nparts o0.c.nprofs o0.c.nbins) fun _ r o' => o' = { o with recreated := r } := by
  unfold projectO projectPy
  refine Sim.get ?_
  rw [TObj.nparts, ho.c, ho.len]
  refine Sim.lift_bind ho _ fun r hr => ?_
  have h1 := project_len hr
  rw [length_tab] at h1
  refine (Sim.lift_modify ho _ _ fun r' hr' => ?_).mono fun _ r' o' _ _ h => ?_
  · exact ⟨⟨ho.wf, ho.c, ho.weight, ho.combined, ho.bunches, by rw [← h1, ← normalizeProfiles_len hr']⟩, ho.split, ho.full⟩
  · rw [h, ← ho.c]

/-- the three lines common to all loops -/
def compareM (sqrt : α → α) (wf rec discr : List α) (i nprof nbins : ℕ) : M (List α × List α) := do
  let diff ← zip2 (fun a b => a - b) wf rec
  let d ← discrepancyPy sqrt diff nprof nbins
  let discr ← upd discr (i : Int) d
  pure (diff, discr)

theorem compareO_sim {F : TObj α → Prop} {o0 o : TObj α} (hd : ∀ o v, F o → F { o with diff := v }) (ho : F o) (hw : o.wf = o0.wf)
    (hc : o.c = o0.c) {discr : List α} (hv : o.diff = some discr) (sqrt : α → α) (i : ℕ) :
    Sim F o (compareO sqrt i) (compareM sqrt o0.wf o.recreated discr i o0.c.nprofs o0.c.nbins) fun d v o' =>
      d = v.1 ∧ o' = { o with diff := some v.2 } := by
  unfold compareO compareM
  refine Sim.get ?_
  rw [hw, hc]
  refine Sim.lift_bind ho _ fun diff _ => ?_
  refine Sim.lift_bind ho _ fun d _ => ?_
  refine Sim.bind (setDiff_sim hd ho hv i d) fun _ v o' ho' _ h => ?_
  rw [h] at ho' ⊢
  exact Sim.pure ho' _ _ ⟨rfl, by simp only [hw, hc]⟩

theorem Frame1.diff {o0 : TObj α} (o : TObj α) (v : Option (List α)) (h : Frame1 o0 o) : Frame1 o0 { o with diff := v } :=
  ⟨⟨h.wf, h.c, h.weight, h.combined, h.bunches, h.len⟩, h.split, h.full⟩

theorem Frame2.diff {o0 : TObj α} (o : TObj α) (v : Option (List α)) (h : Frame2 o0 o) : Frame2 o0 { o with diff := v } :=
  ⟨⟨h.wf, h.c, h.weight, h.combined, h.bunches, h.len⟩, h.split⟩

theorem Frame.diff {o0 : TObj α} (o : TObj α) (v : Option (List α)) (h : Frame o0 o) : Frame o0 { o with diff := v } :=
  ⟨h.wf, h.c, h.weight, h.combined, h.bunches, h.len⟩

theorem Frame.split {o0 : TObj α} (o : TObj α) (v : Option (List (List α))) (h : Frame o0 o) : Frame o0 { o with split := v } :=
  ⟨h.wf, h.c, h.weight, h.combined, h.bunches, h.len⟩

theorem hybridBody_eq (sqrt : α → α) (fp : List Int) (wf recipT : List α) (nbins npart nprof i : ℕ) (st : RState α) :
    hybridBody sqrt fp wf recipT nbins npart nprof i st = (do
      let rec ← projectPy fp st.weights npart nprof nbins
      let q ← compareM sqrt wf rec st.discr i nprof nbins
      let diff ← zip2 (fun a b => a * b) q.1 recipT
      let w ← backProject st.weights fp diff npart nprof
      pure ⟨npClip0 w, rec, q.2⟩) := by
  simp only [hybridBody, compareM, bind_assoc, pure_bind]

theorem hybridBodyO_sim {o0 o : TObj α} (ho : Frame1 o0 o) (sqrt : α → α) (fp : List Int) (recipT : List α) (i : ℕ) (st : RState α)
    (hv : o.diff = some st.discr) :
    Sim (Frame1 o0) o (hybridBodyO sqrt fp recipT i st.weights)
      (hybridBody sqrt fp o0.wf recipT o0.c.nbins o0.nparts o0.c.nprofs i st) fun w st' o' =>
        w = st'.weights ∧ o'.diff = some st'.discr := by
  rw [hybridBody_eq]
  unfold hybridBodyO
  refine Sim.bind (projectO_sim ho fp st.weights) fun _ r o1 ho1 _ h1 => ?_
  have hr : r = o1.recreated := by rw [h1]
  have hv1 : o1.diff = some st.discr := by rw [h1]; exact hv
  rw [hr]
  refine Sim.bind (compareO_sim Frame1.diff ho1 ho1.wf ho1.c hv1 sqrt i) fun d q o2 ho2 _ h2 => ?_
  obtain ⟨rfl, h2⟩ := h2
  refine Sim.lift_bind ho2 _ fun diff _ => ?_
  refine Sim.get ?_
  rw [TObj.nparts, ho2.c]
  refine Sim.lift_bind ho2 _ fun w _ => ?_
  exact Sim.pure ho2 _ _ ⟨rfl, by rw [h2]⟩

theorem runHybrid_eq (sqrt : α → α) (xp : List Int) (wf : List α) (niter nbins npart nprof : ℕ) :
    runHybrid sqrt xp wf niter nbins npart nprof = (do
      let recip ← reciprocalParticlesPy (α := α) xp nbins nprof npart
      let fp ← createFlatPointsPy xp npart nprof nbins
      let w ← backProject (tab npart fun _ => (0 : α)) fp wf npart nprof
      let recipT ← transpose recip nbins nprof
      let st ← forN niter (hybridBody sqrt fp wf recipT nbins npart nprof)
        ⟨npClip0 w, tab (nprof * nbins) fun _ => 0, tab (niter + 1) fun _ => 0⟩
      let rec ← projectPy fp st.weights npart nprof nbins
      let q ← compareM sqrt wf rec st.discr niter nprof nbins
      pure ⟨st.weights, rec, q.2⟩) := by
  simp only [runHybrid, compareM, bind_assoc, pure_bind]

/-- `run_hybrid` on an object with coordinates -/
theorem hybridO_sim {o0 : TObj α} (hlen : o0.recreated.length = o0.c.nprofs * o0.c.nbins) {sh : List ℕ} {x : List Int}
    (hx : o0.c.xp = some (sh, x)) (sqrt : α → α) (niter : ℕ) :
    Sim (Frame1 o0) o0 (hybridO sqrt niter) (runHybrid sqrt x o0.wf niter o0.c.nbins o0.nparts o0.c.nprofs) fun w st o' =>
      w = st.weights ∧ o' = { o0 with diff := some st.discr, recreated := st.flatRec } := by
  rw [runHybrid_eq]
  unfold hybridO
  refine Sim.get ?_
  rw [hx]
  dsimp only
  refine Sim.modify ?_
  have h0 : Frame1 o0 { o0 with diff := some (tab (niter + 1) fun _ => (0 : α)) } := ⟨⟨rfl, rfl, rfl, rfl, rfl, hlen⟩, rfl, rfl⟩
  refine Sim.lift_bind h0 _ fun recip _ => ?_
  refine Sim.lift_bind h0 _ fun fp _ => ?_
  refine Sim.lift_bind h0 _ fun w _ => ?_
  refine Sim.lift_bind h0 _ fun recipT _ => ?_
  refine Sim.bind (Sim.forO h0 (fun (b : List α) (c : RState α) (s : TObj α) => b = c.weights ∧ s.diff = some c.discr) ⟨rfl, rfl⟩ ?_) ?_
  · intro i b c s hs h
    rw [h.1]
    exact hybridBodyO_sim hs sqrt fp recipT i c h.2
  · intro b st o1 ho1 _ h1
    obtain ⟨rfl, h1⟩ := h1
    refine Sim.bind (projectO_sim ho1 fp st.weights) fun _ r o2 ho2 _ h2 => ?_
    have hr : r = o2.recreated := by rw [h2]
    have hv2 : o2.diff = some st.discr := by rw [h2]; exact h1
    rw [hr]
    refine Sim.bind (compareO_sim Frame1.diff ho2 ho2.wf ho2.c hv2 sqrt niter) fun d q o3 ho3 _ h3 => ?_
    refine Sim.pure ho3 _ _ ⟨rfl, ?_⟩
    obtain ⟨_, h3⟩ := h3
    cases o3
    have e1 := ho3.wf; have e2 := ho3.c; have e3 := ho3.weight; have e4 := ho3.combined; have e5 := ho3.bunches
    have e6 := ho3.split; have e7 := ho3.full
    have e8 := congrArg TObj.diff h3; have e9 := congrArg TObj.recreated h3
    simp only at e1 e2 e3 e4 e5 e6 e7 e8 e9
    simp only [e1, e2, e3, e4, e5, e6, e7, e8, e9]

/-- what the steps of the multi-bunch loops keep -/
structure Closed (o0 : TObj α) (F : TObj α → Prop) : Prop where
  frame : ∀ o, F o → Frame o0 o
  diff : ∀ o v, F o → F { o with diff := v }
  full : ∀ o v, F o → F { o with full := v }
  recreated : ∀ o v, F o → v.length = o0.c.nprofs * o0.c.nbins → F { o with recreated := v }

theorem closed_frame (o0 : TObj α) : Closed o0 (Frame o0) where
  frame _ h := h
  diff := Frame.diff
  full _ _ h := ⟨h.wf, h.c, h.weight, h.combined, h.bunches, h.len⟩
  recreated _ _ h hl := ⟨h.wf, h.c, h.weight, h.combined, h.bunches, hl⟩

theorem closed_frame2 (o0 : TObj α) : Closed o0 (Frame2 o0) where
  frame _ h := h.toFrame
  diff := Frame2.diff
  full _ _ h := ⟨⟨h.wf, h.c, h.weight, h.combined, h.bunches, h.len⟩, h.split⟩
  recreated _ _ h hl := ⟨⟨h.wf, h.c, h.weight, h.combined, h.bunches, hl⟩, h.split⟩

theorem addBunchO_sim {o0 o : TObj α} {F : TObj α → Prop} (hF : Closed o0 F) (ho : F o) (fp : List Int) (w : List α) (z : Int) {acc : List α}
    (hf : o.full = some acc) :
    Sim F o (addBunchO fp (w, z)) (do
        let r ← project (tab (o0.c.nprofs * o0.c.nbins) fun _ => (0 : α)) (fp.map fun v => v + z) w o0.nparts o0.c.nprofs
        zip2 (fun a b => a + b) acc r) fun _ acc' o' => o'.full = some acc' ∧ o'.diff = o.diff ∧ o'.split = o.split := by
  have hfr := hF.frame o ho
  unfold addBunchO
  refine Sim.get ?_
  dsimp only
  rw [TObj.nparts, hfr.c, hfr.len]
  refine Sim.lift_bind ho _ fun r hr => ?_
  have h1 := project_len hr
  rw [length_tab] at h1
  refine Sim.modify ?_
  have ho1 : F { o with recreated := r } := hF.recreated o r ho h1
  rw [hf] at ho1 ⊢
  dsimp only
  refine (Sim.lift_modify ho1 _ _ fun f' hf' => ?_).mono fun _ f' o' _ _ h => ?_
  · exact hF.full _ _ ho1
  · rw [h]; exact ⟨rfl, rfl, rfl⟩

theorem normalizeFullO_sim {o0 o : TObj α} {F : TObj α → Prop} (hF : Closed o0 F) (ho : F o) {acc : List α}
    (hf : o.full = some acc) (hl : acc.length = o0.c.nprofs * o0.c.nbins) :
    Sim F o normalizeFullO (normalizeProfiles acc o0.c.nprofs o0.c.nbins) fun _ r o' =>
      o'.recreated = r ∧ o'.full = some r ∧ o'.diff = o.diff ∧ o'.split = o.split := by
  have hfr := hF.frame o ho
  unfold normalizeFullO
  refine Sim.get ?_
  rw [hf, hfr.c]
  dsimp only
  refine (Sim.lift_modify ho _ _ fun r hr => ?_).mono fun _ f' o' _ _ h => ?_
  · exact hF.full _ _ (hF.recreated o r ho (by rw [normalizeProfiles_len hr, hl]))
  · rw [h]; exact ⟨rfl, rfl, rfl, rfl⟩

theorem zip2_len {f : α → α → α} {a b r : List α} (h : zip2 f a b = .ok r) : r.length = a.length := by
  unfold zip2 at h
  split at h
  · rename_i h1
    have h : List.zipWith f a b = r := by simpa using h
    rw [← h, List.length_zipWith, h1, Nat.min_self]
  · simp at h

theorem bunchLoop_sim {o0 : TObj α} {F : TObj α → Prop} (hF : Closed o0 F) (fp : List Int) (qs : List (List α × Int)) :
    ∀ {o : TObj α} (_ : F o) {acc : List α} (_ : o.full = some acc) (_ : acc.length = o0.c.nprofs * o0.c.nbins),
    Sim F o (qs.forM (addBunchO fp)) (qs.foldlM (fun (acc : List α) q => do
        let r ← project (tab (o0.c.nprofs * o0.c.nbins) fun _ => (0 : α)) (fp.map fun v => v + q.2) q.1 o0.nparts o0.c.nprofs
        zip2 (fun a b => a + b) acc r) acc) fun _ acc' o' =>
          o'.full = some acc' ∧ o'.diff = o.diff ∧ o'.split = o.split ∧ acc'.length = o0.c.nprofs * o0.c.nbins := by
  induction qs with
  | nil => intro o ho acc hf hl; exact Sim.pure ho _ _ ⟨hf, rfl, rfl, hl⟩
  | cons q qs ih =>
    intro o ho acc hf hl
    rw [List.foldlM_cons]
    show Sim F o (addBunchO fp q >>= fun _ => qs.forM (addBunchO fp)) _ _
    refine Sim.bind (addBunchO_sim hF ho fp q.1 q.2 hf) fun _ acc' o' ho' hm h => ?_
    obtain ⟨_, _, hm⟩ := bind_ok_iff.mp hm
    have hl' : acc'.length = o0.c.nprofs * o0.c.nbins := by rw [zip2_len hm, hl]
    refine (ih ho' h.1 hl').mono fun _ c s' _ _ hR => ⟨hR.1, by rw [hR.2.1, h.2.1], by rw [hR.2.2.1, h.2.2], hR.2.2.2⟩

theorem projectBunchesO_sim {o0 o : TObj α} {F : TObj α → Prop} (hF : Closed o0 F) (ho : F o) (fp : List Int) (ws : List (List α))
    (centers : List Int) :
    Sim F o (projectBunchesO fp ws centers) (projectBunches fp ws centers o0.nparts o0.c.nprofs o0.c.nbins) fun _ r o' =>
      o'.recreated = r ∧ o'.full = some r ∧ o'.diff = o.diff ∧ o'.split = o.split := by
  unfold projectBunchesO projectBunches
  refine Sim.modify ?_
  rw [(hF.frame o ho).c]
  have ho1 := hF.full o (some (tab (o0.c.nprofs * o0.c.nbins) fun _ => 0)) ho
  refine Sim.bind (bunchLoop_sim hF fp (ws.zip centers) (by simpa [(hF.frame o ho).c] using ho1) rfl (by simp)) fun _ acc o2 ho2 _ h2 => ?_
  refine (normalizeFullO_sim hF ho2 h2.1 h2.2.2.2).mono fun _ r o' _ _ h => ?_
  exact ⟨h.1, h.2.1, by rw [h.2.2.1, h2.2.1], by rw [h.2.2.2, h2.2.2.1]⟩

theorem projectFlatO_sim {o0 o : TObj α} {F : TObj α → Prop} (hF : Closed o0 F) (ho : F o) (fp : List Int) (w : List α)
    (centers : List Int) :
    Sim F o (projectFlatO fp w centers) (projectFlat fp w centers o0.nparts o0.c.nprofs o0.c.nbins) fun _ r o' =>
      o'.recreated = r ∧ o'.full = some r ∧ o'.diff = o.diff ∧ o'.split = o.split := by
  unfold projectFlatO projectFlat
  refine Sim.modify ?_
  rw [(hF.frame o ho).c]
  have ho1 := hF.full o (some (tab (o0.c.nprofs * o0.c.nbins) fun _ => 0)) ho
  refine Sim.bind (R := fun _ acc o' => o'.full = some acc ∧ o'.diff = o.diff ∧ o'.split = o.split ∧
      acc.length = o0.c.nprofs * o0.c.nbins) ?_ fun _ acc o2 ho2 _ h2 => ?_
  · refine Sim.forO (by simpa [(hF.frame o ho).c] using ho1) _ ⟨rfl, rfl, rfl, by simp⟩ fun i _ acc o1 ho1 h1 => ?_
    refine Sim.lift_bind ho1 _ fun z _ => ?_
    refine Sim.get ?_
    rw [TObj.nparts, (hF.frame o1 ho1).c]
    refine (addBunchO_sim hF ho1 fp _ z h1.1).mono fun _ acc' o' _ hm h => ?_
    obtain ⟨_, _, hm⟩ := bind_ok_iff.mp hm
    exact ⟨h.1, by rw [h.2.1, h1.2.1], by rw [h.2.2, h1.2.2.1], by rw [zip2_len hm, h1.2.2.2]⟩
  · refine (normalizeFullO_sim hF ho2 h2.1 h2.2.2.2).mono fun _ r o' _ _ h => ?_
    exact ⟨h.1, h.2.1, by rw [h.2.2.1, h2.2.1], by rw [h.2.2.2, h2.2.2.1]⟩

theorem hybridMultiStep_eq (sqrt : α → α) (wf recip : List α) (fp : List Int) (masks : List (List Bool)) (centers : List Int)
    (nbins npart nprof k : ℕ) (st : HState α) :
    hybridMultiStep sqrt wf recip fp masks centers nbins npart nprof k st = (do
      let rec ← projectBunches fp st.weights centers npart nprof nbins
      let q ← compareM sqrt wf rec st.discr k nprof nbins
      let diff ← zip2 (fun a b => a * b) q.1 recip
      let ws ← ((st.weights.zip masks).zip centers).mapM fun q => backBunch q.1.1 fp q.2 diff q.1.2 npart nprof
      pure ⟨ws.map npClip0, rec, q.2⟩) := by
  simp only [hybridMultiStep, compareM, bind_assoc, pure_bind]

theorem hybridMultiBodyO_sim {o0 o : TObj α} (ho : Frame2 o0 o) (sqrt : α → α) (recip : List α) (fp : List Int) (masks : List (List Bool))
    (centers : List Int) (k : ℕ) (st : HState α) (hv : o.diff = some st.discr) :
    Sim (Frame2 o0) o (hybridMultiBodyO sqrt recip fp masks centers k st.weights)
      (hybridMultiStep sqrt o0.wf recip fp masks centers o0.c.nbins o0.nparts o0.c.nprofs k st) fun w st' o' =>
        w = st'.weights ∧ o'.diff = some st'.discr := by
  rw [hybridMultiStep_eq]
  unfold hybridMultiBodyO
  refine Sim.bind (projectBunchesO_sim (closed_frame2 o0) ho fp st.weights centers) fun _ r o1 ho1 _ h1 => ?_
  rw [← h1.1]
  refine Sim.bind (compareO_sim Frame2.diff ho1 ho1.wf ho1.c (h1.2.2.1.trans hv) sqrt k) fun d q o2 ho2 _ h2 => ?_
  obtain ⟨rfl, h2⟩ := h2
  refine Sim.lift_bind ho2 _ fun diff _ => ?_
  refine Sim.get ?_
  rw [TObj.nparts, ho2.c]
  refine Sim.lift_bind ho2 _ fun w _ => ?_
  exact Sim.pure ho2 _ _ ⟨rfl, by rw [h2]⟩

theorem runHybridMulti_eq (sqrt : α → α) (xp : List Int) (wf : List α) (centers : List Int) (cuts : List (Int × Int))
    (niter nbins npart nprof : ℕ) :
    runHybridMulti sqrt xp wf centers cuts niter nbins npart nprof = (do
      let masks ← (centers.zip cuts).mapM fun q => maskPy xp q.1 q.2 npart nprof
      let recip ← reciprocalMultiPy (α := α) xp centers nbins nprof npart
      let fp ← createFlatPointsPy xp npart nprof nbins
      let ws ← (masks.zip centers).mapM fun q => backBunch (tab npart fun _ => (0 : α)) fp q.2 wf q.1 npart nprof
      let st ← forN niter (hybridMultiStep sqrt wf recip fp masks centers nbins npart nprof)
        ⟨ws.map npClip0, tab (nprof * nbins) fun _ => 0, tab (niter + 1) fun _ => 0⟩
      let rec ← projectBunches fp st.weights centers npart nprof nbins
      let q ← compareM sqrt wf rec st.discr niter nprof nbins
      pure ⟨st.weights, rec, q.2⟩) := by
  simp only [runHybridMulti, compareM, bind_assoc, pure_bind]

/-- `run_hybrid_multi` on an object with coordinates -/
theorem hybridMultiO_sim {o0 : TObj α} (hlen : o0.recreated.length = o0.c.nprofs * o0.c.nbins) {sh : List ℕ} {x : List Int}
    (hx : o0.c.xp = some (sh, x)) (sqrt : α → α) (centers : List Int) (cuts : List (Int × Int)) (niter : ℕ) :
    Sim (Frame2 o0) o0 (hybridMultiO sqrt centers cuts niter)
      (runHybridMulti sqrt x o0.wf centers cuts niter o0.c.nbins o0.nparts o0.c.nprofs) fun ws st o' =>
        ws = st.weights ∧ o' = { o0 with diff := some st.discr, recreated := st.flatRec, full := some st.flatRec } := by
  rw [runHybridMulti_eq]
  unfold hybridMultiO
  refine Sim.get ?_
  rw [hx]
  dsimp only
  have h00 : Frame2 o0 o0 := ⟨⟨rfl, rfl, rfl, rfl, rfl, hlen⟩, rfl⟩
  refine Sim.lift_bind h00 _ fun masks _ => ?_
  refine Sim.modify ?_
  have h0 : Frame2 o0 { o0 with diff := some (tab (niter + 1) fun _ => (0 : α)) } := ⟨⟨rfl, rfl, rfl, rfl, rfl, hlen⟩, rfl⟩
  refine Sim.lift_bind h0 _ fun recip _ => ?_
  refine Sim.lift_bind h0 _ fun fp _ => ?_
  refine Sim.lift_bind h0 _ fun ws _ => ?_
  refine Sim.bind (Sim.forO h0 (fun (b : List (List α)) (c : HState α) (s : TObj α) => b = c.weights ∧ s.diff = some c.discr) ⟨rfl, rfl⟩ ?_) ?_
  · intro i b c s hs h
    rw [h.1]
    exact hybridMultiBodyO_sim hs sqrt recip fp masks centers i c h.2
  · intro b st o1 ho1 _ h1
    obtain ⟨rfl, h1⟩ := h1
    refine Sim.bind (projectBunchesO_sim (closed_frame2 o0) ho1 fp st.weights centers) fun _ r o2 ho2 _ h2 => ?_
    rw [← h2.1]
    refine Sim.bind (compareO_sim Frame2.diff ho2 ho2.wf ho2.c (h2.2.2.1.trans h1) sqrt niter) fun d q o3 ho3 _ h3 => ?_
    refine Sim.pure ho3 _ _ ⟨rfl, ?_⟩
    obtain ⟨_, h3⟩ := h3
    cases o3
    have e1 := ho3.wf; have e2 := ho3.c; have e3 := ho3.weight; have e4 := ho3.combined; have e5 := ho3.bunches
    have e6 := ho3.split; have e7 := congrArg TObj.full h3
    have e8 := congrArg TObj.diff h3; have e9 := congrArg TObj.recreated h3
    simp only at e1 e2 e3 e4 e5 e6 e7 e8 e9
    simp only [e1, e2, e3, e4, e5, e6, e7, e8, e9, h2.2.1, h2.1]

/-- with the discrepancies of the bunches -/
def compareSplitM (sqrt : α → α) (cuts : List (Int × Int)) (wf rec discr : List α) (split : List (List α)) (i nprof nbins : ℕ) :
    M (List α × List α × List (List α)) := do
  let q ← compareM sqrt wf rec discr i nprof nbins
  let ds ← discrepancyMultiPy sqrt q.1 cuts nprof nbins
  let split ← setColumn split i ds
  pure (q.1, q.2, split)

theorem compareSplitO_sim {o0 o : TObj α} (ho : Frame o0 o) {discr : List α} (hv : o.diff = some discr) {split : List (List α)}
    (hs : o.split = some split) (sqrt : α → α) (cuts : List (Int × Int)) (i : ℕ) :
    Sim (Frame o0) o (compareSplitO sqrt cuts i) (compareSplitM sqrt cuts o0.wf o.recreated discr split i o0.c.nprofs o0.c.nbins) fun d v o' =>
      d = v.1 ∧ o' = { o with diff := some v.2.1, split := some v.2.2 } := by
  unfold compareSplitO compareSplitM
  refine Sim.bind (compareO_sim Frame.diff ho ho.wf ho.c hv sqrt i) fun d q o1 ho1 _ h1 => ?_
  obtain ⟨rfl, h1⟩ := h1
  refine Sim.get ?_
  rw [ho1.c]
  refine Sim.lift_bind ho1 _ fun ds _ => ?_
  refine Sim.bind (setSplit_sim Frame.split ho1 (by rw [h1]; exact hs) i ds) fun _ v o' ho' _ h => ?_
  refine Sim.pure ho' _ _ ⟨rfl, by rw [h, h1]⟩

theorem hybridFlatStep_eq (sqrt : α → α) (wf recip : List α) (fp : List Int) (masks : List Bool) (centers : List Int) (cuts : List (Int × Int))
    (nbins npart nprof k : ℕ) (st : FState α) :
    hybridFlatStep sqrt wf recip fp masks centers cuts nbins npart nprof k st = (do
      let rec ← projectFlat fp st.weights centers npart nprof nbins
      let q ← compareSplitM sqrt cuts wf rec st.discr st.split k nprof nbins
      let diff ← zip2 (fun a b => a * b) q.1 recip
      let w ← backFlat st.weights fp diff masks centers npart nprof
      pure ⟨npClip0 w, rec, q.2.1, q.2.2⟩) := by
  simp only [hybridFlatStep, compareSplitM, compareM, bind_assoc, pure_bind]

theorem hybridFlatBodyO_sim {o0 o : TObj α} (ho : Frame o0 o) (sqrt : α → α) (recip : List α) (fp : List Int) (masks : List Bool)
    (centers : List Int) (cuts : List (Int × Int)) (k : ℕ) (st : FState α) (hv : o.diff = some st.discr) (hs : o.split = some st.split) :
    Sim (Frame o0) o (hybridFlatBodyO sqrt recip fp masks centers cuts k st.weights)
      (hybridFlatStep sqrt o0.wf recip fp masks centers cuts o0.c.nbins o0.nparts o0.c.nprofs k st) fun w st' o' =>
        w = st'.weights ∧ o'.diff = some st'.discr ∧ o'.split = some st'.split := by
  rw [hybridFlatStep_eq]
  unfold hybridFlatBodyO
  refine Sim.bind (projectFlatO_sim (closed_frame o0) ho fp st.weights centers) fun _ r o1 ho1 _ h1 => ?_
  rw [← h1.1]
  refine Sim.bind (compareSplitO_sim ho1 (h1.2.2.1.trans hv) (h1.2.2.2.trans hs) sqrt cuts k) fun d q o2 ho2 _ h2 => ?_
  obtain ⟨rfl, h2⟩ := h2
  refine Sim.lift_bind ho2 _ fun diff _ => ?_
  refine Sim.get ?_
  rw [TObj.nparts, ho2.c]
  refine Sim.lift_bind ho2 _ fun w _ => ?_
  exact Sim.pure ho2 _ _ ⟨rfl, by rw [h2], by rw [h2]⟩

theorem runHybridFlat_eq (sqrt : α → α) (xp : List Int) (wf : List α) (centers : List Int) (cuts : List (Int × Int))
    (niter nbins npart nprof : ℕ) :
    runHybridFlat sqrt xp wf centers cuts niter nbins npart nprof = (do
      let masks ← (centers.zip cuts).mapM fun q => maskPy xp q.1 q.2 npart nprof
      let recip ← reciprocalMultiPy (α := α) xp centers nbins nprof npart
      let fp ← createFlatPointsPy xp npart nprof nbins
      let w ← backFlat (tab (npart * centers.length) fun _ => (0 : α)) fp wf masks.flatten centers npart nprof
      let st ← forN niter (hybridFlatStep sqrt wf recip fp masks.flatten centers cuts nbins npart nprof)
        ⟨npClip0 w, tab (nprof * nbins) fun _ => 0, tab (niter + 1) fun _ => 0, tab centers.length fun _ => tab (niter + 1) fun _ => 0⟩
      let rec ← projectFlat fp st.weights centers npart nprof nbins
      let q ← compareSplitM sqrt cuts wf rec st.discr st.split niter nprof nbins
      pure ⟨st.weights, rec, q.2.1, q.2.2⟩) := by
  simp only [runHybridFlat, compareSplitM, compareM, bind_assoc, pure_bind]

/-- the last lines of the multi-bunch `run_hybrid` -/
def storeWeights (w : List α) (n : ℕ) (o : TObj α) : TObj α :=
  { o with combined := some w, bunches := some ((List.range n).map fun i => npRange w (i * o.nparts) ((i + 1) * o.nparts)) }

/-- the multi-bunch `run_hybrid` up to its last lines -/
theorem hybridFlatO_sim {o0 : TObj α} (hlen : o0.recreated.length = o0.c.nprofs * o0.c.nbins) {sh : List ℕ} {x : List Int}
    (hx : o0.c.xp = some (sh, x)) (sqrt : α → α) (centers : List Int) (cuts : List (Int × Int)) (niter : ℕ) :
    ∃ a : Ob (TObj α) (List α), hybridFlatO sqrt centers cuts niter o0 =
        (a >>= fun w => Ob.modify (storeWeights w centers.length)) o0 ∧
      Sim (Frame o0) o0 a (runHybridFlat sqrt x o0.wf centers cuts niter o0.c.nbins o0.nparts o0.c.nprofs) fun w st o' =>
        w = st.weights ∧ o' = { o0 with
          diff := some st.discr, split := some st.split, recreated := st.flatRec, full := some st.flatRec } := by
  refine ⟨do
    let masks ← Ob.lift ((centers.zip cuts).mapM fun q => maskPy x q.1 q.2 o0.nparts o0.c.nprofs)
    Ob.modify fun o => { o with
      diff := some (tab (niter + 1) fun _ => 0), split := some (tab centers.length fun _ => tab (niter + 1) fun _ => 0) }
    let recip ← Ob.lift (reciprocalMultiPy (α := α) x centers o0.c.nbins o0.c.nprofs o0.nparts)
    let fp ← Ob.lift (createFlatPointsPy x o0.nparts o0.c.nprofs o0.c.nbins)
    let w ← Ob.lift (backFlat (tab (o0.nparts * centers.length) fun _ => (0 : α)) fp o0.wf masks.flatten centers o0.nparts o0.c.nprofs)
    let w ← Ob.forO niter (hybridFlatBodyO sqrt recip fp masks.flatten centers cuts) (npClip0 w)
    projectFlatO fp w centers
    let _ ← compareSplitO sqrt cuts niter
    pure w, ?_, ?_⟩
  · unfold hybridFlatO
    show (match o0.c.xp with
      | none => _
      | some (_, x) => _ : Ob (TObj α) Unit) o0 = _
    rw [hx]
    simp only [Ob.assoc, Ob.pure_then]
    rfl
  · rw [runHybridFlat_eq]
    have h00 : Frame o0 o0 := ⟨rfl, rfl, rfl, rfl, rfl, hlen⟩
    refine Sim.lift_bind h00 _ fun masks _ => ?_
    refine Sim.modify ?_
    have h0 : Frame o0 { o0 with
      diff := some (tab (niter + 1) fun _ => (0 : α)),
      split := some (tab centers.length fun _ => tab (niter + 1) fun _ => 0) } := ⟨rfl, rfl, rfl, rfl, rfl, hlen⟩
    refine Sim.lift_bind h0 _ fun recip _ => ?_
    refine Sim.lift_bind h0 _ fun fp _ => ?_
    refine Sim.lift_bind h0 _ fun ws _ => ?_
    refine Sim.bind (Sim.forO h0 (fun (b : List α) (c : FState α) (s : TObj α) =>
      b = c.weights ∧ s.diff = some c.discr ∧ s.split = some c.split) ⟨rfl, rfl, rfl⟩ ?_) ?_
    · intro i b c s hs h
      rw [h.1]
      exact hybridFlatBodyO_sim hs sqrt recip fp _ centers cuts i c h.2.1 h.2.2
    · intro b st o1 ho1 _ h1
      obtain ⟨rfl, h1, h1'⟩ := h1
      refine Sim.bind (projectFlatO_sim (closed_frame o0) ho1 fp st.weights centers) fun _ r o2 ho2 _ h2 => ?_
      rw [← h2.1]
      refine Sim.bind (compareSplitO_sim ho2 (h2.2.2.1.trans h1) (h2.2.2.2.trans h1') sqrt cuts niter) fun d q o3 ho3 _ h3 => ?_
      refine Sim.pure ho3 _ _ ⟨rfl, ?_⟩
      obtain ⟨_, h3⟩ := h3
      cases o3
      have e1 := ho3.wf; have e2 := ho3.c; have e3 := ho3.weight; have e4 := ho3.combined; have e5 := ho3.bunches
      have e6 := congrArg TObj.split h3; have e7 := congrArg TObj.full h3
      have e8 := congrArg TObj.diff h3; have e9 := congrArg TObj.recreated h3
      simp only at e1 e2 e3 e4 e5 e6 e7 e8 e9
      simp only [e1, e2, e3, e4, e5, e6, e7, e8, e9, h2.2.1, h2.1]

end

end Verif.Obj

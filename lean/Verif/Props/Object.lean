import Verif.Lemmas.ObjectLife

/-!
# A `Tomography` object over its whole life (C102)

A history is any sequence of statements on an object: assignments of coordinates (accepted or rejected), reconstructions by each of the
five methods (successful or failing), and inside the reconstructions progress callbacks that themselves do such things to the object or
raise exceptions.  Two histories may be entirely different.
-/

set_option linter.unusedSectionVars false

namespace Verif.Props
open Verif.Spec Verif.Recon Verif.Tomo Verif.Multi Verif.Obj

section
variable {α : Type _} [Add α] [Sub α] [Mul α] [Zero α] [One α] [NatCast α] [IntCast α]
  [LT α] [LE α] [DecidableLT α] [DecidableLE α] [DecidableEq α] [FDiv α]

/-- C102: what a statement returns or raises, and the results it leaves in the object when it succeeds, depend on the history of the object
only through the x-coordinates it holds. -/
theorem C102_history (sqrt : α → α) (wf : List α) (nprof nbins : ℕ) (h1 h2 : Ops α)
    (hx : SameX (runOps sqrt h1 (new wf nprof nbins)) (runOps sqrt h2 (new wf nprof nbins))) (op : Op α) :
    let p1 := step sqrt op (runOps sqrt h1 (new wf nprof nbins))
    let p2 := step sqrt op (runOps sqrt h2 (new wf nprof nbins))
    p1.2 = p2.2 ∧ SameX p1.1 p2.1 ∧ ((∃ r, p1.2 = .ok r) → results op p1.1 = results op p2.1) := by
  have h := step_alike sqrt op ⟨runOps_sound sqrt h1 (sound_new wf nprof nbins), runOps_sound sqrt h2 (sound_new wf nprof nbins), hx⟩
  exact ⟨h.2.1, h.1, h.2.2⟩

/-- C102: after any history, coordinates that are accepted make the object as good as new: every further sequence of statements, and the
statement after it, goes as on an object that was just created with these coordinates. -/
theorem C102_fresh (sqrt : α → α) (wf : List α) (nprof nbins : ℕ) (history : Ops α) (v : PyVal)
    (hv : (step sqrt (.xp v) (runOps sqrt history (new wf nprof nbins))).2 = .ok .none) (later : Ops α) (op : Op α) :
    let p1 := step sqrt op (runOps sqrt later (step sqrt (.xp v) (runOps sqrt history (new wf nprof nbins))).1)
    let p2 := step sqrt op (runOps sqrt later (step sqrt (.xp v) (new wf nprof nbins)).1)
    p1.2 = p2.2 ∧ SameX p1.1 p2.1 ∧ ((∃ r, p1.2 = .ok r) → results op p1.1 = results op p2.1) := by
  have s0 := sound_new wf nprof nbins
  have s1 := runOps_sound sqrt history s0
  have hs : SameX (step sqrt (.xp v) (runOps sqrt history (new wf nprof nbins))).1 (step sqrt (.xp v) (new wf nprof nbins)).1 := by
    rw [step_xp] at hv
    rw [step_xp, step_xp]
    unfold SameX
    dsimp only at hv ⊢
    have e1 := s1.np
    have e2 := s1.nb
    generalize (runOps sqrt history (new wf nprof nbins)).c = c at hv e1 e2
    have k1 : (new wf nprof nbins).c.nprofs = nprof := rfl
    have k2 : (new wf nprof nbins).c.nbins = nbins := rfl
    generalize (new wf nprof nbins).c = c' at k1 k2
    cases v with
    | none => simp [setXp]
    | scalar => simp [setXp] at hv
    | array shape data =>
      unfold setXp at hv ⊢
      rw [e1, e2] at hv ⊢
      rw [k1, k2]
      dsimp only at hv ⊢
      split
      · rename_i h; rw [if_pos h] at hv; simp at hv
      · rename_i h
        rw [if_neg h] at hv
        split
        · rename_i h; rw [if_pos h] at hv; simp at hv
        · rename_i h
          rw [if_neg h] at hv
          split
          · rename_i h; rw [if_pos h] at hv; simp at hv
          · exact ⟨rfl, rfl⟩
  have ha := runOps_alike sqrt later ⟨step_sound sqrt (.xp v) s1, step_sound sqrt (.xp v) s0, hs⟩
  have h := step_alike sqrt op ha
  exact ⟨h.2.1, h.1, h.2.2⟩

/-- C102: a successful `run` leaves in the object what `reconstruct` makes of the waterfall and of the coordinates the object held when it
was called, whatever happened before, and whatever the callback does meanwhile. -/
theorem C102_run (sqrt : α → α) (wf : List α) (nprof nbins : ℕ) (history : Ops α) (niter : ℕ) (cb : Calls α) {r : Ret α}
    (hr : (step sqrt (.run niter cb) (runOps sqrt history (new wf nprof nbins))).2 = .ok r) :
    ∃ sh x npart st, (runOps sqrt history (new wf nprof nbins)).c.xp = some (sh, x) ∧
      (runOps sqrt history (new wf nprof nbins)).c.nparts = some npart ∧
      (reconstruct sqrt x wf niter nbins npart nprof).2 = .ok st ∧ r = .weights st.weights ∧
      let o' := (step sqrt (.run niter cb) (runOps sqrt history (new wf nprof nbins))).1
      o'.weight = some st.weights ∧ o'.diff = some st.discr ∧ o'.recreated = st.flatRec := by
  have s1 := runOps_sound sqrt history (sound_new wf nprof nbins)
  have hp := runOps_paired sqrt history wf nprof nbins
  generalize runOps sqrt history (new wf nprof nbins) = o at hr s1 hp
  rw [step] at hr ⊢
  rcases hx : o.c.xp with _ | ⟨sh, x⟩
  · rw [hx] at hr; simp at hr
  · rw [hx] at hr
    dsimp only at hr ⊢
    rw [Paired, hx] at hp
    obtain ⟨npart, hn⟩ := Option.isSome_iff_exists.mp hp.symm
    have hnp : o.nparts = npart := by rw [TObj.nparts, hn]; rfl
    rw [s1.wf, s1.np, s1.nb, hnp] at hr ⊢
    rcases hc : calls sqrt cb (reconstruct sqrt x wf niter nbins npart nprof).1.length o with ⟨o', e⟩
    rw [hc] at hr
    cases e with
    | some e => simp at hr
    | none =>
      dsimp only at hr ⊢
      cases hrec : (reconstruct sqrt x wf niter nbins npart nprof).2 with
      | error e => rw [hrec] at hr; simp at hr
      | ok st =>
        rw [hrec] at hr
        dsimp only at hr ⊢
        exact ⟨sh, x, npart, st, rfl, hn, hrec.symm ▸ rfl, by simpa using hr.symm, rfl, rfl, rfl⟩

/-- C102: a failing assignment or C++ reconstruction leaves the object as it was, provided the callback does not change it.
(Missing from the full property: the python reconstructions; see the violations below.) -/
theorem C102_failed_partial (sqrt : α → α) (wf : List α) (nprof nbins : ℕ) (history : Ops α) (op : Op α) (hop : Late op) {e : Fault}
    (he : (step sqrt op (runOps sqrt history (new wf nprof nbins))).2 = .error e) :
    (step sqrt op (runOps sqrt history (new wf nprof nbins))).1 = runOps sqrt history (new wf nprof nbins) := by
  have hp := runOps_paired sqrt history wf nprof nbins
  generalize runOps sqrt history (new wf nprof nbins) = o at he hp
  cases op with
  | xp v =>
    rw [step_xp] at he ⊢
    cases h : (setXp o.c v).2 with
    | none => rw [h] at he; simp at he
    | some e => rw [setXp_failed o.c v h]
  | yp v =>
    rw [step_yp] at he ⊢
    cases h : (setYp o.c v).2 with
    | none => rw [h] at he; simp at he
    | some e => rw [setYp_failed o.c v h]
  | run niter cb =>
    rw [step] at he ⊢
    rcases hx : o.c.xp with _ | ⟨sh, x⟩
    · rfl
    · rw [hx] at he
      dsimp only at he ⊢
      have hq := calls_quiet sqrt cb hop (reconstruct sqrt x o.wf niter o.c.nbins o.nparts o.c.nprofs).1.length o
      rcases hc : calls sqrt cb (reconstruct sqrt x o.wf niter o.c.nbins o.nparts o.c.nprofs).1.length o with ⟨o', e'⟩
      rw [hc] at he hq
      dsimp only at hq
      cases e' with
      | some e => exact hq
      | none =>
        dsimp only at he ⊢
        cases hrec : (reconstruct sqrt x o.wf niter o.c.nbins o.nparts o.c.nprofs).2 with
        | error e => exact hq
        | ok st => rw [hrec] at he; simp at he
  | multi centers cl cr niter cb junk =>
    rw [step] at he ⊢
    rcases hx : o.c.xp with _ | ⟨sh, x⟩
    · rfl
    · rw [Paired, hx] at hp
      obtain ⟨npart, hn⟩ := Option.isSome_iff_exists.mp hp.symm
      rw [hx] at he
      dsimp only at he ⊢
      have hq := calls_quiet sqrt cb hop (runMulti sqrt junk x o.wf centers cl cr niter o.c.nbins o.nparts o.c.nprofs).1.length o
      rcases hc : calls sqrt cb (runMulti sqrt junk x o.wf centers cl cr niter o.c.nbins o.nparts o.c.nprofs).1.length o with ⟨o', e'⟩
      rw [hc] at he hq
      dsimp only at hq
      cases e' with
      | some e => exact hq
      | none =>
        dsimp only at he ⊢
        cases hrec : (runMulti sqrt junk x o.wf centers cl cr niter o.c.nbins o.nparts o.c.nprofs).2 with
        | error e => exact hq
        | ok b =>
          rw [hrec] at he
          dsimp only at he
          rw [hq] at he
          unfold splitWeights at he
          simp [hn] at he
  | hybrid _ => exact hop.elim
  | hybridMulti _ _ _ => exact hop.elim
  | runOld _ => exact hop.elim
  | multiHybrid _ _ _ => exact hop.elim

/-- C102: `run_hybrid`: a success returns the weights of the reference implementation and stores its discrepancies and profiles; a
failure raises its exception.  In both cases the coordinates, the waterfall and the stored weights are those of before. -/
theorem C102_hybrid (sqrt : α → α) (wf : List α) (nprof nbins : ℕ) (history : Ops α) (niter : ℕ) {sh : List ℕ} {x : List Int} {npart : ℕ}
    (hx : (runOps sqrt history (new wf nprof nbins)).c.xp = some (sh, x))
    (hn : (runOps sqrt history (new wf nprof nbins)).c.nparts = some npart) :
    let o := runOps sqrt history (new wf nprof nbins)
    let p := step sqrt (.hybrid niter) o
    p.2 = (runHybrid sqrt x wf niter nbins npart nprof).map (fun st => Ret.weights st.weights) ∧
    (∀ st, runHybrid sqrt x wf niter nbins npart nprof = .ok st → p.1.diff = some st.discr ∧ p.1.recreated = st.flatRec) ∧
    p.1.weight = o.weight ∧ p.1.c = o.c ∧ p.1.wf = o.wf := by
  have s1 := runOps_sound sqrt history (sound_new wf nprof nbins)
  generalize runOps sqrt history (new wf nprof nbins) = o at hx hn s1
  dsimp only
  obtain ⟨hf, h1, h2⟩ := step_hybrid s1 sqrt niter hx
  have hnp : o.nparts = npart := by rw [TObj.nparts, hn]; rfl
  rw [hnp] at h1 h2
  refine ⟨?_, fun st hst => ?_, hf.weight, hf.c, hf.wf⟩
  · cases hr : runHybrid sqrt x wf niter nbins npart nprof with
    | error e => rw [h1 e hr]; rfl
    | ok st => rw [h2 st hr]; rfl
  · rw [h2 st hst]; exact ⟨rfl, rfl⟩

/-- C102: the multi-bunch methods likewise compute what their models without an object compute, after any history. -/
theorem C102_multi_hybrid (sqrt : α → α) (wf : List α) (nprof nbins : ℕ) (history : Ops α) (centers : List Int) (cuts : List (Int × Int))
    (niter : ℕ) {sh : List ℕ} {x : List Int} {npart : ℕ}
    (hx : (runOps sqrt history (new wf nprof nbins)).c.xp = some (sh, x))
    (hn : (runOps sqrt history (new wf nprof nbins)).c.nparts = some npart) :
    let o := runOps sqrt history (new wf nprof nbins)
    (step sqrt (.hybridMulti centers cuts niter) o).2 =
      (runHybridMulti sqrt x wf centers cuts niter nbins npart nprof).map (fun st => Ret.rows st.weights) ∧
    (step sqrt (.multiHybrid centers cuts niter) o).2 =
      (runHybridFlat sqrt x wf centers cuts niter nbins npart nprof).map (fun _ => Ret.none) ∧
    (∀ st, runHybridFlat sqrt x wf centers cuts niter nbins npart nprof = .ok st →
      let o' := (step sqrt (.multiHybrid centers cuts niter) o).1
      o'.diff = some st.discr ∧ o'.split = some st.split ∧ o'.recreated = st.flatRec ∧ o'.combined = some st.weights ∧
      o'.bunches = some ((List.range centers.length).map fun i => (st.weights.take ((i + 1) * npart)).drop (i * npart))) := by
  have s1 := runOps_sound sqrt history (sound_new wf nprof nbins)
  generalize runOps sqrt history (new wf nprof nbins) = o at hx hn s1
  dsimp only
  have hnp : o.nparts = npart := by rw [TObj.nparts, hn]; rfl
  obtain ⟨_, h1, h2⟩ := step_hybridMulti s1 sqrt centers cuts niter hx
  obtain ⟨h3, h4⟩ := step_multiHybrid s1 sqrt centers cuts niter hx
  rw [hnp] at h1 h2 h3 h4
  refine ⟨?_, ?_, fun st hst => ?_⟩
  · cases hr : runHybridMulti sqrt x wf centers cuts niter nbins npart nprof with
    | error e => rw [h1 e hr]; rfl
    | ok st => rw [h2 st hr]; rfl
  · cases hr : runHybridFlat sqrt x wf centers cuts niter nbins npart nprof with
    | error e => rw [(h3 e hr).1]; rfl
    | ok st => rw [(h4 st hr).2]; rfl
  · rw [(h4 st hst).2]; exact ⟨rfl, rfl, rfl, rfl, rfl⟩

/-- C102: a successful multi-bunch `run` leaves in the object what the compiled multi-bunch reconstruction makes of the waterfall and of
the coordinates the object held when it was called.  If the callback does nothing to the object, `weight_split` holds the weights of each bunch. -/
theorem C102_multi_run (sqrt : α → α) (wf : List α) (nprof nbins : ℕ) (history : Ops α) (centers cl cr : List Int) (niter : ℕ)
    (cb : Calls α) (junk : α) {r : Ret α}
    (hr : (step sqrt (.multi centers cl cr niter cb junk) (runOps sqrt history (new wf nprof nbins))).2 = .ok r) :
    ∃ sh x npart b, (runOps sqrt history (new wf nprof nbins)).c.xp = some (sh, x) ∧
      (runOps sqrt history (new wf nprof nbins)).c.nparts = some npart ∧
      (runMulti sqrt junk x wf centers cl cr niter nbins npart nprof).2 = .ok b ∧
      let o' := (step sqrt (.multi centers cl cr niter cb junk) (runOps sqrt history (new wf nprof nbins))).1
      o'.diff = some b.diff ∧ o'.split = some b.diffSplit ∧ o'.recreated = b.recreated ∧ o'.combined = some b.weightCombined ∧
      (Quiet cb → o'.bunches =
        some ((List.range centers.length).map fun i => (b.weightCombined.take ((i + 1) * npart)).drop (i * npart))) := by
  have s1 := runOps_sound sqrt history (sound_new wf nprof nbins)
  have hp := runOps_paired sqrt history wf nprof nbins
  generalize runOps sqrt history (new wf nprof nbins) = o at hr s1 hp
  rw [step] at hr ⊢
  rcases hx : o.c.xp with _ | ⟨sh, x⟩
  · rw [hx] at hr; simp at hr
  · rw [hx] at hr
    dsimp only at hr ⊢
    rw [Paired, hx] at hp
    obtain ⟨npart, hn⟩ := Option.isSome_iff_exists.mp hp.symm
    have hnp : o.nparts = npart := by rw [TObj.nparts, hn]; rfl
    rw [s1.wf, s1.np, s1.nb, hnp] at hr ⊢
    have hq := fun h => calls_quiet sqrt cb h (runMulti sqrt junk x wf centers cl cr niter nbins npart nprof).1.length o
    rcases hc : calls sqrt cb (runMulti sqrt junk x wf centers cl cr niter nbins npart nprof).1.length o with ⟨o', e⟩
    rw [hc] at hr hq
    dsimp only at hq
    cases e with
    | some e => simp at hr
    | none =>
      dsimp only at hr ⊢
      cases hrec : (runMulti sqrt junk x wf centers cl cr niter nbins npart nprof).2 with
      | error e => rw [hrec] at hr; simp at hr
      | ok b =>
        dsimp only
        refine ⟨sh, x, npart, b, rfl, hn, hrec.symm ▸ rfl, ?_⟩
        obtain ⟨bu, hbu⟩ := splitWeights_fields b.weightCombined centers
          { o' with diff := some b.diff, split := some b.diffSplit, recreated := b.recreated, combined := some b.weightCombined }
        refine ⟨by rw [hbu], by rw [hbu], by rw [hbu], by rw [hbu], fun h => ?_⟩
        rw [hq h]
        unfold splitWeights
        simp [hn, npRange]

/-- C102 is violated: `weight`, which the documentation of the multi-bunch `run` promises to set, is never set by it. -/
theorem C102_violated_multi_weight (sqrt : α → α) (centers cl cr : List Int) (niter : ℕ) (junk : α) (o : TObj α) :
    (step sqrt (.multi centers cl cr niter .done junk) o).1.weight = o.weight := by
  rw [step]
  split
  · rfl
  · dsimp only
    rw [calls]
    dsimp only
    split
    · rfl
    · obtain ⟨b, h⟩ := splitWeights_fields (α := α) _ _ _
      rw [h]

/-- C102 is violated: `_run_old` never succeeds, because the library function it calls does not exist, but it replaces the discrepancies
of earlier runs by zeros first. -/
theorem C102_violated_run_old (sqrt : α → α) (niter : ℕ) (o : TObj α) :
    (∃ e, (step sqrt (.runOld niter) o).2 = .error e) ∧
    (o.c.xp ≠ none → (step sqrt (.runOld niter) o).1.diff = some (tab (niter + 1) fun _ => 0)) := by
  rw [step]
  cases o.c.xp with
  | none => exact ⟨⟨_, rfl⟩, fun h => absurd rfl h⟩
  | some v => exact ⟨⟨_, rfl⟩, fun _ => rfl⟩

end

/-! ## Histories that show the violations -/

/-- one profile of two bins, all of it in the second -/
abbrev secondBin : TObj ℚ := new [0, 1] 1 2

/-- one particle in bin `b` -/
abbrev oneIn (b : ℚ) : PyVal := .array [1, 1] [.fin b]

/-- two particles, one in each bin -/
abbrev oneInEach : PyVal := .array [2, 1] [.fin 0, .fin 1]

/-- C102 is violated: after a `run_hybrid` that raises an exception the object shows a history of discrepancies that are all zero, that is,
of perfect agreement, beside the weights and the profiles of an earlier run. -/
theorem C102_violated_failed_hybrid :
    let o := runOps (α := ℚ) id (ofList [.xp (oneIn 1), .run 1 .done, .xp (oneIn 0)]) secondBin
    let p := step (α := ℚ) id (.hybrid 3) o
    p.2 = .error (.exc .waterfallReducedToZero) ∧ p.1.diff = some [0, 0, 0, 0] ∧ p.1.weight = some [1] ∧ p.1.recreated = [0, 1] := by
  decide +kernel

/-- C102 is violated: results are not dropped with the coordinates they belong to: after the assignment of other coordinates the object
still shows the weights of the old ones, of which there may be more or less than particles. -/
theorem C102_violated_stale :
    let o := runOps (α := ℚ) id (ofList [.xp (oneIn 1), .run 1 .done, .xp oneInEach]) secondBin
    o.nparts = 2 ∧ o.weight = some [1] ∧ (runOps (α := ℚ) id (ofList [.xp (oneIn 1), .run 1 .done, .xp .none]) secondBin).weight = some [1] := by
  decide +kernel

/-- C102 is violated: `run_hybrid` stores its discrepancies and profiles but not its weights, so that after a successful run the weights
in the object may be those of other coordinates. -/
theorem C102_violated_weight :
    let o := runOps (α := ℚ) id (ofList [.xp (oneIn 1), .run 1 .done, .xp oneInEach]) secondBin
    let p := step (α := ℚ) id (.hybrid 1) o
    p.2 = .ok (.weights [0, 1]) ∧ p.1.diff = some [0, 0] ∧ p.1.weight = some [1] := by
  decide +kernel

/-- C102 is violated: the multi-bunch `run` reads the number of particles again after the reconstruction to cut the weights into bunches.
If a callback assigned other coordinates meanwhile, the pieces are not the weights of the bunches. -/
theorem C102_violated_callback :
    let o := runOps (α := ℚ) id (ofList [.xp oneInEach]) secondBin
    let p := step (α := ℚ) id (.multi [0] [0] [2] 0 (.call (ofList [.xp (oneIn 1)]) none .done) (0 : ℚ)) o
    p.2 = .ok .none ∧ p.1.combined = some [0, 1] ∧ p.1.bunches = some [[0]] := by
  decide +kernel

/-- histories with failures and with a callback that changes the coordinates meet the hypotheses of the C102 theorems -/
example :
    let h1 : Ops ℚ := ofList [.xp (oneIn 1), .run 1 .done, .xp (oneIn 0), .hybrid 3, .xp (oneIn 7),
      .run 2 (.call (ofList [.xp .none]) (some .valueError) .done), .xp oneInEach]
    let h2 : Ops ℚ := ofList [.xp oneInEach]
    SameX (runOps (α := ℚ) id h1 secondBin) (runOps (α := ℚ) id h2 secondBin) ∧
    (step (α := ℚ) id (.run 2 .done) (runOps (α := ℚ) id h1 secondBin)).2 = .ok (.weights [0, 1]) ∧
    (runOps (α := ℚ) id h1 secondBin).diff ≠ (runOps (α := ℚ) id h2 secondBin).diff := by
  refine ⟨?_, ?_, ?_⟩
  · unfold SameX; decide +kernel
  · decide +kernel
  · decide +kernel

/-- a callback that raises at its first call: `Late`, and the statement fails -/
example :
    Late (.run 2 (.call .nil (some .valueError) .done) : Op ℚ) ∧
    (step (α := ℚ) id (.run 2 (.call .nil (some .valueError) .done)) (runOps (α := ℚ) id (ofList [.xp oneInEach]) secondBin)).2 =
      .error (.exc .valueError) := by
  refine ⟨⟨rfl, trivial⟩, ?_⟩
  decide +kernel

end Verif.Props

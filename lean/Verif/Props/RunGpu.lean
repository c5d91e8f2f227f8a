import Verif.Lemmas.RunGpu

/-!
# C113 — a whole run on the GPU gives what the run on the CPU gives
-/

set_option linter.unusedSectionVars false

namespace Verif.Props
open Verif.Part Verif.Psi Verif.Mch Verif.Asrt Verif.Spec Verif.Run Finset

variable {K : Type} [Field K] [LinearOrder K] [IsStrictOrderedRing K] [FloorRing K]

/-- what both runs do once the particles are in bins -/
theorem rest_same {L : MathLib K} {m : Run.Mach K} {P n r : ℕ} {dE : K} {wf : ℕ → ℕ → K} {x : ℕ → ℕ → ℕ} (hx : InRange n P m.nbins x)
    {y y' : ℕ → ℕ → ℤ} (hy : ∀ i, i < n → y i r = y' i r) {rec : ℤ} (hr : r < P) (hrec : rec = r ∨ rec = r - P) :
    (do
      let o ← Run.tomogram L.sqrt (arr P m.nbins wf) (arr n P fun i p => (x i p : ℤ)) (arr n P y) m.niter
      let a ← Img.phaseSpace (arr n P fun i p => (x i p : ℤ)) (arr n P y) o.st.weights m.nbins m.synchPartX m.synchPartY m.dtbin
        (some dE) rec
      let d ← normalise a.2.2
      pure (⟨a.1, a.2.1, d, o.st.discr, []⟩ : Out K)) =
    (do
      let o ← Run.tomogram L.sqrt (arr P m.nbins wf) (arr n P fun i p => (x i p : ℤ)) (arr n P y') m.niter
      let a ← Img.phaseSpace (arr n P fun i p => (x i p : ℤ)) (arr n P y') o.st.weights m.nbins m.synchPartX m.synchPartY m.dtbin
        (some dE) rec
      let d ← normalise a.2.2
      pure (⟨a.1, a.2.1, d, o.st.discr, []⟩ : Out K)) := by
  rw [tomogram_arr L.sqrt wf x hx y, tomogram_arr L.sqrt wf x hx y']
  have hps : ∀ o : TomoOut K, Img.phaseSpace (arr n P fun i p => (x i p : ℤ)) (arr n P y) o.st.weights m.nbins m.synchPartX
      m.synchPartY m.dtbin (some dE) rec = Img.phaseSpace (arr n P fun i p => (x i p : ℤ)) (arr n P y') o.st.weights m.nbins
      m.synchPartX m.synchPartY m.dtbin (some dE) rec := by
    intro o
    unfold Img.phaseSpace
    dsimp only
    rw [column_rec hr hrec, column_rec hr hrec, column_rec hr hrec, tab_congr hy]
  simp only [hps]

/-- C113: the run on the CPU reads the memory behind the array `phi12` (C24), but what it returns does not depend on what is there. -/
theorem C113_memory_behind {L : MathLib K} {m : Run.Mach K} {P d : ℕ} {A : Turns K} (hm : Loaded m P d A) (past past' : K)
    (self self' : M (Tracked K)) (wf : ℕ → ℕ → K) (recArg : Option ℤ) :
    Run.runMachine L m past self (arr P m.nbins wf) recArg false = Run.runMachine L m past' self' (arr P m.nbins wf) recArg false := by
  have hnew : newTracker m = .ok ⟨false, false⟩ := by
    unfold newTracker; rw [if_neg (not_lt.mpr hm.synchX)]
  unfold Run.runMachine
  rw [hnew, bind_ok, bind_ok]
  simp only [Bool.false_eq_true, if_false]
  rcases hr : Track.trackCheck P d (recArg.getD m.filmstart) 0 with e | r
  · rw [coordinates_check (by rw [hm.nprofiles, hm.dturns]; exact hr), coordinates_check (by rw [hm.nprofiles, hm.dturns]; exact hr)]
  obtain ⟨r, rfl, hrP, hd, hrec⟩ := trackCheck_nat hr
  rcases hl : findLimits L m.toArea with f | ⟨xo, dE, l⟩
  · rw [coordinates_limits (by rw [hm.nprofiles, hm.dturns]; exact hr) hl, coordinates_limits (by rw [hm.nprofiles, hm.dturns]; exact hr) hl]
  obtain ⟨pts, hF, hc⟩ := coords_ok hm hl hr self (t := ⟨false, false⟩) rfl
  have hself : Run.coordinates L m past' self' (recArg.getD m.filmstart) ⟨false, false⟩
      = Run.coordinates L m past' self (recArg.getD m.filmstart) ⟨false, false⟩ := rfl
  rw [hself]
  have hlast := RunGpu.before_last hr
  have hdE := (findLimits_ok hl).2.2.1.ne'
  have hkept : (pts.filter fun c => decide (Stays L.sin m P d A past xo dE r c))
      = pts.filter fun c => decide (Stays L.sin m P d A past' xo dE r c) := by
    apply List.filter_congr
    intro c _
    apply decide_eq_decide.mpr
    unfold Stays
    refine forall_congr' fun p => ?_
    refine imp_congr_right fun hp => ?_
    rw [RunGpu.seen_past L.sin m A past past' xo dE hp hlast c]
  obtain ⟨c1, c2⟩ := hc past _ rfl
  obtain ⟨c1', c2'⟩ := hc past' _ hkept
  set kept := pts.filter fun c => decide (Stays L.sin m P d A past xo dE r c) with hk
  by_cases h0 : kept = []
  · rw [c1 h0, c1' h0]
  obtain ⟨hx, y, hy, _, hco⟩ := c2 h0
  obtain ⟨hx', y', hy', _, hco'⟩ := c2' h0
  have hbins : (arr kept.length P fun i p => (binAt L.sin m P d A past xo dE r kept i p : ℤ))
      = arr kept.length P fun i p => (binAt L.sin m P d A past' xo dE r kept i p : ℤ) := by
    apply arr_congr
    intro i p _ hp
    unfold binAt
    rw [RunGpu.seen_past L.sin m A past past' xo dE hp hlast]
  rw [hco, hco', ← hbins, bind_ok, bind_ok]
  refine rest_same hx (fun i _ => ?_) hrP hrec
  rw [hy, hy', seen_self hm hdE hrP, seen_self hm hdE hrP]

/-- C113: on a loaded machine, whatever the block sizes and however the device schedules the threads of the kernels and orders the
additions of the image, a run on the GPU has exactly one outcome, and it is that of the run on the CPU: the same axes, density and
discrepancies, or the same fault. -/
theorem C113_every_schedule {B Q : ℕ} (hB : 0 < B) (hQ : 0 < Q) (hQ' : Q ≤ 512) {L : MathLib K} (empty : ℕ → K) {m : Run.Mach K} {P d : ℕ}
    {A : Turns K} (hm : Loaded m P d A) (past : K) (self : M (Tracked K)) (wf : ℕ → ℕ → K) (recArg : Option ℤ) (out : M (Out K)) :
    RunGpu.runMachine B Q L empty m (arr P m.nbins wf) recArg out
      ↔ out = Run.runMachine L m past self (arr P m.nbins wf) recArg false := by
  rw [C113_memory_behind hm past m.phi12 self self wf recArg]
  suffices h : RunGpu.runMachine B Q L empty m (arr P m.nbins wf) recArg
      = Cuda.det (Run.runMachine L m m.phi12 self (arr P m.nbins wf) recArg false) by
    rw [h]; exact Iff.rfl
  have hnew : newTracker m = .ok ⟨false, false⟩ := by
    unfold newTracker; rw [if_neg (not_lt.mpr hm.synchX)]
  unfold RunGpu.runMachine Run.runMachine
  dsimp only
  rw [hnew, Cuda.det_ok_bind, bind_ok]
  simp only [Bool.false_eq_true, if_false]
  rw [RunGpu.coordinates_det hB hm self]
  refine Cuda.det_bind _ _ _ fun c hc => ?_
  obtain ⟨dE', X, Y⟩ := c
  rcases hr : Track.trackCheck P d (recArg.getD m.filmstart) 0 with e | r
  · rw [coordinates_check (by rw [hm.nprofiles, hm.dturns]; exact hr)] at hc
    cases hc
  obtain ⟨r, rfl, hrP, hd, hrec⟩ := trackCheck_nat hr
  rcases hl : findLimits L m.toArea with f | ⟨xo, dE, l⟩
  · rw [coordinates_limits (by rw [hm.nprofiles, hm.dturns]; exact hr) hl] at hc
    cases hc
  obtain ⟨pts, hF, hco⟩ := coords_ok hm hl hr self (t := ⟨false, false⟩) rfl
  obtain ⟨c1, c2⟩ := hco m.phi12 _ rfl
  set kept := pts.filter fun c => decide (Stays L.sin m P d A m.phi12 xo dE r c) with hk
  by_cases h0 : kept = []
  · rw [c1 h0] at hc
    cases hc
  obtain ⟨hx, y, _, hy, hcc⟩ := c2 h0
  rw [hcc] at hc
  cases hc
  have hnb : 0 < m.nbins := by
    have := C51_limits_partial hl hm.dtbin hm.window
    omega
  dsimp only
  rw [RunGpu.tomogram_det hB hQ hQ' L.sqrt empty (by omega) hnb wf _ hx y]
  refine Cuda.det_bind _ _ _ fun o ho => ?_
  rw [pure_eq_ok, bind_ok]
  have hw : ∃ w, o.st.weights = tab kept.length w := by
    rw [tomogram_arr L.sqrt wf _ hx y] at ho
    obtain ⟨wn, h1, h2⟩ := (bind_ok_iff ..).mp ho
    obtain ⟨st, h3, h4⟩ := (bind_ok_iff ..).mp h2
    cases h4
    apply Cuda.as_tab
    obtain ⟨g, rfl⟩ := RunGpu.initWaterfall_flat hnb h1
    rcases C04_weights L.sqrt (by omega : 0 < P) hnb hx g m.niter with ⟨st', w, e1, e2, _⟩ | e
    · unfold run at e1
      rw [h3] at e1
      cases e1
      rw [e2, length_tab]
    · unfold run at e
      rw [h3] at e
      cases e
  obtain ⟨w, hw⟩ := hw
  have hcell : ∀ i, i < kept.length → ∃ j : ℕ, y i r = j ∧ 1 ≤ j ∧ j < m.nbins := by
    intro i hi
    have hmem : kept.getD i (0, 0) ∈ pts := by
      have h1 : kept.getD i (0, 0) ∈ kept := by
        rw [List.getD_eq_getElem _ _ hi]; exact List.getElem_mem hi
      rw [hk] at h1
      exact (List.mem_filter.mp h1).1
    obtain ⟨i', j, u, v, hcell, h1, h2, hu, hv, huj, hjv⟩ := cellOf_fills hF hmem
    obtain ⟨hu1, hv1⟩ := C51_inside_every_column hm.synchY hl i' u v hu hv
    have : y i r = j := (Prod.ext_iff.mp ((hy i hi).symm.trans hcell)).2
    exact ⟨j.toNat, by omega, by omega, by omega⟩
  have hyn : (tab kept.length fun i => y i r) = tab kept.length fun i => ((y i r).toNat : ℤ) :=
    tab_congr fun i hi => by
      obtain ⟨j, h1, _, _⟩ := hcell i hi
      omega
  have hps : RunGpu.phaseSpace (arr kept.length P fun i p => (binAt L.sin m P d A m.phi12 xo dE' r kept i p : ℤ)) (arr kept.length P y)
      o.st.weights m.nbins m.synchPartX m.synchPartY m.dtbin dE' (recArg.getD m.filmstart)
      = Cuda.det (Img.phaseSpace (arr kept.length P fun i p => (binAt L.sin m P d A m.phi12 xo dE' r kept i p : ℤ)) (arr kept.length P y)
        o.st.weights m.nbins m.synchPartX m.synchPartY m.dtbin (some dE') (recArg.getD m.filmstart)) := by
    unfold RunGpu.phaseSpace Img.phaseSpace Img.phaseSpaceFromCoordinates
    dsimp only
    rw [column_rec hrP hrec, column_rec hrP hrec, bind_ok, bind_ok, Cuda.det_ok_bind, Cuda.det_ok_bind, hyn, hw,
      RunGpu.makePhaseSpace_det (fun i hi => hx i hi r hrP) (fun i hi => ?_)]
    · exact Cuda.det_bind _ _ _ fun _ _ => rfl
    · obtain ⟨j, h1, _, h2⟩ := hcell i hi
      omega
  rw [hps]
  refine Cuda.det_bind _ _ _ fun a _ => ?_
  exact Cuda.det_bind _ _ _ fun _ _ => rfl

/-- C113: a run on the GPU ends, and all its schedules end alike. -/
theorem C113_one_outcome {B Q : ℕ} (hB : 0 < B) (hQ : 0 < Q) (hQ' : Q ≤ 512) {L : MathLib K} (empty : ℕ → K) {m : Run.Mach K} {P d : ℕ}
    {A : Turns K} (hm : Loaded m P d A) (wf : ℕ → ℕ → K) (recArg : Option ℤ) :
    ∃! out, RunGpu.runMachine B Q L empty m (arr P m.nbins wf) recArg out :=
  ⟨_, (C113_every_schedule hB hQ hQ' empty hm 0 (.error .oob) wf recArg _).mpr rfl,
    fun _ h => (C113_every_schedule hB hQ hQ' empty hm 0 (.error .oob) wf recArg _).mp h⟩

/-- C113: block sizes and the contents of fresh device arrays do not matter. -/
theorem C113_block_sizes {B Q B' Q' : ℕ} (hB : 0 < B) (hQ : 0 < Q) (hQ' : Q ≤ 512) (hB2 : 0 < B') (hQ2 : 0 < Q') (hQ2' : Q' ≤ 512)
    {L : MathLib K} (empty empty' : ℕ → K) {m : Run.Mach K} {P d : ℕ} {A : Turns K} (hm : Loaded m P d A) (wf : ℕ → ℕ → K)
    (recArg : Option ℤ) {out out' : M (Out K)} (h : RunGpu.runMachine B Q L empty m (arr P m.nbins wf) recArg out)
    (h' : RunGpu.runMachine B' Q' L empty' m (arr P m.nbins wf) recArg out') : out = out' := by
  rw [C113_every_schedule hB hQ hQ' empty hm 0 (.error .oob)] at h
  rw [C113_every_schedule hB2 hQ2 hQ2' empty' hm 0 (.error .oob)] at h'
  rw [h, h']

/-- C113: whatever a run on the GPU returns is a density: one number per cell, none negative, their sum one, zero outside the area
found. -/
theorem C113_density {B Q : ℕ} (hB : 0 < B) (hQ : 0 < Q) (hQ' : Q ≤ 512) {L : MathLib K} (empty : ℕ → K) {m : Run.Mach K} {P d : ℕ}
    {A : Turns K} (hm : Loaded m P d A) {wf : ℕ → ℕ → K} {recArg : Option ℤ} {out : Out K}
    (h : RunGpu.runMachine B Q L empty m (arr P m.nbins wf) recArg (.ok out)) :
    ∃ xo dE l, ∃ img : ℕ → ℕ → K, findLimits L m.toArea = .ok (xo, dE, l) ∧ out.density = flat m.nbins m.nbins img ∧
      (∀ a b, 0 ≤ img a b) ∧ ∑ a ∈ range m.nbins, ∑ b ∈ range m.nbins, img a b = 1 ∧
      ∀ a b, img a b ≠ 0 → l.imin ≤ a ∧ (a : ℤ) ≤ l.imax ∧
        ∃ u v, l.jmin[a]? = some u ∧ l.jmax[a]? = some v ∧ u ≤ b ∧ (b : ℤ) < v := by
  rw [C113_every_schedule hB hQ hQ' empty hm 0 (.error .oob)] at h
  obtain ⟨xo, dE, l, img, h1, h2, h3, h4, h5, _⟩ := C66_density hm h.symm
  exact ⟨xo, dE, l, img, h1, h2, h3, h4, h5⟩

/-- C113: and its faults are those of C66: no access outside of an array. -/
theorem C113_faults {B Q : ℕ} (hB : 0 < B) (hQ : 0 < Q) (hQ' : Q ≤ 512) {L : MathLib K} (empty : ℕ → K) {m : Run.Mach K} {P d : ℕ}
    {A : Turns K} (hm : Loaded m P d A) {wf : ℕ → ℕ → K} {recArg : Option ℤ} {f : Fault}
    (h : RunGpu.runMachine B Q L empty m (arr P m.nbins wf) recArg (.error f)) :
    (∃ e, f = .exc e ∧ Track.trackCheck P d (recArg.getD m.filmstart) 0 = .error e) ∨ findLimits L m.toArea = .error f ∨
    f ∈ ([.exc .invalidParticle, .exc .waterfallReducedToZero, .nonFinite, .exc .allZero] : List Fault) := by
  rw [C113_every_schedule hB hQ hQ' empty hm 0 (.error .oob)] at h
  exact C66_faults hm h.symm

/-- the hypotheses are met: blocks of 1024 and of 512 threads, the machine and the measured data of the examples of C66; every
schedule gives this density -/
example (empty : ℕ → ℚ) (out : M (Out ℚ)) (h : RunGpu.runMachine 1024 512 libQ empty runMach (arr 3 4 runData) none out) :
    densityOf out = some [0, 34/279, 0, 0, 0, 125/1674, 100/837, 0, 0, 365/1674, 215/1674, 0, 0, 0, 50/279, 265/1674] := by
  have := (C113_every_schedule (by norm_num) (by norm_num) (by norm_num) empty runMach_loaded 0 (.error .oob) runData none out).mp h
  rw [this]
  decide +kernel

/-- there is such a run -/
example (empty : ℕ → ℚ) : ∃ out, RunGpu.runMachine 1024 512 libQ empty runMach (arr 3 4 runData) none out :=
  (C113_one_outcome (by norm_num) (by norm_num) (by norm_num) empty runMach_loaded runData none).exists

end Verif.Props

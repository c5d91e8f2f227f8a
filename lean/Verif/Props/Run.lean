import Verif.Lemmas.Run
import Verif.Props.Recon

/-!
# Properties of a whole run (C66, C67, C68)
-/

set_option linter.unusedSectionVars false

namespace Verif.Props
open Verif.Part Verif.Psi Verif.Mch Verif.Asrt Verif.Spec Verif.Run Finset

variable {K : Type} [Field K] [LinearOrder K] [IsStrictOrderedRing K] [FloorRing K]

/-- a machine for the examples: three profiles of four bins, one turn apart, self fields asked for -/
def runMach : Run.Mach ℚ :=
  { area0 with
    phi0 := [0, 0, 0], deltaE0 := [0, 0, 0], driftCoef := [1/21, 1/21, 1/21], omegaRev0 := [1, 1, 1]
    vrf1AtTurn := [1, 1, 1], vrf2AtTurn := [0, 0, 0], beta0 := [1/2, 1/2, 1/2], e0 := [1, 1, 1], eta0 := [1, 1, 1]
    snpt := 1, nprofiles := 3, niter := 1, filmstop := 1, filmstep := 1, selfField := true }

/-- the turn arrays of the examples with the energy steps `e` and phase slips `c` -/
def runTurns (e c : ℕ → ℚ) : Turns ℚ := ⟨fun _ => 1, fun _ => 0, fun _ => 0, e, c, fun _ => 1⟩

/-- measured profiles for the examples -/
def runData : ℕ → ℕ → ℚ := fun p b => if p = 0 then (b : ℚ) + 1 else 2

theorem runMach_loaded : Loaded runMach 3 1 (runTurns (fun _ => 0) fun _ => 1 / 21) where
  nprofiles := rfl
  dturns := rfl
  v1 := rfl
  v2 := rfl
  ph := rfl
  dE := rfl
  coef := rfl
  om := rfl
  dtbin := by decide +kernel
  scale := fun _ _ => show (1 : ℚ) * 1 ≠ 0 by decide +kernel
  synchX := by decide +kernel
  synchY := by decide +kernel
  window := Or.inr (by decide +kernel)

/-- density of a run, or nothing -/
def densityOf (r : M (Run.Out ℚ)) : Option (List ℚ) := match r with | .ok o => some o.density | .error _ => none

/-- films of a run, or the fault -/
def filmsOf (r : M (Run.Out ℚ)) : Except Fault (List (ℤ × List ℚ)) :=
  match r with | .ok o => .ok (o.films.map fun f => (f.1, f.2.1)) | .error e => .error e

/-! ## C66 -/

/-- C66, what a run computes.  The machine is loaded, the search for the area succeeds and `track` accepts the profile,
which is profile `r`.  The particles start at the parts of the cells of the area.  Those leaving the time window of some
profile are dropped.  With none left the run stops; otherwise a fault of the waterfall or of the reconstruction is the fault
of the run, and with weights `w` the density is the share of the weights in each cell the surviving particles started in. -/
theorem C66_run_partial {L : MathLib K} {m : Run.Mach K} {P d : ℕ} {A : Turns K} (hm : Loaded m P d A) {past xo dE : K}
    {l : Limits} (hl : findLimits L m.toArea = .ok (xo, dE, l)) {recArg : Option ℤ} {r : ℕ}
    (hr : Track.trackCheck P d (recArg.getD m.filmstart) 0 = .ok (r : ℤ)) (self : M (Tracked K)) (wf : ℕ → ℕ → K) :
    ∃ pts : List (K × K), Fills l m.snpt pts ∧ ∀ kept : List (K × K),
      kept = (pts.filter fun c => decide (Stays L.sin m P d A past xo dE r c)) →
      (kept = [] → runMachine L m past self (arr P m.nbins wf) recArg false = .error (.exc .invalidParticle)) ∧
      (kept ≠ [] → InRange kept.length P m.nbins (binAt L.sin m P d A past xo dE r kept) ∧
        (∀ f, Tomo.initWaterfall (flat P m.nbins wf) P m.nbins = .error f →
          runMachine L m past self (arr P m.nbins wf) recArg false = .error f) ∧
        ∀ wfn, Tomo.initWaterfall (flat P m.nbins wf) P m.nbins = .ok (flat P m.nbins wfn) →
          (∀ f, (run L.sqrt kept.length P m.nbins (binAt L.sin m P d A past xo dE r kept) wfn m.niter).2 = .error f →
            runMachine L m past self (arr P m.nbins wf) recArg false = .error f) ∧
          ∀ st w, (run L.sqrt kept.length P m.nbins (binAt L.sin m P d A past xo dE r kept) wfn m.niter).2 = .ok st →
            st.weights = tab kept.length w → (∀ i, 0 ≤ w i) → 0 < ∑ i ∈ range kept.length, w i →
            runMachine L m past self (arr P m.nbins wf) recArg false = .ok ⟨Img.axis m.nbins m.synchPartX m.dtbin,
              Img.axis m.nbins m.synchPartY dE,
              flat m.nbins m.nbins (share kept.length (fun i => cellOf (kept.getD i (0, 0))) w), st.discr, []⟩) := by
  have hnew : newTracker m = .ok ⟨false, false⟩ := by
    unfold newTracker; rw [if_neg (not_lt.mpr hm.synchX)]
  obtain ⟨pts, hF, hc⟩ := coords_ok hm hl hr self (t := ⟨false, false⟩) rfl
  obtain ⟨r', hrr, hrP, hd, hrec⟩ := trackCheck_nat hr
  have hrr' : r = r' := by exact_mod_cast hrr
  subst hrr'
  have hlim := C51_limits_partial hl hm.dtbin hm.window
  refine ⟨pts, hF, ?_⟩
  intro kept hk
  obtain ⟨c1, c2⟩ := hc past kept hk
  unfold runMachine
  rw [hnew, bind_ok]
  simp only [Bool.false_eq_true, if_false]
  constructor
  · intro h0
    rw [c1 h0]
    rfl
  · intro h0
    obtain ⟨hx, y, _, hy, hco⟩ := c2 h0
    refine ⟨hx, ?_⟩
    rw [hco, bind_ok]
    dsimp only
    rw [tomogram_arr L.sqrt wf _ hx y]
    set x := binAt L.sin m P d A past xo dE r kept with hxd
    constructor
    · intro f hf
      rw [hf]; rfl
    · intro wfn hw
      rw [hw]
      constructor
      · intro f hf
        change (Recon.reconstruct L.sqrt (xbuf kept.length P x) (flat P m.nbins wfn) m.niter m.nbins kept.length P).2 = _ at hf
        change ((Except.bind (Recon.reconstruct L.sqrt (xbuf kept.length P x) (flat P m.nbins wfn) m.niter m.nbins kept.length P).2 _).bind _) = _
        rw [hf]; rfl
      · intro st w hst hwt hw0 hpos
        change (Recon.reconstruct L.sqrt (xbuf kept.length P x) (flat P m.nbins wfn) m.niter m.nbins kept.length P).2 = _ at hst
        change ((Except.bind (Recon.reconstruct L.sqrt (xbuf kept.length P x) (flat P m.nbins wfn) m.niter m.nbins kept.length P).2 _).bind _) = _
        rw [hst]
        change (Except.ok _ : M (TomoOut K)).bind _ = _
        have hcell : ∀ i, i < kept.length → ∃ j : ℕ, y i r = j ∧ 1 ≤ j ∧ j < m.nbins := by
          intro i hi
          have hmem : kept.getD i (0, 0) ∈ pts := by
            have h1 : kept.getD i (0, 0) ∈ kept := by
              rw [List.getD_eq_getElem _ _ hi]; exact List.getElem_mem hi
            have h2 : ∀ c, c ∈ kept → c ∈ pts := by
              intro c hc
              rw [hk] at hc
              exact (List.mem_filter.mp hc).1
            exact h2 _ h1
          obtain ⟨i', j, u, v, hcell, h1, h2, hu, hv, huj, hjv⟩ := cellOf_fills hF hmem
          obtain ⟨hu1, hv1⟩ := C51_inside_every_column hm.synchY hl i' u v hu hv
          have : y i r = j := by
            have := (hy i hi).symm.trans hcell
            exact (Prod.ext_iff.mp this).2
          exact ⟨j.toNat, by omega, by omega, by omega⟩
        set yn : ℕ → ℕ := fun i => (y i r).toNat with hyn
        have hyn' : ∀ i, i < kept.length → y i r = (yn i : ℤ) ∧ yn i < m.nbins := by
          intro i hi
          obtain ⟨j, h1, _, h2⟩ := hcell i hi
          simp only [hyn]
          omega
        set img : ℕ → ℕ → K := fun a b => ∑ i ∈ (range kept.length).filter (fun i => x i r = a ∧ yn i = b), w i with himg
        have hps : Img.phaseSpace (arr kept.length P fun i p => (x i p : ℤ)) (arr kept.length P y) st.weights m.nbins
            m.synchPartX m.synchPartY m.dtbin (some dE) (recArg.getD m.filmstart)
            = .ok (Img.axis m.nbins m.synchPartX m.dtbin, Img.axis m.nbins m.synchPartY dE, flat m.nbins m.nbins img) := by
          unfold Img.phaseSpace
          dsimp only
          rw [column_rec hrP hrec, bind_ok, column_rec hrP hrec, bind_ok]
          unfold Img.phaseSpaceFromCoordinates
          have : (tab kept.length fun i => y i r) = tab kept.length fun i => (yn i : ℤ) :=
            tab_congr fun i hi => (hyn' i hi).1
          rw [this, hwt, C30_cells (fun i hi => hx i hi r hrP) (fun i hi => (hyn' i hi).2)]
          rfl
        have htot : ∑ a ∈ range m.nbins, ∑ b ∈ range m.nbins, img a b = ∑ i ∈ range kept.length, w i := by
          have h := sum_cells x (nbins := m.nbins) (nprof := P) (y := fun i _ => yn i)
            (fun i hi p hp => (hyn' i hi).2) w hrP
          simp only [himg, h]
          exact Recon.rowSum_proj hx w hrP
        have hshare : (flat m.nbins m.nbins fun a b => img a b / ∑ i ∈ range kept.length, w i)
            = flat m.nbins m.nbins (share kept.length (fun i => cellOf (kept.getD i (0, 0))) w) := by
          apply flat_congr
          intro a b _ _
          unfold share
          congr 1
          apply sum_congr _ (fun _ _ => rfl)
          apply filter_congr
          intro i hi
          dsimp only
          rw [hy i (mem_range.mp hi), (hyn' i (mem_range.mp hi)).1, Prod.ext_iff]
          simp
        change (Img.phaseSpace (arr kept.length P fun i p => (x i p : ℤ)) (arr kept.length P y) st.weights m.nbins
            m.synchPartX m.synchPartY m.dtbin (some dE) (recArg.getD m.filmstart)).bind _ = _
        rw [hps]
        change (normalise (flat m.nbins m.nbins img)).bind _ = _
        rw [normalise_flat (fun a b => sum_nonneg fun i _ => hw0 i) hpos htot, hshare]
        rfl

theorem coordinates_check {L : MathLib K} {m : Run.Mach K} {past : K} {self : M (Tracked K)} {rec : ℤ} {e : Exn}
    (h : Track.trackCheck m.nprofiles m.dturns rec 0 = .error e) :
    coordinates L m past self rec ⟨false, false⟩ = .error (.exc e) := by
  unfold coordinates trackCoords track
  rw [h]
  rfl

theorem coordinates_limits {L : MathLib K} {m : Run.Mach K} {past : K} {self : M (Tracked K)} {rec r : ℤ}
    (h : Track.trackCheck m.nprofiles m.dturns rec 0 = .ok r) {f : Fault} (hl : findLimits L m.toArea = .error f) :
    coordinates L m past self rec ⟨false, false⟩ = .error f := by
  unfold coordinates trackCoords track
  rw [h, hl]
  rfl

/-- The end of a run: refused profile, no area, a fault of the later steps, or a density. -/
theorem run_ends {L : MathLib K} {m : Run.Mach K} {P d : ℕ} {A : Turns K} (hm : Loaded m P d A) (past : K)
    (recArg : Option ℤ) (self : M (Tracked K)) (wf : ℕ → ℕ → K) :
    (∃ e, Track.trackCheck P d (recArg.getD m.filmstart) 0 = .error e ∧
      runMachine L m past self (arr P m.nbins wf) recArg false = .error (.exc e)) ∨
    (∃ f, findLimits L m.toArea = .error f ∧ runMachine L m past self (arr P m.nbins wf) recArg false = .error f) ∨
    (∃ f, f ∈ ([.exc .invalidParticle, .exc .waterfallReducedToZero, .nonFinite, .exc .allZero] : List Fault) ∧
      runMachine L m past self (arr P m.nbins wf) recArg false = .error f) ∨
    ∃ xo dE l pts kept w discr, ∃ r : ℕ, Track.trackCheck P d (recArg.getD m.filmstart) 0 = .ok (r : ℤ) ∧
      findLimits L m.toArea = .ok (xo, dE, l) ∧ Fills l m.snpt pts ∧
      kept = (pts.filter fun c => decide (Stays L.sin m P d A past xo dE r c)) ∧ (∀ i, 0 ≤ w i) ∧
      0 < ∑ i ∈ range kept.length, w i ∧
      runMachine L m past self (arr P m.nbins wf) recArg false = .ok ⟨Img.axis m.nbins m.synchPartX m.dtbin,
        Img.axis m.nbins m.synchPartY dE,
        flat m.nbins m.nbins (share kept.length (fun i => cellOf (kept.getD i (0, 0))) w), discr, []⟩ := by
  have hnew : newTracker m = .ok ⟨false, false⟩ := by
    unfold newTracker; rw [if_neg (not_lt.mpr hm.synchX)]
  rcases hr : Track.trackCheck P d (recArg.getD m.filmstart) 0 with e | r
  · refine Or.inl ⟨e, rfl, ?_⟩
    unfold runMachine
    rw [hnew, bind_ok]
    simp only [Bool.false_eq_true, if_false]
    rw [coordinates_check (by rw [hm.nprofiles, hm.dturns]; exact hr)]
    rfl
  · obtain ⟨r', rfl, hrP, hd, hrec⟩ := trackCheck_nat hr
    rcases hl : findLimits L m.toArea with f | ⟨xo, dE, l⟩
    · refine Or.inr (Or.inl ⟨f, rfl, ?_⟩)
      unfold runMachine
      rw [hnew, bind_ok]
      simp only [Bool.false_eq_true, if_false]
      rw [coordinates_limits (by rw [hm.nprofiles, hm.dturns]; exact hr) hl]
      rfl
    · right; right
      have hnb : 0 < m.nbins := by
        have := C51_limits_partial hl hm.dtbin hm.window
        omega
      obtain ⟨pts, hF, h⟩ := C66_run_partial (past := past) hm hl hr self wf
      obtain ⟨h1, h2⟩ := h _ rfl
      set kept := pts.filter fun c => decide (Stays L.sin m P d A past xo dE r' c) with hk
      by_cases h0 : kept = []
      · exact Or.inl ⟨_, by simp, h1 h0⟩
      · obtain ⟨hx, h3, h4⟩ := h2 h0
        obtain ⟨i1, i2, i3⟩ := initWaterfall_char (nprof := P) hnb wf
        by_cases ha : ∀ p b, p < P → b < m.nbins → wf p b ≤ 0
        · exact Or.inl ⟨_, by simp, h3 _ (i1 ha)⟩
        · have ha' : ∃ p b, p < P ∧ b < m.nbins ∧ 0 < wf p b := by
            push Not at ha
            exact ha
          by_cases hb : ∃ p, p < P ∧ ∀ b, b < m.nbins → wf p b ≤ 0
          · exact Or.inl ⟨_, by simp, h3 _ (i2 ha' hb)⟩
          · have hb' : ∀ p, p < P → ∃ b, b < m.nbins ∧ 0 < wf p b := by
              push Not at hb
              exact hb
            obtain ⟨h5, h6⟩ := h4 _ (i3 ha' hb')
            rcases C04_weights L.sqrt (by omega : 0 < P) hnb hx (normRows m.nbins fun p b => max (wf p b) 0) m.niter
              with ⟨st, w, e1, e2, e3, e4⟩ | e
            · exact Or.inr ⟨xo, dE, l, pts, kept, w, st.discr, r', rfl, rfl, hF, hk, e3, e4, h6 st w e1 e2 e3 e4⟩
            · exact Or.inl ⟨_, by simp, h5 _ e⟩

/-- C66: whatever a run returns is a density: one number per cell, none negative, their sum one, zero outside the area found
(so also in the first energy row), on the axes of the machine and of the energy bin found. -/
theorem C66_density {L : MathLib K} {m : Run.Mach K} {P d : ℕ} {A : Turns K} (hm : Loaded m P d A) {past : K}
    {recArg : Option ℤ} {self : M (Tracked K)} {wf : ℕ → ℕ → K} {out : Run.Out K}
    (h : runMachine L m past self (arr P m.nbins wf) recArg false = .ok out) :
    ∃ xo dE l, ∃ img : ℕ → ℕ → K, findLimits L m.toArea = .ok (xo, dE, l) ∧ out.density = flat m.nbins m.nbins img ∧
      (∀ a b, 0 ≤ img a b) ∧ ∑ a ∈ range m.nbins, ∑ b ∈ range m.nbins, img a b = 1 ∧
      (∀ a b, img a b ≠ 0 → l.imin ≤ a ∧ (a : ℤ) ≤ l.imax ∧
        ∃ u v, l.jmin[a]? = some u ∧ l.jmax[a]? = some v ∧ u ≤ b ∧ (b : ℤ) < v) ∧
      (∀ a, img a 0 = 0) ∧
      out.tRange = Img.axis m.nbins m.synchPartX m.dtbin ∧ out.eRange = Img.axis m.nbins m.synchPartY dE := by
  rcases run_ends (L := L) hm past recArg self wf with ⟨e, _, he⟩ | ⟨f, _, he⟩ | ⟨f, _, he⟩ |
    ⟨xo, dE, l, pts, kept, w, discr, r, hr, hl, hF, hk, hw0, hpos, he⟩
  · rw [he] at h; cases h
  · rw [he] at h; cases h
  · rw [he] at h; cases h
  · rw [he] at h
    cases h
    have hsupp : ∀ i, i < kept.length → ∃ (a : ℕ) (j u v : ℤ), cellOf (kept.getD i (0, 0)) = ((a : ℤ), j) ∧ l.imin ≤ a ∧
        (a : ℤ) ≤ l.imax ∧ l.jmin[a]? = some u ∧ l.jmax[a]? = some v ∧ u ≤ j ∧ j < v := by
      intro i hi
      have h1 : kept.getD i (0, 0) ∈ kept := by
        rw [List.getD_eq_getElem _ _ hi]; exact List.getElem_mem hi
      have h2 : ∀ c, c ∈ kept → c ∈ pts := by
        intro c hc
        rw [hk] at hc
        exact (List.mem_filter.mp hc).1
      exact cellOf_fills hF (h2 _ h1)
    have hlim := C51_limits_partial hl hm.dtbin hm.window
    have hne : ∀ a b : ℕ, share kept.length (fun i => cellOf (kept.getD i (0, 0))) w a b ≠ 0 →
        l.imin ≤ a ∧ (a : ℤ) ≤ l.imax ∧ ∃ u v, l.jmin[a]? = some u ∧ l.jmax[a]? = some v ∧ u ≤ b ∧ (b : ℤ) < v := by
      intro a b hab
      have : ∃ i ∈ (range kept.length).filter fun i => cellOf (kept.getD i (0, 0)) = ((a : ℤ), (b : ℤ)), w i ≠ 0 := by
        by_contra hno
        push Not at hno
        apply hab
        unfold share
        rw [sum_eq_zero hno, zero_div]
      obtain ⟨i, hi, _⟩ := this
      obtain ⟨hi1, hi2⟩ := mem_filter.mp hi
      obtain ⟨a', j, u, v, hc, q1, q2, q3, q4, q5, q6⟩ := hsupp i (mem_range.mp hi1)
      rw [hc] at hi2
      obtain ⟨ea, eb⟩ := Prod.ext_iff.mp hi2
      dsimp only at ea eb
      have : a' = a := by exact_mod_cast ea
      subst this
      subst eb
      exact ⟨q1, q2, u, v, q3, q4, q5, q6⟩
    refine ⟨xo, dE, l, _, hl, rfl, ?_, ?_, hne, ?_, rfl, rfl⟩
    · intro a b
      unfold share
      exact div_nonneg (sum_nonneg fun i _ => hw0 i) hpos.le
    · unfold share
      simp only [← sum_div]
      rw [div_eq_one_iff_eq hpos.ne']
      simp only [sum_filter]
      rw [sum_congr rfl fun a _ => sum_comm, sum_comm]
      apply sum_congr rfl
      intro i hi
      obtain ⟨a, j, u, v, hc, q1, q2, q3, q4, q5, q6⟩ := hsupp i (mem_range.mp hi)
      obtain ⟨hu1, hv1⟩ := C51_inside_every_column hm.synchY hl a u v q3 q4
      rw [hc, sum_eq_single a, sum_eq_single j.toNat]
      · rw [if_pos]
        exact Prod.ext rfl (by dsimp only; omega)
      · intro b _ hb
        rw [if_neg]
        intro he
        have := (Prod.ext_iff.mp he).2
        dsimp only at this
        omega
      · intro hb
        exact absurd (mem_range.mpr (by omega)) hb
      · intro a' _ ha'
        apply sum_eq_zero
        intro b _
        rw [if_neg]
        intro he
        have := (Prod.ext_iff.mp he).1
        dsimp only at this
        omega
      · intro hb
        exact absurd (mem_range.mpr (by omega)) hb
    · intro a
      by_contra hno
      obtain ⟨_, _, u, v, q3, q4, q5, _⟩ := hne a 0 hno
      have := (C51_inside_every_column hm.synchY hl a u v q3 q4).1
      push_cast at q5
      omega

/-- C66: a run on a loaded machine never ends in an access outside an array or in a rejection of its own coordinates.  Its
faults are a refused profile, a failed search for the area, no particle left, or a waterfall without signal. -/
theorem C66_faults {L : MathLib K} {m : Run.Mach K} {P d : ℕ} {A : Turns K} (hm : Loaded m P d A) {past : K}
    {recArg : Option ℤ} {self : M (Tracked K)} {wf : ℕ → ℕ → K} {f : Fault}
    (h : runMachine L m past self (arr P m.nbins wf) recArg false = .error f) :
    (∃ e, f = .exc e ∧ Track.trackCheck P d (recArg.getD m.filmstart) 0 = .error e) ∨ findLimits L m.toArea = .error f ∨
    f ∈ ([.exc .invalidParticle, .exc .waterfallReducedToZero, .nonFinite, .exc .allZero] : List Fault) := by
  rcases run_ends (L := L) hm past recArg self wf with ⟨e, h1, he⟩ | ⟨g, h1, he⟩ | ⟨g, h1, he⟩ |
    ⟨xo, dE, l, pts, kept, w, discr, r, hr, hl, hF, hk, hw0, hpos, he⟩
  · rw [he] at h; cases h; exact Or.inl ⟨e, rfl, h1⟩
  · rw [he] at h; cases h; exact Or.inr (Or.inl h1)
  · rw [he] at h; cases h; exact Or.inr (Or.inr h1)
  · rw [he] at h; cases h

/-- C66 fails when the maximal time of the machine lies beyond the image: on the loaded machine above with a maximal time of four and a
half bins instead of four the limits pass the check of the code, and the run ends in an access outside an array. -/
theorem C66_violated_upper :
    runMach.maxDt ≤ runMach.nbins * runMach.dtbin ∧
    densityOf (runMachine libQ runMach 0 (.error .oob) (arr 3 4 runData) none false) ≠ none ∧
    ¬ (9 / 14 : ℚ) ≤ runMach.nbins * runMach.dtbin ∧
    findLimits libQ { runMach with maxDt := 9 / 14 }.toArea = .ok (-2, 3, ⟨[1, 1, 1, 1], [4, 4, 4, 4], 0, 4⟩) ∧
    runMachine libQ { runMach with maxDt := 9 / 14 } 0 (.error .oob) (arr 3 4 runData) none false = .error (.exc .indexError) := by
  refine ⟨by decide +kernel, by decide +kernel, by decide +kernel, by decide +kernel, ?_⟩
  have h : (match runMachine libQ { runMach with maxDt := 9 / 14 } 0 (.error .oob) (arr 3 4 runData) none false with
    | .ok _ => false | .error e => decide (e = .exc .indexError)) = true := by decide +kernel
  split at h
  · cases h
  · rename_i e he; rw [he, of_decide_eq_true h]

/-- a run of the loaded machine above on measured data: seven of twelve particles survive -/
example : Loaded runMach 3 1 (runTurns (fun _ => 0) fun _ => 1 / 21) ∧ Track.trackCheck 3 1 0 0 = .ok 0 ∧
    findLimits libQ runMach.toArea = .ok (-2, 3, ⟨[1, 1, 1, 1], [4, 4, 4, 4], 0, 3⟩) ∧
    densityOf (runMachine libQ runMach 0 (.error .oob) (arr 3 4 runData) none false) =
      some [0, 34/279, 0, 0, 0, 125/1674, 100/837, 0, 0, 365/1674, 215/1674, 0, 0, 0, 50/279, 265/1674] :=
  ⟨runMach_loaded, by decide +kernel, by decide +kernel, by decide +kernel⟩

/-- and a refused profile: the last one -/
example : Track.trackCheck 3 1 (-1) 0 = .error .valueError ∧
    densityOf (runMachine libQ runMach 0 (.error .oob) (arr 3 4 runData) (some (-1)) false) = none := by
  constructor <;> decide +kernel

/-! ## C67 -/

/-- C67 fails: the self-field switch of the input file has no effect on a run, for any machine, data, profile and output
mode; whatever the self-field branch would compute is not used. -/
theorem C67_violated_self_field_ignored (L : MathLib K) (m : Run.Mach K) (past : K) (self self' : M (Tracked K))
    (wf : Arr2 K) (recArg : Option ℤ) (tomoscope flag : Bool) :
    runMachine L m past self wf recArg tomoscope = runMachine L { m with selfField := flag } past self' wf recArg tomoscope := by
  have hc : ∀ t : Tracker, t.selfField = false → coordinates L m past self (recArg.getD m.filmstart) t
      = coordinates L { m with selfField := flag } past self' (recArg.getD m.filmstart) t := by
    intro t ht
    unfold coordinates
    rw [ht]
    rfl
  unfold runMachine newTracker
  by_cases h : m.synchPartX < 0
  · simp only [h, if_true]; rfl
  · simp only [h, if_false, bind_ok]
    cases tomoscope
    · simp only [Bool.false_eq_true, if_false]
      rw [hc _ rfl]
    · simp only [if_true]
      rw [hc _ rfl]
      rfl

/-- The machine above asks for self fields.  The run succeeds although the self-field computation would fail. -/
example : runMach.selfField = true ∧
    (densityOf (runMachine libQ runMach 0 (.error .oob) (arr 3 4 runData) none false)).isSome = true := by
  constructor <;> decide +kernel

/-! ## C68 -/

/-- C68: the tomoscope output does not change the result: a run with it returns the axes, density and differences of the run
without it. -/
theorem C68_same_result (L : MathLib K) (m : Run.Mach K) (past : K) (self : M (Tracked K)) (wf : Arr2 K)
    (recArg : Option ℤ) {out : Run.Out K} (h : runMachine L m past self wf recArg true = .ok out) :
    runMachine L m past self wf recArg false = .ok { out with films := [] } := by
  unfold runMachine at h ⊢
  simp only [bind_ok_iff, if_true] at h
  obtain ⟨t, ht, ⟨dE, x, y⟩, hc, o, ho, fs, hf, ⟨tr, er, ps⟩, hp, dn, hd, he⟩ := h
  have htf : t = ⟨false, false⟩ := by
    unfold newTracker at ht
    split at ht <;> cases ht
    rfl
  subst htf
  cases he
  have hc' : coordinates L m past self (recArg.getD m.filmstart) ⟨false, false⟩ = .ok (dE, x, y) := hc
  dsimp only at ho hp
  rw [ht, bind_ok]
  simp only [Bool.false_eq_true, if_false]
  rw [hc', bind_ok]
  dsimp only
  rw [ho, bind_ok, pure_eq_ok, bind_ok, hp, bind_ok]
  dsimp only
  rw [hd]
  rfl

theorem mem_pyRange {a b s : ℤ} (hs : 0 < s) {l : List ℤ} (h : pyRange a b s = .ok l) (z : ℤ) :
    z ∈ l ↔ a ≤ z ∧ z < b ∧ s ∣ z - a := by
  unfold pyRange at h
  rw [if_neg hs.ne'] at h
  dsimp only at h
  rw [if_pos hs] at h
  cases h
  unfold tab
  rw [List.mem_map]
  constructor
  · rintro ⟨k, hk, rfl⟩
    rw [List.mem_range] at hk
    have hk' : (k : ℤ) + 1 ≤ (b - a + s - 1) / s := by omega
    rw [Int.le_ediv_iff_mul_le hs] at hk'
    refine ⟨?_, ?_, ⟨k, by ring⟩⟩
    · nlinarith
    · nlinarith
  · rintro ⟨h1, h2, ⟨k, hk⟩⟩
    have hk0 : 0 ≤ k := by
      by_contra hn
      have : k ≤ -1 := by omega
      nlinarith
    refine ⟨k.toNat, ?_, ?_⟩
    · rw [List.mem_range]
      have : k + 1 ≤ (b - a + s - 1) / s := by
        rw [Int.le_ediv_iff_mul_le hs]
        nlinarith
      omega
    · rw [Int.toNat_of_nonneg hk0]; omega

theorem row_flat {n k p : ℕ} (f : ℕ → ℕ → K) (hp : p < n) : ((flat n k f).drop (p * k)).take k = tab k (f p) := by
  apply List.ext_getElem?
  intro i
  rw [List.getElem?_take, List.getElem?_drop, getElem?_tab]
  split
  · rename_i hi
    unfold flat
    rw [getElem?_tab, if_pos (idx_lt hp hi), idx_div hi, idx_mod hi]
  · rfl

theorem makePhaseSpace_share {n nbins : ℕ} {x y : ℕ → ℤ} (hx : ∀ i, i < n → 0 ≤ x i ∧ x i < nbins)
    (hy : ∀ i, i < n → 0 ≤ y i ∧ y i < nbins) {cell : ℕ → ℤ × ℤ} (hc : ∀ i, i < n → cell i = (x i, y i)) {w : ℕ → K}
    (hw0 : ∀ i, 0 ≤ w i) (hpos : 0 < ∑ i ∈ range n, w i) :
    ∃ img, Img.makePhaseSpace (tab n x) (tab n y) (tab n w) nbins = .ok (flat nbins nbins img) ∧
      normalise (flat nbins nbins img) = .ok (flat nbins nbins (share n cell w)) := by
  have ex : (tab n x) = tab n fun i => ((x i).toNat : ℤ) := tab_congr fun i hi => by have := hx i hi; omega
  have ey : (tab n y) = tab n fun i => ((y i).toNat : ℤ) := tab_congr fun i hi => by have := hy i hi; omega
  have hx' : InRange n 1 nbins fun i _ => (x i).toNat := fun i hi _ _ => by have := hx i hi; dsimp only; omega
  have hy' : InRange n 1 nbins fun i _ => (y i).toNat := fun i hi _ _ => by have := hy i hi; dsimp only; omega
  refine ⟨_, by rw [ex, ey]; exact C30_cells (fun i hi => by have := hx i hi; omega) (fun i hi => by have := hy i hi; omega) w, ?_⟩
  rw [normalise_flat (fun a b => sum_nonneg fun i _ => hw0 i) hpos]
  · congr 1
    apply flat_congr
    intro a b _ _
    unfold share
    congr 1
    apply sum_congr _ (fun _ _ => rfl)
    apply filter_congr
    intro i hi
    have h1 := hx i (mem_range.mp hi)
    have h2 := hy i (mem_range.mp hi)
    rw [hc i (mem_range.mp hi), Prod.ext_iff]
    dsimp only
    omega
  · have h := fun a => sum_cells (fun i _ => (x i).toNat) hy' w (p := 0) (by omega) (a := a)
    simp only [h]
    exact Recon.rowSum_proj hx' w (p := 0) (by omega)

/-- C68, `_partial`: the films of a tomoscope run are the profiles `filmstart, filmstart + filmstep, …` up to `filmstop`;
each comes with the row of the normalised waterfall and an image; the image holds in each cell the share of the weights of
the particles being there at that profile, provided all energies are inside the image then.  Missing: particles above or below
the image (`C68_violated_film_alias`), films past the last profile (`C68_violated_film_range`), negative steps
(`C68_violated_film_step`). -/
theorem C68_films_partial {L : MathLib K} {m : Run.Mach K} {P d : ℕ} {A : Turns K} (hm : Loaded m P d A) {past xo dE : K}
    {l : Limits} (hl : findLimits L m.toArea = .ok (xo, dE, l)) {recArg : Option ℤ} {r : ℕ}
    (hr : Track.trackCheck P d (recArg.getD m.filmstart) 0 = .ok (r : ℤ)) {self : M (Tracked K)} {wf : ℕ → ℕ → K}
    {out : Run.Out K} (h : runMachine L m past self (arr P m.nbins wf) recArg true = .ok out) (hf0 : 0 ≤ m.filmstart)
    (hs : 0 < m.filmstep) :
    ∃ pts kept w, Fills l m.snpt pts ∧ kept = (pts.filter fun c => decide (Stays L.sin m P d A past xo dE r c)) ∧
      (∀ i, 0 ≤ w i) ∧ 0 < ∑ i ∈ range kept.length, w i ∧
      out.density = flat m.nbins m.nbins (share kept.length (fun i => cellOf (kept.getD i (0, 0))) w) ∧
      (∀ z, z ∈ out.films.map Prod.fst ↔ m.filmstart ≤ z ∧ z ≤ m.filmstop ∧ m.filmstep ∣ z - m.filmstart) ∧
      ∀ z img prof, (z, img, prof) ∈ out.films → ∃ p : ℕ, p < P ∧ z = p ∧
        prof = (tab m.nbins fun b => max (wf p b) 0 / ∑ b ∈ range m.nbins, max (wf p b) 0) ∧
        ((∀ c ∈ kept, 0 ≤ (seen L.sin m P d A past xo dE r p c).2 ∧ (seen L.sin m P d A past xo dE r p c).2 < m.nbins) →
          img = flat m.nbins m.nbins
            (share kept.length (fun i => cellOf (seen L.sin m P d A past xo dE r p (kept.getD i (0, 0)))) w)) := by
  have hnb : 0 < m.nbins := by
    have := C51_limits_partial hl hm.dtbin hm.window
    omega
  obtain ⟨r', hrr, hrP, hd, hrec⟩ := trackCheck_nat hr
  have hrr' : r = r' := by exact_mod_cast hrr
  subst hrr'
  have hdE := (findLimits_ok hl).2.2.1.ne'
  have hnew : newTracker m = .ok ⟨false, false⟩ := by
    unfold newTracker; rw [if_neg (not_lt.mpr hm.synchX)]
  obtain ⟨pts, hF, hco⟩ := coords_ok hm hl hr self (t := ⟨false, true⟩) rfl
  obtain ⟨c1, c2⟩ := hco past _ rfl
  set kept := pts.filter fun c => decide (Stays L.sin m P d A past xo dE r c) with hk
  unfold runMachine at h
  rw [hnew, bind_ok] at h
  simp only [bind_ok_iff, if_true] at h
  obtain ⟨⟨dE', x', y'⟩, hc, o, ho, fs, hf, ⟨tr, er, ps⟩, hp, dn, hdn, he⟩ := h
  have hc' : coordinates L m past self (recArg.getD m.filmstart) ⟨false, true⟩ = .ok (dE', x', y') := hc
  have h0 : kept ≠ [] := by
    intro h0
    rw [c1 h0] at hc'
    cases hc'
  obtain ⟨hx, y, hyt, hy, hcc⟩ := c2 h0
  rw [hcc] at hc'
  cases hc'
  dsimp only at ho hf hp
  set x := binAt L.sin m P d A past xo dE r kept with hxd
  rw [tomogram_arr L.sqrt wf _ hx y] at ho
  obtain ⟨i1, i2, i3⟩ := initWaterfall_char (nprof := P) hnb wf
  have hiw : Tomo.initWaterfall (flat P m.nbins wf) P m.nbins
      = .ok (flat P m.nbins (normRows m.nbins fun p b => max (wf p b) 0)) := by
    by_cases ha : ∀ p b, p < P → b < m.nbins → wf p b ≤ 0
    · rw [i1 ha] at ho; cases ho
    · have ha' : ∃ p b, p < P ∧ b < m.nbins ∧ 0 < wf p b := by
        push Not at ha
        exact ha
      by_cases hb : ∃ p, p < P ∧ ∀ b, b < m.nbins → wf p b ≤ 0
      · rw [i2 ha' hb] at ho; cases ho
      · apply i3 ha'
        push Not at hb
        exact hb
  rw [hiw] at ho
  change ((run L.sqrt kept.length P m.nbins x (normRows m.nbins fun p b => max (wf p b) 0) m.niter).2).bind _ = _ at ho
  rcases C04_weights L.sqrt (by omega : 0 < P) hnb hx (normRows m.nbins fun p b => max (wf p b) 0) m.niter
    with ⟨st, w, e1, e2, hw0, hpos⟩ | e
  swap
  · rw [e] at ho; cases ho
  rw [e1] at ho
  cases ho
  dsimp only at hf hp
  rw [e2] at hp
  have hkp : ∀ i, i < kept.length → kept.getD i (0, 0) ∈ kept := by
    intro i hi
    rw [List.getD_eq_getElem _ _ hi]; exact List.getElem_mem hi
  have hxr : ∀ p, p < P → ∀ i, i < kept.length → 0 ≤ (x i p : ℤ) ∧ (x i p : ℤ) < m.nbins :=
    fun p hp i hi => by have := hx i hi p hp; omega
  have hst : ∀ i, i < kept.length → ∀ p, p < P →
      (x i p : ℤ) = ⌊(seen L.sin m P d A past xo dE r p (kept.getD i (0, 0))).1⌋ := by
    intro i hi p hp
    have hs : Stays L.sin m P d A past xo dE r (kept.getD i (0, 0)) := by
      have h2 : ∀ c, c ∈ kept → Stays L.sin m P d A past xo dE r c := by
        intro c hc
        rw [hk] at hc
        simpa using (List.mem_filter.mp hc).2
      exact h2 _ (hkp i hi)
    rw [hxd]
    unfold binAt
    rw [Int.toNat_of_nonneg (Int.floor_nonneg.mpr (hs p hp).1)]
  have hyr : ∀ i, i < kept.length → 0 ≤ y i r ∧ y i r < m.nbins := by
    intro i hi
    have h2 : ∀ c, c ∈ kept → c ∈ pts := by
      intro c hc
      rw [hk] at hc
      exact (List.mem_filter.mp hc).1
    obtain ⟨i', j, u, v, hcell, _, _, hu, hv, huj, hjv⟩ := cellOf_fills hF (h2 _ (hkp i hi))
    obtain ⟨hu1, hv1⟩ := C51_inside_every_column hm.synchY hl i' u v hu hv
    have : y i r = j := (Prod.ext_iff.mp ((hy i hi).symm.trans hcell)).2
    omega
  refine ⟨pts, kept, w, hF, hk, hw0, hpos, ?_, ?_⟩
  · obtain ⟨img, g1, g2⟩ := makePhaseSpace_share (hxr r hrP) hyr hy hw0 hpos
    unfold Img.phaseSpace at hp
    dsimp only at hp
    rw [column_rec hrP hrec, bind_ok, column_rec hrP hrec, bind_ok] at hp
    unfold Img.phaseSpaceFromCoordinates at hp
    rw [g1, bind_ok] at hp
    cases hp
    rw [g2] at hdn
    cases hdn
    cases he
    rfl
  · cases he
    dsimp only
    unfold films at hf
    simp only [bind_ok_iff] at hf
    obtain ⟨zs, hzs, rr, hrr2, hfin⟩ := hf
    split at hfin
    · cases hfin
    cases hfin
    have hone : ∀ z img prof, oneFilm m.nprofiles m.nbins
        ⟨flat P m.nbins (normRows m.nbins fun p b => max (wf p b) 0), st⟩ (arr kept.length P fun i p => (x i p : ℤ))
        (arr kept.length P y) z = .ok (z, img, prof) → m.filmstart ≤ z → ∃ p : ℕ, p < P ∧ z = p ∧
        prof = (tab m.nbins fun b => max (wf p b) 0 / ∑ b ∈ range m.nbins, max (wf p b) 0) ∧
        ((∀ c ∈ kept, 0 ≤ (seen L.sin m P d A past xo dE r p c).2 ∧ (seen L.sin m P d A past xo dE r p c).2 < m.nbins) →
          img = flat m.nbins m.nbins
            (share kept.length (fun i => cellOf (seen L.sin m P d A past xo dE r p (kept.getD i (0, 0)))) w)) := by
      intro z img prof hz hz0
      obtain ⟨p, rfl⟩ := Int.eq_ofNat_of_zero_le (hf0.trans hz0)
      unfold oneFilm Img.createPhaseSpaceImage at hz
      simp only [bind_ok_iff] at hz
      obtain ⟨im, ⟨cx, hcx, cy, hcy, ps', hps', him⟩, pr, hpr, heq⟩ := hz
      have hpP : p < P := by
        by_contra hn
        rw [Img.column_oob _ (Or.inl (by omega))] at hcx
        cases hcx
      rw [Img.column_arr _ hpP] at hcx hcy
      cases hcx; cases hcy
      rw [hm.nprofiles, npGet_tab _ hpP] at hpr
      cases heq
      cases hpr
      refine ⟨p, hpP, rfl, ?_, ?_⟩
      · rw [row_flat _ hpP]
        rfl
      · intro hin
        obtain ⟨img', g1, g2⟩ := makePhaseSpace_share (n := kept.length) (nbins := m.nbins) (x := fun i => (x i p : ℤ))
          (y := fun i => y i p) (w := w)
          (cell := fun i => cellOf (seen L.sin m P d A past xo dE r p (kept.getD i (0, 0)))) (hxr p hpP) (by
            intro i hi
            obtain ⟨q1, q2⟩ := hin _ (hkp i hi)
            rw [hyt, trunc_nonneg q1]
            refine ⟨Int.floor_nonneg.mpr q1, ?_⟩
            rw [Int.floor_lt]; exact_mod_cast q2) (by
            intro i hi
            obtain ⟨q1, q2⟩ := hin _ (hkp i hi)
            rw [hst i hi p hpP, hyt, trunc_nonneg q1]
            rfl) hw0 hpos
        rw [e2, g1] at hps'
        cases hps'
        have : normalise (flat m.nbins m.nbins img') = .ok img := him
        rw [g2] at this
        cases this
        rfl
    constructor
    · intro z
      have hmap : fs.map Prod.fst = zs := by
        apply List.ext_getElem?
        intro i
        rw [List.getElem?_map]
        rcases hzi : zs[i]? with _ | z'
        · rw [List.getElem?_eq_none (by rw [mapM_length hrr2]; exact List.getElem?_eq_none_iff.mp hzi)]; rfl
        · obtain ⟨v, hv1, hv2⟩ := mapM_getElem hrr2 hzi
          rw [hv2]
          unfold oneFilm at hv1
          simp only [bind_ok_iff] at hv1
          obtain ⟨_, _, _, _, hv⟩ := hv1
          cases hv
          rfl
      rw [hmap, mem_pyRange hs hzs]
      constructor <;> rintro ⟨q1, q2, q3⟩ <;> exact ⟨q1, by omega, q3⟩
    · intro z img prof hmem
      obtain ⟨i, hi⟩ := List.mem_iff_getElem?.mp hmem
      have hil : i < zs.length := by
        rw [← mapM_length hrr2]; exact (List.getElem?_eq_some_iff.mp hi).1
      obtain ⟨v, hv1, hv2⟩ := mapM_getElem hrr2 (List.getElem?_eq_getElem hil)
      rw [hi] at hv2
      cases hv2
      have hz : zs[i] = z := by
        unfold oneFilm at hv1
        simp only [bind_ok_iff] at hv1
        obtain ⟨_, _, _, _, hv⟩ := hv1
        cases hv
        rfl
      rw [hz] at hv1
      apply hone z img prof hv1
      exact ((mem_pyRange hs hzs z).mp (by rw [← hz]; exact List.getElem_mem hil)).1

/-- two films of the machine above, all energies inside the image -/
example : filmsOf (runMachine libQ runMach 0 (.error .oob) (arr 3 4 runData) none true) =
    .ok [(0, [0, 34/279, 0, 0, 0, 125/1674, 100/837, 0, 0, 365/1674, 215/1674, 0, 0, 0, 50/279, 265/1674]),
      (1, [0, 0, 0, 0, 0, 34/279, 100/837, 0, 0, 125/1674, 215/1674, 265/1674, 0, 365/1674, 50/279, 0])] := by decide +kernel

/-- the same machine with an energy step: the particles gain seven units of energy between the first profiles -/
def stepMach : Run.Mach ℚ := { runMach with deltaE0 := [0, -7, 0], driftCoef := [2/21, 1/100, 0] }

/-- C68 fails for particles above the image.  At profile 1 the five particles are at `(1,3), (2,3), (3,3), (1,4), (2,4)`.  The
film shows weight in the cells `(2,0)` and `(3,0)`, where no particle is. -/
theorem C68_violated_film_alias :
    coordinates libQ stepMach 0 (.error .oob) 0 ⟨false, true⟩ =
      .ok (3, ⟨3, [[0, 1, 1], [1, 2, 2], [2, 3, 3], [2, 1, 0], [3, 2, 1]]⟩,
        ⟨3, [[1, 3, 3], [1, 3, 3], [1, 3, 3], [2, 4, 4], [2, 4, 4]]⟩) ∧
    ∃ first, filmsOf (runMachine libQ stepMach 0 (.error .oob) (arr 3 4 runData) none true) = .ok [first,
      (1, [0, 0, 0, 0, 0, 0, 0, 14/209, 81/418, 0, 0, 263/1254, 173/627, 0, 0, 53/209])] := by
  refine ⟨by decide +kernel,
    (0, [0, 14/209, 0, 0, 0, 263/1254, 0, 0, 0, 53/209, 81/418, 0, 0, 0, 173/627, 0]), by decide +kernel⟩

/-- C68 fails: with a particle above the image in its last column the run stops with `std::out_of_range` while writing the
films, although the reconstruction succeeded. -/
theorem C68_violated_film_stops :
    filmsOf (runMachine libQ { runMach with deltaE0 := [0, -7, 0] } 0 (.error .oob) (arr 3 4 runData) none true)
      = .error (.exc .outOfRange) ∧
    (densityOf (runMachine libQ { runMach with deltaE0 := [0, -7, 0] } 0 (.error .oob) (arr 3 4 runData) none false)).isSome
      = true := by
  constructor <;> decide +kernel

/-- C68 fails: the last film is not compared with the number of profiles.  Asking for a film past the last profile stops the
run with an IndexError after the reconstruction. -/
theorem C68_violated_film_range :
    filmsOf (runMachine libQ { runMach with filmstop := 3, filmstep := 3 } 0 (.error .oob) (arr 3 4 runData) none true)
      = .error (.exc .indexError) := by
  decide +kernel

/-- C68 fails: a negative film step passes the input assertions, gives no films, and the run stops with an
UnboundLocalError after the reconstruction, for every machine and all data. -/
theorem C68_violated_film_step (m : Run.Mach K) (o : TomoOut K) (x y : Arr2 ℤ) (h1 : m.filmstart ≤ m.filmstop)
    (h2 : m.filmstep < 0) : films m o x y = .error (.exc .unboundLocalError) := by
  have hr : pyRange m.filmstart (m.filmstop + 1) m.filmstep = .ok [] := by
    unfold pyRange
    rw [if_neg h2.ne]
    dsimp only
    rw [if_neg (by omega)]
    have : (m.filmstart - (m.filmstop + 1) - m.filmstep - 1) / -m.filmstep ≤ 0 := by
      have : (m.filmstart - (m.filmstop + 1) - m.filmstep - 1) / -m.filmstep < 1 := by
        rw [Int.ediv_lt_iff_lt_mul (by omega)]
        omega
      omega
    rw [Int.toNat_of_nonpos this]
    rfl
  unfold films
  rw [hr, bind_ok]
  rfl

example : filmsOf (runMachine libQ { runMach with filmstep := -1 } 0 (.error .oob) (arr 3 4 runData) none true)
    = .error (.exc .unboundLocalError) := by decide +kernel

end Verif.Props

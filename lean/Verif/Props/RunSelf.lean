import Verif.Lemmas.RunSelf
import Verif.Props.RunGpu

/-!
# The program that shows all films, with and without self fields (C114)
-/

set_option linter.unusedSectionVars false

namespace Verif.Props
open Verif.Part Verif.Psi Verif.Mch Verif.Asrt Verif.Spec Verif.Run Verif.RunSelf Finset

variable {K : Type} [Field K] [LinearOrder K] [IsStrictOrderedRing K] [FloorRing K]

/-! ## The films do not disturb each other -/

theorem oneFilm_rescaled (L : MathLib K) (m : Run.Mach K) (past : K) (t : Option (Table K)) {P nb : ℕ} {wf : ℕ → ℕ → K} {a : Arr2 K}
    (h : Rescaled P nb wf a) (film : ℤ) :
    RunSelf.oneFilm L m past t a film = RunSelf.oneFilm L m past t (arr P nb wf) film := by
  unfold RunSelf.oneFilm
  cases RunSelf.coords L m past t film with
  | error e => rfl
  | ok c =>
    rw [bind_ok, bind_ok]
    dsimp only
    rw [tomogramX_eq (y := c.1) L.sqrt a rfl rfl, tomogramX_eq (y := c.1) L.sqrt (arr P nb wf) rfl rfl, h.tomogram]

/-- a film that was made is one `track` accepts -/
theorem oneFilm_check {L : MathLib K} {m : Run.Mach K} {past : K} {t : Option (Table K)} {a : Arr2 K} {film : ℤ} {o : List K × List K}
    (h : RunSelf.oneFilm L m past t a film = .ok o) : ∃ r, Track.trackCheck m.nprofiles m.dturns film 0 = .ok r := by
  cases hc : Track.trackCheck m.nprofiles m.dturns film 0 with
  | ok r => exact ⟨r, rfl⟩
  | error e =>
    have : RunSelf.tracked L m past t film = .error (.exc e) := by
      cases t with
      | some t =>
        change trackSelf L m t film = _
        unfold trackSelf
        rw [hc]
      | none =>
        change trackCoords L m past film = _
        unfold trackCoords Run.track
        rw [hc]
        rfl
    unfold RunSelf.oneFilm RunSelf.coords at h
    rw [this] at h
    cases h

theorem show_ok {P nb : ℕ} {wf : ℕ → ℕ → K} (hsum : ∀ p, p < P → 0 < ∑ b ∈ range nb, wf p b) {a : Arr2 K}
    (h : Rescaled P nb wf a) {d : ℤ} {film : ℤ} {r : ℤ} (hc : Track.trackCheck P d film 0 = .ok r) :
    ∃ s, Short.show_ ⟨none, a⟩ film = .ok s := by
  obtain ⟨c, hc', rfl⟩ := h
  rw [C23_accepts_iff_partial] at hc
  obtain ⟨⟨h1, h2, h3⟩, -⟩ := hc
  obtain ⟨k, rfl⟩ := Int.eq_ofNat_of_zero_le h1
  have hk : k < P := by omega
  have hg : npGet (arr P nb fun p b => c p * wf p b).rows film = .ok (tab nb fun b => c k * wf k b) := by
    rw [arr_rows]
    unfold npGet
    dsimp only
    rw [length_tab]
    have : (if film < 0 then film + (P : ℤ) else film) = (k : ℤ) := by split_ifs <;> omega
    rw [this]
    rw [if_pos h1, Int.toNat_natCast, getElem?_tab, if_pos hk]
  unfold Short.show_
  rw [hg, bind_ok, sum_tab, ← mul_sum]
  have hpos : 0 < c k * ∑ b ∈ range nb, wf k b := mul_pos (hc' k) (hsum k hk)
  have hmap : (tab nb fun b => c k * wf k b).mapM (fun v => FDiv.fdiv v (c k * ∑ b ∈ range nb, wf k b))
      = .ok (tab nb fun b => c k * wf k b / (c k * ∑ b ∈ range nb, wf k b)) :=
    mapM_tab (g := fun v => v / (c k * ∑ b ∈ range nb, wf k b)) _ _ fun b _ => fdiv_ok hpos.ne'
  rw [hmap, bind_ok]
  exact ⟨_, rfl⟩

theorem loop_rescaled {L : MathLib K} {m : Run.Mach K} {past : K} {t : Option (Table K)} {P nb : ℕ} (hm : m.nprofiles = P)
    {wf : ℕ → ℕ → K} (hsum : ∀ p, p < P → 0 < ∑ b ∈ range nb, wf p b) (fs : List ℤ) :
    ∀ a, Rescaled P nb wf a → RunSelf.loop L m past t fs a =
      fs.mapM fun f => (RunSelf.oneFilm L m past t (arr P nb wf) f).map fun r => (f, r) := by
  induction fs with
  | nil => intro a _; rfl
  | cons f fs ih =>
    intro a ha
    rw [List.mapM_cons]
    unfold RunSelf.loop
    rw [oneFilm_rescaled L m past t ha]
    cases ho : RunSelf.oneFilm L m past t (arr P nb wf) f with
    | error e => rfl
    | ok o =>
      obtain ⟨r, hr⟩ := oneFilm_check ho
      rw [hm] at hr
      obtain ⟨s, hs⟩ := show_ok hsum ha hr
      rw [bind_ok, hs, bind_ok, ih _ (show_rescaled hsum ha hs).2]
      rfl

/-- C114: the pictures are those of the films made one by one from the profiles as they were loaded, although each picture
divides a row of the loaded profiles by its sum.  Every row has a positive sum; any table of self fields, any step. -/
theorem C114_films (L : MathLib K) (e tiny : K) (savgol : Arr2 K → Verif.M (Arr2 K)) {m : Run.Mach K} (c : Fields K) (past : K)
    {P nb : ℕ} (hm : m.nprofiles = P) {wf : ℕ → ℕ → K} (hsum : ∀ p, p < P → 0 < ∑ b ∈ range nb, wf p b) :
    RunSelf.films L e tiny savgol m c past (arr P nb wf) = (do
      let _ ← newTracker m
      let t ← RunSelf.enable L e tiny savgol m c (arr P nb wf)
      let fs ← pyRange m.filmstart m.filmstop m.filmstep
      fs.mapM fun f => (RunSelf.oneFilm L m past t (arr P nb wf) f).map fun r => (f, r)) := by
  unfold RunSelf.films
  simp only [loop_rescaled hm hsum _ _ (Rescaled.refl P nb wf)]

/-! ## Without self fields -/

/-- C114: without self fields each film is the density of a fresh run of `tomo_run` for that profile, with the same
discrepancies; where that run raises, the film raises the same. -/
theorem C114_plain {L : MathLib K} {m : Run.Mach K} {P d : ℕ} {A : Turns K} (hm : Loaded m P d A) (past past' : K)
    (self : Verif.M (Tracked K)) (wf : ℕ → ℕ → K) (film : ℤ) :
    RunSelf.oneFilm L m past none (arr P m.nbins wf) film
      = (Run.runMachine L m past' self (arr P m.nbins wf) (some film) false).map fun o => (o.density, o.diff) := by
  rw [C113_memory_behind hm past' past self self wf (some film)]
  have hnew : newTracker m = .ok ⟨false, false⟩ := by
    unfold newTracker; rw [if_neg (not_lt.mpr hm.synchX)]
  unfold Run.runMachine RunSelf.oneFilm
  rw [hnew, bind_ok]
  simp only [Bool.false_eq_true, if_false, Option.getD_some]
  rcases hr : Track.trackCheck P d film 0 with e | r
  · rw [coordinates_check (by rw [hm.nprofiles, hm.dturns]; exact hr)]
    have : RunSelf.tracked L m past none film = .error (.exc e) := by
      change trackCoords L m past film = _
      unfold trackCoords Run.track
      rw [hm.nprofiles, hm.dturns, hr]
      rfl
    unfold RunSelf.coords
    rw [this]
    rfl
  obtain ⟨r, rfl, hrP, hd, hrec⟩ := trackCheck_nat hr
  rcases hl : findLimits L m.toArea with f | ⟨xo, dE, l⟩
  · rw [coordinates_limits (by rw [hm.nprofiles, hm.dturns]; exact hr) hl]
    have : RunSelf.tracked L m past none film = .error f := by
      change trackCoords L m past film = _
      unfold trackCoords Run.track
      rw [hm.nprofiles, hm.dturns, hr]
      dsimp only
      rw [hl]
      rfl
    unfold RunSelf.coords
    rw [this]
    rfl
  obtain ⟨pts, hF, hpts⟩ := dist_ok hm hl hrP
  have ht := plain_tracked hm hl hr hpts past
  obtain ⟨kept, hk⟩ : ∃ kept, kept = (pts.filter fun c => decide (InAll P m.nbins (seen L.sin m P d A past xo dE r) c)) := ⟨_, rfl⟩
  have hco := ready_seen (by omega : 0 < P) (seen L.sin m P d A past xo dE r) pts hk
  set X := arr kept.length P fun i p => ((binsOf (seen L.sin m P d A past xo dE r) kept i p : ℕ) : ℤ) with hX
  set Y := arr kept.length P fun i p => trunc (seen L.sin m P d A past xo dE r p (kept.getD i (0, 0))).2 with hY
  have h1 : RunSelf.coords L m past none film = if kept = [] then .error (.exc .invalidParticle) else .ok (X, Y) := by
    unfold RunSelf.coords
    rw [ht, bind_ok]
    exact hco
  have h2 : Run.coordinates L m past self film ⟨false, false⟩ = (RunSelf.coords L m past none film).bind fun z => .ok (dE, z.1, z.2) := by
    unfold RunSelf.coords Run.coordinates
    change (RunSelf.tracked L m past none film).bind _ = _
    rw [ht]
    rfl
  rw [h2, h1]
  split_ifs
  · rfl
  · have e1 : ((Except.ok (X, Y) : Verif.M _).bind fun z => Except.ok (dE, z.1, z.2)) = .ok (dE, X, Y) := rfl
    rw [e1, bind_ok, bind_ok]
    dsimp only
    rw [tomogramX_eq (x := X) (y := Y) L.sqrt (arr P m.nbins wf) (by simp [hX, hY]) rfl]
    cases Run.tomogram L.sqrt (arr P m.nbins wf) X Y m.niter with
    | error e => rfl
    | ok o =>
      rw [bind_ok, bind_ok]
      unfold Img.createPhaseSpaceImage Img.phaseSpace
      dsimp only
      cases Img.column X film with
      | error e => rfl
      | ok cx =>
        cases Img.column Y film with
        | error e => rfl
        | ok cy =>
          rw [bind_ok, bind_ok]
          unfold Img.phaseSpaceFromCoordinates
          rw [bind_ok, bind_ok]
          cases Img.makePhaseSpace cx cy o.st.weights m.nbins with
          | error e => rfl
          | ok ps =>
            change (Run.normalise ps).bind _ = ((Run.normalise ps).bind _).map _
            cases Run.normalise ps <;> rfl

/-! ## With self fields -/

/-- C114, the table: with the flag set and the profiles filtered to `D`, the tracker is given a wrap interval of a whole number
of RF periods, the least covering the image at the reference turn, and the voltages of C63; with revolution frequencies that do
not fall when the magnetic field rises, and do not rise otherwise, the interval covers the image of every profile `track` accepts. -/
theorem C114_table {L : MathLib K} (hpi : 0 < L.pi) (e tiny : K) (savgol : Arr2 K → Verif.M (Arr2 K)) {m : Run.Mach K} {P d : ℕ}
    {A : Turns K} (hm : Loaded m P d A) (hP : 2 ≤ P) (hd : 0 < d) (hflag : m.selfField = true) (hnb : 0 < m.nbins) (hh : 0 < m.hNum)
    (hom : ∀ t, 0 < A.om t) {b : ℕ → K} (hb : m.beta0 = tab ((P - 1) * d + 1) b) (hb0 : ∀ t, b t ≠ 0) (c : Fields K) (wf : Arr2 K)
    {D : ℕ → ℕ → K} (hD : SelfF.standardFilter savgol wf = .ok (arr P m.nbins D)) :
    ∃ (wr : K) (k l : ℕ), wr = k * (2 * L.pi) ∧
      m.nbins * (m.hNum * refOmega c.bdot A.om ((P - 1) * d) * m.dtbin) ≤ wr ∧
      wr < m.nbins * (m.hNum * refOmega c.bdot A.om ((P - 1) * d) * m.dtbin) + 2 * L.pi ∧ 0 < wr ∧
      RunSelf.enable L e tiny savgol m c wf = .ok (some ⟨wr, tab (P - 1) fun p => tab (l + 1) fun j =>
        if j < m.nbins then 1 / 2 * c.charge * (selfCoeff e L.pi tiny L.c c.gCoupling c.zwallOverN m.dtbin (A.om (p * d)) (b (p * d)) * D p j
          + selfCoeff e L.pi tiny L.c c.gCoupling c.zwallOverN m.dtbin (A.om ((p + 1) * d)) (b ((p + 1) * d)) * D (p + 1) j) else 0⟩) ∧
      ((∀ s t, s ≤ t → if 0 < c.bdot then A.om s ≤ A.om t else A.om t ≤ A.om s) →
        ∀ r, r * d < (P - 1) * d → m.nbins * radPerBin m A (r * d) ≤ wr) := by
  have S : SelfSetup (RunSelf.selfMach m c) (trackMach m 0) m.phi12 (selfData m ⟨0, []⟩ 0 1) P ((P - 1) * d) d
      (ring m P d A m.phi12) A.om b := by
    refine ⟨hm.nprofiles, hP, hm.dturns, hd, rfl, hm.om, hom, hb, hb0, hh, hm.dtbin, hnb, rfl, rfl, rfl, one_ne_zero, ?_⟩
    exact (agreesS (xo := 0) (dE := 1) (wr := 1) (l := 0) (v := fun _ _ => 0) hm (by omega) one_ne_zero one_pos
      (fun t _ => mul_pos (mul_pos hh (hom t)) hm.dtbin)).mach
  obtain ⟨wr, l, h1, h2⟩ := C63_table S L hpi e tiny c.charge savgol wf .standard ⟨none, none, none, none⟩ D hD
  obtain ⟨wr', l', k, g1, g2, g3, g4, -⟩ := C44_wrap_interval S L hpi
  rw [h1] at g1
  have hwr : wr = wr' := congrArg Prod.fst (Except.ok.inj g1)
  subst hwr
  refine ⟨wr, k, l, g2, g3, g4, ?_, ?_, ?_⟩
  · exact lt_of_lt_of_le (mul_pos (Nat.cast_pos.2 hnb) (mul_pos (mul_pos hh (refOmega_pos S)) hm.dtbin)) g3
  · unfold RunSelf.enable
    rw [if_pos hflag, h2]
    rfl
  · intro hmon r hr
    refine le_trans ?_ g3
    apply mul_le_mul_of_nonneg_left _ (Nat.cast_nonneg _)
    apply mul_le_mul_of_nonneg_right _ hm.dtbin.le
    apply mul_le_mul_of_nonneg_left _ hh.le
    change A.om (r * d) ≤ refOmega c.bdot A.om ((P - 1) * d)
    unfold refOmega
    by_cases hbd : 0 < c.bdot
    · have := hmon (r * d) ((P - 1) * d - 1) (by omega)
      rw [if_pos hbd] at this
      rw [if_pos hbd]; exact this
    · have := hmon 0 (r * d) (by omega)
      rw [if_neg hbd] at this
      rw [if_neg hbd]; exact this

/-- C114, `_partial`: with self fields a film is made from the particles whose positions, folded into the wrap interval, are
inside the image at every profile; its image holds in each cell the share of the weights of the particles starting there, and the
weights are those the reconstruction finds for their bins.  Missing: frequencies that fall below the reference (`hslack`, C44), and
particles that leave the image are folded back instead of being lost (`C114_violated_wrapped`). -/
theorem C114_self_partial {L : MathLib K} {m : Run.Mach K} {P d : ℕ} {A : Turns K} (hm : Loaded m P d A) {xo dE : K} {l : Limits}
    (hl : findLimits L m.toArea = .ok (xo, dE, l)) {film : ℤ} {r : ℕ} (hr : Track.trackCheck P d film 0 = .ok (r : ℤ))
    (past : K) {wr : K} (hwr : 0 < wr) {k : ℕ} {v : ℕ → ℕ → K} (hpos : ∀ t, t ≤ (P - 1) * d → 0 < radPerBin m A t)
    (hslack : ∀ t, t ≤ (P - 1) * d → wr ≤ ((k : K) + 1) * radPerBin m A t) (hfold : m.nbins * radPerBin m A (r * d) ≤ wr)
    (wf : ℕ → ℕ → K) :
    let S := seenS L.sin m d A (selfRing m P d A xo wr (tableV v k)) dE r
    let t : Table K := ⟨wr, tab (P - 1) fun p => tab (k + 1) (v p)⟩
    ∃ pts kept : List (K × K), Fills l m.snpt pts ∧ kept = (pts.filter fun c => decide (InAll P m.nbins S c)) ∧
      ((∃ f, f ∈ ([.exc .invalidParticle, .exc .waterfallReducedToZero, .nonFinite, .exc .allZero] : List Fault) ∧
        RunSelf.oneFilm L m past (some t) (arr P m.nbins wf) film = .error f) ∨
      (InRange kept.length P m.nbins (binsOf S kept) ∧ ∃ (st : Recon.RState K) (w : ℕ → K),
        (run L.sqrt kept.length P m.nbins (binsOf S kept) (normRows m.nbins fun p b => max (wf p b) 0) m.niter).2 = .ok st ∧
        st.weights = tab kept.length w ∧ (∀ i, 0 ≤ w i) ∧ 0 < ∑ i ∈ range kept.length, w i ∧
        RunSelf.oneFilm L m past (some t) (arr P m.nbins wf) film
          = .ok (flat m.nbins m.nbins (share kept.length (fun i => cellOf (kept.getD i (0, 0))) w), st.discr))) := by
  intro S t
  obtain ⟨r', hrr, hrP, hd, _⟩ := trackCheck_nat hr
  have hrr' : r = r' := by exact_mod_cast hrr
  subst hrr'
  have hrd : r * d ≤ (P - 1) * d := Nat.mul_le_mul_right d (by omega)
  have hdE := (findLimits_ok hl).2.2.1.ne'
  obtain ⟨pts, hF, hpts⟩ := dist_ok hm hl hrP
  refine ⟨pts, _, hF, rfl, ?_⟩
  refine film_ends hm hl hr hF ?_ (self_tracked hm hl hr hpts past hwr hpos hslack) rfl wf
  intro c hc
  obtain ⟨h1, h2, -, -⟩ := cell_range hm hl hF hc
  refine seenS_self hdE hwr (hpos _ hrd) h1 (lt_of_lt_of_le ?_ hfold)
  exact mul_lt_mul_of_pos_right h2 (hpos _ hrd)

/-- C114, `_partial`: a self field without voltages (no charge, or no coupling) changes nothing, as long as no particle of the
area leaves the wrap interval.  Missing: particles that do leave it (`C114_violated_wrapped`). -/
theorem C114_zero_partial {L : MathLib K} {m : Run.Mach K} {P d : ℕ} {A : Turns K} (hm : Loaded m P d A) {xo dE : K} {l : Limits}
    (hl : findLimits L m.toArea = .ok (xo, dE, l)) {film : ℤ} {r : ℕ} (hr : Track.trackCheck P d film 0 = .ok (r : ℤ))
    (past past' : K) (self : Verif.M (Tracked K)) {wr : K} (hwr : 0 < wr) {k : ℕ}
    (hpos : ∀ t, t ≤ (P - 1) * d → 0 < radPerBin m A t)
    (hslack : ∀ t, t ≤ (P - 1) * d → wr ≤ ((k : K) + 1) * radPerBin m A t)
    (hin : ∀ pts, Fills l m.snpt pts → ∀ c ∈ pts, ∀ p, p < P → 0 ≤ (seen L.sin m P d A m.phi12 xo dE r p c).1 ∧
      (seen L.sin m P d A m.phi12 xo dE r p c).1 * radPerBin m A (p * d) < wr) (wf : ℕ → ℕ → K) :
    RunSelf.oneFilm L m past (some ⟨wr, tab (P - 1) fun _ => tab (k + 1) fun _ => 0⟩) (arr P m.nbins wf) film
      = (Run.runMachine L m past' self (arr P m.nbins wf) (some film) false).map fun o => (o.density, o.diff) := by
  rw [← C114_plain hm m.phi12 past' self wf film]
  obtain ⟨r', hrr, hrP, hd, _⟩ := trackCheck_nat hr
  have hrr' : r = r' := by exact_mod_cast hrr
  subst hrr'
  obtain ⟨pts, hF, hpts⟩ := dist_ok hm hl hrP
  have h1 := self_tracked hm hl hr hpts past hwr (k := k) (v := fun _ _ => 0) hpos hslack
  have h2 := plain_tracked hm hl hr hpts m.phi12
  have hV : ∀ p j, tableV (fun _ _ => (0 : K)) k p j = 0 := by
    intro p j
    unfold tableV
    split <;> rfl
  have hs : ∀ p, p < P → ∀ j, j < pts.length →
      seenS L.sin m d A (selfRing m P d A xo wr (tableV (fun _ _ => 0) k)) dE r p (pts.getD j (0, 0))
        = seen L.sin m P d A m.phi12 xo dE r p (pts.getD j (0, 0)) := by
    intro p hp j hj
    have hpd : p * d ≤ (P - 1) * d := Nat.mul_le_mul_right d (by omega)
    have hmem : pts.getD j (0, 0) ∈ pts := by
      rw [List.getD_eq_getElem _ _ hj]; exact List.getElem_mem hj
    obtain ⟨q1, q2⟩ := hin pts hF _ hmem p hp
    exact seenS_zero hV hwr (hpos _ hpd) q1 q2
  have e : RunSelf.tracked L m past (some ⟨wr, tab (P - 1) fun _ => tab (k + 1) fun _ => 0⟩) film
      = RunSelf.tracked L m m.phi12 none film := by
    rw [h1, h2]
    congr 2
    · exact arr_congr fun p j hp hj => by rw [hs p hp j hj]
    · exact arr_congr fun p j hp hj => by rw [hs p hp j hj]
  unfold RunSelf.oneFilm RunSelf.coords
  rw [e]

/-! ## Concrete cases -/

/-- functions for the examples: as `libQ`, with an RF period that the image of `runMach` covers exactly -/
def libW : MathLib ℚ := { libQ with pi := 2 / 7 }

/-- no smoothing -/
def noSmooth : Arr2 ℚ → Verif.M (Arr2 ℚ) := fun a => .ok a

/-- no charge -/
def noCharge : Fields ℚ := ⟨0, 0, -1, 0⟩

/-- two films without self fields -/
example : RunSelf.films libQ 1 1 noSmooth { runMach with selfField := false, filmstop := 2 } noCharge 0 (arr 3 4 runData) =
    .ok [(0, [0, 34/279, 0, 0, 0, 125/1674, 100/837, 0, 0, 365/1674, 215/1674, 0, 0, 0, 50/279, 265/1674],
        [929/87480, 2443109/279258030]),
      (1, [0, 37/392, 51/490, 0, 0, 157/1960, 103/980, 239/1960, 0, 151/1960, 243/1960, 26/245, 0, 0, 367/1960, 0],
        [1/200, 77719/30105600])] := by decide +kernel

/-- a charge: the particles gain energy in the field of the profiles, and the image changes -/
example : RunSelf.films libW 1 1 noSmooth runMach ⟨0, 0, -1, 1⟩ 0 (arr 3 4 runData) =
    .ok [(0, [0, 77/1620, 163/1215, 203/4860, 0, 103/1620, 107/1620, 65/972, 0, 419/4860, 133/1620, 22/243, 0, 89/810, 509/4860,
      259/2430], [139/24300, 7883/1944000])] := by decide +kernel

/-- the hypotheses of `C114_table` and `C114_self_partial` for this machine -/
example : (∀ p, p < 3 → 0 < ∑ b ∈ range 4, runData p b) ∧ runMach.selfField = true ∧
    SelfF.standardFilter noSmooth (arr 3 4 runData) = .ok (arr 3 4 fun p b => if p = 0 then ((b : ℚ) + 1) / 10 else 1 / 4) ∧
    (∀ t, (4 : ℚ) / 7 ≤ ((4 : ℕ) + 1) * radPerBin runMach (runTurns (fun _ => 0) fun _ => 1 / 21) t) ∧
    (∀ t, runMach.nbins * radPerBin runMach (runTurns (fun _ => 0) fun _ => 1 / 21) t ≤ 4 / 7) := by
  refine ⟨by decide +kernel, rfl, by decide +kernel, fun t => ?_, fun t => ?_⟩
  · show (4 : ℚ) / 7 ≤ ((4 : ℕ) + 1) * (1 * 1 * (1 / 7)); norm_num
  · show ((4 : ℕ) : ℚ) * (1 * 1 * (1 / 7)) ≤ 4 / 7; norm_num

/-- C114 fails for particles that leave the image.  There is no charge, so no self field; the image covers one RF period.
Without the flag five particles are lost and the film shows the other seven; with the flag they are folded back into the image and
the film shows all twelve. -/
theorem C114_violated_wrapped :
    RunSelf.enable libW 1 1 noSmooth runMach noCharge (arr 3 4 runData)
      = .ok (some ⟨4/7, [[0, 0, 0, 0, 0], [0, 0, 0, 0, 0]]⟩) ∧
    RunSelf.films libW 1 1 noSmooth { runMach with selfField := false } noCharge 0 (arr 3 4 runData) =
      .ok [(0, [0, 34/279, 0, 0, 0, 125/1674, 100/837, 0, 0, 365/1674, 215/1674, 0, 0, 0, 50/279, 265/1674],
        [929/87480, 2443109/279258030])] ∧
    RunSelf.films libW 1 1 noSmooth runMach noCharge 0 (arr 3 4 runData) =
      .ok [(0, [0, 49/810, 23/405, 47/810, 0, 29/405, 59/810, 2/27, 0, 5/54, 38/405, 77/810, 0, 44/405, 89/810, 43/405],
        [11/5400, 113/81000])] := by
  refine ⟨by decide +kernel, by decide +kernel, by decide +kernel⟩

/-- C114 fails for the last film: the input file names the last profile to reconstruct, and the loop stops before it.  A machine
asked for one film shows none, where `tomo_run` with tomoscope output makes it. -/
theorem C114_violated_last_film :
    (∀ (L : MathLib K) (e tiny : K) (savgol : Arr2 K → Verif.M (Arr2 K)) (m : Run.Mach K) (c : Fields K) (past : K) (wf : Arr2 K) out,
      0 < m.filmstep → RunSelf.films L e tiny savgol m c past wf = .ok out → ∀ z ∈ out.map Prod.fst, z < m.filmstop) ∧
    RunSelf.films libQ 1 1 noSmooth { runMach with filmstop := 0 } noCharge 0 (arr 3 4 runData) = .ok [] ∧
    (filmsOf (runMachine libQ { runMach with filmstop := 0 } 0 (.error .oob) (arr 3 4 runData) none true)).map
      (fun l => l.map Prod.fst) = .ok [0] := by
  refine ⟨?_, by decide +kernel, by decide +kernel⟩
  intro L e tiny savgol m c past wf out hs h z hz
  unfold RunSelf.films at h
  simp only [bind_ok_iff] at h
  obtain ⟨_, _, t, _, fs, hf, h⟩ := h
  have key : ∀ (fs : List ℤ) (a : Arr2 K) out, RunSelf.loop L m past t fs a = .ok out → out.map Prod.fst = fs := by
    intro fs
    induction fs with
    | nil => intro a out h; cases h; rfl
    | cons f fs ih =>
      intro a out h
      unfold RunSelf.loop at h
      simp only [bind_ok_iff] at h
      obtain ⟨r, _, s, _, rest, hrest, h⟩ := h
      cases h
      rw [List.map_cons, ih _ _ hrest]
  rw [key fs wf out h] at hz
  exact ((mem_pyRange hs hf z).mp hz).2.1

end Verif.Props

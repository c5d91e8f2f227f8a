import Verif.Spec.RunSelf
import Verif.Props.Run
import Verif.Props.SelfField
import Verif.Props.Shortcuts

/-! Helper lemmas about `Model/RunSelf.lean`. -/

set_option linter.unusedSectionVars false

namespace Verif.RunSelf
open Verif.Part Verif.Psi Verif.Mch Verif.Asrt Verif.Spec Verif.Run Finset

variable {K : Type} [Field K] [LinearOrder K] [IsStrictOrderedRing K] [FloorRing K]

theorem kept_all (P nb : ℕ) (S : ℕ → K × K → K × K) (pts : List (K × K)) :
    pts.filter (fun c => decide (InAll P nb S c)) =
      (keptOf P pts.length (fun p j => (S p (pts.getD j (0, 0))).1) (nb : K)).map fun j => pts.getD j (0, 0) := by
  rw [filter_eq_map_getD pts (0, 0)]
  congr 1
  unfold keptOf
  apply List.filter_congr
  intro j _
  apply decide_eq_decide.mpr
  unfold InAll
  simp only [Props.bad_iff]

/-- `ready_for_tomography` keeps the particles inside at every profile, in their order -/
theorem ready_seen {P nb : ℕ} (hP : 0 < P) (S : ℕ → K × K → K × K) (pts : List (K × K)) {kept : List (K × K)}
    (hk : kept = (pts.filter fun c => decide (InAll P nb S c))) :
    ready (arr P pts.length fun p j => (S p (pts.getD j (0, 0))).1) (arr P pts.length fun p j => (S p (pts.getD j (0, 0))).2) nb =
      if kept = [] then .error (.exc .invalidParticle)
      else .ok (arr kept.length P fun i p => (binsOf S kept i p : ℤ),
        arr kept.length P fun i p => trunc (S p (kept.getD i (0, 0))).2) := by
  have hkm : ∀ c, c ∈ kept → InAll P nb S c := by
    intro c hc
    rw [hk] at hc
    simpa using (List.mem_filter.mp hc).2
  rw [ready_arr]
  rw [kept_all] at hk
  set ks := keptOf P pts.length (fun p j => (S p (pts.getD j (0, 0))).1) (nb : K) with hks
  have hlen : ks.length = kept.length := by rw [hk, List.length_map]
  have hget : ∀ i, i < kept.length → pts.getD (ks.getD i 0) (0, 0) = kept.getD i (0, 0) := by
    intro i hi
    have h1 : kept.getD i (0, 0) = (ks.map fun j => pts.getD j (0, 0)).getD i (0, 0) := by rw [← hk]
    rw [h1, List.getD_eq_getElem (ks.map _) _ (by rw [List.length_map]; omega), List.getElem_map,
      List.getD_eq_getElem ks _ (by omega)]
  have hmem : ∀ i, i < kept.length → kept.getD i (0, 0) ∈ kept := by
    intro i hi
    rw [List.getD_eq_getElem _ _ hi]; exact List.getElem_mem hi
  rw [hlen]
  by_cases h0 : kept = []
  · rw [if_pos h0, if_pos (by rw [h0]; rfl)]
  · rw [if_neg h0, if_neg]
    · congr 2
      · unfold arr
        congr 1
        refine tab_congr fun i hi => tab_congr fun p hp => ?_
        have h1 := hkm _ (hmem i hi) p hp
        dsimp only
        rw [hget i hi, trunc_nonneg h1.1]
        unfold binsOf
        rw [Int.toNat_of_nonneg (Int.floor_nonneg.mpr h1.1)]
      · unfold arr
        congr 1
        refine tab_congr fun i hi => tab_congr fun p hp => ?_
        dsimp only
        rw [hget i hi]
    · intro h
      rcases Nat.mul_eq_zero.mp h with h | h
      · omega
      · exact h0 (List.length_eq_zero_iff.mp h)

/-- the energies given to the constructor do not matter to the reconstruction -/
theorem tomogramX_eq (sqrt : K → K) (wf : Arr2 K) {x y : Arr2 ℤ} (h1 : y.rows.length = x.rows.length) (h2 : y.cols = x.cols)
    (niter : ℕ) : tomogramX sqrt wf x niter = Run.tomogram sqrt wf x y niter := by
  unfold tomogramX Run.tomogram
  cases Tomo.initWaterfall wf.flatten wf.rows.length wf.cols with
  | error e => rfl
  | ok w =>
  rw [bind_ok, bind_ok]
  unfold Tomo.coordInit pyArray
  rw [h1, h2]
  simp only [Tomo.setXp]
  split_ifs
  · rfl
  · rfl
  · rfl
  · simp only [Tomo.setYp, if_pos]
    rfl

/-- cells of the points of the area found -/
theorem cell_range {L : MathLib K} {m : Run.Mach K} {P d : ℕ} {A : Turns K} (hm : Loaded m P d A) {xo dE : K} {l : Limits}
    (hl : findLimits L m.toArea = .ok (xo, dE, l)) {pts : List (K × K)} (hF : Fills l m.snpt pts) {c : K × K} (hc : c ∈ pts) :
    0 ≤ c.1 ∧ c.1 < m.nbins ∧ 0 ≤ c.2 ∧ c.2 < m.nbins := by
  obtain ⟨i, j, u, v, hcell, h1, h2, hu, hv, huj, hjv⟩ := cellOf_fills hF hc
  obtain ⟨hu1, hv1⟩ := Props.C51_inside_every_column hm.synchY hl i u v hu hv
  have hlim := Props.C51_limits_partial hl hm.dtbin hm.window
  have e1 : ⌊c.1⌋ = (i : ℤ) := congrArg Prod.fst hcell
  have e2 : ⌊c.2⌋ = j := congrArg Prod.snd hcell
  have q : ∀ (z : K) (k : ℤ), ⌊z⌋ = k → 0 ≤ k → k < m.nbins → 0 ≤ z ∧ z < m.nbins := by
    intro z k hz h0 h1
    refine ⟨Int.floor_nonneg.mp (by omega), ?_⟩
    have : ⌊z⌋ < (m.nbins : ℤ) := by omega
    rw [Int.floor_lt] at this
    exact_mod_cast this
  obtain ⟨a1, a2⟩ := q c.1 i e1 (by omega) (by omega)
  obtain ⟨b1, b2⟩ := q c.2 j e2 (by omega) (by omega)
  exact ⟨a1, a2, b1, b2⟩

/-- One film from coordinates: a fault of the later steps, or the image of the weights. -/
theorem film_ends {L : MathLib K} {m : Run.Mach K} {P d : ℕ} {A : Turns K} (hm : Loaded m P d A) {past xo dE : K}
    {l : Limits} (hl : findLimits L m.toArea = .ok (xo, dE, l)) {film : ℤ} {r : ℕ}
    (hr : Track.trackCheck P d film 0 = .ok (r : ℤ)) {t : Option (Table K)} {pts : List (K × K)} (hF : Fills l m.snpt pts)
    {S : ℕ → K × K → K × K} (hS : ∀ c ∈ pts, S r c = c)
    (ht : tracked L m past t film = .ok ⟨xo, dE, arr P pts.length fun p j => (S p (pts.getD j (0, 0))).1,
      arr P pts.length fun p j => (S p (pts.getD j (0, 0))).2⟩) {kept : List (K × K)}
    (hk : kept = (pts.filter fun c => decide (InAll P m.nbins S c))) (wf : ℕ → ℕ → K) :
    (∃ f, f ∈ ([.exc .invalidParticle, .exc .waterfallReducedToZero, .nonFinite, .exc .allZero] : List Fault) ∧
      oneFilm L m past t (arr P m.nbins wf) film = .error f) ∨
    (InRange kept.length P m.nbins (binsOf S kept) ∧ ∃ (st : Recon.RState K) (w : ℕ → K),
      (Props.run L.sqrt kept.length P m.nbins (binsOf S kept) (normRows m.nbins fun p b => max (wf p b) 0) m.niter).2 = .ok st ∧
      st.weights = tab kept.length w ∧ (∀ i, 0 ≤ w i) ∧ 0 < ∑ i ∈ range kept.length, w i ∧
      oneFilm L m past t (arr P m.nbins wf) film
        = .ok (flat m.nbins m.nbins (share kept.length (fun i => cellOf (kept.getD i (0, 0))) w), st.discr)) := by
  obtain ⟨r', hrr, hrP, hd, hrec⟩ := trackCheck_nat hr
  have hrr' : r = r' := by exact_mod_cast hrr
  subst hrr'
  have hnb : 0 < m.nbins := by
    have := Props.C51_limits_partial hl hm.dtbin hm.window
    omega
  have hkm : ∀ c, c ∈ kept → c ∈ pts ∧ InAll P m.nbins S c := by
    intro c hc
    rw [hk] at hc
    simpa using List.mem_filter.mp hc
  have hmem : ∀ i, i < kept.length → kept.getD i (0, 0) ∈ kept := by
    intro i hi
    rw [List.getD_eq_getElem _ _ hi]; exact List.getElem_mem hi
  have hco : coords L m past t film = if kept = [] then .error (.exc .invalidParticle)
      else .ok (arr kept.length P fun i p => (binsOf S kept i p : ℤ),
        arr kept.length P fun i p => trunc (S p (kept.getD i (0, 0))).2) := by
    unfold coords
    rw [ht, bind_ok]
    exact ready_seen (by omega) S pts hk
  by_cases h0 : kept = []
  · left
    refine ⟨.exc .invalidParticle, by simp, ?_⟩
    unfold oneFilm
    rw [hco, if_pos h0]
    rfl
  rw [if_neg h0] at hco
  have hbin : ∀ i, i < kept.length → ∀ p, p < P → (binsOf S kept i p : ℤ) = ⌊(S p (kept.getD i (0, 0))).1⌋ := by
    intro i hi p hp
    unfold binsOf
    rw [Int.toNat_of_nonneg (Int.floor_nonneg.mpr ((hkm _ (hmem i hi)).2 p hp).1)]
  have hx : InRange kept.length P m.nbins (binsOf S kept) := by
    intro i hi p hp
    have h1 := hbin i hi p hp
    have h2 : ⌊(S p (kept.getD i (0, 0))).1⌋ < (m.nbins : ℤ) := by
      rw [Int.floor_lt]; exact_mod_cast ((hkm _ (hmem i hi)).2 p hp).2
    omega
  have hone : oneFilm L m past t (arr P m.nbins wf) film =
      ((Tomo.initWaterfall (flat P m.nbins wf) P m.nbins).bind fun w =>
        ((Recon.reconstruct L.sqrt (xbuf kept.length P (binsOf S kept)) w m.niter m.nbins kept.length P).2).bind fun st =>
          .ok (⟨w, st⟩ : TomoOut K)).bind fun o =>
        (Img.createPhaseSpaceImage (arr kept.length P fun i p => (binsOf S kept i p : ℤ))
          (arr kept.length P fun i p => trunc (S p (kept.getD i (0, 0))).2) o.st.weights m.nbins film).bind fun img =>
          .ok (img, o.st.discr) := by
    unfold oneFilm
    rw [hco, bind_ok]
    dsimp only
    rw [tomogramX_eq L.sqrt (arr P m.nbins wf) (x := arr kept.length P fun i p => (binsOf S kept i p : ℤ))
      (y := arr kept.length P fun i p => trunc (S p (kept.getD i (0, 0))).2) (by simp) rfl,
      tomogram_arr L.sqrt wf _ hx]
    rfl
  rw [hone]
  obtain ⟨i1, i2, i3⟩ := Props.initWaterfall_char (nprof := P) hnb wf
  by_cases ha : ∀ p b, p < P → b < m.nbins → wf p b ≤ 0
  · left
    refine ⟨_, ?_, by rw [i1 ha]; rfl⟩
    simp
  have ha' : ∃ p b, p < P ∧ b < m.nbins ∧ 0 < wf p b := by
    push Not at ha
    exact ha
  by_cases hb : ∃ p, p < P ∧ ∀ b, b < m.nbins → wf p b ≤ 0
  · left
    refine ⟨_, ?_, by rw [i2 ha' hb]; rfl⟩
    simp
  have hb' : ∀ p, p < P → ∃ b, b < m.nbins ∧ 0 < wf p b := by
    push Not at hb
    exact hb
  rw [i3 ha' hb']
  rcases Props.C04_weights L.sqrt (by omega : 0 < P) hnb hx (normRows m.nbins fun p b => max (wf p b) 0) m.niter
    with ⟨st, w, e1, e2, hw0, hpos⟩ | e
  · right
    refine ⟨hx, st, w, e1, e2, hw0, hpos, ?_⟩
    have e1' : (Recon.reconstruct L.sqrt (xbuf kept.length P (binsOf S kept))
      (flat P m.nbins (normRows m.nbins fun p b => max (wf p b) 0)) m.niter m.nbins kept.length P).2 = .ok st := e1
    simp only [Except.bind, e1', e2]
    obtain ⟨img, g1, g2⟩ := Props.makePhaseSpace_share (n := kept.length) (nbins := m.nbins)
      (x := fun i => (binsOf S kept i r : ℤ)) (y := fun i => trunc (S r (kept.getD i (0, 0))).2)
      (cell := fun i => cellOf (kept.getD i (0, 0))) (w := w)
      (fun i hi => by have := hx i hi r hrP; omega)
      (fun i hi => by
        rw [hS _ (hkm _ (hmem i hi)).1]
        obtain ⟨-, -, q1, q2⟩ := cell_range hm hl hF (hkm _ (hmem i hi)).1
        rw [trunc_nonneg q1]
        refine ⟨Int.floor_nonneg.mpr q1, ?_⟩
        rw [Int.floor_lt]; exact_mod_cast q2)
      (fun i hi => by
        rw [hbin i hi r hrP, hS _ (hkm _ (hmem i hi)).1]
        obtain ⟨-, -, q1, q2⟩ := cell_range hm hl hF (hkm _ (hmem i hi)).1
        rw [trunc_nonneg q1]
        rfl) hw0 hpos
    have him : Img.createPhaseSpaceImage (arr kept.length P fun i p => (binsOf S kept i p : ℤ))
          (arr kept.length P fun i p => trunc (S p (kept.getD i (0, 0))).2) (tab kept.length w) m.nbins film
        = .ok (flat m.nbins m.nbins (share kept.length (fun i => cellOf (kept.getD i (0, 0))) w)) := by
      unfold Img.createPhaseSpaceImage
      rw [column_rec hrP hrec, bind_ok, column_rec hrP hrec, bind_ok, g1, bind_ok]
      exact g2
    rw [him]
  · left
    refine ⟨.exc .allZero, by simp, ?_⟩
    have e' : (Recon.reconstruct L.sqrt (xbuf kept.length P (binsOf S kept))
      (flat P m.nbins (normRows m.nbins fun p b => max (wf p b) 0)) m.niter m.nbins kept.length P).2
        = .error (.exc .allZero) := e
    simp only [Except.bind, e']

/-- the automatic distribution -/
theorem dist_ok {L : MathLib K} {m : Run.Mach K} {P d : ℕ} {A : Turns K} (hm : Loaded m P d A) {xo dE : K}
    {l : Limits} (hl : findLimits L m.toArea = .ok (xo, dE, l)) {r : ℕ} (hrP : r < P) :
    ∃ pts : List (K × K), Fills l m.snpt pts ∧
      homogeneousDistribution L m.toArea r 0 = .ok (pts.map (physical m d A xo dE r)) := by
  have hN : r * d < (P - 1) * d + 1 := by
    have := Nat.mul_le_mul_right d (show r ≤ P - 1 by omega)
    omega
  obtain ⟨pts, jmn, jmx, e1, e2, e3, e4, e5, e6⟩ := Props.C29_distribution hl hm.dtbin hm.window hm.om hm.ph hm.dturns hN
    (mul_ne_zero (hm.scale r hrP) hm.dtbin.ne')
  have hlim := (Props.C51_limits_partial hl hm.dtbin hm.window).2.2.2.1
  refine ⟨pts, ⟨List.Nodup.of_map _ e4, ?_⟩, e3⟩
  intro x y
  rw [e5]
  constructor
  · rintro ⟨i, j, a, b, h1, h2, h3, h4, h5, h6, h7, h8⟩
    refine ⟨i, j, jmn i, jmx i, a, b, h1, h2, ?_, ?_, h3, h4, h5, h6, h7, h8⟩
    · rw [e1, getElem?_tab, if_pos (by omega)]
    · rw [e2, getElem?_tab, if_pos (by omega)]
  · rintro ⟨i, j, u, v, a, b, h1, h2, hu, hv, h3, h4, h5, h6, h7, h8⟩
    rw [e1, getElem?_tab, if_pos (by omega)] at hu
    rw [e2, getElem?_tab, if_pos (by omega)] at hv
    cases hu; cases hv
    exact ⟨i, j, a, b, h1, h2, h3, h4, h5, h6, h7, h8⟩

/-- tracking without self fields of a known distribution -/
theorem plain_tracked {L : MathLib K} {m : Run.Mach K} {P d : ℕ} {A : Turns K} (hm : Loaded m P d A) {xo dE : K}
    {l : Limits} (hl : findLimits L m.toArea = .ok (xo, dE, l)) {film : ℤ} {r : ℕ}
    (hr : Track.trackCheck P d film 0 = .ok (r : ℤ)) {pts : List (K × K)}
    (hpts : homogeneousDistribution L m.toArea r 0 = .ok (pts.map (physical m d A xo dE r))) (past : K) :
    tracked L m past none film = .ok ⟨xo, dE,
      arr P pts.length fun p j => (seen L.sin m P d A past xo dE r p (pts.getD j (0, 0))).1,
      arr P pts.length fun p j => (seen L.sin m P d A past xo dE r p (pts.getD j (0, 0))).2⟩ := by
  obtain ⟨r', hrr, hrP, hd, _⟩ := trackCheck_nat hr
  have hrr' : r = r' := by exact_mod_cast hrr
  subst hrr'
  have hdE := (Props.findLimits_ok hl).2.2.1
  have hN : ∀ i, i < P → i * d < (P - 1) * d + 1 := by
    intro i hi
    have := Nat.mul_le_mul_right d (show i ≤ P - 1 by omega)
    omega
  have hs : ∀ i, i < P → m.hNum * A.om (i * d) * m.dtbin ≠ 0 := fun i hi => mul_ne_zero (hm.scale i hi) hm.dtbin.ne'
  obtain ⟨st, hst, hh1, hh2⟩ := Props.C17_no_offset L.sin hd (agrees hm past) hrP (fun _ _ => (0, 0))
    (fun j => physical m d A xo dE r (pts.getD j (0, 0))) (n := pts.length)
  have hPd : (d : ℤ) * ((P : ℤ) - 1) = (((P - 1) * d : ℕ) : ℤ) := by
    rw [Nat.cast_mul, Nat.cast_sub (by omega)]; push_cast; ring
  have hrep : List.replicate P (List.replicate pts.length (0 : K)) = rows P pts.length fun _ _ => (0 : K) := by
    unfold rows tab; simp
  have htr : track L m past film = .ok ⟨xo, dE, ⟨pts.length, st.xp⟩, ⟨pts.length, st.yp⟩⟩ := by
    unfold track
    rw [hm.nprofiles, hm.dturns, hr]
    dsimp only
    rw [hl, bind_ok]
    dsimp only
    rw [hpts, bind_ok]
    rw [List.length_map, hPd, hrep, List.map_map, List.map_map, map_getD pts (0, 0), map_getD pts (0, 0)]
    exact congrArg (fun z => z.bind fun s => Except.ok (Tracked.mk xo dE ⟨pts.length, s.xp⟩ ⟨pts.length, s.yp⟩)) hst
  unfold tracked trackCoords
  dsimp only
  rw [htr, bind_ok]
  dsimp only
  rw [hh1, hh2]
  change (physicalToCoords m.toArea xo dE (arr P pts.length _) (arr P pts.length _)).bind _ = _
  rw [physicalToCoords_arr m.toArea xo dE hm.om hm.ph hm.dturns hN hs hdE.ne']
  rfl

/-- the arrays of the machine and a table of voltages -/
theorem agreesS {m : Run.Mach K} {P d : ℕ} {A : Turns K} (hm : Loaded m P d A) (hP : 0 < P) {xo dE wr : K} (hdE : dE ≠ 0) (hwr : 0 < wr)
    {l : ℕ} {v : ℕ → ℕ → K} (hpos : ∀ t, t ≤ (P - 1) * d → 0 < radPerBin m A t) :
    AgreesS (trackMach m 0) m.phi12 (selfData m ⟨wr, tab (P - 1) fun p => tab (l + 1) (v p)⟩ xo dE) P ((P - 1) * d) l
      (selfRing m P d A xo wr (tableV v l)) := by
  have hN : (m.dturns * ((m.nprofiles : ℤ) - 1)).toNat = (P - 1) * d := by
    rw [hm.dturns, hm.nprofiles]
    have : ((d : ℤ) * ((P : ℤ) - 1)) = (((P - 1) * d : ℕ) : ℤ) := by
      rw [Nat.cast_mul, Nat.cast_sub hP]; push_cast; ring
    rw [this, Int.toNat_natCast]
  refine ⟨?_, fun t ht => ⟨A.om t, ?_, rfl⟩, ⟨v, rfl, fun p j => ?_, fun p => ?_⟩, rfl, rfl, rfl, hdE, hwr, hpos⟩
  · have e : ({ trackMach m 0 with phi12 := List.replicate ((P - 1) * d + 1) m.phi12 } : Track.Mach K) = trackMach m m.phi12 := by
      unfold trackMach
      rw [hN, List.replicate_succ']
    rw [e]
    exact agrees hm m.phi12
  · change m.omegaRev0[t]? = _
    rw [hm.om, getElem?_tab, if_pos (by omega)]
  · change tableV v l p j = v p j
    unfold tableV
    rw [if_neg (by omega), Int.toNat_natCast]
  · change tableV v l p (-1) = v p l
    unfold tableV
    rw [if_pos rfl]

/-- tracking with self fields of a known distribution -/
theorem self_tracked {L : MathLib K} {m : Run.Mach K} {P d : ℕ} {A : Turns K} (hm : Loaded m P d A) {xo dE : K}
    {l : Limits} (hl : findLimits L m.toArea = .ok (xo, dE, l)) {film : ℤ} {r : ℕ}
    (hr : Track.trackCheck P d film 0 = .ok (r : ℤ)) {pts : List (K × K)}
    (hpts : homogeneousDistribution L m.toArea r 0 = .ok (pts.map (physical m d A xo dE r))) (past : K) {wr : K} (hwr : 0 < wr)
    {k : ℕ} {v : ℕ → ℕ → K} (hpos : ∀ t, t ≤ (P - 1) * d → 0 < radPerBin m A t)
    (hslack : ∀ t, t ≤ (P - 1) * d → wr ≤ ((k : K) + 1) * radPerBin m A t) :
    tracked L m past (some ⟨wr, tab (P - 1) fun p => tab (k + 1) (v p)⟩) film = .ok ⟨xo, dE,
      arr P pts.length fun p j => (seenS L.sin m d A (selfRing m P d A xo wr (tableV v k)) dE r p (pts.getD j (0, 0))).1,
      arr P pts.length fun p j => (seenS L.sin m d A (selfRing m P d A xo wr (tableV v k)) dE r p (pts.getD j (0, 0))).2⟩ := by
  obtain ⟨r', hrr, hrP, hd, _⟩ := trackCheck_nat hr
  have hrr' : r = r' := by exact_mod_cast hrr
  subst hrr'
  have hdE := (Props.findLimits_ok hl).2.2.1
  have hrun := SelfF.kickAndDriftSelf_run (sin := L.sin) (n := pts.length)
    (agreesS hm (by omega) hdE.ne' hwr (xo := xo) (v := v) (l := k) hpos) hslack hd rfl hrP
    (fun j => physical m d A xo dE r (pts.getD j (0, 0)))
  change trackSelf _ _ _ _ = _
  unfold trackSelf
  rw [hm.nprofiles, hm.dturns, hr]
  dsimp only
  rw [hl, bind_ok]
  dsimp only
  rw [hpts, bind_ok, List.length_map, List.map_map, List.map_map, map_getD pts (0, 0), map_getD pts (0, 0)]
  exact congrArg (fun z => z.bind fun s => Except.ok (Tracked.mk xo dE ⟨pts.length, s.1⟩ ⟨pts.length, s.2⟩)) hrun

/-- a position inside the wrap interval is not folded -/
theorem bin_inside {F : SelfProgram K} {t : ℕ} (hwr : 0 < F.wrap) {φ : K} (h0 : 0 ≤ edgePhase F t φ) (h1 : edgePhase F t φ < F.wrap) :
    bin F t φ = edgePhase F t φ / F.drad t := by
  unfold bin
  have : ⌊edgePhase F t φ / F.wrap⌋ = 0 := by
    rw [Int.floor_eq_zero_iff]
    exact ⟨div_nonneg h0 hwr.le, (div_lt_one hwr).mpr h1⟩
  rw [this, Int.cast_zero, mul_zero, sub_zero]

/-- where a point of the image is at its own profile -/
theorem seenS_self {sin : K → K} {m : Run.Mach K} {P d : ℕ} {A : Turns K} {xo dE wr : K} (hdE : dE ≠ 0) {V : ℕ → ℤ → K} {r : ℕ}
    (hwr : 0 < wr) (hpos : 0 < radPerBin m A (r * d)) {c : K × K} (h0 : 0 ≤ c.1) (h1 : c.1 * radPerBin m A (r * d) < wr) :
    seenS sin m d A (selfRing m P d A xo wr V) dE r r c = c := by
  unfold seenS
  have ht : transportS sin (selfRing m P d A xo wr V) (r * d) (r * d) (physical m d A xo dE r c) = physical m d A xo dE r c := by
    unfold transportS
    rw [if_pos le_rfl, Nat.sub_self]
    rfl
  have he : edgePhase (selfRing m P d A xo wr V) (r * d) (physical m d A xo dE r c).1 = c.1 * radPerBin m A (r * d) := by
    unfold edgePhase physical selfRing ring radPerBin
    dsimp only
    ring
  dsimp only
  change ((bin (selfRing m P d A xo wr V) (r * d)
    (transportS sin (selfRing m P d A xo wr V) (r * d) (r * d) (physical m d A xo dE r c)).1),
    (transportS sin (selfRing m P d A xo wr V) (r * d) (r * d) (physical m d A xo dE r c)).2 / dE + m.synchPartY) = c
  rw [ht, bin_inside hwr (by rw [he]; exact mul_nonneg h0 hpos.le) (by rw [he]; exact h1), he]
  change (c.1 * radPerBin m A (r * d) / radPerBin m A (r * d), (c.2 - m.synchPartY) * dE / dE + m.synchPartY) = c
  rw [mul_div_cancel_right₀ _ hpos.ne', mul_div_cancel_right₀ _ hdE, sub_add_cancel]

/-- without voltages and inside the wrap interval the position is that without self fields -/
theorem seenS_zero {sin : K → K} {m : Run.Mach K} {P d : ℕ} {A : Turns K} {xo dE wr : K} {V : ℕ → ℤ → K} (hV : ∀ p j, V p j = 0)
    {r p : ℕ} (hwr : 0 < wr) (hpos : 0 < radPerBin m A (p * d)) {c : K × K}
    (h0 : 0 ≤ (seen sin m P d A m.phi12 xo dE r p c).1)
    (h1 : (seen sin m P d A m.phi12 xo dE r p c).1 * radPerBin m A (p * d) < wr) :
    seenS sin m d A (selfRing m P d A xo wr V) dE r p c = seen sin m P d A m.phi12 xo dE r p c := by
  unfold seenS
  dsimp only
  rw [SelfF.transportS_zero (F := selfRing m P d A xo wr V) hV]
  change (bin (selfRing m P d A xo wr V) (p * d) (transport sin (ring m P d A m.phi12) (r * d) (p * d) (physical m d A xo dE r c)).1, _)
    = _
  have he : edgePhase (selfRing m P d A xo wr V) (p * d)
      (transport sin (ring m P d A m.phi12) (r * d) (p * d) (physical m d A xo dE r c)).1
      = (seen sin m P d A m.phi12 xo dE r p c).1 * radPerBin m A (p * d) := by
    unfold seen toImage
    dsimp only
    have : m.hNum * A.om (p * d) * m.dtbin = radPerBin m A (p * d) := rfl
    rw [this, sub_mul, div_mul_cancel₀ _ hpos.ne']
    rfl
  rw [bin_inside hwr (by rw [he]; exact mul_nonneg h0 hpos.le) (by rw [he]; exact h1), he]
  change ((seen sin m P d A m.phi12 xo dE r p c).1 * radPerBin m A (p * d) / radPerBin m A (p * d), _) = _
  rw [mul_div_cancel_right₀ _ hpos.ne']
  rfl

end Verif.RunSelf

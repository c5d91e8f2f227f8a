import Verif.Lemmas.RndRun
import Verif.Lemmas.RndQuant
import Verif.Lemmas.Binary
import Verif.Props.Recon
import Verif.Props.Tracking
import Verif.Props.Tomography

/-!
# Floating point: rounding does not change what a run computes by more than the user asks (C90–C92)

`World` is a floating point unit and `w.Accurate u` says that it rounds with relative error at most `u` (`Core/Rnd.lean`); `Rn w`
are its numbers.  The programs are the models of the other files, run on `Rn w` instead of on exact numbers.
-/

namespace Verif.Props
open Verif.Rounded Verif.Spec Verif.Track Filter

theorem exists_unit {P : World → Prop} (h : ∀ᶠ w in arith, P w) : ∃ u : ℝ, 0 < u ∧ ∀ w : World, w.Accurate u → P w := by
  obtain ⟨u, hu, h⟩ := arith_basis.eventually_iff.mp h
  exact ⟨u, hu, fun w hw => h hw⟩

theorem within_of_close {X : World → List ℝ} {Y : List ℝ} (h : LRel X Y) {ε : ℝ} (hε : 0 < ε) :
    ∀ᶠ w in arith, Within ε (X w) Y := by
  filter_upwards [h.close hε] with w hw
  refine List.forall₂_iff_get.mpr ⟨hw.1, fun k h1 h2 => ?_⟩
  have := hw.2 k h2
  rw [List.getD_eq_getElem?_getD, List.getD_eq_getElem?_getD, List.getElem?_eq_getElem h1, List.getElem?_eq_getElem h2] at this
  exact this

/-- enough bits make a binary floating point unit as accurate as wanted -/
theorem enough_bits {u : ℝ} (hu : 0 < u) : ∃ p0 : ℕ, ∀ p, p0 ≤ p → (binary p).Accurate u := by
  obtain ⟨n, hn⟩ := exists_pow_lt_of_lt_one hu (by norm_num : (1 / 2 : ℝ) < 1)
  refine ⟨n + 1, fun p hp => (binary_accurate (by omega)).mono ?_⟩
  have e : (2 : ℝ) ^ (-(p : ℤ)) = (1 / 2) ^ p := by
    rw [zpow_neg, zpow_natCast, one_div, inv_pow]
  rw [e]
  refine le_trans (pow_le_pow_of_le_one (by norm_num) (by norm_num) (show n ≤ p by omega)) hn.le

/-! ## C90 -/

/-- C90: whenever the reconstruction succeeds in exact arithmetic, it succeeds in every sufficiently accurate floating point
arithmetic, and every weight, every bin of the recreated profiles and every discrepancy is as near to the exact value as
wanted. -/
theorem C90_reconstruct (xp : List Int) (wf : List ℝ) (niter nbins npart nprof : ℕ) {st : Recon.RState ℝ}
    (h : (Recon.reconstruct Real.sqrt xp wf niter nbins npart nprof).2 = .ok st) {ε : ℝ} (hε : 0 < ε) :
    ∃ u : ℝ, 0 < u ∧ ∀ w : World, w.Accurate u → ∃ s : Recon.RState (Rn w),
      (Recon.reconstruct (α := Rn w) w.sqrt xp (roundAll w wf) niter nbins npart nprof).2 = .ok s ∧
      Within ε s.weights st.weights ∧ Within ε s.flatRec st.flatRec ∧ Within ε s.discr st.discr := by
  obtain ⟨s, h1, h2, h3, h4⟩ := rel_reconstruct (LRel.round wf) xp niter nbins npart nprof st h
  apply exists_unit
  filter_upwards [h1, within_of_close h2 hε, within_of_close h3 hε, within_of_close h4 hε] with w a b c d
  exact ⟨s w, a, b, c, d⟩

/-- C90 for binary floating point: some number of bits is enough, and so is every larger one. -/
theorem C90_bits (xp : List Int) (wf : List ℝ) (niter nbins npart nprof : ℕ) {st : Recon.RState ℝ}
    (h : (Recon.reconstruct Real.sqrt xp wf niter nbins npart nprof).2 = .ok st) {ε : ℝ} (hε : 0 < ε) :
    ∃ p0 : ℕ, ∀ p, p0 ≤ p → ∃ s : Recon.RState (Rn (binary p)),
      (Recon.reconstruct (α := Rn (binary p)) (binary p).sqrt xp (roundAll (binary p) wf) niter nbins npart nprof).2 = .ok s ∧
      Within ε s.weights st.weights ∧ Within ε s.flatRec st.flatRec ∧ Within ε s.discr st.discr := by
  obtain ⟨u, hu, hw⟩ := C90_reconstruct xp wf niter nbins npart nprof h hε
  obtain ⟨p0, hp⟩ := enough_bits hu
  exact ⟨p0, fun p hpp => hw _ (hp p hpp)⟩

/-- C90, for a given accuracy `u < 1` and no assumption on the exact run: a run that succeeds leaves as many weights as particles,
no negative weight, no negative bin, and recreated profiles whose (exact) sum is one up to `nbins + 1` roundings:
`(1 - u) / (1 + u)^nbins ≤ sum ≤ (1 + u) / (1 - u)^nbins`. -/
theorem C90_signs_and_sums {w : World} {u : ℝ} (hw : w.Accurate u) (h0 : 0 ≤ u) (hu : u < 1) (xp : List Int) (wf : List ℝ)
    {niter nbins npart nprof : ℕ} (hb : 0 < nbins) {s : Recon.RState (Rn w)}
    (h : (Recon.reconstruct (α := Rn w) w.sqrt xp wf niter nbins npart nprof).2 = .ok s) :
    s.weights.length = npart ∧ s.flatRec.length = nprof * nbins ∧ (∀ v ∈ s.weights, (0 : ℝ) ≤ v) ∧ (∀ v ∈ s.flatRec, (0 : ℝ) ≤ v) ∧
      ∀ p, p < nprof → SumsToOne u nbins (rowTotal s.flatRec nbins p) := by
  obtain ⟨h1, h2⟩ := reconstruct_sane (st := s) hw h0 hu hb h
  have mem : ∀ l : List ℝ, Nonneg l → ∀ v ∈ l, 0 ≤ v := fun l hl v hv => by
    obtain ⟨k, hk, rfl⟩ := List.getElem_of_mem hv
    have := hl k
    rwa [List.getD_eq_getElem?_getD, List.getElem?_eq_getElem hk] at this
  exact ⟨h1.wlen, h1.rlen, mem _ h1.wnn, mem _ h1.rnn, h2⟩

/-- doubles: the accuracy is `2^-53` -/
example : (binary 53).Accurate (2 ^ (-(53 : ℤ))) := binary_accurate (by norm_num)
/-- single precision: `2^-24` -/
example : (binary 24).Accurate (2 ^ (-(24 : ℤ))) := binary_accurate (by norm_num)

/-- the real waterfall of the examples -/
noncomputable def wfR : ℕ → ℕ → ℝ := fun p b => if p = 0 then (if b = 0 then 3/4 else 1/4) else (if b = 0 then 6/5 else -1/5)

theorem wfR_succeeds : ∃ st, (run Real.sqrt 3 2 2 x3 wfR 0).2 = .ok st := by
  rcases C03_no_division_by_zero Real.sqrt (by norm_num) (by norm_num) x3_inRange wfR 0 with h | h
  · exact h
  · have := ((C04_initial_error_iff Real.sqrt (by norm_num) (by norm_num) x3_inRange wfR).1.mp h) 0 (by norm_num)
    norm_num [Finset.sum_range_succ, wfR, x3] at this

/-- the hypotheses of C90 are met: three particles, two profiles, a negative sample -/
example : ∃ p0 : ℕ, ∀ p, p0 ≤ p → ∃ s : Recon.RState (Rn (binary p)),
    (Recon.reconstruct (α := Rn (binary p)) (binary p).sqrt (xbuf 3 2 x3) (roundAll (binary p) (flat 2 2 wfR)) 0 2 3 2).2 = .ok s ∧
    s.weights.length = 3 := by
  obtain ⟨st, h⟩ := wfR_succeeds
  obtain ⟨p0, hp⟩ := C90_bits (xbuf 3 2 x3) (flat 2 2 wfR) 0 2 3 2 h one_pos
  refine ⟨p0 + 1, fun p hpp => ?_⟩
  obtain ⟨s, h1, _⟩ := hp p (by omega)
  refine ⟨s, h1, (C90_signs_and_sums (binary_accurate (p := p) (by omega)) (by positivity) ?_ _ _ (by norm_num) h1).1⟩
  rw [zpow_neg, zpow_natCast]
  exact inv_lt_one_of_one_lt₀ (one_lt_pow₀ (by norm_num) (by omega))

/-! ## C91 -/

/-- C91: tracking in floating point.  For every machine, start profile and non-positive turn offset, from some accuracy on the
tracking succeeds and every particle is, in every profile, as near as wanted to the exact transport of its start point by the exact
machine. -/
theorem C91_transport {m : Track.Mach ℝ} {R : Program ℝ} {P n d r s : ℕ} {δ : Int} (hd : 0 < d)
    (hA : Agrees m ((P - 1) * d) R) (hr : r < P) (hs : (s : Int) = r * d + δ) (h1 : -(d : Int) < δ) (h2 : δ ≤ 0)
    (c : ℕ → ℝ × ℝ) {ε : ℝ} (hε : 0 < ε) :
    ∃ u : ℝ, 0 < u ∧ ∀ w : World, w.Accurate u → ∃ xp yp : List (List ℝ),
      (∃ t : Track.TS (Rn w), Track.kickAndDrift (α := Rn w) w.sin (rows P n fun _ _ => (0 : Rn w)) (rows P n fun _ _ => (0 : Rn w))
        (roundAll w (energies n c)) (roundAll w (phis n c)) (roundMach w m) d r δ ((P - 1) * d : ℕ) n = .ok t ∧ t.xp = xp ∧ t.yp = yp) ∧
      WithinRows ε xp (rows P n fun p i => (transport Real.sin R s (p * d) (c i)).1) ∧
      WithinRows ε yp (rows P n fun p i => (transport Real.sin R s (p * d) (c i)).2) := by
  obtain ⟨st, hst, hX, hY⟩ := C17_rows_partial Real.sin hd hA hr hs h1 h2 (fun _ _ => ((0 : ℝ), (0 : ℝ))) c (n := n)
  obtain ⟨t, g1, g2⟩ := rel_kickAndDrift (MachRel.round m) d r δ ((P - 1) * d : ℕ) n (LLRel.const (rows P n fun _ _ => (0 : ℝ)))
    (LLRel.const (rows P n fun _ _ => (0 : ℝ))) (LRel.round (energies n c)) (LRel.round (phis n c)) st hst
  rw [← hX, ← hY]
  apply exists_unit
  have rowsClose : ∀ {X : World → List (List ℝ)} {Y : List (List ℝ)}, GRel LRel X Y → ∀ᶠ w in arith, WithinRows ε (X w) Y := by
    intro X Y h
    induction Y generalizing X with
    | nil =>
      have h : ∀ᶠ w in arith, X w = [] := h
      exact h.mono fun w hw => by rw [hw]; exact List.Forall₂.nil
    | cons y ys ih =>
      obtain ⟨x, xs, e1, e2, e3⟩ := h
      filter_upwards [e1, within_of_close e2 hε, ih e3] with w a b c
      rw [a]; exact List.Forall₂.cons b c
  filter_upwards [g1, rowsClose g2.xp.toG, rowsClose g2.yp.toG] with w a b c
  exact ⟨(t w).xp, (t w).yp, ⟨t w, a, rfl, rfl⟩, b, c⟩

/-- a drift with a little voltage: three profiles, two turns apart, four particles, started one turn before profile 1 -/
example : ∃ u : ℝ, 0 < u ∧ ∀ w : World, w.Accurate u → ∃ xp yp : List (List ℝ),
    (∃ t : Track.TS (Rn w), Track.kickAndDrift (α := Rn w) w.sin (rows 3 4 fun _ _ => (0 : Rn w)) (rows 3 4 fun _ _ => (0 : Rn w))
      (roundAll w (energies 4 fun i => ((i : ℝ), 1))) (roundAll w (phis 4 fun i => ((i : ℝ), 1)))
      (roundMach w ⟨tab 5 fun t => 1 / (t + 1), tab 5 fun _ => 0, tab 5 fun _ => 1/3, tab 5 fun _ => 0, tab 5 fun _ => 1/7, tab 5 fun _ => 0, 2⟩)
      2 1 (-1) 4 4 = .ok t ∧ t.xp = xp ∧ t.yp = yp) ∧
    WithinRows (1/1000) xp (rows 3 4 fun p i => (transport Real.sin ⟨fun t => 1 / (t + 1), fun _ => 0, fun _ => 1/3, fun _ => 0,
      fun _ => 1/7, fun _ => 0, 2⟩ 1 (p * 2) ((i : ℝ), 1)).1) ∧
    WithinRows (1/1000) yp (rows 3 4 fun p i => (transport Real.sin ⟨fun t => 1 / (t + 1), fun _ => 0, fun _ => 1/3, fun _ => 0,
      fun _ => 1/7, fun _ => 0, 2⟩ 1 (p * 2) ((i : ℝ), 1)).2) :=
  C91_transport (P := 3) (d := 2) (r := 1) (s := 1) (by norm_num)
    (by constructor <;> first | rfl | (intro t ht; exact some_tab _ (by omega))) (by norm_num) (by norm_num) (by norm_num) (by norm_num) _
    (by norm_num)

/-- C91: in one and the same floating point arithmetic the CuPy and the C++ tracking agree to the last bit, not only approximately:
every row is the same sequence of rounded operations. -/
theorem C91_cupy_same_bits (w : World) {m : Track.Mach (Rn w)} {phi12 : Rn w} {R : Program (Rn w)} {P n d r s : ℕ} {δ : Int}
    (hd : 0 < d) (hA : Agrees (spread m phi12 ((P - 1) * d)) ((P - 1) * d) R) (hr : r < P) (hs : (s : Int) = r * d + δ)
    (h1 : -(d : Int) < δ) (h2 : δ < d) (hsn : s ≤ (P - 1) * d) (X : ℕ → ℕ → Rn w × Rn w) (c : ℕ → Rn w × Rn w) :
    ∃ st st', cppTrack (α := Rn w) w.sin (spread m phi12 ((P - 1) * d)) P n d r δ X c = .ok st ∧
      Track.kickAndDriftCupy (α := Rn w) w.sin (rows P n fun p i => (X p i).1) (rows P n fun p i => (X p i).2) (energies n c) (phis n c) m phi12
        d r δ ((P - 1) * d : ℕ) n = .ok st' ∧ st'.outPhi = st.xp ∧ st'.outEn = st.yp :=
  C18_cupy_eq_cpp (α := Rn w) w.sin hd hA hr hs h1 h2 hsn X c

/-! ## C92 -/

/-- C92, `_partial`: a whole run from the user's particles (tracking, conversion to bins, filtering, reconstruction) in floating
point.  If the exact run succeeds and no exact coordinate is an integer, then from some accuracy on the rounded run succeeds, puts
every particle into *the same* bins, loses the same particles, and its waterfall, weights, recreated profiles and discrepancies are as
near as wanted.  Missing: particles exactly on a bin boundary (`C92_violated_boundary`). -/
theorem C92_run_partial (tm : Track.Mach ℝ) (a : Psi.Area ℝ) (xorigin dEbin : ℝ) (nprofiles recprof deltaturn : Int)
    (dphi denergy : List ℝ) (wf : Arr2 ℝ) (niter : ℕ) {x y : Arr2 ℝ} {bx by' : Arr2 Int} {o : Run.TomoOut ℝ}
    (hc : Run.userCoords Real.sin tm a xorigin dEbin nprofiles recprof deltaturn dphi denergy = .ok (x, y))
    (hx : OffGrid x) (hy : OffGrid y)
    (h : Run.fromDistribution Real.sin Real.sqrt Run.ready tm a xorigin dEbin nprofiles recprof deltaturn dphi denergy wf niter
      = .ok ((bx, by'), o)) {ε : ℝ} (hε : 0 < ε) :
    ∃ u : ℝ, 0 < u ∧ ∀ w : World, w.Accurate u → ∃ o' : Run.TomoOut (Rn w),
      Run.fromDistribution (K := Rn w) w.sin w.sqrt (Run.ready (K := ℝ)) (roundMach w tm) (roundArea w a) (w.rnd xorigin)
        (w.rnd dEbin) nprofiles recprof deltaturn (roundAll w dphi) (roundAll w denergy) (roundArr w wf) niter = .ok ((bx, by'), o') ∧
      Within ε o'.waterfall o.waterfall ∧ Within ε o'.st.weights o.st.weights ∧ Within ε o'.st.flatRec o.st.flatRec ∧
      Within ε o'.st.discr o.st.discr := by
  obtain ⟨z, g1, g2, g3, g4, g5, g6⟩ := rel_fromDistribution tm a xorigin dEbin nprofiles recprof deltaturn dphi denergy wf niter
    (fun x' y' he => by rw [hc] at he; cases he; exact ⟨hx, hy⟩) ((bx, by'), o) h
  apply exists_unit
  filter_upwards [g1, within_of_close g3 hε, within_of_close g4 hε, within_of_close g5 hε, within_of_close g6 hε] with w a1 b c d e
  refine ⟨(z w).2, ?_, b, c, d, e⟩
  have : z w = ((bx, by'), (z w).2) := Prod.ext (g2 w) rfl
  rw [this] at a1
  exact a1

/-- one profile, two bins, every constant one -/
noncomputable def unitArea : Psi.Area ℝ :=
  { time := [0], phi0 := [0], e0 := [1], beta0 := [1], deltaE0 := [0], eta0 := [1], driftCoef := [1], omegaRev0 := [1]
    vrf1AtTurn := [1], vrf2AtTurn := [0], nbins := 2, synchPartX := 0, synchPartY := 0, dtbin := 1, minDt := 0, maxDt := 1
    demax := 1, beamRefFrame := 0, filmstart := 0, dturns := 1, fullPp := true, hNum := 1, hRatio := 2, q := 1, phi12 := 0, snpt := 2 }

/-- the bins (horizontal, vertical) of one particle with phase `v` and energy one half, in exact arithmetic -/
noncomputable def exactBins (v xorigin : ℝ) : M (Arr2 Int × Arr2 Int) := do
  let (x, y) ← Part.physicalToCoords unitArea xorigin 1 ⟨1, [[v]]⟩ ⟨1, [[1/2]]⟩
  Run.ready x y 2

/-- the same in floating point, from the rounded inputs -/
noncomputable def roundedBins (w : World) (v xorigin : ℝ) : M (Arr2 Int × Arr2 Int) := do
  let (x, y) ← Part.physicalToCoords (K := Rn w) (roundArea w unitArea) (w.rnd xorigin) (w.rnd 1) ⟨1, [[w.rnd v]]⟩ ⟨1, [[w.rnd (1/2)]]⟩
  Run.ready (K := ℝ) x y 2

theorem ready_one {x y : ℝ} (h0 : 0 ≤ x) (h2 : x < 2) (hy : 0 ≤ y) :
    Run.ready (⟨1, [[x]]⟩ : Arr2 ℝ) ⟨1, [[y]]⟩ 2 = .ok (⟨1, [[⌊x⌋]]⟩, ⟨1, [[⌊y⌋]]⟩) := by
  rw [ready_eq]
  have a : decide ((2 : ℕ) ≤ x) = false := by simpa using h2
  have b : decide (x < 0) = false := by simpa using h0
  have e : (Arr2.map (fun v : ℝ => decide (((2 : ℕ) : ℝ) ≤ v) || decide (v < 0)) ⟨1, [[x]]⟩) = ⟨1, [[false]]⟩ := by
    show (⟨1, [[decide (((2 : ℕ) : ℝ) ≤ x) || decide (x < 0)]]⟩ : Arr2 Bool) = _
    rw [a, b]; rfl
  rw [e]
  have f : Psi.trunc x = ⌊x⌋ := if_pos h0
  have g : Psi.trunc y = ⌊y⌋ := if_pos hy
  show readyD _ ⟨1, [[Psi.trunc x]]⟩ ⟨1, [[Psi.trunc y]]⟩ = _
  rw [f, g]; rfl

theorem exactCoords (v o : ℝ) :
    Part.physicalToCoords unitArea o 1 ⟨1, [[v]]⟩ ⟨1, [[1/2]]⟩ = .ok (⟨1, [[v - o]]⟩, ⟨1, [[1/2]]⟩) := by
  have d : ∀ x : ℝ, FDiv.fdiv x (1 * 1 * 1 : ℝ) = Except.ok x := fun x => by simp [FDiv.fdiv]
  have d' : ∀ x : ℝ, FDiv.fdiv x (1 : ℝ) = Except.ok x := fun x => by simp [FDiv.fdiv]
  show ((((FDiv.fdiv (v + 0) (1 * 1 * 1 : ℝ) >>= fun a => pure (a - o)) >>= fun x => pure [x]) >>= fun r => pure [r]) >>= fun xr =>
    (((FDiv.fdiv (1/2 : ℝ) (1 : ℝ) >>= fun a => pure (a + 0)) >>= fun x => pure [x]) >>= fun r => pure [r]) >>= fun yr =>
      pure ((⟨1, xr⟩ : Arr2 ℝ), (⟨1, yr⟩ : Arr2 ℝ)) : M _) = _
  rw [d, d']
  show Except.ok (_, _) = _
  rw [add_zero, add_zero]

theorem exactBins_eq {v o : ℝ} (h0 : 0 ≤ v - o) (h2 : v - o < 2) : exactBins v o = .ok (⟨1, [[⌊v - o⌋]]⟩, ⟨1, [[0]]⟩) := by
  unfold exactBins
  rw [exactCoords]
  show Run.ready _ _ 2 = _
  rw [ready_one h0 h2 (by norm_num)]
  norm_num

theorem roundedBins_eq {w : World} (h1 : w.rnd 1 = 1) (h00 : w.rnd 0 = 0) (hh : w.rnd (w.rnd (w.rnd (1/2))) ∈ Set.Ico (0 : ℝ) 1) {v o x : ℝ}
    (hx : w.rnd (w.rnd (w.rnd (w.rnd v)) - w.rnd o) = x) (h0 : 0 ≤ x) (h2 : x < 2) :
    roundedBins w v o = .ok (⟨1, [[⌊x⌋]]⟩, ⟨1, [[0]]⟩) := by
  have e : Part.physicalToCoords (K := Rn w) (roundArea w unitArea) (w.rnd o) (w.rnd 1) ⟨1, [[w.rnd v]]⟩ ⟨1, [[w.rnd (1/2)]]⟩
      = .ok (⟨1, [[x]]⟩, ⟨1, [[w.rnd (w.rnd (w.rnd (1/2)))]]⟩) := by
    have d : ∀ x : ℝ, (FDiv.fdiv (α := Rn w) x (w.rnd (w.rnd (w.rnd 1 * w.rnd 1) * w.rnd 1)) : M ℝ) = Except.ok (w.rnd x) := fun x => by
      simp only [h1, mul_one]
      exact (if_neg (one_ne_zero (α := ℝ))).trans (congrArg (fun y => Except.ok (w.rnd y)) (div_one x))
    have d' : ∀ x : ℝ, (FDiv.fdiv (α := Rn w) x (w.rnd 1) : M ℝ) = Except.ok (w.rnd x) := fun x => by
      rw [h1]
      exact (if_neg (one_ne_zero (α := ℝ))).trans (congrArg (fun y => Except.ok (w.rnd y)) (div_one x))
    refine (congrArg₂ (fun (a b : M ℝ) => (do
      let xr ← (do let r ← (do let x ← (do let a ← a; pure (w.rnd (a - w.rnd o))); pure [x]); pure [r])
      let yr ← (do let r ← (do let x ← (do let a ← b; pure (w.rnd (a + w.rnd 0))); pure [x]); pure [r])
      pure ((⟨1, xr⟩ : Arr2 ℝ), (⟨1, yr⟩ : Arr2 ℝ)) : M (Arr2 ℝ × Arr2 ℝ))) (d (w.rnd (w.rnd v + w.rnd 0))) (d' (w.rnd (1/2)))).trans ?_
    show Except.ok ((⟨1, [[w.rnd (w.rnd (w.rnd (w.rnd v + w.rnd 0)) - w.rnd o)]]⟩ : Arr2 ℝ),
      (⟨1, [[w.rnd (w.rnd (w.rnd (1/2)) + w.rnd 0)]]⟩ : Arr2 ℝ)) = _
    rw [h00, add_zero, add_zero, hx]
    rfl
  unfold roundedBins
  have k : ⌊w.rnd (w.rnd (w.rnd (1/2)))⌋ = 0 := Int.floor_eq_zero_iff.mpr hh
  refine (congrArg (fun c : M (Arr2 ℝ × Arr2 ℝ) => c >>= fun p => Run.ready p.1 p.2 2) e).trans ?_
  exact (ready_one h0 h2 hh.1).trans (by rw [k])

/-! A whole run that meets the hypotheses of C92: one particle that drifts from the coordinate 1/4 to 1/8 between two profiles, and a
waterfall with a negative sample. -/

noncomputable def driftR : Mach ℝ := ⟨[0, 0], [0, 0], [0, 0], [0, 0], [1/4], [0, 0], 1⟩

theorem driftR_tracks : Track.trackArray Real.sin 0 driftR 2 1 0 0 [1/4] [1/2] = .ok ([[1/4],[1/8]],[[1/2],[1/2]]) := by
  have : trackCheck 2 1 0 0 = .ok 0 := by decide +kernel
  rw [trackArray, this]
  simp [kickAndDrift, storeRow, forN, rd, upd, whileN,upBody,kickUp,driftUp,driftR,energyGain]
  norm_num

noncomputable def pairArea : Psi.Area ℝ := { unitArea with phi0 := [0, 0], omegaRev0 := [1, 1] }

theorem driftR_coords : Run.userCoords Real.sin driftR pairArea 0 1 2 0 0 [1/4] [1/2] = .ok (⟨1, [[1/4], [1/8]]⟩, ⟨1, [[1/2], [1/2]]⟩) := by
  unfold Run.userCoords
  rw [show pairArea.dturns = 1 from rfl, driftR_tracks]
  simp [Part.physicalToCoords, pairArea, unitArea, npGet, FDiv.fdiv]

theorem driftR_bins : Run.ready (⟨1, [[1/4], [1/8]]⟩ : Arr2 ℝ) ⟨1, [[1/2], [1/2]]⟩ 2 = .ok (⟨2, [[0, 0]]⟩, ⟨2, [[0,0]]⟩) := by
  rw [Rounded.ready_eq]
  have e : (Arr2.map (fun v : ℝ => decide (((2 : ℕ) : ℝ) ≤ v) || decide (v < 0)) ⟨1, [[1/4], [1/8]]⟩) = ⟨1, [[false], [false]]⟩ := by
    simp [Arr2.map]; norm_num
  rw [e]
  have e1 : (Arr2.map Psi.trunc (⟨1, [[1/4], [1/8]]⟩ : Arr2 ℝ)) = ⟨1, [[0], [0]]⟩ := by
    simp [Arr2.map, Psi.trunc]; norm_num
  have e2 : (Arr2.map Psi.trunc (⟨1, [[1/2], [1/2]]⟩ : Arr2 ℝ)) = ⟨1, [[0], [0]]⟩ := by
    simp [Arr2.map, Psi.trunc]; norm_num
  rw [e1, e2]
  rfl

theorem driftR_waterfall : Tomo.initWaterfall ([3, -1, 1, 1] : List ℝ) 2 2 = .ok [1, 0, 1/2, 1/2] := by
  have := (initWaterfall_char (K := ℝ) (nprof := 2) (nbins := 2) (by norm_num) (fun p b => if p = 0 then (if b = 0 then 3 else -1) else 1)).2.2
    ⟨0, 0, by norm_num⟩ (fun p hp => ⟨0, by norm_num, by split <;> norm_num⟩)
  refine Eq.trans ?_ (this.trans ?_)
  · rfl
  · norm_num [flat, tab, List.range_succ, Spec.normRows, Spec.rowSum, Finset.sum_range_succ]

theorem driftR_reconstructs : ∃ st, (Recon.reconstruct Real.sqrt [0, 0] [1, 0, 1/2, 1/2] 0 2 1 2).2 = .ok st := by
  rcases C03_no_division_by_zero (npart := 1) (nprof := 2) (nbins := 2) (x := fun _ _ => 0) Real.sqrt (by norm_num) (by norm_num)
      (fun _ _ _ _ => by norm_num) (fun p b => if p = 0 then (if b = 0 then (1 : ℝ) else 0) else 1/2) 0 with h | h
  · obtain ⟨st, h⟩ := h
    refine ⟨st, ?_⟩
    rw [← h]
    rfl
  · have := ((C04_initial_error_iff Real.sqrt (by norm_num) (by norm_num) (fun _ _ _ _ => by norm_num) _).1.mp h) 0 (by norm_num)
    norm_num [Finset.sum_range_succ] at this

theorem driftR_runs : ∃ o, Run.fromDistribution Real.sin Real.sqrt Run.ready driftR pairArea 0 1 2 0 0 [1/4] [1/2]
    ⟨2, [[3, -1], [1, 1]]⟩ 0 = .ok ((⟨2, [[0, 0]]⟩, ⟨2, [[0,0]]⟩), o) := by
  obtain ⟨st, h⟩ := driftR_reconstructs
  refine ⟨⟨[1, 0, 1/2, 1/2], st⟩, ?_⟩
  unfold Run.fromDistribution
  rw [driftR_coords]
  simp only [bind_ok]
  rw [show pairArea.nbins = 2 from rfl, driftR_bins]
  simp only [bind_ok]
  have ht : Run.tomogram Real.sqrt (⟨2, [[3, -1], [1, 1]]⟩ : Arr2 ℝ) ⟨2, [[0, 0]]⟩ ⟨2, [[0,0]]⟩ 0 = .ok ⟨[1, 0, 1/2, 1/2], st⟩ := by
    unfold Run.tomogram
    show (Tomo.initWaterfall [3, -1, 1, 1] 2 2 >>= _) = _
    rw [driftR_waterfall]
    simp only [bind_ok]
    have hco : Tomo.coordInit 2 2 (Run.pyArray ⟨2, [[0, 0]]⟩) (Run.pyArray ⟨2, [[0,0]]⟩) = .ok ⟨2, 2, some ([1, 2], [0, 0]), some 1, some ([1, 2], [0, 0])⟩ := by
      decide +kernel
    simp only [List.length_cons, List.length_nil, Nat.reduceAdd, hco]
    show ((Recon.reconstruct Real.sqrt [0, 0] [1, 0, 1/2, 1/2] 0 2 1 2).2 >>= _) = _
    rw [h]
    rfl
  rw [ht]; rfl

example : ∃ u : ℝ, 0 < u ∧ ∀ w : World, w.Accurate u → ∃ o' : Run.TomoOut (Rn w),
    Run.fromDistribution (K := Rn w) w.sin w.sqrt (Run.ready (K := ℝ)) (roundMach w driftR) (roundArea w pairArea) (w.rnd 0)
      (w.rnd 1) 2 0 0 (roundAll w [1/4]) (roundAll w [1/2]) (roundArr w ⟨2, [[3, -1], [1, 1]]⟩) 0
      = .ok ((⟨2, [[0, 0]]⟩, ⟨2, [[0, 0]]⟩), o') := by
  obtain ⟨o, ho⟩ := driftR_runs
  have off : ∀ v : ℝ, 0 < v → v < 1 → ∀ z : ℤ, v ≠ z := by
    rintro v h0 h1 z rfl
    have a : (0 : ℤ) < z := by exact_mod_cast h0
    have b : z < (1 : ℤ) := by exact_mod_cast h1
    omega
  obtain ⟨u, hu, h⟩ := C92_run_partial driftR pairArea 0 1 2 0 0 [1/4] [1/2] ⟨2, [[3, -1], [1, 1]]⟩ 0 driftR_coords
    (by simp only [OffGrid, List.forall_mem_cons, List.not_mem_nil, false_imp_iff, implies_true, and_true]
        exact ⟨off _ (by norm_num) (by norm_num), off _ (by norm_num) (by norm_num)⟩)
    (by simp only [OffGrid, List.forall_mem_cons, List.not_mem_nil, false_imp_iff, implies_true, and_true]
        exact ⟨off _ (by norm_num) (by norm_num), off _ (by norm_num) (by norm_num)⟩) ho one_pos
  exact ⟨u, hu, fun w hw => (h w hw).imp fun _ h => h.1⟩

/-- a unit that rounds every number that is not a natural number towards zero -/
noncomputable def shrinking (δ : ℝ) : World where
  rnd x := open Classical in if ∃ n : ℕ, x = n then x else x * (1 - δ)
  sin := Real.sin
  sqrt := Real.sqrt

theorem shrinking_accurate {u δ : ℝ} (h0 : 0 ≤ δ) (hu : δ ≤ u) : (shrinking δ).Accurate u where
  rnd x := by
    unfold shrinking
    dsimp only
    split
    · rw [sub_self, abs_zero]; exact mul_nonneg (h0.trans hu) (abs_nonneg x)
    · rw [show x * (1 - δ) - x = -(δ * x) by ring, abs_neg, abs_mul, abs_of_nonneg h0]
      exact mul_le_mul_of_nonneg_right hu (abs_nonneg x)
  exact n _ := if_pos ⟨n, rfl⟩
  sin x _ := by
    show |Real.sin x - Real.sin x| ≤ u
    rw [sub_self, abs_zero]; exact h0.trans hu
  sqrt x _ := by
    show |Real.sqrt x - Real.sqrt x| ≤ _
    rw [sub_self, abs_zero]; exact mul_nonneg (h0.trans hu) (Real.sqrt_nonneg x)

theorem shrinking_between {δ x : ℝ} (n : ℕ) (h1 : (n : ℝ) < x) (h2 : x < n + 1) : (shrinking δ).rnd x = x * (1 - δ) := by
  refine if_neg ?_
  rintro ⟨m, rfl⟩
  have a : n < m := by exact_mod_cast h1
  have b : m < n + 1 := by exact_mod_cast h2
  omega

/-- C92 fails for particles on a bin boundary: whatever accuracy is asked for, there is a floating point unit of that accuracy that
puts a particle with exact coordinate 1 into bin 0, although the exact computation (and C92 off the boundaries) puts it into bin 1. -/
theorem C92_violated_boundary {u : ℝ} (hu : 0 < u) :
    exactBins (3/2) (1/2) = .ok (⟨1, [[1]]⟩, ⟨1, [[0]]⟩) ∧
      ∃ w : World, w.Accurate u ∧ roundedBins w (3/2) (1/2) = .ok (⟨1, [[0]]⟩, ⟨1, [[0]]⟩) := by
  constructor
  · rw [exactBins_eq (by norm_num) (by norm_num)]
    norm_num
  · have hd0 : 0 < min u (1/32) := lt_min hu (by norm_num)
    have hd1 : min u (1/32) ≤ 1/32 := min_le_right _ _
    refine ⟨shrinking (min u (1/32)), shrinking_accurate hd0.le (min_le_left _ _), ?_⟩
    generalize min u (1/32) = δ at hd0 hd1
    have n0 : ∀ n : ℕ, (shrinking δ).rnd n = n := fun n => if_pos ⟨n, rfl⟩
    have b : ∀ (n : ℕ) (x : ℝ), n < x → x < n + 1 → (shrinking δ).rnd x = x * (1 - δ) := fun n x => shrinking_between n
    have s1 : 31/32 ≤ 1 - δ := by linarith
    have s2 : 1 - δ < 1 := by linarith
    generalize 1 - δ = c at s1 s2 b
    have c2 : 15/16 ≤ c * c := by nlinarith
    have c2' : c * c < c := by nlinarith
    have c3 : 29/32 ≤ c * c * c := by nlinarith
    have c3' : c * c * c < c * c := by nlinarith
    have e1 : (shrinking δ).rnd (3/2) = 3/2 * c := b 1 _ (by norm_num) (by norm_num)
    have e2 : (shrinking δ).rnd (3/2 * c) = 3/2 * c * c := b 1 _ (by push_cast; linarith) (by push_cast; linarith)
    have e3 : (shrinking δ).rnd (3/2 * c * c) = 3/2 * c * c * c := b 1 _ (by push_cast; nlinarith) (by push_cast; nlinarith)
    have e4 : (shrinking δ).rnd (1/2) = 1/2 * c := b 0 _ (by norm_num) (by norm_num)
    have e5 : (shrinking δ).rnd (1/2 * c) = 1/2 * c * c := b 0 _ (by push_cast; linarith) (by push_cast; linarith)
    have e6 : (shrinking δ).rnd (1/2 * c * c) = 1/2 * c * c * c := b 0 _ (by push_cast; nlinarith) (by push_cast; nlinarith)
    have d1 : 3/2 * c * c * c - 1/2 * c < 1 := by nlinarith
    have d0 : 3/4 < 3/2 * c * c * c - 1/2 * c := by nlinarith
    have e7 : (shrinking δ).rnd (3/2 * c * c * c - 1/2 * c) = (3/2 * c * c * c - 1/2 * c) * c :=
      b 0 _ (by push_cast; linarith) (by push_cast; linarith)
    have p0 : 0 ≤ (3/2 * c * c * c - 1/2 * c) * c := mul_nonneg (by linarith) (by linarith)
    have p1 : (3/2 * c * c * c - 1/2 * c) * c < 1 := by nlinarith
    rw [roundedBins_eq (x := (3/2 * c * c * c - 1/2 * c) * c) (by simpa using n0 1) (by simpa using n0 0)
      (by rw [e4, e5, e6]; constructor <;> nlinarith) (by rw [e1, e2, e3, e4, e7]) p0 (by linarith),
      Int.floor_eq_zero_iff.mpr ⟨p0, p1⟩]

theorem binaryRound_pos {p : ℕ} {e k : ℤ} {x : ℝ} (h1 : (2 : ℝ) ^ e ≤ x) (h2 : x < 2 ^ (e + 1))
    (h3 : (k : ℝ) - 1/2 ≤ x * 2 ^ ((p : ℤ) - 1 - e)) (h4 : x * 2 ^ ((p : ℤ) - 1 - e) < k + 1/2) :
    binaryRound p x = k * 2 ^ (e - ((p : ℤ) - 1)) := by
  have hx : 0 < x := lt_of_lt_of_le (by positivity) h1
  have hl : Int.log 2 |x| = e := by
    rw [abs_of_pos hx]
    apply le_antisymm
    · have := (Int.lt_zpow_iff_log_lt (b := 2) (by norm_num) hx (x := e + 1)).mp (by exact_mod_cast h2)
      omega
    · exact (Int.zpow_le_iff_le_log (b := 2) (by norm_num) hx).mp (by exact_mod_cast h1)
  unfold binaryRound
  rw [hl, round_eq_iff.mpr ⟨h3, h4⟩]

/-- C92 on a boundary, in doubles: phase 7/5 and origin 2/5 give the coordinate 1, but in double precision 1.4 - 0.4 is the
number below 1, and the particle is put into bin 0. -/
theorem C92_violated_doubles :
    exactBins (7/5) (2/5) = .ok (⟨1, [[1]]⟩, ⟨1, [[0]]⟩) ∧ roundedBins (binary 53) (7/5) (2/5) = .ok (⟨1, [[0]]⟩, ⟨1, [[0]]⟩) := by
  constructor
  · rw [exactBins_eq (by norm_num) (by norm_num)]
    norm_num
  · have f1 : binaryRound 53 (7/5) = 6305039478318694 / 2^52 := by
      rw [binaryRound_pos (e := 0) (k := 6305039478318694)] <;> norm_num
    have f2 : binaryRound 53 (6305039478318694 / 2^52) = 6305039478318694 / 2^52 := by
      rw [binaryRound_pos (e := 0) (k := 6305039478318694)] <;> norm_num
    have f3 : binaryRound 53 (2/5) = 7205759403792794 / 2^54 := by
      rw [binaryRound_pos (e := -2) (k := 7205759403792794)] <;> norm_num
    have f4 : binaryRound 53 (6305039478318694 / 2^52 - 7205759403792794 / 2^54) = 1 - 1 / 2^53 := by
      rw [binaryRound_pos (e := -1) (k := 9007199254740991)] <;> norm_num
    have f5 : binaryRound 53 (1/2) = 1/2 := by
      rw [binaryRound_pos (e := -1) (k := 4503599627370496)] <;> norm_num
    have n0 : binaryRound 53 0 = 0 := by simpa using binaryRound_nat (p := 53) (n := 0) (by norm_num) (by norm_num)
    have n1 : binaryRound 53 1 = 1 := by simpa using binaryRound_nat (p := 53) (n := 1) (by norm_num) (by norm_num)
    rw [roundedBins_eq (w := binary 53) (x := 1 - 1 / 2^53) n1 n0
      (by show binaryRound 53 (binaryRound 53 (binaryRound 53 (1/2))) ∈ _; rw [f5, f5, f5]; norm_num)
      (by show binaryRound 53 (binaryRound 53 (binaryRound 53 (binaryRound 53 (7/5))) - binaryRound 53 (2/5)) = _; rw [f1, f2, f2, f3, f4])
      (by norm_num) (by norm_num), Int.floor_eq_zero_iff.mpr ⟨by norm_num, by norm_num⟩]

end Verif.Props

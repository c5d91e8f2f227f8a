import Verif.Props.RunFile
import Verif.Props.Programs
import Verif.Props.Physics
import Verif.Props.TomographicsClip

/-!
# Theorems added after wrong programs went unnoticed (C49, C58, C69, C78)
-/

set_option linter.unusedSectionVars false

namespace Verif.Props
open Verif.Graph Verif.Part Verif.Psi Verif.Mch Verif.Asrt Verif.Spec Verif.Run Verif.Inp Verif.Prof Verif.Prog

/-! ## C69: the machine computed is the one of the file -/

section
variable {S K : Type} [Field K] [LinearOrder K] [IsStrictOrderedRing K] [FloorRing K]

theorem assert_filePars {d : FileDoc S K} {p : MachinePars K} (h : assertMachineInput (machineArgs (meaning d)) = .ok p) :
    p = filePars d := by
  unfold assertMachineInput at h
  simp only [bind_ok_iff, notNone_ok, (assertGreaterOrEqual_checks _ _ _).ok_iff, (assertGreater_checks _ _ _).ok_iff,
    film_ok, spaceCharge_ok, exists_const] at h
  obtain ⟨x1, e1, h1, x2, e2, h2, hf, x3, e3, h3, x4, e4, h4, x5, e5, h5, x6, e6, h6, x7, e7, h7, x8, e8, h8, x9, e9,
      h9, x10, e10, h10, x11, e11, h11, x12, e12, h12, s1, s2, hp⟩ := h
  cases e1; cases e2; cases e3; cases e4; cases e5; cases e6; cases e7; cases e8; cases e9; cases e10; cases e11; cases e12
  cases hp
  rfl

/-- C69: the arrays of a loaded machine are those of the voltages, harmonics, field, radii, masses and charges of the file; the
reference turn is the machine reference frame of the file times the turns between frames; the voltages change linearly. -/
theorem C69_turns {L : MathLib K} (hc : L.c ≠ 0) {R : Reader S K} {qe : K} {params : List S} {data : List K}
    {m : Run.Mach K} {wf : Arr2 K} (h : loadFile L R qe params data = .ok (m, wf)) :
    ∃ (d : FileDoc S K) (i0 A : ℕ) (t ph e b dE eta coef om : ℕ → K), IsFile R params d ∧
      (i0 : ℤ) = (d.machineReferenceFrame - 1) * d.turnsBetweenFrames ∧
      (A : ℤ) = (d.framesInData - d.framesToIgnore - 1) * d.turnsBetweenFrames ∧ i0 ≤ A ∧
      TurnArrays L (filePars d) i0 A t ph e b dE eta coef om m.toMachineOut ∧
      m.vrf1AtTurn = tab (A + 1) (fun i => d.voltage1 + d.voltage1Rate * t i) ∧
      m.vrf2AtTurn = tab (A + 1) (fun i => d.voltage2 + d.voltage2Rate * t i) ∧ t i0 = 0 := by
  obtain ⟨d, _, _, _, _, _, _, _, _, _, hd, _, _, _, _, hv, _⟩ := C69_loaded hc h
  obtain ⟨p, i0, A, t, ph, e, b, dE, eta, coef, om, hp, h1, h2, h3, h4, _⟩ := C39_turn_arrays_partial L _ _ hv
  have hp' := assert_filePars hp
  subst hp'
  exact ⟨d, i0, A, t, ph, e, b, dE, eta, coef, om, hd, h1, h2, h3, h4, h4.vrf1, h4.vrf2, h4.laws.time0⟩

end

/-! ## C58: where each search starts -/

section
variable {K : Type} [Field K] [LinearOrder K] [IsStrictOrderedRing K] [FloorRing K]

/-- C58, phase program: each phase is the result of one search at its own turn, for both systems.  At the reference turn the search
starts at the phase found for the first system alone (searched from 0 when charge and `γt - γ` have the same sign, from half a turn
otherwise); after it at the phase of the turn before, before it at the phase of the turn after.
Missing: the phase difference given as a number or an array, as for `C58_program_partial`. -/
theorem C58_chain_partial {L : MathLib K} {a : PArgs K} (hS : Sound L a) {fuel m i0 : ℕ} {t p : ℕ → K}
    (h : interpolateMomentum L a fuel = .ok (tab m t, tab m p)) (hm : 2 ≤ m) (hp : ∀ j, j < m → 0 < p j)
    (hi : a.machineRefFrame * a.dturns = (i0 : ℕ)) (hi0 : i0 < m)
    {nv : ℕ} (hnv : 0 < nv) {τv u1 u2 : ℕ → K} (hτv : ∀ k, k + 1 < nv → τv k < τv (k + 1))
    (hv0 : a.voltTime = tab nv τv) (hv1 : a.volt1 = tab nv u1) (hv2 : a.volt2 = tab nv u2)
    {np : ℕ} (hnp : 0 < np) {τp q1 q2 : ℕ → K} (hτp : ∀ k, k + 1 < np → τp k < τp (k + 1))
    (hph : a.phase = .program (tab np τp) (tab np q1) (tab np q2))
    {h0 h1 : K} (hh : a.harmonics = [h0, h1]) (hh0 : h0 ≠ 0) (hh1 : h1 ≠ 0) {o : POut K}
    (ho : Prog.valuesAtTurns L a fuel = .ok o) :
    ∃ V1 V2 Q1 Q2 : K → K, ∃ (φ bd : ℕ → K) (start : K), Follows nv τv u1 V1 ∧ Follows nv τv u2 V2 ∧
      Follows np τp q1 Q1 ∧ Follows np τp q2 Q2 ∧ o.phi0 = tab m φ ∧ o.bdot = tab m bd ∧
      L.newton (fun x => V1 (t i0) * L.sin x - 2 * L.pi * a.meanOrbitRad * a.bendingRad * bd i0 * npSign a.q)
        (fun x => V1 (t i0) * L.cos x)
        (if 0 < a.q * (a.transGamma - pmEnergy L (p i0) a.eRest / a.eRest) then 0 else L.pi) = some start ∧
      ∀ j, j < m →
        L.newton (fun x => V1 (t j) * L.sin x + V2 (t j) * L.sin (h1 / h0 * (x - (Q1 (t j) - Q2 (t j) + L.pi) / (h1 / h0)))
            - 2 * L.pi * a.meanOrbitRad * a.bendingRad * bd j * npSign a.q)
          (fun x => V1 (t j) * L.cos x +
            h1 / h0 * V2 (t j) * L.cos (h1 / h0 * (x - (Q1 (t j) - Q2 (t j) + L.pi) / (h1 / h0))))
          (if j = i0 then start else if i0 < j then φ (j - 1) else φ (j + 1)) = some (φ j) := by
  obtain ⟨V1, f1, _, _, r1⟩ := npInterp_ok hnv τv u1 hτv
  obtain ⟨V2, f2, _, _, r2⟩ := npInterp_ok hnv τv u2 hτv
  obtain ⟨Q1, f3, _, _, r3⟩ := npInterp_ok hnp τp q1 hτp
  obtain ⟨Q2, f4, _, _, r4⟩ := npInterp_ok hnp τp q2 hτp
  obtain ⟨o', ho', hval⟩ := values_program (V1 := V1) (V2 := V2) (Q1 := Q1) (Q2 := Q2) hS h hm hp hi hi0 (by rw [hv0, hv1, r1])
    (by rw [hv0, hv2, r2]) hh hh0 hh1 hph (r3 m t) (r4 m t)
  rw [hval, Asrt.bind_ok_iff] at ho
  obtain ⟨ph, hph', ho⟩ := ho
  have hto := turnArrays_ok hS hm p hp hi hi0 (tab m fun j => V1 (t j)) (tab m fun j => V2 (t j)) (h1 / h0)
  rw [hto] at ho'
  cases ho'
  cases ho
  obtain ⟨hlen, start, hstart, hall⟩ := findSynchronousPhase_ok hi hph'
  rw [length_tab] at hlen hall
  have hphi : ph = tab m fun j => ph.getD j 0 := by
    apply List.ext_getElem?
    intro j
    by_cases hj : j < m
    · rw [some_tab _ hj, List.getElem?_eq_getElem (by omega)]
      simp [List.getD, List.getElem?_eq_getElem (show j < ph.length by omega)]
    · rw [List.getElem?_eq_none (by omega), List.getElem?_eq_none (by simp; omega)]
  refine ⟨V1, V2, Q1, Q2, fun j => ph.getD j 0, _, start, f1, f2, f3, f4, hphi, rfl, ?_, ?_⟩
  · unfold phaseStart at hstart
    dsimp only at hstart
    rw [hi, npGet_tab _ hi0, bind_ok] at hstart
    obtain ⟨g, hg, hstart⟩ := bind_inv hstart
    obtain ⟨_, rfl⟩ := fdiv_inv hg
    rw [npGet_tab _ hi0, bind_ok, npGet_tab _ hi0, bind_ok] at hstart
    unfold Mch.newton at hstart
    split at hstart
    · rename_i x hx
      cases hstart
      rw [← hx]
      unfold pmEnergy
      congr 1
      · by_cases hq : 0 < a.q * (a.transGamma - L.sqrt (p i0 ^ 2 + a.eRest ^ 2) / a.eRest)
        · rw [if_pos hq, if_pos hq]; simp
        · rw [if_neg hq, if_neg hq]; simp
    · cases hstart
  · intro j hj
    obtain ⟨x0, φ, hφ, hrun, g1, g2, g3⟩ := hall j hj
    have hx : (if j = i0 then start else if i0 < j then ph.getD (j - 1) 0 else ph.getD (j + 1) 0) = x0 := by
      split
      · rename_i hji; exact (g1 hji).symm
      · split
        · rename_i hji; simp [List.getD, g2 hji]
        · simp [List.getD, g3 (by omega)]
    rw [hx]
    unfold phaseAt at hrun
    rw [npGet_tab _ hj, bind_ok, npGet_tab _ hj, bind_ok, npGet_tab _ hj, bind_ok, npGet_tab _ hj, bind_ok] at hrun
    unfold Mch.newton at hrun
    split at hrun
    · rename_i x hx'
      cases hrun
      have he : ph.getD j 0 = φ := by simp [List.getD, hφ]
      dsimp only
      rw [he, ← hx']
      congr 1
      · funext y; unfold rfPmch rfVoltage; ring
    · cases hrun

end

/-- the ramp of `rampProg` meets the hypotheses on lengths and the search succeeds at all three turns -/
example : (Prog.valuesAtTurns libQ (rampProg 1 3) 50).map (fun o => (o.phi0.length, o.bdot.length)) = .ok (3, 3) := by decide +kernel

/-! ## C49: the functions of the fit -/

/-- C49, fit of the synchronous particle: with equal voltages and phase differences at the turn of the fit and at the index of the
reference frame, the derivative handed to Newton is the derivative of the function.
Missing: different voltages (`C49_violated_fit`). -/
theorem C49_fit_partial (L : MathLib ℝ) (hL : RealFuns L) (len v1 v2 p0 h p12 : ℝ) (hh : h ≠ 0) (φ : ℝ) :
    HasDerivAt (Fit.phaseLowFn L len v1 v2 v1 v2 p0 h p12) (Fit.dphaseLowFn L len v1 v2 h p12 φ) φ := by
  unfold Fit.phaseLowFn Fit.dphaseLowFn
  rw [hL.cos, hL.sin]
  have a1 : HasDerivAt (fun x : ℝ => x + len) 1 φ := (hasDerivAt_id φ).add_const len
  have a2 : HasDerivAt (fun x : ℝ => h * (x + len - p12)) (h * 1) φ := (a1.sub_const p12).const_mul h
  have a3 : HasDerivAt (fun x : ℝ => h * (x - p12)) (h * 1) φ := ((hasDerivAt_id φ).sub_const p12).const_mul h
  have b1 := ((a1.cos).sub (Real.hasDerivAt_cos φ)).const_mul v1
  have b2 := (((a2.cos).sub a3.cos).const_mul v2).div_const h
  have b3 := (b1.add b2).add_const (len * rfVoltageAtPhase L p0 v1 v2 h p12)
  refine b3.congr_deriv ?_
  field_simp
  ring

/-- C49 fails for the fit when the voltages differ: one system, no voltage at the index of the reference frame. -/
theorem C49_violated_fit (L : MathLib ℝ) (hL : RealFuns L) :
    ¬ HasDerivAt (Fit.phaseLowFn L Real.pi 0 0 1 0 0 1 0) (Fit.dphaseLowFn L Real.pi 1 0 1 0 (Real.pi / 2)) (Real.pi / 2) := by
  intro hd
  have hc : HasDerivAt (Fit.phaseLowFn L Real.pi 0 0 1 0 0 1 0) 0 (Real.pi / 2) := by
    have : Fit.phaseLowFn L Real.pi 0 0 1 0 0 1 0 = fun _ => Real.pi * rfVoltageAtPhase L 0 1 0 1 0 := by
      funext φ; simp [Fit.phaseLowFn]
    rw [this]
    exact hasDerivAt_const _ _
  have := hd.unique hc
  unfold Fit.dphaseLowFn at this
  rw [hL.sin] at this
  simp [Real.sin_add_pi] at this

/-! ## C78: the contour used for clipping -/

section
variable {K : Type} [Field K] [LinearOrder K] [IsStrictOrderedRing K]
open Verif.Graph

/-- heights `hs` and area `ar` of the contour of amplitude `amp` -/
def ContourOf (L : MathLib K) (m : GMach K) (a : At K) (v : K) (phis us ps : List K) (amp : K) (hs : List K) (ar : K) : Prop :=
  ∃ pl, (lengthAtLevel phis us a.phi0 amp).map Prod.snd = .ok pl ∧ ps.mapM (height L m a v pl) = .ok hs ∧
    areaOf m a.omega hs ps = .ok ar

theorem clipHeights_spec {L : MathLib K} {m : GMach K} {a : At K} {v : K} {phis us ps : List K} {target : K} {amps : List K}
    {o r : Option (List K)} (h : clipHeights L m a v phis us ps target amps o = .ok r) :
    (amps = [] ∧ r = o) ∨ ∃ (k : ℕ) (hs : List K) (ar : K) (hk : k < amps.length), r = some hs ∧
      ContourOf L m a v phis us ps amps[k] hs ar ∧ (target ≤ ar ∨ k + 1 = amps.length) ∧
      ∀ (j : ℕ) (hj : j < k), ∃ hs' ar', ContourOf L m a v phis us ps (amps[j]'(hj.trans hk)) hs' ar' ∧ ar' < target := by
  induction amps generalizing o with
  | nil => unfold clipHeights at h; cases h; exact .inl ⟨rfl, rfl⟩
  | cons amp l ih =>
    right
    unfold clipHeights at h
    obtain ⟨⟨x, pl⟩, h1, h⟩ := bind_inv h
    dsimp only at h
    obtain ⟨hs, h2, h⟩ := bind_inv h
    obtain ⟨ar, h3, h⟩ := bind_inv h
    have hC : ContourOf L m a v phis us ps amp hs ar := ⟨pl, by rw [h1]; rfl, h2, h3⟩
    by_cases ht : target ≤ ar
    · rw [if_pos ht] at h
      cases h
      exact ⟨0, hs, ar, by simp, rfl, hC, .inl ht, fun j hj => absurd hj (by omega)⟩
    · rw [if_neg ht] at h
      rcases ih h with ⟨rfl, rfl⟩ | ⟨k, hs', ar', hk, e1, e2, e3, e4⟩
      · exact ⟨0, hs, ar, by simp, rfl, hC, .inr rfl, fun j hj => absurd hj (by omega)⟩
      · refine ⟨k + 1, hs', ar', by simp; omega, e1, by simpa using e2, e3.imp id (fun h => by simp; omega), ?_⟩
        intro j hj
        rcases j with _ | j
        · exact ⟨hs, ar, hC, not_le.mp ht⟩
        · obtain ⟨hs2, ar2, g1, g2⟩ := e4 j (by omega)
          exact ⟨hs2, ar2, by simpa using g1, g2⟩

/-- C78: the heights returned are those of the first of the `n` contours, from the innermost outwards, that is at least as large as the
target emittance; if none is, those of the last one. -/
theorem C78_contour {L : MathLib K} {m : GMach K} {time dEs : List K} {mapX mapY : Arr2 K} {weight : List K} {target : K} {n : ℕ}
    {frame : Option Int} {w hs : List K} {idx : List ℕ}
    (h : weightClipping L m time dEs mapX mapY weight target n frame = .ok (w, hs, idx)) :
    ∃ (a : At K) (v mn : K) (ps : List K), atFrame m frame = .ok a ∧ m.vrf1 = some v ∧ matchedPhases m a time = .ok ps ∧
      Pre.npMin ((phiArray L a.phi0).map (urf L v a.phi0)) = .ok mn ∧
      ∃ (k : ℕ) (ar : K) (hk : k < (linspace 0 mn n).length),
        ContourOf L m a v (phiArray L a.phi0) ((phiArray L a.phi0).map (urf L v a.phi0)) ps (linspace 0 mn n)[k] hs ar ∧
        (target ≤ ar ∨ k + 1 = (linspace 0 mn n).length) ∧
        ∀ (j : ℕ) (hj : j < k), ∃ hs' ar', ContourOf L m a v (phiArray L a.phi0) ((phiArray L a.phi0).map (urf L v a.phi0)) ps
          ((linspace 0 mn n)[j]'(hj.trans hk)) hs' ar' ∧ ar' < target := by
  unfold weightClipping at h
  obtain ⟨a, ha, h⟩ := bind_inv h
  dsimp only at h
  obtain ⟨v, hv, h⟩ := bind_inv h
  obtain ⟨ps, hps, h⟩ := bind_inv h
  obtain ⟨mn, hmn, h⟩ := bind_inv h
  obtain ⟨_, _, h⟩ := bind_inv h
  obtain ⟨_, _, h⟩ := bind_inv h
  obtain ⟨o, ho, h⟩ := bind_inv h
  obtain ⟨hs', hb, h⟩ := bind_inv h
  obtain ⟨xs, _, h⟩ := bind_inv h
  obtain ⟨ys, _, h⟩ := bind_inv h
  obtain ⟨⟨w', idx'⟩, _, h⟩ := bind_inv h
  dsimp only at h
  obtain ⟨w2, _, h⟩ := bind_inv h
  cases h
  refine ⟨a, v, mn, ps, ha, notNone_ok.mp hv, hps, hmn, ?_⟩
  rcases clipHeights_spec ho with ⟨_, rfl⟩ | ⟨k, hs2, ar, hk, rfl, g1, g2, g3⟩
  · cases hb
  · cases hb
    exact ⟨k, ar, hk, g1, g2, g3⟩

end

/-- a machine and its values at one frame -/
def clipMach : GMach ℚ := ⟨0, 1, [0], [2], [-1], [1], 1, 1, 1, some (-1), 1⟩

/-- four contours: for a target of 0 the first is used, for a target of 1 the second -/
example : (atFrame clipMach none).map (fun a => (a.phi0, a.e0, a.eta0, a.omega, a.gamma0)) = .ok (0, 2, -1, 1, 2) ∧
    ([0, 1].map fun t => clipHeights libQ clipMach ⟨0, 2, -1, 1, 2⟩ (-1) [-3, -2, -1, 1, 2, 3] [-9 / 2, -2, -1 / 2, -1 / 2, -2, -9 / 2]
      [-1, 0, 1] t [0, -2, -4, -9 / 2] none) = [.ok (some [0, 1 / 4, 0]), .ok (some [3 / 4, 1, 3 / 4])] := by
  constructor <;> decide +kernel

end Verif.Props

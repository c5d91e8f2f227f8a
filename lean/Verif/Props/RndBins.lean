import Verif.Props.RndTurn
import Verif.Props.Rnd
import Verif.Lemmas.RndBins
import Verif.Model.RunUser

/-!
# Floating point puts particles that are clear of the bin edges into the right bins (C119)

As in C118 the arrays of the machine and the start coordinates are taken as they are.
-/

namespace Verif.Props
open Verif.Spec Verif.Track Verif.RTurn Verif.Rounded Verif.RBins

/-- horizontal coordinate of a phase `v` at turn `t` -/
noncomputable def binX (a : Psi.Area ℝ) (om ph : ℕ → ℝ) (xo : ℝ) (t : ℕ) (v : ℝ) : ℝ := (v + ph t) / (a.hNum * om t * a.dtbin) - xo

/-- vertical coordinate of an energy `v` -/
noncomputable def binY (a : Psi.Area ℝ) (dE v : ℝ) : ℝ := v / dE + a.synchPartY

theorem trackCheck_ok {P d r s : ℕ} {δ : Int} (hr : r < P) (hs : (s : Int) = r * d + δ) (h1 : -(d : Int) < δ) (h2 : δ ≤ 0) (hd : 0 < d)
    (hsn : s < (P - 1) * d) : trackCheck P d r δ = .ok (r : Int) := by
  have hc : (d : Int) * ((P : Int) - 1) = ((P - 1) * d : ℕ) := by
    rw [Nat.cast_mul, Nat.cast_sub (by omega)]; push_cast; ring
  have e : (d : Int) * r + δ = s := by rw [hs]; ring
  unfold trackCheck assertIndexOk
  have a1 : |δ| < (d : Int) := by rw [abs_of_nonpos h2]; omega
  have a2 : ((s : Int) < ((P - 1) * d : ℕ)) := by exact_mod_cast hsn
  have a3 : ¬ ((r : Int) ≥ P) := by omega
  have a4 : ¬ ((r : Int) < 0) := by omega
  rw [if_neg a4, if_neg a3]
  simp only [bind, Except.bind]
  rw [hc, e, if_neg (not_not.mpr a1), if_neg (not_not.mpr a2), if_neg (not_not.mpr (by omega))]

theorem userTrack {α : Type} [Add α] [Sub α] [Mul α] [Zero α] (sin : α → α) {m : Mach α} {P n d r s : ℕ} {δ : Int} (hr : r < P) (hd : 0 < d)
    (hs : (s : Int) = r * d + δ) (h1 : -(d : Int) < δ) (h2 : δ ≤ 0) (hsn : s < (P - 1) * d) (c : ℕ → α × α) {st : TS α}
    (h : cppTrack sin m P n d r δ (fun _ _ => (0, 0)) c = .ok st) :
    trackArray sin 0 m P d r δ (phis n c) (energies n c) = .ok (st.xp, st.yp) := by
  have hc : (d : Int) * ((P : Int) - 1) = ((P - 1) * d : ℕ) := by
    rw [Nat.cast_mul, Nat.cast_sub (by omega)]; push_cast; ring
  have hz : List.replicate (P : Int).toNat (List.replicate (phis n c).length (0 : α)) = rows P n fun _ _ => (0 : α) := by
    unfold rows tab phis
    simp [List.map_const', tab]
  unfold trackArray
  rw [trackCheck_ok hr hs h1 h2 hd hsn]
  dsimp only
  rw [hz, hc]
  have hl : (phis n c).length = n := by simp [phis]
  rw [hl]
  unfold cppTrack at h
  dsimp only at h
  rw [h]
  rfl

/-- what the code computes for the horizontal quotient with rounded operations -/
noncomputable def quotX (w : World) (a : Psi.Area ℝ) (om ph : ℕ → ℝ) (d p : ℕ) (v : ℝ) : ℝ :=
  w.rnd (w.rnd (v + ph (p * d)) / w.rnd (w.rnd (a.hNum * om (p * d)) * a.dtbin))

/-- and for the vertical one -/
noncomputable def quotY (w : World) (dE v : ℝ) : ℝ := w.rnd (v / dE)

theorem marginX_mono {u e X F k k' o : ℝ} (hu : 0 ≤ u) (he : 0 ≤ e) (hX : 0 ≤ X) (hF : 0 ≤ F) (hk : 0 < k) (h : k ≤ k') :
    marginX u e X F k' o ≤ marginX u e X F k o := by
  unfold marginX
  have : (2 * e + 15 * u * (X + F)) / k' ≤ (2 * e + 15 * u * (X + F)) / k := by
    gcongr
  linarith

/-- C119, coordinates: tracking user particles and converting to phase-space coordinates.  In floating point of accuracy `u` the
coordinates of every particle in every profile are right up to `marginX` and `marginY`, which depend on the sizes only. -/
theorem C119_coords {w : World} {u : ℝ} (hw : w.Accurate u) (h0 : 0 ≤ u) (hu : u ≤ 1 / 8) {m : Mach ℝ} {R : Program ℝ}
    {P n d r s N : ℕ} {δ : Int} (hd : 0 < d) (hA : Agrees m ((P - 1) * d) R) (hr : r < P) (hs : (s : Int) = r * d + δ)
    (h1 : -(d : Int) < δ) (h2 : δ ≤ 0) (hsn : s < (P - 1) * d) {σ κ V G F X : ℝ} (hσ : 0 < σ) (hκ : 0 ≤ κ)
    (hT : Tame R ((P - 1) * d) σ κ V G F) (hrange : 4 * (1 + |R.h|) * (2 * X + F) * u ≤ 1) (c : ℕ → ℝ × ℝ)
    (hc : ∀ i, i < n → ∀ t, t ≤ (P - 1) * d → Held σ X (transport Real.sin R s t (c i))) (small : drifted u κ V G F X (P * d) ≤ X)
    {a : Psi.Area ℝ} {om ph : ℕ → ℝ} {xo dE k : ℝ} (hdt : a.dturns = d) (ho : a.omegaRev0 = tab N om) (hp : a.phi0 = tab N ph)
    (hN : (P - 1) * d < N) (hk : 0 < k) (hw' : ∀ p, p < P → k ≤ a.hNum * om (p * d) * a.dtbin) (hph : ∀ p, p < P → |ph (p * d)| ≤ F)
    (hdE : 0 < dE) :
    ∃ x' y' : ℕ → ℕ → ℝ,
      Run.userCoords Real.sin m a xo dE P r δ (phis n c) (energies n c) = .ok
        (arr P n fun p i => binX a om ph xo (p * d) (transport Real.sin R s (p * d) (c i)).1,
         arr P n fun p i => binY a dE (transport Real.sin R s (p * d) (c i)).2) ∧
      Run.userCoords (K := Rn w) w.sin m a xo dE P r δ (phis n c) (energies n c) = .ok (arr P n x', arr P n y') ∧
      ∀ p i, p < P → i < n →
        |x' p i - binX a om ph xo (p * d) (transport Real.sin R s (p * d) (c i)).1| ≤ marginX u (drifted u κ V G F X (P * d)) X F k xo ∧
        |y' p i - binY a dE (transport Real.sin R s (p * d) (c i)).2| ≤ marginY u (drifted u κ V G F X (P * d)) X (σ * dE) a.synchPartY := by
  obtain ⟨st, st', Y, g1, g2, g3, g4, g5⟩ := C118_bound (n := n) hw h0 (hu.trans (by norm_num)) hd hA hr hs h1 h2 hσ hκ hT hrange
    (fun _ _ => (0, 0)) c hc small
  have hNi : ∀ i, i < P → i * d < N := fun i hi => lt_of_le_of_lt (Nat.mul_le_mul_right d (by omega)) hN
  have t1 := userTrack Real.sin hr hd hs h1 h2 hsn c g1
  have t2 := userTrack (α := Rn w) w.sin hr hd hs h1 h2 hsn c g2
  have wpos : ∀ p, p < P → 0 < a.hNum * om (p * d) * a.dtbin := fun p hp => hk.trans_le (hw' p hp)
  have wd := fun p (hp : p < P) => width_error hw h0 hu (wpos p hp)
  have wpos' : ∀ p, p < P → w.rnd (w.rnd (a.hNum * om (p * d)) * a.dtbin) ≠ 0 := by
    intro p hp
    have := (wd p hp).1
    have h3 : 0 < (1 - u) ^ 2 * (a.hNum * om (p * d) * a.dtbin) := by
      have : 0 < 1 - u := by linarith
      have := wpos p hp
      positivity
    linarith
  refine ⟨fun p i => w.rnd (w.rnd (w.rnd ((Y p i).1 + ph (p * d)) / w.rnd (w.rnd (a.hNum * om (p * d)) * a.dtbin)) - xo),
    fun p i => w.rnd (w.rnd ((Y p i).2 / dE) + a.synchPartY), ?_, ?_, ?_⟩
  · unfold Run.userCoords
    rw [hdt, t1, g3.1, g3.2]
    have hl : (phis n c).length = n := by simp [phis]
    show Part.physicalToCoords a xo dE ⟨(phis n c).length, _⟩ ⟨(phis n c).length, _⟩ = _
    rw [hl]
    exact Part.physicalToCoords_arr a xo dE ho hp hdt hNi (fun i hi => (wpos i hi).ne') hdE.ne' _ _
  · unfold Run.userCoords
    rw [hdt]
    refine (congrArg (fun z : Verif.M (List (List (Rn w)) × List (List (Rn w))) => z >>= _) t2).trans ?_
    have hl : (phis n c).length = n := by simp [phis]
    show Part.physicalToCoords (K := Rn w) a xo dE ⟨(phis n c).length, st'.xp⟩ ⟨(phis n c).length, st'.yp⟩ = _
    rw [hl, g4.1, g4.2]
    exact toCoords_any (K := Rn w) a xo dE ho hp hdt hNi (fun p i => (Y p i).1) (fun p i => (Y p i).2)
      (quotX w a om ph d) (quotY w dE)
      (fun i v hi => if_neg (wpos' i hi)) (fun v => if_neg hdE.ne')
  · intro p i hpP hi
    have hpd : p * d ≤ (P - 1) * d := Nat.mul_le_mul_right d (by omega)
    have held := hc i hi _ hpd
    have hX : 0 ≤ X := (abs_nonneg _).trans held.1
    have hη := roundoff_nonneg h0 hσ hκ hT hX
    have le : drifted u κ V G F X (turnsTo d r s p) ≤ drifted u κ V G F X (P * d) := by
      rw [drifted_eq, drifted_eq]; exact after_mono hκ hη le_rfl (turnsTo_le hr hpP hs h1 h2)
    have ap := (g5 p i hpP hi).trans le
    have he : 0 ≤ drifted u κ V G F X (P * d) := by
      refine le_trans ?_ ap
      unfold apart; positivity
    have a1 : |(Y p i).1 - (transport Real.sin R s (p * d) (c i)).1| ≤ drifted u κ V G F X (P * d) := by
      refine le_trans ?_ ap
      unfold apart
      have : 0 ≤ σ * |(Y p i).2 - (transport Real.sin R s (p * d) (c i)).2| := by positivity
      linarith
    have a2 : σ * |(Y p i).2 - (transport Real.sin R s (p * d) (c i)).2| ≤ drifted u κ V G F X (P * d) := by
      refine le_trans ?_ ap
      unfold apart
      linarith [abs_nonneg ((Y p i).1 - (transport Real.sin R s (p * d) (c i)).1)]
    have hF : 0 ≤ F := (abs_nonneg _).trans (hph p hpP)
    exact ⟨(x_error hw h0 hu (wpos p hpP) (wd p hpP).1 (wd p hpP).2 a1 held.1 (hph p hpP) small).trans
        (marginX_mono h0 he hX hF hk (hw' p hpP)),
      y_error hw h0 hu hσ hdE a2 held.2 small⟩

/-- C119, bins: when every exact coordinate is farther than the margin from the edges of its bin, the run in floating point filters
the same particles and reconstructs from exactly the bins of the exact trajectories. -/
theorem C119_bins {w : World} {u : ℝ} (hw : w.Accurate u) (h0 : 0 ≤ u) (hu : u ≤ 1 / 8) {m : Mach ℝ} {R : Program ℝ}
    {P n d r s N : ℕ} {δ : Int} (hd : 0 < d) (hA : Agrees m ((P - 1) * d) R) (hr : r < P) (hs : (s : Int) = r * d + δ)
    (h1 : -(d : Int) < δ) (h2 : δ ≤ 0) (hsn : s < (P - 1) * d) {σ κ V G F X : ℝ} (hσ : 0 < σ) (hκ : 0 ≤ κ)
    (hT : Tame R ((P - 1) * d) σ κ V G F) (hrange : 4 * (1 + |R.h|) * (2 * X + F) * u ≤ 1) (c : ℕ → ℝ × ℝ)
    (hc : ∀ i, i < n → ∀ t, t ≤ (P - 1) * d → Held σ X (transport Real.sin R s t (c i))) (small : drifted u κ V G F X (P * d) ≤ X)
    {a : Psi.Area ℝ} {om ph : ℕ → ℝ} {xo dE k : ℝ} (hdt : a.dturns = d) (ho : a.omegaRev0 = tab N om) (hp : a.phi0 = tab N ph)
    (hN : (P - 1) * d < N) (hk : 0 < k) (hw' : ∀ p, p < P → k ≤ a.hNum * om (p * d) * a.dtbin) (hph : ∀ p, p < P → |ph (p * d)| ≤ F)
    (hdE : 0 < dE)
    (cx : ∀ p i, p < P → i < n → ClearBy (marginX u (drifted u κ V G F X (P * d)) X F k xo)
      (binX a om ph xo (p * d) (transport Real.sin R s (p * d) (c i)).1))
    (cy : ∀ p i, p < P → i < n → ClearBy (marginY u (drifted u κ V G F X (P * d)) X (σ * dE) a.synchPartY)
      (binY a dE (transport Real.sin R s (p * d) (c i)).2))
    (wf : Arr2 ℝ) (niter : ℕ) :
    Run.fromDistribution (K := Rn w) w.sin w.sqrt (Run.ready (K := ℝ)) m a xo dE P r δ (phis n c) (energies n c) wf niter =
      (Run.ready (arr P n fun p i => binX a om ph xo (p * d) (transport Real.sin R s (p * d) (c i)).1)
        (arr P n fun p i => binY a dE (transport Real.sin R s (p * d) (c i)).2) a.nbins >>= fun b =>
          Run.tomogram (K := Rn w) w.sqrt wf b.1 b.2 niter >>= fun o => pure (b, o)) := by
  obtain ⟨x', y', _, e2, e3⟩ := C119_coords hw h0 hu hd hA hr hs h1 h2 hsn hσ hκ hT hrange c hc small (xo := xo) hdt ho hp hN hk hw' hph hdE
  have key := ready_same (fun p i hp hi => (e3 p i hp hi).1) (fun p i hp hi => (e3 p i hp hi).2) cx cy a.nbins
  unfold Run.fromDistribution
  refine (congrArg (fun z : Verif.M (Arr2 (Rn w) × Arr2 (Rn w)) => z >>= _) e2).trans ?_
  exact congrArg (fun z : Verif.M (Arr2 Int × Arr2 Int) => z >>= fun b =>
    Run.tomogram (K := Rn w) w.sqrt wf b.1 b.2 niter >>= fun o => pure (b, o)) key

/-- C119, the particles of the exact run: same hypotheses, the run in exact arithmetic reconstructs from the same bins. -/
theorem C119_exact {m : Mach ℝ} {R : Program ℝ}
    {P n d r s N : ℕ} {δ : Int} (hd : 0 < d) (hA : Agrees m ((P - 1) * d) R) (hr : r < P) (hs : (s : Int) = r * d + δ)
    (h1 : -(d : Int) < δ) (h2 : δ ≤ 0) (hsn : s < (P - 1) * d) (c : ℕ → ℝ × ℝ)
    {a : Psi.Area ℝ} {om ph : ℕ → ℝ} {xo dE : ℝ} (hdt : a.dturns = d) (ho : a.omegaRev0 = tab N om) (hp : a.phi0 = tab N ph)
    (hN : (P - 1) * d < N) (hw' : ∀ p, p < P → 0 < a.hNum * om (p * d) * a.dtbin) (hdE : 0 < dE) (wf : Arr2 ℝ) (niter : ℕ) :
    Run.fromDistribution Real.sin Real.sqrt Run.ready m a xo dE P r δ (phis n c) (energies n c) wf niter =
      (Run.ready (arr P n fun p i => binX a om ph xo (p * d) (transport Real.sin R s (p * d) (c i)).1)
        (arr P n fun p i => binY a dE (transport Real.sin R s (p * d) (c i)).2) a.nbins >>= fun b =>
          Run.tomogram Real.sqrt wf b.1 b.2 niter >>= fun o => pure (b, o)) := by
  obtain ⟨st, g1, g3⟩ := C17_rows_partial Real.sin hd hA hr hs h1 h2 (fun _ _ => ((0 : ℝ), (0 : ℝ))) c (n := n)
  have hNi : ∀ i, i < P → i * d < N := fun i hi => lt_of_le_of_lt (Nat.mul_le_mul_right d (by omega)) hN
  have t1 := userTrack Real.sin hr hd hs h1 h2 hsn c g1
  have e : Run.userCoords Real.sin m a xo dE P r δ (phis n c) (energies n c) = .ok
        (arr P n fun p i => binX a om ph xo (p * d) (transport Real.sin R s (p * d) (c i)).1,
         arr P n fun p i => binY a dE (transport Real.sin R s (p * d) (c i)).2) := by
    unfold Run.userCoords
    rw [hdt, t1, g3.1, g3.2]
    have hl : (phis n c).length = n := by simp [phis]
    show Part.physicalToCoords a xo dE ⟨(phis n c).length, _⟩ ⟨(phis n c).length, _⟩ = _
    rw [hl]
    exact Part.physicalToCoords_arr a xo dE ho hp hdt hNi (fun i hi => (hw' i hi).ne') hdE.ne' _ _
  unfold Run.fromDistribution
  rw [e]
  rfl

/-- C119 in doubles: up to 10^3 turns of a machine as in `C118_doubles`, bins at least a hundredth radian wide and a hundredth in scaled
energy high: particles whose exact coordinates stay a 40000th of a bin away from the edges are all put into the right bins. -/
theorem C119_doubles {m : Mach ℝ} {R : Program ℝ} {P n d r s N : ℕ} {δ : Int} (hd : 0 < d) (hA : Agrees m ((P - 1) * d) R) (hr : r < P)
    (hs : (s : Int) = r * d + δ) (h1 : -(d : Int) < δ) (h2 : δ ≤ 0) (hsn : s < (P - 1) * d) (hPd : P * d ≤ 1000) (hh : |R.h| ≤ 10)
    {σ : ℝ} (hσ : 0 < σ) (hT : Tame R ((P - 1) * d) σ (1 / 100) (1 / 100) (1 / 100) 14) (c : ℕ → ℝ × ℝ)
    (hc : ∀ i, i < n → ∀ t, t ≤ (P - 1) * d → Held σ 7 (transport Real.sin R s t (c i)))
    {a : Psi.Area ℝ} {om ph : ℕ → ℝ} {xo dE : ℝ} (hdt : a.dturns = d) (ho : a.omegaRev0 = tab N om) (hp : a.phi0 = tab N ph)
    (hN : (P - 1) * d < N) (hw' : ∀ p, p < P → 1 / 100 ≤ a.hNum * om (p * d) * a.dtbin) (hph : ∀ p, p < P → |ph (p * d)| ≤ 14)
    (hdE : 1 / 100 ≤ σ * dE) (hxo : |xo| ≤ 10 ^ 4) (hy0 : |a.synchPartY| ≤ 10 ^ 4)
    (cx : ∀ p i, p < P → i < n → ClearBy (1 / 40000) (binX a om ph xo (p * d) (transport Real.sin R s (p * d) (c i)).1))
    (cy : ∀ p i, p < P → i < n → ClearBy (1 / 40000) (binY a dE (transport Real.sin R s (p * d) (c i)).2))
    (wf : Arr2 ℝ) (niter : ℕ) :
    Run.fromDistribution (K := Rn (binary 53)) (binary 53).sin (binary 53).sqrt (Run.ready (K := ℝ)) m a xo dE P r δ (phis n c)
        (energies n c) wf niter =
      (Run.ready (arr P n fun p i => binX a om ph xo (p * d) (transport Real.sin R s (p * d) (c i)).1)
        (arr P n fun p i => binY a dE (transport Real.sin R s (p * d) (c i)).2) a.nbins >>= fun b =>
          Run.tomogram (K := Rn (binary 53)) (binary 53).sqrt wf b.1 b.2 niter >>= fun o => pure (b, o)) := by
  have hw : (binary 53).Accurate (2 ^ (-(53 : ℤ))) := binary_accurate (by norm_num)
  have h0 : (0 : ℝ) ≤ 2 ^ (-(53 : ℤ)) := by positivity
  have hdE0 : 0 < dE := by
    by_contra hn
    have := mul_nonpos_of_nonneg_of_nonpos hσ.le (not_lt.mp hn)
    linarith
  have big := drifted_doubles hPd
  have big0 : 0 ≤ drifted (2 ^ (-(53 : ℤ))) (1 / 100) (1 / 100) (1 / 100) 14 7 (P * d) := by
    unfold drifted roundoff growth; positivity
  set e := drifted (2 ^ (-(53 : ℤ))) (1 / 100) (1 / 100) (1 / 100) 14 7 (P * d) with he
  have mx : marginX (2 ^ (-(53 : ℤ))) e 7 14 (1 / 100) xo ≤ 1 / 40000 := by
    unfold marginX
    have : (2 : ℝ) ^ (-(53 : ℤ)) * |xo| ≤ 2 ^ (-(53 : ℤ)) * 10 ^ 4 := mul_le_mul_of_nonneg_left hxo h0
    have h3 : (2 * e + 15 * (2 : ℝ) ^ (-(53 : ℤ)) * (7 + 14)) / (1 / 100) ≤ (2 * (1 / 10 ^ 7) + 15 * (2 : ℝ) ^ (-(53 : ℤ)) * (7 + 14)) / (1 / 100) := by
      gcongr
    have h4 : (2 * (1 / 10 ^ 7) + 15 * (2 : ℝ) ^ (-(53 : ℤ)) * (7 + 14)) / (1 / 100) + 2 ^ (-(53 : ℤ)) * 10 ^ 4 ≤ 1 / 40000 := by norm_num
    linarith
  have my : marginY (2 ^ (-(53 : ℤ))) e 7 (σ * dE) a.synchPartY ≤ 1 / 40000 := by
    unfold marginY
    have : (2 : ℝ) ^ (-(53 : ℤ)) * |a.synchPartY| ≤ 2 ^ (-(53 : ℤ)) * 10 ^ 4 := mul_le_mul_of_nonneg_left hy0 h0
    have h3 : (e + 5 * (2 : ℝ) ^ (-(53 : ℤ)) * 7) / (σ * dE) ≤ (1 / 10 ^ 7 + 5 * (2 : ℝ) ^ (-(53 : ℤ)) * 7) / (1 / 100) := by
      gcongr
    have h4 : (1 / 10 ^ 7 + 5 * (2 : ℝ) ^ (-(53 : ℤ)) * 7) / (1 / 100) + 2 ^ (-(53 : ℤ)) * 10 ^ 4 ≤ 1 / 40000 := by norm_num
    linarith
  refine C119_bins hw h0 (by norm_num) hd hA hr hs h1 h2 hsn hσ (by norm_num) hT ?_ c hc (big.trans (by norm_num)) hdt ho hp hN
    (by norm_num : (0 : ℝ) < 1 / 100) hw' hph hdE0 (fun p i hp hi z => mx.trans_lt (cx p i hp hi z))
    (fun p i hp hi z => my.trans_lt (cy p i hp hi z)) wf niter
  have : 4 * (1 + |R.h|) * (2 * 7 + 14) * (2 : ℝ) ^ (-(53 : ℤ)) ≤ 4 * (1 + 10) * (2 * 7 + 14) * (2 : ℝ) ^ (-(53 : ℤ)) := by
    gcongr
  exact this.trans (by norm_num)

/-- one bin per radian -/
noncomputable def calmArea : Psi.Area ℝ :=
  { unitArea with phi0 := tab 401 fun _ => 1 / 3, omegaRev0 := tab 401 fun _ => 1, synchPartY := 1 / 2, dturns := 4 }

theorem clear_mid {v : ℝ} (h1 : 1 / 10 ≤ v) (h2 : v ≤ 9 / 10) : ClearBy (1 / 40000) v := by
  intro z
  rcases le_or_gt z 0 with hz | hz
  · have : (z : ℝ) ≤ 0 := by exact_mod_cast hz
    rw [abs_of_nonneg (by linarith)]; linarith
  · have : (1 : ℝ) ≤ z := by exact_mod_cast hz
    rw [abs_of_neg (by linarith)]; linarith

noncomputable def calmParts (i : ℕ) : ℝ × ℝ := ((i : ℝ) / 1000, 0)

/-- the hypotheses of `C119_doubles` are met: 4 profiles 4 turns apart, 50 particles, started three turns before profile 2 -/
example (wf : Arr2 ℝ) (niter : ℕ) :
    Run.fromDistribution (K := Rn (binary 53)) (binary 53).sin (binary 53).sqrt (Run.ready (K := ℝ)) calmMach calmArea (0 : ℝ) (1 : ℝ) 4 2 (-3)
        (phis 50 calmParts) (energies 50 calmParts) wf niter =
      (Run.ready (arr 4 50 fun p i => binX calmArea (fun _ => 1) (fun _ => 1 / 3) 0 (p * 4) (transport Real.sin calmProg 5 (p * 4) (calmParts i)).1)
        (arr 4 50 fun p i => binY calmArea 1 (transport Real.sin calmProg 5 (p * 4) (calmParts i)).2) 2 >>= fun b =>
          Run.tomogram (K := Rn (binary 53)) (binary 53).sqrt wf b.1 b.2 niter >>= fun o => pure (b, o)) := by
  have hA : Agrees calmMach ((4 - 1) * 4) calmProg := by
    constructor
    · intro t ht; exact some_tab _ (show t < 401 by omega)
    · intro t ht; exact some_tab _ (show t < 401 by omega)
    · intro t ht; exact some_tab _ (show t < 401 by omega)
    · intro t ht; exact some_tab _ (show t < 401 by omega)
    · intro t ht; exact some_tab _ (show t < 400 by omega)
    · intro t ht; exact some_tab _ (show t < 401 by omega)
    · rfl
  have held : ∀ i : ℕ, i < 50 → ∀ t, t ≤ (4 - 1) * 4 → Held 1 (1 / 5) (transport Real.sin calmProg 5 t (calmParts i)) := by
    intro i hi t ht
    have h0 : Held 1 (1 / 20) (calmParts i) := by
      refine ⟨?_, by norm_num [calmParts]⟩
      have : (i : ℝ) ≤ 50 := by exact_mod_cast hi.le
      show |(i : ℝ) / 1000| ≤ _
      rw [abs_of_nonneg (by positivity)]
      linarith
    have h := C118_stays one_pos (by norm_num) (calm_tame ((4 - 1) * 4) le_rfl le_rfl) (s := 5) (by norm_num) ht h0
    refine held_mono h ?_
    norm_num
  refine C119_doubles (a := calmArea) (N := 401) (om := fun _ => 1) (ph := fun _ => 1 / 3) (s := 5) (σ := 1) (by norm_num) hA
    (by norm_num) (by norm_num) (by norm_num) (by norm_num) (by norm_num) (by norm_num) (by simp only [calmProg]; norm_num [abs_of_nonneg])
    one_pos (calm_tame _ (by norm_num) (by norm_num)) _ (fun i hi t ht => held_mono (held i hi t ht) (by norm_num)) rfl rfl rfl
    (by norm_num) (fun p _ => by simp only [calmArea, unitArea]; norm_num) (fun p _ => by norm_num [abs_of_nonneg]) (by norm_num)
    (by norm_num) (by simp only [calmArea]; norm_num [abs_of_nonneg]) ?_ ?_ wf niter
  · intro p i hp hi
    have := abs_le.mp (held i hi (p * 4) (by omega)).1
    refine clear_mid ?_ ?_ <;>
    · simp only [binX, calmArea, unitArea]
      norm_num
      linarith
  · intro p i hp hi
    have := (held i hi (p * 4) (by omega)).2
    rw [one_mul] at this
    have := abs_le.mp this
    refine clear_mid ?_ ?_ <;>
    · simp only [binY, calmArea]
      norm_num
      linarith

end Verif.Props

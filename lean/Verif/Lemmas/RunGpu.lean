import Verif.Model.RunGpu
import Verif.Lemmas.Run
import Verif.Props.CudaTrack
import Verif.Props.RndGpu
import Verif.Props.Run

/-!
# Whole runs on the GPU: every step has one outcome
-/

set_option linter.unusedSectionVars false

namespace Verif.RunGpu
open Verif.Mch Verif.Psi Verif.Part Verif.Run Verif.Cuda Verif.Omp Verif.Par Verif.Spec Verif.Track Finset

/-! ## The memory behind the array `phi12` -/

section
variable {α : Type} [Add α] [Sub α] [Mul α]

/-- two rings that differ at most in the phase differences from turn `N` on -/
structure SameTill (N : ℕ) (R R' : Program α) : Prop where
  rf1 : R.rf1 = R'.rf1
  rf2 : R.rf2 = R'.rf2
  phi0 : R.phi0 = R'.phi0
  dE : R.dE = R'.dE
  coef : R.coef = R'.coef
  h : R.h = R'.h
  phi12 : ∀ t, t < N → R.phi12 t = R'.phi12 t

theorem gain_same {sin : α → α} {N : ℕ} {R R' : Program α} (h : SameTill N R R') {t : ℕ} (ht : t < N) (x : α) :
    gain sin R t x = gain sin R' t x := by
  unfold gain
  rw [h.rf1, h.rf2, h.phi0, h.dE, h.h, h.phi12 t ht]

theorem up_same {sin : α → α} {N : ℕ} {R R' : Program α} (h : SameTill N R R') (s k : ℕ) (hk : s + k < N) (x : α × α) :
    up sin R s k x = up sin R' s k x := by
  induction k with
  | zero => rfl
  | succ k ih =>
    unfold up
    rw [ih (by omega)]
    unfold fwd
    dsimp only
    rw [h.coef, gain_same h (by omega)]

/-- the phase at turn `N` is that before the kick of turn `N` -/
theorem up_same_phase {sin : α → α} {N : ℕ} {R R' : Program α} (h : SameTill N R R') (s k : ℕ) (hk : s + k ≤ N) (x : α × α) :
    (up sin R s k x).1 = (up sin R' s k x).1 := by
  cases k with
  | zero => rfl
  | succ k =>
    unfold up
    rw [up_same h s k (by omega)]
    unfold fwd
    rw [h.coef]

theorem down_same {sin : α → α} {N : ℕ} {R R' : Program α} (h : SameTill N R R') (s k : ℕ) (hs : s < N) (hk : k ≤ s) (x : α × α) :
    down sin R s k x = down sin R' s k x := by
  induction k with
  | zero => rfl
  | succ k ih =>
    unfold down
    rw [ih (by omega)]
    unfold bwd
    dsimp only
    rw [h.coef, gain_same h (by omega)]

end

section
variable {K : Type} [Field K] [LinearOrder K] [IsStrictOrderedRing K] [FloorRing K]

theorem ring_same (m : Run.Mach K) (P d : ℕ) (A : Turns K) (past past' : K) :
    SameTill ((P - 1) * d) (ring m P d A past) (ring m P d A past') := by
  refine ⟨rfl, rfl, rfl, rfl, rfl, rfl, fun t ht => ?_⟩
  unfold ring
  simp only [if_pos ht]

/-- a particle seen in bins of time does not depend on the memory behind `phi12`, unless it starts at the last turn -/
theorem seen_past (sin : K → K) (m : Run.Mach K) {P d : ℕ} (A : Turns K) (past past' xo dE : K) {r p : ℕ} (hp : p < P)
    (hr : r * d < (P - 1) * d) (c : K × K) :
    (seen sin m P d A past xo dE r p c).1 = (seen sin m P d A past' xo dE r p c).1 := by
  unfold seen toImage
  have hle : p * d ≤ (P - 1) * d := Nat.mul_le_mul_right d (by omega)
  dsimp only
  unfold transport
  split_ifs with h
  · rw [up_same_phase (ring_same m P d A past past') (r * d) (p * d - r * d) (by omega)]
  · rw [down_same (ring_same m P d A past past') (r * d) (r * d - p * d) hr (by omega)]

/-- the checks of `track` refuse the last profile -/
theorem before_last {P d : ℕ} {rec : ℤ} {r : ℕ} (h : Track.trackCheck P d rec 0 = .ok (r : ℤ)) : r * d < (P - 1) * d := by
  obtain ⟨r', e, hr, hd, _⟩ := trackCheck_nat h
  have : r = r' := by exact_mod_cast e
  subst this
  rw [Props.C23_accepts_iff_partial] at h
  obtain ⟨_, _, _, h5⟩ := h
  have : ((r * d : ℕ) : ℤ) < (((P - 1) * d : ℕ) : ℤ) := by
    rw [Nat.cast_mul, Nat.cast_mul, Nat.cast_sub (by omega)]
    push_cast
    nlinarith
  exact_mod_cast this

/-! ## Tracking -/

theorem spread_trackMach {m : Run.Mach K} {P d : ℕ} {A : Turns K} (hm : Loaded m P d A) (hP : 0 < P) :
    spread (trackMach m 0) m.phi12 ((P - 1) * d) = trackMach m m.phi12 := by
  have hN : (m.dturns * ((m.nprofiles : ℤ) - 1)).toNat = (P - 1) * d := by
    rw [hm.dturns, hm.nprofiles]
    have : ((d : ℤ) * ((P : ℤ) - 1)) = (((P - 1) * d : ℕ) : ℤ) := by
      rw [Nat.cast_mul, Nat.cast_sub hP]; push_cast; ring
    rw [this, Int.toNat_natCast]
  unfold spread trackMach
  rw [hN, List.replicate_succ']

theorem uploaded_holds {mem : Memory K} {P : ℕ} {pts : List (K × K)} (h : Uploaded mem P pts) :
    Props.DeviceHolds mem P pts.length (fun _ _ => (0, 0)) fun j => pts.getD j (0, 0) := by
  obtain ⟨h1, h2⟩ := h
  refine ⟨?_, ?_, ?_, ?_⟩
  · intro i v hv
    rw [Omp.rd_some] at hv
    obtain ⟨i0, hv⟩ := hv
    obtain ⟨j, rfl⟩ := Int.eq_ofNat_of_zero_le i0
    unfold Props.phis at hv
    simp only [Int.toNat_natCast, getElem?_tab] at hv
    split_ifs at hv with hj
    cases hv
    exact (h1 j hj).1
  · intro i v hv
    rw [Omp.rd_some] at hv
    obtain ⟨i0, hv⟩ := hv
    obtain ⟨j, rfl⟩ := Int.eq_ofNat_of_zero_le i0
    unfold Props.energies at hv
    simp only [Int.toNat_natCast, getElem?_tab] at hv
    split_ifs at hv with hj
    cases hv
    exact (h1 j hj).2
  · intro i v hv
    rw [Omp.rd_some] at hv
    obtain ⟨i0, hv⟩ := hv
    obtain ⟨j, rfl⟩ := Int.eq_ofNat_of_zero_le i0
    unfold flat at hv
    simp only [Int.toNat_natCast, getElem?_tab] at hv
    split_ifs at hv with hj
    cases hv
    exact (h2 j hj).1
  · intro i v hv
    rw [Omp.rd_some] at hv
    obtain ⟨i0, hv⟩ := hv
    obtain ⟨j, rfl⟩ := Int.eq_ofNat_of_zero_le i0
    unfold flat at hv
    simp only [Int.toNat_natCast, getElem?_tab] at hv
    split_ifs at hv with hj
    cases hv
    exact (h2 j hj).2

theorem exists_uploaded (P : ℕ) (pts : List (K × K)) : ∃ mem : Memory K, Uploaded mem P pts := by
  refine ⟨memOf (fun a => match a with
    | .dphi => pts.map Prod.fst
    | .denergy => pts.map Prod.snd
    | _ => []) (fun _ => []) [], ?_, ?_⟩
  · intro i hi
    constructor <;> simp [memOf, List.getD, hi]
  · intro k _
    constructor <;> simp [memOf]

theorem track_det {L : MathLib K} {B : ℕ} (hB : 0 < B) {m : Run.Mach K} {P d : ℕ} {A : Turns K} (hm : Loaded m P d A) (rec : ℤ) :
    track L B m rec = det (Run.track L m m.phi12 rec) := by
  unfold track Run.track
  rw [hm.nprofiles, hm.dturns]
  rcases hr : Track.trackCheck P d rec 0 with e | r
  · rfl
  obtain ⟨r, rfl, hrP, hd, _⟩ := trackCheck_nat hr
  dsimp only
  refine det_bind _ _ _ fun l _ => ?_
  obtain ⟨xo, dE, l⟩ := l
  dsimp only
  refine det_bind _ _ _ fun pts _ => ?_
  have hPd : (d : ℤ) * ((P : ℤ) - 1) = (((P - 1) * d : ℕ) : ℤ) := by
    rw [Nat.cast_mul, Nat.cast_sub (by omega)]; push_cast; ring
  have hrep : List.replicate P (List.replicate pts.length (0 : K)) = rows P pts.length fun _ _ => (0 : K) := by
    unfold rows tab; simp
  have hA := agrees hm m.phi12
  rw [← spread_trackMach hm (by omega)] at hA
  rw [hPd, hrep, map_getD pts (0, 0), map_getD pts (0, 0), ← spread_trackMach hm (by omega)]
  obtain ⟨mem, hmem⟩ := exists_uploaded P pts
  obtain ⟨⟨st, Y, e1, ⟨e2, e3⟩, _⟩, mem', hmem'⟩ := Props.C98_every_schedule L.sin hB hd hA hrP (s := r * d) (δ := 0) (by push_cast; ring)
    (by omega) (by omega) (Nat.mul_le_mul_right d (by omega)) (fun _ _ => (0, 0)) (fun j => pts.getD j (0, 0)) (uploaded_holds hmem)
  have hdev : deviceTrack L.sin B (trackMach m 0) m.phi12 d r ((P - 1) * d : ℕ) P pts
      = det (.ok (⟨pts.length, st.xp⟩, ⟨pts.length, st.yp⟩)) := by
    have key : ∀ m₀ m₁, Uploaded m₀ P pts → Tracks L.sin B (trackMach m 0) m.phi12 d r 0 ((P - 1) * d : ℕ) pts.length m₀ m₁ →
        onDevice m₁ (.xp 0) P pts.length = ⟨pts.length, st.xp⟩ ∧ onDevice m₁ (.yp 0) P pts.length = ⟨pts.length, st.yp⟩ := by
      intro m₀ m₁ h0 h1
      obtain ⟨⟨st', Y', f1, ⟨f2, f3⟩, f4⟩, _⟩ := Props.C98_every_schedule L.sin hB hd hA hrP (s := r * d) (δ := 0) (by push_cast; ring)
        (by omega) (by omega) (Nat.mul_le_mul_right d (by omega)) (fun _ _ => (0, 0)) (fun j => pts.getD j (0, 0)) (uploaded_holds h0)
      rw [e1] at f1
      cases f1
      rw [f2, f3]
      unfold onDevice rows
      constructor
      · congr 1
        exact tab_congr fun p hp => tab_congr fun i hi => (f4 m₁ h1 p i hp hi).1
      · congr 1
        exact tab_congr fun p hp => tab_congr fun i hi => (f4 m₁ h1 p i hp hi).2
    funext res
    apply propext
    constructor
    · rintro ⟨m₀, m₁, h0, h1, rfl⟩
      obtain ⟨k1, k2⟩ := key m₀ m₁ h0 h1
      change _ = _
      rw [k1, k2]
    · intro h
      obtain ⟨k1, k2⟩ := key _ _ hmem hmem'
      exact ⟨mem, mem', hmem, hmem', by rw [k1, k2]; exact h⟩
  rw [hdev, det_ok_bind]
  exact congrArg (fun z => det (z.bind fun s => Except.ok (Tracked.mk xo dE ⟨pts.length, s.xp⟩ ⟨pts.length, s.yp⟩))) e1.symm

theorem coordinates_det {L : MathLib K} {B : ℕ} (hB : 0 < B) {m : Run.Mach K} {P d : ℕ} {A : Turns K} (hm : Loaded m P d A)
    (self : M (Tracked K)) (rec : ℤ) : coordinates L B m rec = det (Run.coordinates L m m.phi12 self rec ⟨false, false⟩) := by
  unfold coordinates Run.coordinates
  rw [if_neg (by simp), track_det hB hm]
  unfold trackCoords
  rw [bind_assoc]
  refine det_bind _ _ _ fun r _ => ?_
  rw [bind_assoc]
  refine det_bind _ _ _ fun c _ => ?_
  exact det_bind _ _ _ fun a _ => rfl

/-! ## Reconstruction and image -/

theorem initWaterfall_flat {n nbins : ℕ} (hb : 0 < nbins) {wf : ℕ → ℕ → K} {w : List K}
    (hw : Tomo.initWaterfall (flat n nbins wf) n nbins = .ok w) : ∃ g : ℕ → ℕ → K, w = flat n nbins g := by
  obtain ⟨i1, i2, i3⟩ := Props.initWaterfall_char (nprof := n) hb wf
  by_cases ha : ∀ p b, p < n → b < nbins → wf p b ≤ 0
  · rw [i1 ha] at hw; cases hw
  · push Not at ha
    by_cases hz : ∃ p, p < n ∧ ∀ b, b < nbins → wf p b ≤ 0
    · rw [i2 ha hz] at hw; cases hw
    · push Not at hz
      rw [i3 ha hz] at hw
      cases hw
      exact ⟨_, rfl⟩

theorem tomogram_det {B Q : ℕ} (hB : 0 < B) (hQ : 0 < Q) (hQ' : Q ≤ 512) (sqrt : K → K) (empty : ℕ → K) {n k nbins : ℕ} (hn : 0 < n)
    (hb : 0 < nbins) (wf : ℕ → ℕ → K) (x : ℕ → ℕ → ℕ) (hx : InRange k n nbins x) (y : ℕ → ℕ → ℤ) (niter : ℕ) :
    tomogram B Q sqrt empty (arr n nbins wf) (arr k n fun c i => (x c i : ℤ)) (arr k n y) niter
      = det (Run.tomogram sqrt (arr n nbins wf) (arr k n fun c i => (x c i : ℤ)) (arr k n y) niter) := by
  rw [tomogram_arr sqrt wf x hx y]
  unfold tomogram
  rw [flatten_arr]
  have h1 : (arr n nbins wf).rows.length = n := by simp
  have h2 : (arr n nbins wf).cols = nbins := rfl
  rw [h1, h2, coordInit_arr x hx y]
  refine det_bind _ _ _ fun w hw => ?_
  obtain ⟨g, rfl⟩ := initWaterfall_flat hb hw
  dsimp only
  have : reconstructN B Q sqrt empty (xbuf k n x) (flat n nbins g) niter nbins k n
      = det (Recon.reconstruct sqrt (xbuf k n x) (flat n nbins g) niter nbins k n).2 := by
    funext r
    exact propext (Props.C48_every_schedule hB hQ hQ' sqrt empty hn hb hx g niter r)
  rw [this]
  exact det_bind _ _ _ fun st _ => rfl

/-- additions in any order -/
theorem fold_addOne {n nbins : ℕ} {x y : ℕ → ℕ} (hx : ∀ i, i < n → x i < nbins) (hy : ∀ i, i < n → y i < nbins) (w : ℕ → K)
    (l : List ℕ) (hl : ∀ i ∈ l, i < n) (f : ℕ → ℕ → K) :
    l.foldlM (addOne (tab n fun i => (x i : ℤ)) (tab n fun i => (y i : ℤ)) (tab n w) nbins) (flat nbins nbins f)
      = .ok (flat nbins nbins fun a b => f a b + (l.map fun i => if x i = a ∧ y i = b then w i else 0).sum) := by
  induction l generalizing f with
  | nil => simp [List.foldlM_nil, pure_eq_ok]
  | cons i l ih =>
    have hi := hl i (by simp)
    have hxi := hx i hi
    have hyi := hy i hi
    have h0 : ((y i : ℤ) + (x i : ℤ) * nbins) % ((nbins * nbins : ℕ) : ℤ) = ((x i * nbins + y i : ℕ) : ℤ) := by
      obtain ⟨h0, h1⟩ := Img.idx_range hxi hyi
      unfold Img.idx at h0 h1
      rw [Int.emod_eq_of_lt h0 h1]
      push_cast; ring
    rw [List.foldlM_cons]
    have hone : addOne (tab n fun i => (x i : ℤ)) (tab n fun i => (y i : ℤ)) (tab n w) nbins (flat nbins nbins f) i
        = .ok (flat nbins nbins fun a b => f a b + if x i = a ∧ y i = b then w i else 0) := by
      unfold addOne
      simp only [rd_tab _ hi, bind_ok]
      rw [h0, rd_flat f hxi hyi rfl, bind_ok]
      rw [upd_flat _ _ hxi hyi rfl]
      congr 1
      apply flat_congr
      intro a b _ _
      unfold upd2
      by_cases h : x i = a ∧ y i = b
      · obtain ⟨rfl, rfl⟩ := h
        simp
      · rw [if_neg h, add_zero, if_neg fun h' => h ⟨h'.1.symm, h'.2.symm⟩]
    rw [hone, bind_ok, ih fun j hj => hl j (by simp [hj])]
    congr 1
    apply flat_congr
    intro a b _ _
    simp [add_assoc]

theorem makePhaseSpace_det {n nbins : ℕ} {x y : ℕ → ℕ} (hx : ∀ i, i < n → x i < nbins) (hy : ∀ i, i < n → y i < nbins) (w : ℕ → K) :
    makePhaseSpace (tab n fun i => (x i : ℤ)) (tab n fun i => (y i : ℤ)) (tab n w) nbins
      = det (Img.makePhaseSpace (tab n fun i => (x i : ℤ)) (tab n fun i => (y i : ℤ)) (tab n w) nbins) := by
  have hlen : makePhaseSpace (tab n fun i => (x i : ℤ)) (tab n fun i => (y i : ℤ)) (tab n w) nbins
      = addAt (tab n fun i => (x i : ℤ)) (tab n fun i => (y i : ℤ)) (tab n w) nbins := if_pos ⟨by simp, by simp⟩
  rw [hlen, Img.makePhaseSpace_inRange hx hy]
  have key : ∀ order : List ℕ, order.Perm (List.range n) →
      order.foldlM (addOne (tab n fun i => (x i : ℤ)) (tab n fun i => (y i : ℤ)) (tab n w) nbins) (tab (nbins * nbins) fun _ => 0)
        = .ok (flat nbins nbins fun a b => ∑ i ∈ range n, if x i = a ∧ y i = b then w i else 0) := by
    intro order ho
    have := fold_addOne hx hy w order (fun i hi => by simpa using ho.mem_iff.mp hi) (fun _ _ => (0 : K))
    refine Eq.trans this ?_
    congr 1
    apply flat_congr
    intro a b _ _
    rw [zero_add, (ho.map _).sum_eq]
    rfl
  funext res
  apply propext
  constructor
  · rintro ⟨order, ho, rfl⟩
    rw [length_tab] at ho
    exact key order ho
  · intro h
    refine ⟨List.range n, by rw [length_tab], ?_⟩
    rw [key _ (List.Perm.refl _)]
    exact h

end
end Verif.RunGpu

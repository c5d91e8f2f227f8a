import Verif.Model.Memory
import Verif.Props.PhaseSpace
import Verif.Props.Tracking
import Verif.Lemmas.Assertions

/-!
# Arrays of the caller (C52)
-/

set_option linter.unusedSectionVars false

namespace Verif.Props
open Verif.Asrt
open Verif.Mem Verif.Track Verif.Img

variable {K : Type} [Field K] [LinearOrder K] [IsStrictOrderedRing K]

theorem getElem?_upd_of_ge {α : Type} {l l' : List α} {i : Int} {v : α} (h : upd l i v = .ok l') {k n : ℕ} (hk : k < n)
    (hi : (n : Int) ≤ i) : l'[k]? = l[k]? := by
  unfold upd at h
  split at h
  · cases h
    rw [List.getElem?_set_ne (by omega)]
  · cases h

theorem rd_append_length {α : Type} (l r : List α) (v : α) : rd (l ++ v :: r) (l.length : Int) = .ok v := by
  simp [rd]

/-- C52: `track` with a user distribution (two arrays of one length) changes no array that existed before the call, its result is that
of the functional model `trackArray`, and `init_dphi`, `init_denergy` keep the values of the initial distribution. -/
theorem C52_track {α : Type} [Add α] [Sub α] [Mul α] (sin : α → α) (zero : α) (m : Mach α)
    (nprofiles dturns recprof δ : Int) (h : Heap α) (uphi uen : Int) {h' : Heap α} {tr : Tracker} {xp yp : List (List α)}
    (hok : trackMem sin zero m nprofiles dturns recprof δ h uphi uen = .ok (h', tr, xp, yp)) :
    (∀ k, k < h.length → h'[k]? = h[k]?) ∧
    ∃ dphi denergy, rd h uphi = .ok dphi ∧ rd h uen = .ok denergy ∧ dphi.length = denergy.length ∧
      trackArray sin zero m nprofiles dturns recprof δ dphi denergy = .ok (xp, yp) ∧
      rd h' tr.initDphi = .ok dphi ∧ rd h' tr.initDenergy = .ok denergy := by
  unfold trackMem at hok
  unfold trackArray
  cases hc : trackCheck nprofiles dturns recprof δ with
  | error e => rw [hc] at hok; cases hok
  | ok r =>
    rw [hc] at hok
    dsimp only at hok ⊢
    cases h1 : rd h uphi with
    | error e => rw [h1] at hok; cases hok
    | ok dphi =>
    cases h2 : rd h uen with
    | error e => rw [h1, h2] at hok; cases hok
    | ok denergy =>
    rw [h1, bind_ok, h2, bind_ok] at hok
    split at hok
    · cases hok
    rename_i hlen
    simp only [alloc] at hok
    have ea : rd ((((h ++ [dphi]) ++ [denergy]) ++ [dphi]) ++ [denergy]) (h.length : Int) = .ok dphi := by
      simp [rd]
    have eb : rd ((((h ++ [dphi]) ++ [denergy]) ++ [dphi]) ++ [denergy]) ((h ++ [dphi]).length : Int) = .ok denergy := by
      have : ¬ (h.length : Int) + 1 < 0 := by omega
      simp only [rd, List.length_append, List.length_singleton]
      rw [if_pos (by omega)]
      have : ((h.length + 1 : ℕ) : Int).toNat = h.length + 1 := by omega
      rw [this, List.getElem?_append_left (by simp), List.getElem?_append_left (by simp), List.getElem?_append_right (by simp)]
      simp
    rw [ea, bind_ok, eb, bind_ok] at hok
    cases h3 : kickAndDrift sin (List.replicate nprofiles.toNat (List.replicate dphi.length zero))
        (List.replicate nprofiles.toNat (List.replicate dphi.length zero)) denergy dphi m dturns r δ
        (dturns * (nprofiles - 1)) dphi.length with
    | error e => rw [h3] at hok; cases hok
    | ok s =>
    rw [h3, bind_ok] at hok
    set H := (((h ++ [dphi]) ++ [denergy]) ++ [dphi]) ++ [denergy] with hH
    have hHl : H.length = h.length + 4 := by simp [hH]
    cases h4 : upd H (h.length : Int) s.dphi with
    | error e => rw [h4] at hok; cases hok
    | ok H1 =>
    rw [h4, bind_ok] at hok
    cases h5 : upd H1 ((h ++ [dphi]).length : Int) s.denergy with
    | error e => rw [h5] at hok; cases hok
    | ok H2 =>
    rw [h5, bind_ok] at hok
    cases hok
    have hH1 : H1 = H.set h.length s.dphi := by
      unfold upd at h4; split at h4
      · cases h4; rfl
      · cases h4
    have hH2 : h' = H1.set (h.length + 1) s.denergy := by
      unfold upd at h5; split at h5
      · cases h5; simp
      · cases h5
    have hget : ∀ k, k ≠ h.length → k ≠ h.length + 1 → h'[k]? = H[k]? := by
      intro k hk1 hk2
      rw [hH2, List.getElem?_set_ne (by omega), hH1, List.getElem?_set_ne (by omega)]
    refine ⟨fun k hk => ?_, dphi, denergy, rfl, rfl, not_not.mp hlen, ?_, ?_, ?_⟩
    · rw [hget k (by omega) (by omega), hH, List.append_assoc, List.append_assoc, List.append_assoc,
        List.getElem?_append_left hk]
    · rw [h3]; rfl
    · dsimp only
      have e : h'[h.length + 2]? = some dphi := by
        rw [hget _ (by omega) (by omega), hH, List.getElem?_append_left (by simp), List.getElem?_append_right (by simp)]
        simp
      have e2 : ((h ++ [dphi] ++ [denergy]).length : Int) = ((h.length + 2 : ℕ) : Int) := by simp
      rw [e2]
      unfold rd
      rw [if_pos (by omega), Int.toNat_natCast, e]
    · dsimp only
      have e : h'[h.length + 3]? = some denergy := by
        rw [hget _ (by omega) (by omega), hH, List.getElem?_append_right (by simp)]
        simp
      have e2 : ((h ++ [dphi] ++ [denergy] ++ [dphi]).length : Int) = ((h.length + 3 : ℕ) : Int) := by simp
      rw [e2]
      unfold rd
      rw [if_pos (by omega), Int.toNat_natCast, e]

/-- C52: `particles.coordinates_dphi_denergy`, documented as the initial distribution, is what gets overwritten: after
tracking one turn it holds the cloud at the last profile. -/
theorem C52_violated_particles :
    trackMem (fun x : ℚ => x) 0 driftMach 2 2 0 0 [[0], [1]] 0 1
      = .ok ([[0], [1], [-2], [1], [0], [1]], ⟨2, 3, 4, 5⟩, [[0], [-2]], [[1], [1]]) := by
  decide +kernel

/-- C52: constructing a `Tomography` changes no array that existed before. -/
theorem C52_tomography {α : Type} [Add α] [Sub α] [Mul α] [Zero α] [One α] [NatCast α]
    [LT α] [LE α] [DecidableLT α] [DecidableLE α] [DecidableEq α] [FDiv α] (h : Heap α) (wf : Int) (nprof nbins : ℕ)
    {h' : Heap α} {a : Int} (hok : tomoInitMem h wf nprof nbins = .ok (h', a)) :
    (∀ k, k < h.length → h'[k]? = h[k]?) ∧
    ∃ v w, rd h wf = .ok v ∧ Tomo.initWaterfall v nprof nbins = .ok w ∧ rd h' a = .ok w := by
  unfold tomoInitMem at hok
  cases h1 : rd h wf with
  | error e => rw [h1] at hok; cases hok
  | ok v =>
  rw [h1, bind_ok] at hok
  simp only [alloc] at hok
  have e1 : rd (h ++ [v]) (h.length : Int) = .ok v := rd_append_length h [] v
  have e2 : rd (h ++ [v] ++ [Tomo.npClip0 v]) ((h ++ [v]).length : Int) = .ok (Tomo.npClip0 v) :=
    rd_append_length (h ++ [v]) [] _
  rw [e1, bind_ok, e2, bind_ok] at hok
  cases h2 : Tomo.normalizeProfiles (Tomo.npClip0 v) nprof nbins with
  | error e => rw [h2] at hok; cases hok
  | ok w =>
  rw [h2, bind_ok] at hok
  cases h3 : upd (h ++ [v] ++ [Tomo.npClip0 v]) ((h ++ [v]).length : Int) w with
  | error e => rw [h3] at hok; cases hok
  | ok H =>
  rw [h3, bind_ok] at hok
  cases hok
  have hH : h' = (h ++ [v] ++ [Tomo.npClip0 v]).set (h ++ [v]).length w := by
    unfold upd at h3; split at h3
    · cases h3; rfl
    · cases h3
  refine ⟨fun k hk => ?_, v, w, rfl, h2, ?_⟩
  · rw [hH, List.getElem?_set_ne (by simp; omega), List.append_assoc, List.getElem?_append_left hk]
  · rw [hH]
    unfold rd
    rw [if_pos (by omega), Int.toNat_natCast, List.getElem?_set_self (by simp)]

example : tomoInitMem (α := ℚ) [[1, -1, 3, 1]] 0 2 2 = .ok ([[1, -1, 3, 1], [1, -1, 3, 1], [1, 0, 3/4, 1/4]], 2) := by
  decide +kernel

/-- C52 for `density_to_macro`: the caller's density array afterwards.  It is unchanged exactly when every non-zero cell
reaches the threshold. -/
theorem C52_density_partial (t e density : List K) (threshold : K) (samples : List ℕ) (rt re : List K)
    {pts : List (K × K)} {after : List K}
    (h : densityToMacro t e density threshold samples rt re = .ok (pts, after)) :
    after = density ↔ ∀ v ∈ density, v = 0 ∨ threshold ≤ v / density.sum := by
  have hth : thresholded density threshold = .ok after := by
    unfold densityToMacro at h
    simp only [bind_ok_iff] at h
    obtain ⟨_, _, _, _, _, _, _, _, d, hd, _, _, _, _, h⟩ := h
    cases h
    exact hd
  unfold thresholded at hth
  by_cases hs : density.sum = 0
  · cases density with
    | nil => cases hth; simp
    | cons a l =>
      rw [hs, List.mapM_cons, fdiv_zero, bind_error, bind_error] at hth
      cases hth
  · rw [mapM_ok (g := fun v => if v / density.sum < threshold then 0 else v)
      _ (fun v _ => by rw [fdiv_ok hs, bind_ok, pure_eq_ok])] at hth
    cases hth
    rw [show (density.map (fun v => if v / density.sum < threshold then 0 else v) = density) ↔
      ∀ v ∈ density, (if v / density.sum < threshold then 0 else v) = v from by
        conv_lhs => rhs; rw [← List.map_id density]
        rw [List.map_inj_left]; rfl]
    constructor
    · intro h v hv
      have := h v hv
      by_cases hlt : v / density.sum < threshold
      · rw [if_pos hlt] at this; exact Or.inl this.symm
      · exact Or.inr (not_lt.mp hlt)
    · intro h v hv
      rcases h v hv with h | h
      · subst h; simp
      · exact if_neg (not_lt.mpr h)

/-- C52 violated: the small cell (1/101 of the total, threshold 1/50) of the caller's array is set to zero. -/
theorem C52_violated_density :
    densityToMacro [0, 1] [0, 1] [1, 50, 50, 0] (1/50 : ℚ) [1, 2] [0, 1/2] [1/4, 1/2]
      = .ok ([(-1/2, 3/4), (1, 0)], [0, 50, 50, 0]) := by
  decide +kernel

end Verif.Props

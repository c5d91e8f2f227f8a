import Verif.Spec.Run
import Verif.Props.Area
import Verif.Props.Tracking
import Verif.Props.Tomography
import Verif.Props.PhaseSpace
import Verif.Lemmas.PreProcess

/-! Helper lemmas about `Model/Run.lean`. -/

set_option linter.unusedSectionVars false

namespace Verif.Run
open Verif.Part Verif.Psi Verif.Mch Verif.Asrt Verif.Spec Finset

variable {K : Type} [Field K] [LinearOrder K] [IsStrictOrderedRing K] [FloorRing K]

theorem map_getD {α β : Type _} (l : List α) (z : α) (f : α → β) : l.map f = tab l.length fun j => f (l.getD j z) := by
  apply List.ext_getElem?
  intro k
  rw [List.getElem?_map, getElem?_tab]
  split
  · rename_i h
    rw [List.getElem?_eq_getElem h, List.getD_eq_getElem _ _ h]; rfl
  · rename_i h
    rw [List.getElem?_eq_none (by omega)]; rfl

theorem ready_arr (n k : ℕ) (x y : ℕ → ℕ → K) (nbins : ℕ) :
    ready (arr n k x) (arr n k y) nbins =
      if n * (keptOf n k x (nbins : K)).length = 0 then .error (.exc .invalidParticle)
      else .ok (arr (keptOf n k x (nbins : K)).length n fun c i => trunc (x i ((keptOf n k x (nbins : K)).getD c 0)),
        arr (keptOf n k x (nbins : K)).length n fun c i => trunc (y i ((keptOf n k x (nbins : K)).getD c 0))) := by
  unfold ready
  rw [filterLost_arr]
  set kept := keptOf n k x (nbins : K)
  split
  · rfl
  · rw [bind_ok]
    dsimp only
    have e1 : ∀ z : ℕ → ℕ → K, (⟨kept.length, tab n fun i => kept.map (z i)⟩ : Arr2 K)
        = arr n kept.length fun i c => z i (kept.getD c 0) := by
      intro z
      unfold arr
      congr 1
      apply tab_congr
      intro i _
      exact map_eq_tab kept (z i)
    rw [e1, e1, map_arr, transpose_arr, bind_ok, map_arr, transpose_arr, bind_ok]
    rfl

theorem flatten_arr {α : Type _} (n k : ℕ) (f : ℕ → ℕ → α) : (arr n k f).flatten = flat n k f := flatten_tab n k f

theorem coordInit_arr {n k nbins : ℕ} (x : ℕ → ℕ → ℕ) (hx : InRange k n nbins x) (y : ℕ → ℕ → ℤ) :
    Tomo.coordInit n nbins (pyArray (arr k n fun c i => (x c i : ℤ))) (pyArray (arr k n y))
      = .ok ⟨n, nbins, some ([k, n], xbuf k n x), some k, some ([k, n], flat k n y)⟩ := by
  have hround : ∀ Z : List ℤ, (Z.map fun z : ℤ => Fl.fin (z : ℚ)).map Tomo.toInt32 = Z := by
    intro Z
    rw [List.map_map]
    have : (Tomo.toInt32 ∘ fun z : ℤ => Fl.fin (z : ℚ)) = id := by
      funext z; exact Props.toInt32_int z
    rw [this, List.map_id]
  have hbd : ∀ v ∈ xbuf k n x, 0 ≤ v ∧ v < nbins := by
    intro v hv
    unfold xbuf flat tab at hv
    obtain ⟨j, hj, rfl⟩ := List.mem_map.mp hv
    have hj' := List.mem_range.mp hj
    have hn : 0 < n := by
      rcases Nat.eq_zero_or_pos n with h | h
      · subst h; simp at hj'
      · exact h
    have := hx (j / n) ((Nat.div_lt_iff_lt_mul hn).mpr hj') (j % n) (Nat.mod_lt _ hn)
    dsimp only
    omega
  have hx1 : ((xbuf k n x).map fun z : ℤ => Fl.fin (z : ℚ)).any (fun v => decide (v < 0)) = false := by
    rw [List.any_eq_false]
    intro v hv
    obtain ⟨z, hz, rfl⟩ := List.mem_map.mp hv
    have := (hbd z hz).1
    rw [decide_eq_true_iff, show (0 : Fl) = Fl.fin 0 from rfl, Fl.fin_lt, not_lt]
    exact_mod_cast this
  have hx2 : ((xbuf k n x).map fun z : ℤ => Fl.fin (z : ℚ)).any (fun v => decide ((nbins : Fl) ≤ v)) = false := by
    rw [List.any_eq_false]
    intro v hv
    obtain ⟨z, hz, rfl⟩ := List.mem_map.mp hv
    have := (hbd z hz).2
    rw [decide_eq_true_iff, show ((nbins : ℕ) : Fl) = Fl.fin (nbins : ℚ) from rfl, Fl.fin_le, not_le]
    exact_mod_cast this
  unfold Tomo.coordInit pyArray
  rw [flatten_arr, flatten_arr]
  have hX : Tomo.setXp ⟨n, nbins, none, none, none⟩ (.array [(arr k n fun c i => (x c i : ℤ)).rows.length, n]
      ((flat k n fun c i => (x c i : ℤ)).map fun z : ℤ => Fl.fin (z : ℚ)))
      = (⟨n, nbins, some ([k, n], xbuf k n x), some k, none⟩, none) := by
    unfold Tomo.setXp
    dsimp only
    change (if _ then _ else if _ then _ else if (((xbuf k n x).map fun z : ℤ => Fl.fin (z : ℚ)).any _ || ((xbuf k n x).map fun z : ℤ => Fl.fin (z : ℚ)).any _) = true then _ else _) = _
    rw [if_neg (by simp), if_neg (by simp), hx1, hx2, if_neg (by simp), hround]
    simp [xbuf]
  have hc : ∀ f : ℕ → ℕ → ℤ, (arr k n f).cols = n := fun _ => rfl
  rw [hc, hc, hX]
  simp only [Tomo.setYp]
  rw [if_pos (by simp), hround]
  simp

theorem tomogram_arr (sqrt : K → K) {n k nbins : ℕ} (wf : ℕ → ℕ → K) (x : ℕ → ℕ → ℕ) (hx : InRange k n nbins x)
    (y : ℕ → ℕ → ℤ) (niter : ℕ) :
    tomogram sqrt (arr n nbins wf) (arr k n fun c i => (x c i : ℤ)) (arr k n y) niter =
      (Tomo.initWaterfall (flat n nbins wf) n nbins).bind fun w =>
        ((Recon.reconstruct sqrt (xbuf k n x) w niter nbins k n).2).bind fun st => .ok ⟨w, st⟩ := by
  unfold tomogram
  rw [flatten_arr]
  have h1 : (arr n nbins wf).rows.length = n := by simp
  have h2 : (arr n nbins wf).cols = nbins := rfl
  rw [h1, h2, coordInit_arr x hx y]
  rfl

theorem agrees {m : Mach K} {P d : ℕ} {A : Turns K} (hm : Loaded m P d A) (past : K) :
    Agrees (trackMach m past) ((P - 1) * d) (ring m P d A past) := by
  have hN : (m.dturns * ((m.nprofiles : ℤ) - 1)).toNat = (P - 1) * d := by
    rw [hm.dturns, hm.nprofiles]
    rcases Nat.eq_zero_or_pos P with h | h
    · subst h; simp
    · have : ((d : ℤ) * ((P : ℤ) - 1)) = (((P - 1) * d : ℕ) : ℤ) := by
        rw [Nat.cast_mul, Nat.cast_sub h]; push_cast; ring
      rw [this, Int.toNat_natCast]
  constructor
  · intro t ht
    change (m.vrf1AtTurn.map (· * m.q))[t]? = _
    rw [List.getElem?_map, hm.v1, getElem?_tab, if_pos (by omega)]; rfl
  · intro t ht
    change (m.vrf2AtTurn.map (· * m.q))[t]? = _
    rw [List.getElem?_map, hm.v2, getElem?_tab, if_pos (by omega)]; rfl
  · intro t ht
    change m.phi0[t]? = _
    rw [hm.ph, getElem?_tab, if_pos (by omega)]; rfl
  · intro t ht
    change m.deltaE0[t]? = _
    rw [hm.dE, getElem?_tab, if_pos (by omega)]; rfl
  · intro t ht
    change m.driftCoef[t]? = _
    rw [hm.coef, getElem?_tab, if_pos (by omega)]; rfl
  · intro t ht
    change (List.replicate (m.dturns * ((m.nprofiles : ℤ) - 1)).toNat m.phi12 ++ [past])[t]? = some (if t < (P - 1) * d then m.phi12 else past)
    rw [hN]
    by_cases h : t < (P - 1) * d
    · rw [if_pos h, List.getElem?_append_left (by simpa using h), List.getElem?_replicate, if_pos h]
    · have : t = (P - 1) * d := by omega
      rw [if_neg h, this, List.getElem?_append_right (by simp)]
      simp
  · rfl

theorem seen_self {sin : K → K} {m : Mach K} {P d : ℕ} {A : Turns K} (hm : Loaded m P d A) {past xo dE : K} (hdE : dE ≠ 0)
    {r : ℕ} (hr : r < P) (c : K × K) : seen sin m P d A past xo dE r r c = c := by
  unfold seen
  rw [transport_self]
  unfold toImage physical
  have h1 := hm.scale r hr
  have h2 := hm.dtbin.ne'
  have h3 : m.hNum * A.om (r * d) * m.dtbin ≠ 0 := mul_ne_zero h1 h2
  refine Prod.ext ?_ ?_
  · dsimp only
    rw [sub_add_cancel, mul_assoc, mul_assoc, ← mul_assoc m.hNum, mul_div_cancel_right₀ _ h3]
    ring
  · dsimp only
    rw [mul_div_cancel_right₀ _ hdE]
    ring

/-- the checks of `track` and what they say in natural numbers -/
theorem trackCheck_nat {P d : ℕ} {rec : ℤ} {r : ℤ} (h : Track.trackCheck P d rec 0 = .ok r) :
    ∃ r' : ℕ, r = r' ∧ r' < P ∧ 0 < d ∧ (rec = r' ∨ rec = r' - P) := by
  rw [Props.C23_accepts_iff_partial] at h
  obtain ⟨⟨h1, h2, h3⟩, h4, _⟩ := h
  refine ⟨r.toNat, by omega, by omega, ?_, by omega⟩
  simpa using h4

/-- the automatic distribution, tracked and converted -/
theorem trackCoords_ok {L : MathLib K} {m : Mach K} {P d : ℕ} {A : Turns K} (hm : Loaded m P d A) {xo dE : K}
    {l : Limits} (hl : findLimits L m.toArea = .ok (xo, dE, l)) {rec : ℤ} {r : ℕ}
    (hr : Track.trackCheck P d rec 0 = .ok (r : ℤ)) :
    ∃ pts : List (K × K), Fills l m.snpt pts ∧ ∀ past : K,
      trackCoords L m past rec = .ok ⟨xo, dE,
        arr P pts.length fun p j => (seen L.sin m P d A past xo dE r p (pts.getD j (0, 0))).1,
        arr P pts.length fun p j => (seen L.sin m P d A past xo dE r p (pts.getD j (0, 0))).2⟩ := by
  obtain ⟨r', hrr, hrP, hd, _⟩ := trackCheck_nat hr
  have hrr' : r = r' := by exact_mod_cast hrr
  subst hrr'
  have hdE := (Props.findLimits_ok hl).2.2.1
  have hN : ∀ i, i < P → i * d < (P - 1) * d + 1 := by
    intro i hi
    have := Nat.mul_le_mul_right d (show i ≤ P - 1 by omega)
    omega
  have hs : ∀ i, i < P → m.hNum * A.om (i * d) * m.dtbin ≠ 0 := fun i hi => mul_ne_zero (hm.scale i hi) hm.dtbin.ne'
  obtain ⟨pts, jmn, jmx, e1, e2, e3, e4, e5, e6⟩ := Props.C29_distribution hl hm.dtbin hm.window hm.om hm.ph hm.dturns (hN r hrP) (hs r hrP)
  have hlim := (Props.C51_limits_partial hl hm.dtbin hm.window).2.2.2.1
  refine ⟨pts, ⟨List.Nodup.of_map _ e4, ?_⟩, ?_⟩
  · intro x y
    rw [e5]
    constructor
    · rintro ⟨i, j, a, b, h1, h2, h3, h4, h5, h6, h7, h8⟩
      refine ⟨i, j, jmn i, jmx i, a, b, h1, h2, ?_, ?_, h3, h4, h5, h6, h7, h8⟩
      · rw [e1, getElem?_tab, if_pos (by omega)]
      · rw [e2, getElem?_tab, if_pos (by omega)]
    · rintro ⟨i, j, u, v, a, b, h1, h2, hu, hv, h3, h4, h5, h6, h7, h8⟩
      rw [e1, getElem?_tab, if_pos (by omega)] at hu
      rw [e2, getElem?_tab, if_pos (by omega)] at hv
      cases hu; cases hv
      exact ⟨i, j, a, b, h1, h2, h3, h4, h5, h6, h7, h8⟩
  intro past
  obtain ⟨st, hst, hh1, hh2⟩ := Props.C17_no_offset L.sin hd (agrees hm past) hrP (fun _ _ => (0, 0))
    (fun j => physical m d A xo dE r (pts.getD j (0, 0))) (n := pts.length)
  have hPd : (d : ℤ) * ((P : ℤ) - 1) = (((P - 1) * d : ℕ) : ℤ) := by
    rw [Nat.cast_mul, Nat.cast_sub (by omega)]; push_cast; ring
  have hrep : List.replicate P (List.replicate pts.length (0 : K)) = rows P pts.length fun _ _ => (0 : K) := by
    unfold rows tab; simp
  have htr : track L m past rec = .ok ⟨xo, dE, ⟨pts.length, st.xp⟩, ⟨pts.length, st.yp⟩⟩ := by
    unfold track
    rw [hm.nprofiles, hm.dturns, hr]
    dsimp only
    rw [hl, bind_ok]
    dsimp only
    rw [e3, bind_ok]
    rw [List.length_map, hPd, hrep, List.map_map, List.map_map, map_getD pts (0, 0), map_getD pts (0, 0)]
    exact congrArg (fun z => z.bind fun s => Except.ok (Tracked.mk xo dE ⟨pts.length, s.xp⟩ ⟨pts.length, s.yp⟩)) hst
  unfold trackCoords
  rw [htr, bind_ok]
  dsimp only
  rw [hh1, hh2]
  change (physicalToCoords m.toArea xo dE (arr P pts.length _) (arr P pts.length _)).bind _ = _
  rw [physicalToCoords_arr m.toArea xo dE hm.om hm.ph hm.dturns hN hs hdE.ne']
  rfl

theorem filter_eq_map_getD {α : Type _} (l : List α) (z : α) (q : α → Bool) :
    l.filter q = ((List.range l.length).filter fun j => q (l.getD j z)).map fun j => l.getD j z := by
  have h : l = (List.range l.length).map fun j => l.getD j z := by
    have := map_getD l z id
    rw [List.map_id] at this
    exact this
  conv_lhs => rw [h, List.filter_map]
  rfl

/-- the particles of a distribution staying inside, as numbers of columns and as points -/
theorem kept_eq (sin : K → K) (m : Mach K) (P d : ℕ) (A : Turns K) (past xo dE : K) (r : ℕ) (pts : List (K × K)) :
    pts.filter (fun c => decide (Stays sin m P d A past xo dE r c)) =
      (keptOf P pts.length (fun p j => (seen sin m P d A past xo dE r p (pts.getD j (0, 0))).1) (m.nbins : K)).map
        fun j => pts.getD j (0, 0) := by
  rw [filter_eq_map_getD pts (0, 0)]
  congr 1
  unfold keptOf
  apply List.filter_congr
  intro j _
  apply decide_eq_decide.mpr
  unfold Stays
  simp only [Props.bad_iff]

theorem trunc_nonneg {x : K} (h : 0 ≤ x) : trunc x = ⌊x⌋ := by
  unfold trunc; rw [if_pos h]

theorem subPoint_bounds {s a : ℕ} (h : a < s) :
    (0 : K) ≤ (2 * (a : K) + 1) / (2 * (s : K)) ∧ (2 * (a : K) + 1) / (2 * (s : K)) < 1 := by
  have hs : (0 : K) < 2 * (s : K) := by
    have : (0 : K) < s := by exact_mod_cast (by omega : 0 < s)
    linarith
  constructor
  · apply div_nonneg _ hs.le
    have : (0 : K) ≤ a := Nat.cast_nonneg _
    linarith
  · rw [div_lt_one hs]
    have : (a : K) + 1 ≤ s := by exact_mod_cast h
    linarith

/-- the cell of a point of the distribution -/
theorem cellOf_fills {l : Limits} {s : ℕ} {pts : List (K × K)} (hF : Fills l s pts) {c : K × K} (hc : c ∈ pts) :
    ∃ (i : ℕ) (j u v : ℤ), cellOf c = ((i : ℤ), j) ∧ l.imin ≤ i ∧ (i : ℤ) ≤ l.imax ∧
      l.jmin[i]? = some u ∧ l.jmax[i]? = some v ∧ u ≤ j ∧ j < v := by
  obtain ⟨x, y⟩ := c
  obtain ⟨i, j, u, v, a, b, h1, h2, h3, h4, h5, h6, h7, h8, rfl, rfl⟩ := (hF.mem x y).mp hc
  refine ⟨i, j, u, v, ?_, h1, h2, h3, h4, h5, h6⟩
  obtain ⟨a1, a2⟩ := subPoint_bounds (K := K) h7
  obtain ⟨b1, b2⟩ := subPoint_bounds (K := K) h8
  unfold cellOf
  refine Prod.ext ?_ ?_
  · dsimp only
    rw [Int.floor_eq_iff]
    push_cast
    exact ⟨by linarith, by linarith⟩
  · dsimp only
    rw [Int.floor_eq_iff]
    exact ⟨by linarith, by linarith⟩

theorem column_rec {n P r : ℕ} (hr : r < P) {rec : ℤ} (h : rec = r ∨ rec = r - P) (f : ℕ → ℕ → ℤ) :
    Img.column (arr n P f) rec = .ok (tab n fun i => f i r) := by
  rcases h with rfl | rfl
  · exact Img.column_arr f hr
  · have := Img.column_neg (n := n) (m := P) f (j := P - r) (by omega) (by omega)
    rw [show (r : ℤ) - P = -((P - r : ℕ) : ℤ) by omega, this, show P - (P - r) = r by omega]

theorem normalise_flat {nbins : ℕ} {img : ℕ → ℕ → K} (h0 : ∀ a b, 0 ≤ img a b) {s : K} (hs : 0 < s)
    (ht : ∑ a ∈ range nbins, ∑ b ∈ range nbins, img a b = s) :
    normalise (flat nbins nbins img) = .ok (flat nbins nbins fun a b => img a b / s) := by
  unfold normalise
  dsimp only
  rw [Tomo.npClip0_flat]
  have hc : (flat nbins nbins fun a b => max (img a b) 0) = flat nbins nbins img :=
    flat_congr fun a b _ _ => max_eq_left (h0 a b)
  rw [hc, sum_flat, ht]
  unfold flat
  rw [mapM_tab (g := fun v => v / s)]
  intro i _
  exact fdiv_ok hs.ne'

/-- the particles surviving, in numbers of bins -/
theorem coords_ok {L : MathLib K} {m : Mach K} {P d : ℕ} {A : Turns K} (hm : Loaded m P d A) {xo dE : K}
    {l : Limits} (hl : findLimits L m.toArea = .ok (xo, dE, l)) {rec : ℤ} {r : ℕ}
    (hr : Track.trackCheck P d rec 0 = .ok (r : ℤ)) (self : M (Tracked K)) {t : Tracker} (ht : t.selfField = false) :
    ∃ pts : List (K × K), Fills l m.snpt pts ∧ ∀ (past : K) (kept : List (K × K)),
      kept = (pts.filter fun c => decide (Stays L.sin m P d A past xo dE r c)) →
      (kept = [] → coordinates L m past self rec t = .error (.exc .invalidParticle)) ∧
      (kept ≠ [] → InRange kept.length P m.nbins (binAt L.sin m P d A past xo dE r kept) ∧
        ∃ y : ℕ → ℕ → ℤ, (∀ i p, y i p = trunc (seen L.sin m P d A past xo dE r p (kept.getD i (0, 0))).2) ∧
          (∀ i, i < kept.length → cellOf (kept.getD i (0, 0))
            = ((binAt L.sin m P d A past xo dE r kept i r : ℤ), y i r)) ∧
          coordinates L m past self rec t = .ok (dE,
            arr kept.length P (fun i p => (binAt L.sin m P d A past xo dE r kept i p : ℤ)), arr kept.length P y)) := by
  obtain ⟨pts, hF, htc⟩ := trackCoords_ok hm hl hr
  obtain ⟨r', hrr, hrP, hd, _⟩ := trackCheck_nat hr
  have hrr' : r = r' := by exact_mod_cast hrr
  subst hrr'
  have hdE := (Props.findLimits_ok hl).2.2.1.ne'
  refine ⟨pts, hF, ?_⟩
  intro past kept hk
  have hkm : ∀ c, c ∈ kept → c ∈ pts ∧ Stays L.sin m P d A past xo dE r c := by
    intro c hc
    rw [hk] at hc
    simpa using List.mem_filter.mp hc
  rw [kept_eq] at hk
  set ks := keptOf P pts.length (fun p j => (seen L.sin m P d A past xo dE r p (pts.getD j (0, 0))).1) (m.nbins : K) with hks
  have hlen : ks.length = kept.length := by rw [hk, List.length_map]
  have hget : ∀ i, i < kept.length → pts.getD (ks.getD i 0) (0, 0) = kept.getD i (0, 0) := by
    intro i hi
    have h1 : kept.getD i (0, 0) = (ks.map fun j => pts.getD j (0, 0)).getD i (0, 0) := by rw [← hk]
    rw [h1, List.getD_eq_getElem (ks.map _) _ (by rw [List.length_map]; omega), List.getElem_map,
      List.getD_eq_getElem ks _ (by omega)]
  have hmem : ∀ i, i < kept.length → kept.getD i (0, 0) ∈ kept := by
    intro i hi
    rw [List.getD_eq_getElem _ _ hi]; exact List.getElem_mem hi
  unfold coordinates
  rw [ht, if_neg (by simp), htc past, bind_ok]
  dsimp only
  rw [ready_arr, ← hks, hlen]
  constructor
  · intro h0
    rw [if_pos (by rw [h0]; rfl)]
    rfl
  · intro h0
    have hst : ∀ i, i < kept.length → ∀ p, p < P →
        0 ≤ (seen L.sin m P d A past xo dE r p (kept.getD i (0, 0))).1 ∧
        (seen L.sin m P d A past xo dE r p (kept.getD i (0, 0))).1 < m.nbins :=
      fun i hi p hp => (hkm _ (hmem i hi)).2 p hp
    have hbin : ∀ i, i < kept.length → ∀ p, p < P →
        (binAt L.sin m P d A past xo dE r kept i p : ℤ) = ⌊(seen L.sin m P d A past xo dE r p (kept.getD i (0, 0))).1⌋ := by
      intro i hi p hp
      unfold binAt
      rw [Int.toNat_of_nonneg (Int.floor_nonneg.mpr (hst i hi p hp).1)]
    refine ⟨?_, fun i p => trunc (seen L.sin m P d A past xo dE r p (kept.getD i (0, 0))).2, fun _ _ => rfl, ?_, ?_⟩
    · intro i hi p hp
      have h1 := hbin i hi p hp
      have h2 : ⌊(seen L.sin m P d A past xo dE r p (kept.getD i (0, 0))).1⌋ < (m.nbins : ℤ) := by
        rw [Int.floor_lt]; exact_mod_cast (hst i hi p hp).2
      omega
    · intro i hi
      rw [hbin i hi r hrP]
      dsimp only
      rw [seen_self hm hdE hrP]
      unfold cellOf
      rw [trunc_nonneg]
      obtain ⟨h1, _⟩ := hkm _ (hmem i hi)
      obtain ⟨i', j, u, v, hcell, _, _, hu, hv, huj, _⟩ := cellOf_fills hF h1
      have hu1 := (Props.C51_inside_every_column hm.synchY hl i' u v hu hv).1
      have : ⌊(kept.getD i (0, 0)).2⌋ = j := congrArg Prod.snd hcell
      exact Int.floor_nonneg.mp (by omega)
    · rw [if_neg, bind_ok]
      · have e : ∀ (f g : ℕ → ℕ → ℤ), (∀ i, i < kept.length → ∀ p, p < P → f i p = g i p) →
            arr kept.length P f = arr kept.length P g := by
          intro f g h
          unfold arr
          congr 1
          exact tab_congr fun i hi => tab_congr fun p hp => h i hi p hp
        dsimp only
        rw [pure_eq_ok]
        congr 3
        · apply e
          intro i hi p hp
          rw [hget i hi, trunc_nonneg (hst i hi p hp).1, hbin i hi p hp]
        · apply e
          intro i hi p hp
          rw [hget i hi]
      · intro h
        rcases Nat.mul_eq_zero.mp h with h | h
        · omega
        · exact h0 (List.length_eq_zero_iff.mp h)

end Verif.Run

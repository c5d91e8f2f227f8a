import Verif.Props.Area
import Verif.Props.Fit
import Verif.Props.RunFile

/-!
# Further theorems added after wrong programs went unnoticed (C51, C69)
-/

set_option linter.unusedSectionVars false

namespace Verif.Props
open Verif.Part Verif.Psi Verif.Mch Verif.Asrt Verif.Spec Verif.Run Verif.Inp Verif.Prof Finset

section
variable {S K : Type} [Field K] [LinearOrder K] [IsStrictOrderedRing K] [FloorRing K]

theorem toWaterfall_data {nf sf nb s0 s1 rbn : ℕ} (h1 : sf < nf) (h2 : s0 + s1 < nb) (h3 : 1 ≤ rbn) {data : List K}
    (hlen : data.length = nf * nb) :
    toWaterfall ⟨nf, sf, nb, s0, s1, rbn⟩ (some data) = .ok (arr (nf - sf) (nb - s0 - s1) (rawAt nb sf s0 data)) := by
  obtain ⟨w, hw⟩ := (C33_accepts ⟨nf, sf, nb, s0, s1, rbn⟩ (some data)).1.mpr
    ⟨⟨data, rfl, by dsimp only; exact_mod_cast hlen⟩, ⟨by dsimp only; omega, by dsimp only; omega, by dsimp only; omega,
      by dsimp only; omega, by dsimp only; omega, by dsimp only; omega, by dsimp only; omega, by dsimp only; omega⟩⟩
  obtain ⟨nf', sf', nb', s0', s1', rb', hf, _, _, _, _, rfl⟩ := toWaterfall_inv hw
  rw [hw]
  simp only [FrameArgs.mk.injEq, Nat.cast_inj] at hf
  obtain ⟨rfl, rfl, rfl, rfl, rfl, rfl⟩ := hf
  rfl

/-- C69 (what can go wrong): a file whose counts agree with each other and with the number of raw samples, and whose turn arrays exist, is
rejected with an IndexError if there is no reference profile; divides zero by zero if a profile has fewer than 20 samples; raises the
exception of an empty waterfall if no bin is left above the baseline; and otherwise is loaded, unless the position of the synchronous
particle is negative and the fit fails. -/
theorem C69_failures (L : MathLib K) {R : Reader S K} (qe : K) {params : List S} {data : List K} {d : FileDoc S K}
    (hd : IsFile R params d) {o : MachineOut K} (ho : valuesAtTurns L (machineArgs (meaning d)) = .ok o)
    {nf sf nb s0 s1 rbn ref : ℕ} (c1 : d.framesInData = nf) (c2 : d.framesToIgnore = sf) (c3 : d.binsPerFrame = nb)
    (c4 : d.binsBeforeLower = s0) (c5 : d.binsAfterUpper = s1) (c6 : d.rebin = rbn) (c7 : d.bunchReferenceFrame = ref + 1)
    (h1 : sf < nf) (h2 : s0 + s1 < nb) (h3 : 1 ≤ rbn) (hlen : data.length = nf * nb) :
    let above := ∃ i k, i < nf - sf ∧ k < rebinCount (nb - s0 - s1) rbn ∧
      0 < rebinned (nb - s0 - s1) rbn (fun i j => rawAt nb sf s0 data i j - baseline (nb - s0 - s1) ref (rawAt nb sf s0 data)) i k
    (nf - sf ≤ ref → loadFile L R qe params data = .error (.exc .indexError)) ∧
    (ref < nf - sf → nb - s0 - s1 < 20 → loadFile L R qe params data = .error .nonFinite) ∧
    (ref < nf - sf → 20 ≤ nb - s0 - s1 → ¬ above → loadFile L R qe params data = .error (.exc .waterfallReducedToZero)) ∧
    (ref < nf - sf → 20 ≤ nb - s0 - s1 → above →
      (0 ≤ d.synchronousPhase → ∃ r, loadFile L R qe params data = .ok r) ∧
      ∀ e, loadFile L R qe params data = .error e →
        ∃ fm : Fit.FitMach K, fm.machineRefFrame = d.machineReferenceFrame - 1 ∧ fm.beamRefFrame = ref ∧
          Fit.fitSynchPartX L fm (arr (nf - sf) (rebinCount (nb - s0 - s1) rbn) (treated (nb - s0 - s1) rbn ref (rawAt nb sf s0 data)))
            = .error e) := by
  have hp := (C40_parameters R params (meaning d)).mpr ⟨d, hd, rfl⟩
  have hf : (meaning d).frames = ⟨nf, sf, nb, s0, s1, rbn⟩ := by
    simp only [meaning, c1, c2, c3, c4, c5, c6]
  have hnp : nf - sf = (rawMach (meaning d)).obj.nprofiles := by
    change nf - sf = (d.framesInData - d.framesToIgnore).toNat
    omega
  have hbr : (rawMach (meaning d)).beamRefFrame = (ref : ℤ) := by
    change d.bunchReferenceFrame - 1 = _
    omega
  have hbr' : (meaning d).beamRefFrame = (ref : ℤ) := hbr
  have hrb : ((meaning d).frames.rebin).toNat = rbn := by rw [hf]; rfl
  have hw : toWaterfall (meaning d).frames (some data) = .ok (arr (nf - sf) (nb - s0 - s1) (rawAt nb sf s0 data)) := by
    rw [hf]; exact toWaterfall_data h1 h2 h3 hlen
  intro above
  unfold loadFile
  rw [hp, bind_ok, ho, bind_ok, bind_ok, hw, bind_ok, hrb]
  refine ⟨fun hge => ?_, fun hlt h20 => ?_, fun hlt h20 hno => ?_, fun hlt h20 hyes => ?_⟩
  · rw [rawProfiles_noRef _ (by rw [hbr]; omega) (by rw [hbr]; omega), bind_error]
  · rw [(rawProfiles_eq _ hnp h3 hlt hbr (by omega) _).1 h20, bind_error]
  · rw [(rawProfiles_eq _ hnp h3 hlt hbr (by omega) _).2.2 h20 hno, bind_error]
  · rw [(rawProfiles_eq _ hnp h3 hlt hbr (by omega) _).2.1 h20 hyes, bind_ok]
    dsimp only
    rw [hbr', chargeStep_ok _ hlt, bind_ok]
    have hrK : (0 : K) < rbn := by exact_mod_cast h3
    constructor
    · intro h0
      unfold fitStep
      rw [if_neg (not_lt.mpr _)]
      · exact ⟨_, rfl⟩
      · change 0 ≤ d.synchronousPhase / rbn
        exact div_nonneg h0 hrK.le
    · intro e he
      unfold fitStep at he
      split at he
      · set r := afterLoad (rawMach (meaning d)) (nf - sf) (nb - s0 - s1) rbn ref (rawAt nb sf s0 data) (meaning d).samplingTime
        refine ⟨Run.fitMach (meaning d) (loadedMach (meaning d) o r), rfl, hbr', ?_⟩
        cases hx : Fit.fitSynchPartX L (Run.fitMach (meaning d) (loadedMach (meaning d) o r)) (arr (nf - sf)
          (rebinCount (nb - s0 - s1) rbn) (treated (nb - s0 - s1) rbn ref (rawAt nb sf s0 data))) with
        | error e' =>
          rw [hx] at he
          cases he
          rfl
        | ok x =>
          rw [hx] at he
          cases he
      · cases he

/-- a profile of 19 samples: the mean over no samples; a reference profile that does not exist; a constant signal -/
example : (loadFile libQ textReader 1 (fileLines ((26, 2) :: fileVals)) fileRaw).map (fun r => r.2.rows) = .error .nonFinite ∧
    (loadFile libQ textReader 1 (fileLines ((55, 4) :: fileVals)) fileRaw).map (fun r => r.2.rows) = .error (.exc .indexError) ∧
    (loadFile libQ textReader 1 (fileLines fileVals) (fileRaw.map fun _ => 3)).map (fun r => r.2.rows) = .error (.exc .waterfallReducedToZero) := by
  refine ⟨?_, ?_, ?_⟩ <;> decide +kernel

/-- C69 (the fit in a run): if the file gives a negative position of the synchronous particle, the position found puts the two ends of
the bunch of the reference profile at the same potential.  The voltages of this potential are those stored at the index equal to the
machine reference frame of the file, counted from zero.
Missing, as for C65: the case of voltages that differ between that index and the turn of the reference profile. -/
theorem C69_fit_partial {L : MathLib K} (hc : L.c ≠ 0) (hL : RootFinder L) {R : Reader S K} {qe : K} {params : List S} {data : List K}
    {m : Run.Mach K} {wf : Arr2 K} (h : loadFile L R qe params data = .ok (m, wf)) :
    ∃ d : FileDoc S K, IsFile R params d ∧ (d.synchronousPhase < 0 → ∀ (om p0 v1 v2 : K) (prof : List K),
      npGet m.omegaRev0 ((d.bunchReferenceFrame - 1) * d.turnsBetweenFrames) = .ok om →
      npGet m.phi0 ((d.bunchReferenceFrame - 1) * d.turnsBetweenFrames) = .ok p0 →
      npGet m.vrf1AtTurn ((d.bunchReferenceFrame - 1) * d.turnsBetweenFrames) = .ok v1 →
      npGet m.vrf2AtTurn ((d.bunchReferenceFrame - 1) * d.turnsBetweenFrames) = .ok v2 →
      npGet m.vrf1AtTurn (d.machineReferenceFrame - 1) = .ok v1 → npGet m.vrf2AtTurn (d.machineReferenceFrame - 1) = .ok v2 →
      m.hRatio ≠ 0 → m.hNum * om * m.dtbin ≠ 0 → npGet wf.rows (d.bunchReferenceFrame - 1) = .ok prof →
      ∃ l u, Pre.tangentFeet prof = .ok (u, l) ∧
        let phase := fun b : K => p0 + (b - m.synchPartX) * (m.hNum * om * m.dtbin)
        let V := potential L.cos v1 v2 m.hRatio m.phi12 (Mch.rfVoltageAtPhase L p0 v1 v2 m.hRatio m.phi12)
        V (phase l) = V (phase u)) := by
  obtain ⟨d, nf, sf, nb, s0, s1, rbn, ref, dt, A, hd, hC, _, _, hconf, _, _, _, _, _, hfit, _⟩ := C69_loaded hc h
  refine ⟨d, hd, fun hneg om p0 v1 v2 prof a1 a2 a3 a4 a5 a6 a7 a8 a9 => ?_⟩
  obtain ⟨lo, up, hx⟩ := hfit hneg
  have e1 : m.beamRefFrame = d.bunchReferenceFrame - 1 := hconf.beamRefFrame
  have e2 : m.dturns = d.turnsBetweenFrames := hconf.dturns
  have hR : Reads (Run.fitMach (meaning d) m) om p0 v1 v2 v1 v2 m.phi12 m.phi12 := by
    refine ⟨?_, ?_, ?_, ?_, ?_, ?_, ?_, ?_, ?_, ?_⟩
    · show npGet m.omegaRev0 (m.beamRefFrame * m.dturns) = _
      rw [e1, e2, a1]
    · show npGet m.phi0 (m.beamRefFrame * m.dturns) = _
      rw [e1, e2, a2]
    · exact a5
    · exact a6
    · show npGet m.vrf1AtTurn (m.beamRefFrame * m.dturns) = _
      rw [e1, e2, a3]
    · show npGet m.vrf2AtTurn (m.beamRefFrame * m.dturns) = _
      rw [e1, e2, a4]
    · rfl
    · rfl
    · exact a7
    · exact a8
  have := C65_equal_potential_partial hL hR (by show npGet wf.rows m.beamRefFrame = _; rw [e1]; exact a9) hx
    (fun b => p0 + (b - m.synchPartX) * (m.hNum * om * m.dtbin)) (fun _ => rfl)
  exact ⟨_, _, this⟩

/-- a symmetric bunch above an offset of 1 -/
def bunchRaw : List ℚ := [1, 1, 1, 1, 1, 1, 2, 3, 4, 5, 6, 5, 4, 3, 2, 1, 1, 1, 1, 1, 1, 1]

/-- the same bunch in every frame, constant voltages and a negative position: it is found in the middle of the bunch -/
example : (loadFile libLin textReader 1 (fileLines ((39, -1) :: (36, 1) :: fileVals)) (bunchRaw ++ bunchRaw ++ bunchRaw ++ bunchRaw)).map
      (fun r => (r.1.synchPartX, r.1.vrf1AtTurn, r.1.vrf2AtTurn, r.1.phi0, r.1.omegaRev0, r.1.hRatio))
    = .ok (19 / 2, [1/10, 1/10, 1/10], [0, 0, 0], [0, 0, 0], [1, 1, 1], 2) ∧ RootFinder libLin :=
  ⟨by decide +kernel, libLin_root⟩

/-- C51 (columns): the region of a search in energy starts at the first column in which the upper limit is not below the lower one, and ends at
the last such column, the very first column not being tried; without such a column there is no start or no end. -/
theorem C51_columns (n : ℕ) (lo hi : ℕ → ℤ) :
    (∀ i : ℤ, findMinBinnedPhase n (tab n lo) (tab n hi) = .ok (some i) ↔
      ∃ k : ℕ, i = k ∧ k < n ∧ lo k ≤ hi k ∧ ∀ j, j < k → hi j < lo j) ∧
    (∀ i : ℤ, findMaxBinnedPhase n (tab n lo) (tab n hi) = .ok (some i) ↔
      ∃ k : ℕ, i = k ∧ 0 < k ∧ k < n ∧ lo k ≤ hi k ∧ ∀ j, k < j → j < n → hi j < lo j) := by
  have go : ∀ is : List ℕ, (∀ k ∈ is, k < n) → ∀ i : ℤ,
      findMinBinnedPhase.go (tab n lo) (tab n hi) is = .ok (some i) ↔
        ∃ k pre post, i = (k : ℕ) ∧ is = pre ++ k :: post ∧ lo k ≤ hi k ∧ ∀ j ∈ pre, hi j < lo j := by
    intro is
    induction is with
    | nil => intro _ i; simp [findMinBinnedPhase.go]
    | cons a as ih =>
      intro hk i
      have ha := hk a (by simp)
      unfold findMinBinnedPhase.go
      rw [rd_tab' _ rfl ha, bind_ok, rd_tab' _ rfl ha, bind_ok]
      by_cases hc : lo a ≤ hi a
      · rw [if_pos (by omega)]
        constructor
        · intro h
          cases h
          exact ⟨a, [], as, rfl, rfl, hc, by simp⟩
        · rintro ⟨k, pre, post, rfl, he, h1, h2⟩
          cases pre with
          | nil => cases he; rfl
          | cons b bs =>
            cases he
            have := h2 a (by simp)
            omega
      · rw [if_neg (by omega), ih (fun k hk' => hk k (by simp [hk'])) i]
        constructor
        · rintro ⟨k, pre, post, rfl, rfl, h1, h2⟩
          refine ⟨k, a :: pre, post, rfl, rfl, h1, ?_⟩
          intro j hj
          rcases List.mem_cons.mp hj with rfl | hj
          · omega
          · exact h2 j hj
        · rintro ⟨k, pre, post, rfl, he, h1, h2⟩
          cases pre with
          | nil => cases he; omega
          | cons b bs =>
            cases he
            exact ⟨k, bs, post, rfl, rfl, h1, fun j hj => h2 j (by simp [hj])⟩
  constructor
  · intro i
    unfold findMinBinnedPhase
    rw [go _ (fun k hk => List.mem_range.mp hk)]
    constructor
    · rintro ⟨k, pre, post, rfl, he, h1, h2⟩
      have hs : (List.range n).Pairwise (· < ·) := List.pairwise_lt_range
      rw [he, List.pairwise_append] at hs
      have hkn : k ∈ List.range n := by rw [he]; simp
      refine ⟨k, rfl, List.mem_range.mp hkn, h1, fun j hj => h2 j ?_⟩
      have hjn : j ∈ List.range n := List.mem_range.mpr (lt_trans hj (List.mem_range.mp hkn))
      rw [he, List.mem_append, List.mem_cons] at hjn
      rcases hjn with h | rfl | h
      · exact h
      · omega
      · have := (List.pairwise_cons.mp hs.2.1).1 j h
        omega
    · rintro ⟨k, rfl, hk, h1, h2⟩
      obtain ⟨pre, post, he⟩ := List.append_of_mem (List.mem_range.mpr hk)
      have hs : (List.range n).Pairwise (· < ·) := List.pairwise_lt_range
      rw [he, List.pairwise_append] at hs
      exact ⟨k, pre, post, rfl, he, h1, fun j hj => h2 j (hs.2.2 j hj k (by simp))⟩
  · intro i
    unfold findMaxBinnedPhase
    have hmem : ∀ k, k ∈ ((List.range n).drop 1).reverse ↔ 0 < k ∧ k < n := by
      intro k
      rw [List.mem_reverse, List.mem_drop_iff_getElem]
      constructor
      · rintro ⟨j, hj, rfl⟩
        simp at hj ⊢
        omega
      · rintro ⟨h0, h1⟩
        exact ⟨k - 1, by simp; omega, by simp; omega⟩
    have hs : (((List.range n).drop 1).reverse).Pairwise (· > ·) := by
      rw [List.pairwise_reverse]
      exact (List.pairwise_lt_range (n := n)).drop
    rw [go _ (fun k hk => ((hmem k).mp hk).2)]
    constructor
    · rintro ⟨k, pre, post, rfl, he, h1, h2⟩
      have hkn := (hmem k).mp (by rw [he]; simp)
      rw [he, List.pairwise_append] at hs
      refine ⟨k, rfl, hkn.1, hkn.2, h1, fun j hj hjn => h2 j ?_⟩
      have hjm := (hmem j).mpr ⟨by omega, hjn⟩
      rw [he, List.mem_append, List.mem_cons] at hjm
      rcases hjm with h | rfl | h
      · exact h
      · omega
      · have := (List.pairwise_cons.mp hs.2.1).1 j h
        omega
    · rintro ⟨k, rfl, hk0, hk, h1, h2⟩
      obtain ⟨pre, post, he⟩ := List.append_of_mem ((hmem k).mpr ⟨hk0, hk⟩)
      rw [he, List.pairwise_append] at hs
      refine ⟨k, pre, post, rfl, he, h1, fun j hj => h2 j (hs.2.2 j hj k (by simp)) ?_⟩
      exact ((hmem j).mp (by rw [he]; simp [hj])).2

/-- a column with equal limits counts -/
example : findMinBinnedPhase 4 [3, 2, 1, 2] [1, 2, 4, 1] = .ok (some 1) ∧ findMaxBinnedPhase 4 [3, 2, 1, 2] [1, 2, 4, 1] = .ok (some 2) := by
  decide +kernel

/-- C51 (window): with the whole image asked for, the first column is the number of bins before the start of the window, its fraction dropped
(towards zero also for a window that starts before the first bin). -/
theorem C51_window_start {L : MathLib K} {m : Area K} {xo dE : K} {l : Limits} (h : findLimits L m = .ok (xo, dE, l))
    (hf : m.fullPp = true) :
    let x := m.minDt / m.dtbin
    (0 ≤ x → (l.imin : K) ≤ x ∧ x < l.imin + 1) ∧ (x ≤ 0 → x ≤ (l.imin : K) ∧ (l.imin : K) - 1 < x) := by
  obtain ⟨_, _, _, jmin, jmax, imin, imax, _, h5, _⟩ := findLimits_ok h
  obtain ⟨_, a, b, _, _, _, _, hi, _⟩ := adjustLimits_ok h5
  rw [if_pos (Or.inr hf)] at hi
  intro x
  rw [hi]
  change (0 ≤ x → ((trunc x : ℤ) : K) ≤ x ∧ x < (trunc x : ℤ) + 1) ∧ (x ≤ 0 → x ≤ ((trunc x : ℤ) : K) ∧ ((trunc x : ℤ) : K) - 1 < x)
  unfold trunc
  constructor
  · intro h0
    rw [if_pos h0]
    exact ⟨Int.floor_le x, Int.lt_floor_add_one x⟩
  · intro h0
    split
    · have : x = 0 := le_antisymm h0 ‹_›
      rw [this]
      simp
    · exact ⟨Int.le_ceil x, by linarith [Int.ceil_lt_add_one x]⟩

/-- a window starting half a bin before the image: the first column is column 0 -/
example : (findLimits libQ { area0 with fullPp := true, minDt := -1/2 * area0.dtbin }).map (fun r => r.2.2.imin) = .ok 0 := by
  decide +kernel

end
end Verif.Props

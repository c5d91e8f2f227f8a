import Verif.Lemmas.Profiles

/-!
# Properties of raw-data shaping and of the Profiles object (C33, C43, C57)
-/

set_option linter.unusedSectionVars false

namespace Verif.Props
open Finset Verif.Spec Verif.Pre Verif.Prof Verif.Asrt

variable {K : Type} [Field K] [LinearOrder K] [IsStrictOrderedRing K]

/-! ## C33 -/

/-- C33: sample `j` of profile `i` is raw sample `(i + skip_frames) * nbins_frame + skip_bins_start + j`. -/
theorem C33_selects {α : Type} {nf nb sf s0 s1 rb : ℕ} (hf : sf < nf) (hs : s0 + s1 < nb) (hr : 1 ≤ rb) (raw : ℕ → α) :
    toWaterfall ⟨nf, sf, nb, s0, s1, rb⟩ (some (tab (nf * nb) raw))
      = .ok (arr (nf - sf) (nb - s0 - s1) fun i j => raw ((i + sf) * nb + s0 + j)) := by
  rw [toWaterfall_eq hf hs hr]
  congr 1
  apply arr_congr
  intro i j _ _
  congr 1
  ring

/-- C33: raw data is accepted exactly when it is iterable, has `nframes * nbins_frame` samples and the frame parameters leave at
least one profile and one bin; the class of the exception tells which. -/
theorem C33_accepts {α : Type} (f : FrameArgs) (raw : Option (List α)) :
    ((∃ w, toWaterfall f raw = .ok w) ↔
      (∃ l, raw = some l ∧ (l.length : ℤ) = f.nframes * f.nbinsFrame) ∧
      0 < f.nframes ∧ 0 ≤ f.skipFrames ∧ f.skipFrames < f.nframes ∧ 0 < f.nbinsFrame ∧ 0 ≤ f.skipBinsStart ∧
        0 ≤ f.skipBinsEnd ∧ f.skipBinsStart + f.skipBinsEnd < f.nbinsFrame ∧ 1 ≤ f.rebin) ∧
    ((¬ ∃ l, raw = some l ∧ (l.length : ℤ) = f.nframes * f.nbinsFrame) →
      toWaterfall f raw = .error (.exc .rawDataImportError)) ∧
    ((∃ l, raw = some l ∧ (l.length : ℤ) = f.nframes * f.nbinsFrame) →
      ∀ e, toWaterfall f raw = .error e → e = .exc .inputError) := by
  have hbad : (¬ ∃ l, raw = some l ∧ (l.length : ℤ) = f.nframes * f.nbinsFrame) →
      toWaterfall f raw = .error (.exc .rawDataImportError) := by
    intro h
    unfold toWaterfall assertRawData
    cases raw with
    | none => rfl
    | some l =>
      dsimp only
      rw [if_neg (fun hl => h ⟨l, rfl, hl⟩)]; rfl
  have hgood : ∀ l : List α, raw = some l → (l.length : ℤ) = f.nframes * f.nbinsFrame → FrameOk f → ∃ w, toWaterfall f raw = .ok w := by
    rintro l rfl hl hok
    obtain ⟨nf, sf, nb, s0, s1, rb⟩ := f
    unfold FrameOk at hok
    dsimp only at hok hl
    obtain ⟨h1, h2, h3, h4, h5, h6, h7, h8⟩ := hok
    have e1 : ((nf.toNat : ℕ) : ℤ) = nf := by omega
    have e2 : ((sf.toNat : ℕ) : ℤ) = sf := by omega
    have e3 : ((nb.toNat : ℕ) : ℤ) = nb := by omega
    have e4 : ((s0.toNat : ℕ) : ℤ) = s0 := by omega
    have e5 : ((s1.toNat : ℕ) : ℤ) = s1 := by omega
    have e6 : ((rb.toNat : ℕ) : ℤ) = rb := by omega
    have hll : l.length = nf.toNat * nb.toNat := by
      have : (l.length : ℤ) = ((nf.toNat * nb.toNat : ℕ) : ℤ) := by rw [hl]; push_cast; rw [e1, e3]
      exact_mod_cast this
    have hpos : 0 < l.length := by rw [hll]; exact Nat.mul_pos (by omega) (by omega)
    have : Inhabited α := ⟨l[0]⟩
    have ht := eq_tab_of_length l
    rw [hll] at ht
    rw [ht, ← e1, ← e2, ← e3, ← e4, ← e5, ← e6]
    exact ⟨_, by
      rw [show (((nf.toNat : ℕ) : ℤ)).toNat = nf.toNat from Int.toNat_natCast _,
        show (((nb.toNat : ℕ) : ℤ)).toNat = nb.toNat from Int.toNat_natCast _]
      exact toWaterfall_eq (by omega) (by omega) (by omega) _⟩
  have hframe : (∃ l : List α, raw = some l ∧ (l.length : ℤ) = f.nframes * f.nbinsFrame) → ¬ FrameOk f →
      toWaterfall f raw = .error (.exc .inputError) := by
    rintro ⟨l, rfl, hl⟩ hn
    unfold toWaterfall assertRawData
    dsimp only
    rw [if_pos hl, bind_ok, (assertFrameInputs_checks f).2 hn]; rfl
  refine ⟨⟨?_, ?_⟩, hbad, ?_⟩
  · rintro ⟨w, hw⟩
    by_cases h1 : ∃ l, raw = some l ∧ (l.length : ℤ) = f.nframes * f.nbinsFrame
    · refine ⟨h1, ?_⟩
      by_contra h2
      rw [hframe h1 h2] at hw; cases hw
    · rw [hbad h1] at hw; cases hw
  · rintro ⟨⟨l, h1, h2⟩, hok⟩
    exact hgood l h1 h2 hok
  · intro h1 e he
    by_cases h2 : FrameOk f
    · obtain ⟨l, hl1, hl2⟩ := h1
      obtain ⟨w, hw⟩ := hgood l hl1 hl2 h2
      rw [hw] at he; cases he
    · rw [hframe h1 h2] at he; cases he; rfl

/-- a case of `C33_selects`: 3 frames of 4 bins, one frame and one bin at each end skipped -/
example : toWaterfall ⟨3, 1, 4, 1, 1, 1⟩ (some (tab 12 fun k => (k : ℚ)))
    = .ok ⟨2, [[5, 6], [9, 10]]⟩ := by decide +kernel

/-! ## C43 -/

/-- The object is in step: the stored waterfall has the machine's number of profiles and bins, the synchronous energy bin
is the middle, no value is negative and some value is positive. -/
def InStep (o : PObj K) : Prop :=
  ∃ a : Arr2 K, o.waterfall = some (.array2 a) ∧ a.rows.length = o.nprofiles ∧ o.nbins = a.cols ∧
    o.synchPartY = (a.cols : K) / 2 ∧ (∀ r ∈ a.rows, ∀ v ∈ r, 0 ≤ v) ∧ ∃ r ∈ a.rows, ∃ v ∈ r, 0 < v

/-- C43: an accepted waterfall is stored with its negative values set to zero, and the machine's number of bins and
synchronous energy bin are set to match. -/
theorem C43_stores {n m : ℕ} (o : PObj K) (f : ℕ → ℕ → K) (hn : n = o.nprofiles) (hp : ∃ i j, i < n ∧ j < m ∧ 0 < f i j) :
    setWaterfall o (.array2 (arr n m f))
      = ({ waterfall := some (.array2 (arr n m fun i j => max (f i j) 0)), nprofiles := n, nbins := m,
           synchPartY := (m : K) / 2 }, none) := by
  subst hn
  unfold setWaterfall
  dsimp only
  rw [arr_rows, length_tab, if_neg (by simp)]
  have hc : (tab o.nprofiles fun i => tab m (f i)).map Tomo.npClip0 = (arr o.nprofiles m fun i j => max (f i j) 0).rows := by
    rw [map_tab, arr_rows]
    apply tab_congr
    intro i _
    rw [npClip0_tab]
  rw [if_neg]
  · unfold setNbins
    rw [hc]
    rfl
  · rw [clipSums_zero]
    intro h
    obtain ⟨i, j, hi, hj, hpos⟩ := hp
    have h1 : tab m (f i) ∈ tab o.nprofiles fun i => tab m (f i) := List.mem_map.mpr ⟨i, List.mem_range.mpr hi, rfl⟩
    have h2 : f i j ∈ tab m (f i) := List.mem_map.mpr ⟨j, List.mem_range.mpr hj, rfl⟩
    exact absurd hpos (not_lt.mpr (h _ h1 _ h2))

/-- C43: after an accepted assignment the object is in step, whatever it was before. -/
theorem C43_accepted (o o' : PObj K) (v : WfVal K) (h : setWaterfall o v = (o', none)) : InStep o' := by
  unfold setWaterfall at h
  cases v with
  | scalar => cases h
  | noShape => cases h
  | array1 l =>
    dsimp only at h
    split at h
    · cases h
    · split at h <;> cases h
  | array2 a =>
    dsimp only at h
    split at h
    · cases h
    · rename_i hn
      split at h
      · cases h
      · rename_i hz
        cases h
        push Not at hn
        rw [clipSums_zero] at hz
        push Not at hz
        obtain ⟨r, hr, v, hv, hpos⟩ := hz
        refine ⟨⟨a.cols, a.rows.map Tomo.npClip0⟩, rfl, by simpa [setNbins] using hn, rfl, rfl, ?_, ?_⟩
        · intro r hr v hv
          obtain ⟨r0, _, rfl⟩ := List.mem_map.mp hr
          obtain ⟨v0, _, rfl⟩ := List.mem_map.mp hv
          split
          · exact le_rfl
          · rename_i h0; exact not_lt.mp h0
        · refine ⟨Tomo.npClip0 r, List.mem_map.mpr ⟨r, hr, rfl⟩, v, List.mem_map.mpr ⟨v, hv, ?_⟩, hpos⟩
          rw [if_neg (not_lt.mpr hpos.le)]

/-- C43, the part of "a rejected assignment leaves the previous data in place" that holds: rejections because of the type or the
number of profiles change nothing.  Missing: the rejection of an all-zero waterfall and of a one-dimensional array of the right
length, see `C43_violated`. -/
theorem C43_rejected_partial (o o' : PObj K) (v : WfVal K) {e : Exn} (h : setWaterfall o v = (o', some e))
    (h1 : e ≠ .waterfallReducedToZero) (h2 : e ≠ .indexError) : o' = o := by
  unfold setWaterfall at h
  cases v with
  | scalar => cases h; rfl
  | noShape => cases h; rfl
  | array1 l =>
    dsimp only at h
    split at h
    · cases h; rfl
    · split at h <;> cases h <;> contradiction
  | array2 a =>
    dsimp only at h
    split at h
    · cases h; rfl
    · split at h <;> cases h; contradiction

/-- C43: over any history of assignments that never hits one of those two rejections, an object that is in step stays in step. -/
theorem C43_history_partial (vs : List (WfVal K)) (o : PObj K) (h0 : InStep o)
    (hv : ∀ v ∈ vs, ∀ o : PObj K, (setWaterfall o v).2 ≠ some .waterfallReducedToZero ∧ (setWaterfall o v).2 ≠ some .indexError) :
    InStep (vs.foldl (fun o v => (setWaterfall o v).1) o) := by
  induction vs generalizing o with
  | nil => exact h0
  | cons v vs ih =>
    rw [List.foldl_cons]
    apply ih _ _ fun v' hv' => hv v' (by simp [hv'])
    obtain ⟨o', e, he⟩ : ∃ o' e, setWaterfall o v = (o', e) := ⟨_, _, rfl⟩
    have hh := hv v (by simp) o
    rw [he] at hh ⊢
    cases e with
    | none => exact C43_accepted o o' v he
    | some e =>
      have : o' = o := C43_rejected_partial o o' v he (fun h => hh.1 (by rw [h])) (fun h => hh.2 (by rw [h]))
      rw [this]; exact h0

/-- the object used in the examples: one profile of two bins -/
def obj2 : PObj ℚ := ⟨some (.array2 ⟨2, [[1, 2]]⟩), 1, 2, 1⟩

/-- C43 is violated: assigning an all-zero waterfall of three bins raises WaterfallReducedToZero, but the good waterfall is
gone and the machine still has two bins. -/
theorem C43_violated :
    InStep obj2 ∧ (setWaterfall obj2 (.array2 ⟨3, [[0, -1, 0]]⟩)).2 = some .waterfallReducedToZero ∧
    (setWaterfall obj2 (.array2 ⟨3, [[0, -1, 0]]⟩)).1 = ⟨some (.array2 ⟨3, [[0, 0, 0]]⟩), 1, 2, 1⟩ ∧
    ¬ InStep (setWaterfall obj2 (.array2 ⟨3, [[0, -1, 0]]⟩)).1 := by
  have h1 : setWaterfall obj2 (.array2 ⟨3, [[0, -1, 0]]⟩)
      = (⟨some (.array2 ⟨3, [[0, 0, 0]]⟩), 1, 2, 1⟩, some .waterfallReducedToZero) := by
    unfold setWaterfall obj2 Tomo.npClip0 absv
    norm_num
  refine ⟨?_, by rw [h1], by rw [h1], ?_⟩
  · refine ⟨_, rfl, rfl, rfl, by norm_num [obj2], ?_, ⟨[1, 2], by simp, 1, by simp, by norm_num⟩⟩
    intro r hr v hv
    simp only [List.mem_singleton] at hr
    subst hr
    simp only [List.mem_cons, List.not_mem_nil, or_false] at hv
    rcases hv with rfl | rfl <;> norm_num
  · rw [h1]
    rintro ⟨a, ha, _, hb, _⟩
    cases ha
    exact absurd hb (by decide)

/-- a case of `C43_stores` -/
example : setWaterfall obj2 (.array2 (arr 1 3 fun _ j => (j : ℚ) - 1))
    = (⟨some (.array2 (arr 1 3 fun _ j => max ((j : ℚ) - 1) 0)), 1, 3, 3 / 2⟩, none) := by
  rw [C43_stores (n := 1) obj2 _ rfl ⟨0, 2, by decide, by decide, by norm_num⟩]
  norm_num

/-! ## C57 -/

/-- C57: for at least 20 bins and a rebin factor that divides their number, `raw_data_to_profiles` subtracts from every sample the
mean of the first 5 % of the reference profile, sums `rbn` samples per bin and sets negative values to zero; it sets the
machine's bin width, synchronous position, number of bins and synchronous energy bin accordingly.  (What is missing: factors
that do not divide, see C32, and fewer than 20 bins, see `C57_violated_baseline`.) -/
theorem C57_treatment_partial {n q rbn : ℕ} (m : RawMach K) (f : ℕ → ℕ → K) {ref : ℕ} (hrbn : 0 < rbn) (hn : n = m.obj.nprofiles)
    (href : ref < n) (hbref : m.beamRefFrame = ref) (hb : 20 ≤ q * rbn) (samplingTime : K) (synchX : Option K) (base : K)
    (hbase : base = (∑ j ∈ range (q * rbn / 20), f ref j) / ((q * rbn / 20 : ℕ) : K))
    (hpos : ∃ i k, i < n ∧ k < q ∧ 0 < binSum rbn (fun i j => f i j - base) i k) :
    rawDataToProfiles m (arr n (q * rbn) f) rbn samplingTime synchX
      = ({ obj := { waterfall := some (.array2 (arr n q fun i k => max (binSum rbn (fun i j => f i j - base) i k) 0)),
                    nprofiles := n, nbins := q, synchPartY := (q : K) / 2 },
           beamRefFrame := ref, dtbin := samplingTime * rbn, synchPartX := (synchX.getD m.synchPartX) / rbn }, none) := by
  unfold rawDataToProfiles
  dsimp only
  rw [hbref, calcBaseline_arr href, if_neg (by omega), ← hbase]
  dsimp only
  rw [map_sub_arr]
  unfold rebin
  rw [if_neg (by omega), arr_cols, if_pos (by simp), rebinDividable_arr hrbn, bind_ok]
  simp only [pure_eq_ok, Option.map_some, Option.getD_some]
  obtain ⟨i, k, hi, hk, hp⟩ := hpos
  have := C43_stores m.obj (fun i k => ∑ r ∈ range rbn, (f i (k * rbn + r) - base)) hn ⟨i, k, hi, hk, hp⟩
  rw [this]
  rw [← hbref]
  rfl

/-- C57 is violated for fewer than 20 bins: the baseline is 0/0, so every sample becomes NaN (and is stored as such). -/
theorem C57_violated_baseline {n m r : ℕ} (hr : r < n) (hm : m < 20) (f : ℕ → ℕ → K) :
    calcBaseline (arr n m f) (r : ℤ) = .error .nonFinite := by
  rw [calcBaseline_arr hr, if_pos hm]

/-- C57 is violated by repeating the call: every call divides the machine's synchronous position again, so the second, identical
call yields a position `rbn` times smaller. -/
theorem C57_violated_repeat {n q rbn : ℕ} (m : RawMach K) (f : ℕ → ℕ → K) {ref : ℕ} (hrbn : 0 < rbn) (hn : n = m.obj.nprofiles)
    (href : ref < n) (hbref : m.beamRefFrame = ref) (hb : 20 ≤ q * rbn) (samplingTime : K) (base : K)
    (hbase : base = (∑ j ∈ range (q * rbn / 20), f ref j) / ((q * rbn / 20 : ℕ) : K))
    (hpos : ∃ i k, i < n ∧ k < q ∧ 0 < binSum rbn (fun i j => f i j - base) i k) :
    let once := (rawDataToProfiles m (arr n (q * rbn) f) rbn samplingTime none).1
    let twice := (rawDataToProfiles once (arr n (q * rbn) f) rbn samplingTime none).1
    once.synchPartX = m.synchPartX / rbn ∧ twice.synchPartX = m.synchPartX / rbn / rbn := by
  dsimp only
  rw [C57_treatment_partial m f hrbn hn href hbref hb samplingTime none base hbase hpos]
  rw [C57_treatment_partial _ f hrbn rfl href rfl hb samplingTime none base hbase hpos]
  exact ⟨rfl, rfl⟩

/-- a case meeting the hypotheses: 20 bins, factor 2, one profile with a pulse -/
example : ∃ i k, i < 1 ∧ k < 10 ∧
    0 < binSum 2 (fun (_ j : ℕ) => (if j = 5 then (7 : ℚ) else 1) - (∑ j ∈ range (10 * 2 / 20), if j = 5 then (7 : ℚ) else 1) / ((10 * 2 / 20 : ℕ) : ℚ)) i k :=
  ⟨0, 2, by decide, by decide, by norm_num [binSum, sum_range_succ]⟩

end Verif.Props

import Verif.Props.Tomography
import Verif.Lemmas.Manual

/-!
# C115: a reconstruction written out with `project` and `back_project`

The program is `Manual.reconstruct`, the loop of `EX_06_Manual_reconstruction.py` for any number of iterations; the library's is
`Tomography(...)` followed by `run_hybrid` or `run`.
-/

set_option linter.unusedSectionVars false

namespace Verif.Props
open Finset Verif.Spec Verif.Recon Verif.Tomo

variable {K : Type} [Field K] [LinearOrder K] [IsStrictOrderedRing K]

/-- the user's loop on coordinates `x` and measured waterfall `wf` -/
abbrev manual (sqrt : K → K) (npart nprof nbins : ℕ) (x : ℕ → ℕ → ℕ) (wf : ℕ → ℕ → K) (niter : ℕ) : M (RState K) :=
  Manual.reconstruct sqrt (xbuf npart nprof x) (flat nprof nbins wf) niter nbins npart nprof

theorem clipped_same {nprof nbins : ℕ} {wf : ℕ → ℕ → K} (h0 : ∀ p b, p < nprof → b < nbins → 0 ≤ wf p b) {p b : ℕ} (hp : p < nprof)
    (hb : b < nbins) : normRows nbins (fun p b => max (wf p b) 0) p b = normRows nbins wf p b :=
  normRows_congr (f := fun p b => max (wf p b) 0) (fun c hc => max_eq_left (h0 p c hp hc)) hb

/-- without negative samples both waterfalls of the loop are that of the library -/
theorem plainW_clip {npart nprof nbins : ℕ} {x : ℕ → ℕ → ℕ} (hx : InRange npart nprof nbins x) {wf : ℕ → ℕ → K}
    (h0 : ∀ p b, p < nprof → b < nbins → 0 ≤ wf p b) (k : ℕ) : ∀ i, i < npart →
    plainW npart nprof nbins x (normRows nbins fun p b => max (wf p b) 0) (normRows nbins wf) k i =
      plainW npart nprof nbins x (normRows nbins fun p b => max (wf p b) 0) (normRows nbins fun p b => max (wf p b) 0) k i := by
  induction k with
  | zero => intro i _; rfl
  | succ k ih =>
    intro i hi
    have hproj : proj npart x (plainW npart nprof nbins x (normRows nbins fun p b => max (wf p b) 0) (normRows nbins wf) k) =
        proj npart x (plainW npart nprof nbins x (normRows nbins fun p b => max (wf p b) 0)
          (normRows nbins fun p b => max (wf p b) 0) k) := by
      funext p b
      exact proj_congr ih p b
    show max (plainW _ _ _ _ _ _ k i + _) _ = max (plainW _ _ _ _ _ _ k i + _) _
    rw [ih i hi, hproj]
    congr 2
    unfold backProj
    refine sum_congr rfl fun p hp => ?_
    dsimp only
    rw [clipped_same h0 (mem_range.mp hp) (hx i hi p (mem_range.mp hp))]

/-- C115: what the loop computes, for any number of particles, profiles, bins and iterations.  If it ends with numbers, the weights are
those of `plainW` (first what the particles collect from the clipped profiles, then, in every round, what they collect from the
differences to the unclipped ones, negative weights set to zero), the last waterfall is the normalised projection of the weights, and entry
`m` of the discrepancies belongs to the weights of round `m`.  Otherwise the weights vanished in some round, and everything after it is
NaN. -/
theorem C115_rounds (sqrt : K → K) {npart nprof nbins : ℕ} (hp : 0 < nprof) (hb : 0 < nbins) {x : ℕ → ℕ → ℕ}
    (hx : InRange npart nprof nbins x) (wf : ℕ → ℕ → K) (hc : ∀ p, p < nprof → ∃ b, b < nbins ∧ 0 < wf p b)
    (hr : ∀ p, p < nprof → ∑ b ∈ range nbins, wf p b ≠ 0) (niter : ℕ) :
    let w := plainW npart nprof nbins x (normRows nbins fun p b => max (wf p b) 0) (normRows nbins wf)
    let r := fun k => normRows nbins fun p b => ∑ i ∈ range npart, if x i p = b then w k i else 0
    (manual sqrt npart nprof nbins x wf niter = .ok ⟨tab npart (w niter), flat nprof nbins (r niter),
        tab (niter + 1) fun m => sqrt (meanSquare nprof nbins fun p b => normRows nbins wf p b - r m p b)⟩ ∧
      (∀ m, m ≤ niter → 0 < ∑ i ∈ range npart, w m i)) ∨
    (manual sqrt npart nprof nbins x wf niter = .error .nonFinite ∧ ∃ m, m ≤ niter ∧ ∀ i, i < npart → w m i = 0) := by
  intro w r
  have hpos : ∀ p, p < nprof → rowSum nbins (fun p b => max (wf p b) 0) p ≠ 0 := by
    intro p hp
    obtain ⟨b, hb, h⟩ := hc p hp
    exact ne_of_gt (sum_pos' (fun b _ => le_max_right _ _) ⟨b, mem_range.mpr hb, lt_max_of_lt_left h⟩)
  rcases Manual.reconstruct_run sqrt hp hb hx wf hpos hr niter with ⟨h1, h2⟩ | ⟨h1, h2⟩
  · exact Or.inl ⟨h2, h1⟩
  · right
    refine ⟨h2, ?_⟩
    unfold Manual.Alive at h1
    push Not at h1
    obtain ⟨m, hm, h⟩ := h1
    refine ⟨m, hm, fun i hi => ?_⟩
    have hz := le_antisymm h (sum_nonneg fun i _ => Manual.plainW_nonneg ..)
    exact (sum_eq_zero_iff_of_nonneg fun i _ => Manual.plainW_nonneg ..).mp hz i (mem_range.mpr hi)

/-- three particles, two profiles of two bins, one of the samples negative: the loop ends with numbers -/
example : (manual (id : ℚ → ℚ) 3 2 2 x3 wf3 2).toOption.isSome = true ∧ InRange 3 2 2 x3 ∧
    (∀ p, p < 2 → ∃ b, b < 2 ∧ 0 < wf3 p b) ∧ ∀ p, p < 2 → ∑ b ∈ range 2, wf3 p b ≠ 0 := by
  refine ⟨by decide +kernel, x3_inRange, fun p hp => ⟨0, by norm_num, ?_⟩, fun p hp => ?_⟩ <;> interval_cases p <;> decide +kernel

/-- C115 (partial: needs data without negative samples and the same number of particles in every bin of every profile, see
`C115_violated_compensation` and `C115_violated_negative`).  Then the loop returns exactly what `run_hybrid` of a `Tomography` object with the
same data returns: weights, recreated waterfall and discrepancies; and it ends with numbers exactly if that does. -/
theorem C115_even_partial (sqrt : K → K) {npart nprof nbins : ℕ} (hn : 0 < npart) (hp : 0 < nprof) {x : ℕ → ℕ → ℕ}
    (hx : InRange npart nprof nbins x) (he : EvenlyFilled npart nprof nbins x) (wf : ℕ → ℕ → K)
    (h0 : ∀ p b, p < nprof → b < nbins → 0 ≤ wf p b) (hc : ∀ p, p < nprof → ∃ b, b < nbins ∧ 0 < wf p b) (niter : ℕ) :
    ∃ w, initWaterfall (flat nprof nbins wf) nprof nbins = .ok w ∧ ∀ st,
      manual sqrt npart nprof nbins x wf niter = .ok st ↔
        runHybrid sqrt (xbuf npart nprof x) w niter nbins npart nprof = .ok st := by
  have hb : 0 < nbins := by have := hx 0 hn 0 hp; omega
  have hpos : ∀ p, p < nprof → rowSum nbins (fun p b => max (wf p b) 0) p ≠ 0 := by
    intro p hp
    obtain ⟨b, hb, h⟩ := hc p hp
    exact ne_of_gt (sum_pos' (fun b _ => le_max_right _ _) ⟨b, mem_range.mpr hb, lt_max_of_lt_left h⟩)
  have hpos' : ∀ p, p < nprof → rowSum nbins wf p ≠ 0 := by
    intro p hp
    have : rowSum nbins (fun p b => max (wf p b) 0) p = rowSum nbins wf p :=
      sum_congr rfl fun b hb => max_eq_left (h0 p b hp (mem_range.mp hb))
    rw [← this]
    exact hpos p hp
  obtain ⟨b0, hb0, h00⟩ := hc 0 hp
  refine ⟨_, (initWaterfall_char hb wf).2.2 ⟨0, b0, hp, hb0, h00⟩ hc, fun st => ?_⟩
  set f := normRows nbins fun p b => max (wf p b) 0 with hf
  have hW : ∀ k i, i < npart → W false npart nprof nbins x f k i = plainW npart nprof nbins x f (normRows nbins wf) k i :=
    fun k i hi => (Manual.seq_even hx he f k i hi).trans (plainW_clip hx h0 k i hi).symm
  have hsum : ∀ k, ∑ i ∈ range npart, W false npart nprof nbins x f k i =
      ∑ i ∈ range npart, plainW npart nprof nbins x f (normRows nbins wf) k i :=
    fun k => sum_congr rfl fun i hi => hW k i (mem_range.mp hi)
  have hR : ∀ k, R false npart nprof nbins x f (k + 1) = plainR npart nprof nbins x f (normRows nbins wf) k := by
    intro k
    rw [R_false_succ]
    unfold plainR
    have : proj npart x (W false npart nprof nbins x f k) = proj npart x (plainW npart nprof nbins x f (normRows nbins wf) k) := by
      funext p b
      exact proj_congr (hW k) p b
    rw [this]
  have hgood : Good false npart nprof nbins x f niter ↔ Manual.Alive npart nprof nbins x f (normRows nbins wf) niter := by
    unfold Good Manual.Alive
    simp only [hsum]
  rcases Manual.reconstruct_run sqrt hp hb hx wf hpos hpos' niter with ⟨h1, h2⟩ | ⟨h1, h2⟩
  · rcases runHybrid_run sqrt hn hp hx f niter with ⟨_, h4⟩ | ⟨h3, _⟩
    · rw [manual, h2, h4]
      have e1 : tab npart (W false npart nprof nbins x f niter) = tab npart (plainW npart nprof nbins x f (normRows nbins wf) niter) :=
        tab_congr fun i hi => hW niter i hi
      have e2 : ∀ m, msq false npart nprof nbins x f m =
          meanSquare nprof nbins fun p b => normRows nbins wf p b - plainR npart nprof nbins x f (normRows nbins wf) m p b := by
        intro m
        unfold msq meanSquare
        rw [hR]
        congr 1
        refine sum_congr rfl fun p hp => sum_congr rfl fun b hb => ?_
        dsimp only
        rw [hf, clipped_same h0 (mem_range.mp hp) (mem_range.mp hb)]
      rw [e1, hR]
      simp only [e2]
      rfl
    · exact absurd (hgood.mpr h1) h3
  · rcases runHybrid_run sqrt hn hp hx f niter with ⟨h3, _⟩ | ⟨_, h4⟩
    · exact absurd (hgood.mp h3) h1
    · rw [manual, h2, h4]
      constructor <;> (intro h; cases h)

/-- four particles, one in every pair of bins: every bin of both profiles holds two -/
def xEven : ℕ → ℕ → ℕ := fun i p => if p = 0 then i / 2 % 2 else i % 2

theorem xEven_inRange : InRange 4 2 2 xEven := by
  intro i _ p _
  unfold xEven
  split <;> omega

theorem xEven_even : EvenlyFilled 4 2 2 xEven := by
  refine ⟨2, by norm_num, fun p hp b hb => ?_⟩
  interval_cases p <;> interval_cases b <;> decide +kernel

/-- measured profiles of the examples -/
def wfEven : ℕ → ℕ → ℚ := fun p b => if p = 0 then (if b = 0 then 3 else 1) else if b = 0 then 1 else 4

example : ∃ w, initWaterfall (flat 2 2 wfEven) 2 2 = .ok w ∧
    (runHybrid (id : ℚ → ℚ) (xbuf 4 2 xEven) w 2 2 4 2).toOption.isSome = true ∧
    manual (id : ℚ → ℚ) 4 2 2 xEven wfEven 2 = runHybrid (id : ℚ → ℚ) (xbuf 4 2 xEven) w 2 2 4 2 := by
  refine ⟨[3 / 4, 1 / 4, 1 / 5, 4 / 5], ?_, ?_, ?_⟩ <;> decide +kernel

/-- C115 (partial: no iterations, no negative samples).  Then the loop returns what `run` returns (C++), however the particles are
spread. -/
theorem C115_start_partial (sqrt : K → K) {npart nprof nbins : ℕ} (hn : 0 < npart) (hp : 0 < nprof) {x : ℕ → ℕ → ℕ}
    (hx : InRange npart nprof nbins x) (wf : ℕ → ℕ → K) (h0 : ∀ p b, p < nprof → b < nbins → 0 ≤ wf p b)
    (hc : ∀ p, p < nprof → ∃ b, b < nbins ∧ 0 < wf p b) :
    ∃ w, initWaterfall (flat nprof nbins wf) nprof nbins = .ok w ∧ ∀ st,
      manual sqrt npart nprof nbins x wf 0 = .ok st ↔
        (reconstruct sqrt (xbuf npart nprof x) w 0 nbins npart nprof).2 = .ok st := by
  have hb : 0 < nbins := by have := hx 0 hn 0 hp; omega
  have hpos : ∀ p, p < nprof → rowSum nbins (fun p b => max (wf p b) 0) p ≠ 0 := by
    intro p hp
    obtain ⟨b, hb, h⟩ := hc p hp
    exact ne_of_gt (sum_pos' (fun b _ => le_max_right _ _) ⟨b, mem_range.mpr hb, lt_max_of_lt_left h⟩)
  have hpos' : ∀ p, p < nprof → rowSum nbins wf p ≠ 0 := by
    intro p hp
    have : rowSum nbins (fun p b => max (wf p b) 0) p = rowSum nbins wf p :=
      sum_congr rfl fun b hb => max_eq_left (h0 p b hp (mem_range.mp hb))
    rw [← this]
    exact hpos p hp
  obtain ⟨b0, hb0, h00⟩ := hc 0 hp
  refine ⟨_, (initWaterfall_char hb wf).2.2 ⟨0, b0, hp, hb0, h00⟩ hc, fun st => ?_⟩
  set f := normRows nbins fun p b => max (wf p b) 0 with hf
  have key := C06_agree_without_iterations_partial sqrt hn hp hx f st
  refine Iff.trans ?_ key.symm
  have hgood : Good false npart nprof nbins x f 0 ↔ Manual.Alive npart nprof nbins x f (normRows nbins wf) 0 := by
    constructor
    · intro h m hm
      obtain rfl : m = 0 := by omega
      exact h 0 le_rfl
    · intro h m hm
      obtain rfl : m = 0 := by omega
      exact h 0 le_rfl
  rcases Manual.reconstruct_run sqrt hp hb hx wf hpos hpos' 0 with ⟨h1, h2⟩ | ⟨h1, h2⟩
  · rcases runHybrid_run sqrt hn hp hx f 0 with ⟨_, h4⟩ | ⟨h3, _⟩
    · rw [manual, hybrid, h2, h4]
      have e2 : ∀ m, m < 1 → sqrt (msq false npart nprof nbins x f m) =
          sqrt (meanSquare nprof nbins fun p b => normRows nbins wf p b - plainR npart nprof nbins x f (normRows nbins wf) m p b) := by
        intro m hm
        obtain rfl : m = 0 := by omega
        congr 1
        unfold msq meanSquare
        rw [R_false_succ]
        congr 1
        refine sum_congr rfl fun p hp => sum_congr rfl fun b hb => ?_
        dsimp only
        rw [hf, clipped_same h0 (mem_range.mp hp) (mem_range.mp hb)]
        rfl
      rw [R_false_succ, tab_congr e2]
      rfl
    · exact absurd (hgood.mpr h1) h3
  · rcases runHybrid_run sqrt hn hp hx f 0 with ⟨h3, _⟩ | ⟨_, h4⟩
    · exact absurd (hgood.mp h3) h1
    · rw [manual, hybrid, h2, h4]
      constructor <;> (intro h; cases h)

/-- particles spread unevenly -/
example : InRange 3 2 2 x3 ∧ (∀ p b, p < 2 → b < 2 → 0 ≤ wfEven p b) ∧ (∀ p, p < 2 → ∃ b, b < 2 ∧ 0 < wfEven p b) ∧
    (manual (id : ℚ → ℚ) 3 2 2 x3 wfEven 0).toOption.map (·.weights) = some [19 / 20, 31 / 20, 21 / 20] := by
  refine ⟨x3_inRange, fun p b hp hb => ?_, fun p hp => ⟨0, by norm_num, ?_⟩, by decide +kernel⟩
  · interval_cases p <;> interval_cases b <;> decide +kernel
  · interval_cases p <;> decide +kernel

/-- C115: exact agreement is kept.  If the waterfall recreated in some round is the data the loop compares with, the weights are the same in
all later rounds. -/
theorem C115_agreement_kept {npart nprof nbins : ℕ} {x : ℕ → ℕ → ℕ} (hx : InRange npart nprof nbins x) (f g : ℕ → ℕ → K) (k : ℕ)
    (h : ∀ p b, p < nprof → b < nbins → plainR npart nprof nbins x f g k p b = g p b) (n : ℕ) :
    ∀ i, i < npart → plainW npart nprof nbins x f g (k + n) i = plainW npart nprof nbins x f g k i := by
  induction n with
  | zero => intro i _; rfl
  | succ n ih =>
    intro i hi
    have hproj : proj npart x (plainW npart nprof nbins x f g (k + n)) = proj npart x (plainW npart nprof nbins x f g k) := by
      funext p b
      exact proj_congr ih p b
    show max (plainW npart nprof nbins x f g (k + n) i + backProj nprof x (fun p b => g p b -
      normRows nbins (proj npart x (plainW npart nprof nbins x f g (k + n))) p b) i) 0 = _
    rw [hproj, ih i hi]
    have hz : backProj nprof x (fun p b => g p b - normRows nbins (proj npart x (plainW npart nprof nbins x f g k)) p b) i = 0 := by
      refine sum_eq_zero fun p hp => ?_
      dsimp only
      rw [← h p (x i p) (mem_range.mp hp) (hx i hi p (mem_range.mp hp))]
      exact sub_self _
    rw [hz, add_zero]
    exact max_eq_left (Manual.plainW_nonneg ..)

/-- flat profiles, evenly spread particles: agreement from the start -/
example : ∀ p b, p < 2 → b < 2 → plainR 4 2 2 xEven wfHalf wfHalf 0 p b = wfHalf p b := by
  intro p b hp hb
  interval_cases p <;> interval_cases b <;> decide +kernel

/-- C115 violated where the bins hold different numbers of particles.  The library divides the differences by the number of particles in the
bin before it gives them to the particles (tomography.py:137-138, reconstruct.cpp:411); the loop of the example does not.  Three
particles, two profiles of two bins, no negative samples, one iteration: other weights. -/
theorem C115_violated_compensation :
    initWaterfall (flat 2 2 wfEven) 2 2 = .ok [3 / 4, 1 / 4, 1 / 5, 4 / 5] ∧
    (runHybrid (id : ℚ → ℚ) (xbuf 3 2 x3) [3 / 4, 1 / 4, 1 / 5, 4 / 5] 1 2 3 2).toOption.map (·.weights) =
      some [611 / 710, 1181 / 710, 1457 / 1420] ∧
    (manual (id : ℚ → ℚ) 3 2 2 x3 wfEven 1).toOption.map (·.weights) = some [659 / 710, 1181 / 710, 761 / 710] := by decide +kernel

/-- measured profiles with a negative sample -/
def wfNeg : ℕ → ℕ → ℚ := fun p b => if p = 0 then (if b = 0 then 3 else -1) else if b = 0 then 1 else 4

/-- C115 violated by a negative sample.  The loop takes its first weights from clipped profiles (line 101) and compares with profiles that are
divided by their sum but not clipped (line 107); the library clips once.  Four evenly spread particles: other weights, and discrepancies
against profiles that no non-negative weights can produce. -/
theorem C115_violated_negative :
    initWaterfall (flat 2 2 wfNeg) 2 2 = .ok [1, 0, 1 / 5, 4 / 5] ∧
    (runHybrid (id : ℚ → ℚ) (xbuf 4 2 xEven) [1, 0, 1 / 5, 4 / 5] 1 2 4 2).toOption.map (fun s => (s.weights, s.discr)) =
      some ([13 / 10, 11 / 5, 0, 7 / 10], [17 / 400, 877 / 44100]) ∧
    (manual (id : ℚ → ℚ) 4 2 2 xEven wfNeg 1).toOption.map (fun s => (s.weights, s.discr)) =
      some ([9 / 5, 27 / 10, 0, 1 / 5], [117 / 400, 72421 / 441800]) := by decide +kernel

/-- C115 violated by data without a signal.  `Tomography(...)` raises; the loop divides zeros by zeros and ends without an error, with weights
that are not numbers. -/
theorem C115_violated_no_signal :
    initWaterfall (flat 2 2 fun _ _ => Fl.fin 0) 2 2 = .error (.exc .waterfallReducedToZero) ∧
    ∃ st, Manual.reconstruct (id : Fl → Fl) (xbuf 4 2 xEven) (flat 2 2 fun _ _ => Fl.fin 0) 1 2 4 2 = .ok st ∧
      st.weights = [.nan, .nan, .nan, .nan] := by
  refine ⟨by decide +kernel, ⟨[.nan, .nan, .nan, .nan], [.nan, .nan, .nan, .nan], [.nan, .nan]⟩, ?_, rfl⟩
  decide +kernel

end Verif.Props

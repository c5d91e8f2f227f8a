import Verif.Lemmas.RunFile
import Verif.Props.Run
import Verif.Props.Fit

/-!
# Properties of a run from an input file (C69, C70)
-/

set_option linter.unusedSectionVars false

namespace Verif.Props
open Verif.Part Verif.Psi Verif.Mch Verif.Asrt Verif.Spec Verif.Run Verif.Inp Verif.Prof Finset

variable {S K : Type} [Field K] [LinearOrder K] [IsStrictOrderedRing K] [FloorRing K]

/-- what `fitStep` changes -/
theorem fitStep_inv {L : MathLib K} {p : FilePars S K} {m m' : Run.Mach K} {w : Arr2 K} (h : fitStep L p m w = .ok m') :
    (0 ≤ m.synchPartX → m' = m) ∧ (m.synchPartX < 0 → ∃ lo up x,
      Fit.fitSynchPartX L (Run.fitMach p m) w = .ok (x, lo, up) ∧ m' = { m with synchPartX := x }) := by
  unfold fitStep at h
  constructor
  · intro h0
    rw [if_neg (not_lt.mpr h0)] at h
    cases h; rfl
  · intro h0
    rw [if_pos h0] at h
    obtain ⟨⟨x, lo, up⟩, h1, h2⟩ := bind_inv h
    cases h2
    exact ⟨lo, up, x, h1, rfl⟩

/-- C69: whenever a file is loaded, its lines are a parameter file with some values `d`, the counts in it are consistent with
each other and with the number of raw samples, the machine has exactly these parameters, the turn arrays are those of
`values_at_turns`, and the waterfall is the raw data with the baseline of the reference profile subtracted, rebinned and cut
at zero.  The synchronous particle is where the file says (in new bins), or fitted when the file gives a negative number. If it
is not negative, and the region to reconstruct is not extended or ends before the last sample, the machine is ready for a run
(`Loaded`, the hypothesis of C66). -/
theorem C69_loaded {L : MathLib K} (hc : L.c ≠ 0) {R : Reader S K} {qe : K} {params : List S} {data : List K}
    {m : Run.Mach K} {wf : Arr2 K} (h : loadFile L R qe params data = .ok (m, wf)) :
    ∃ (d : FileDoc S K) (nf sf nb s0 s1 rbn ref dt : ℕ) (A : Turns K),
      IsFile R params d ∧ Counts d nf sf nb s0 s1 rbn ref dt ∧ data.length = nf * nb ∧ 20 ≤ nb - s0 - s1 ∧
      Configured m d ∧ valuesAtTurns L (machineArgs (meaning d)) = .ok m.toMachineOut ∧
      m.nbins = rebinCount (nb - s0 - s1) rbn ∧ m.dtbin = d.binWidth * rbn ∧
      wf = arr (nf - sf) m.nbins (treated (nb - s0 - s1) rbn ref (rawAt nb sf s0 data)) ∧
      (0 ≤ d.synchronousPhase → m.synchPartX = d.synchronousPhase / rbn) ∧
      (d.synchronousPhase < 0 → ∃ lo up, Fit.fitSynchPartX L (Run.fitMach (meaning d) m) wf = .ok (m.synchPartX, lo, up)) ∧
      (0 ≤ m.synchPartX → d.extendRegion = 0 ∨ 0 ≤ d.emptyBeforeUpper → Loaded m (nf - sf) dt A) := by
  unfold loadFile at h
  obtain ⟨p, hp, h⟩ := bind_inv h
  obtain ⟨_, _, h⟩ := bind_inv h
  obtain ⟨o, ho, h⟩ := bind_inv h
  obtain ⟨w, hw, h⟩ := bind_inv h
  obtain ⟨⟨r, wf'⟩, hr, h⟩ := bind_inv h
  dsimp only at h
  obtain ⟨_, _, h⟩ := bind_inv h
  obtain ⟨m', hm, h⟩ := bind_inv h
  cases h
  obtain ⟨d, hd, rfl⟩ := (C40_parameters R params p).mp hp
  obtain ⟨nf, sf, nb, s0, s1, rbn, hf, c1, c2, c3, hlen, rfl⟩ := toWaterfall_inv hw
  obtain ⟨f1, f2, f3, f4, f5, f6⟩ : d.framesInData = nf ∧ d.framesToIgnore = sf ∧ d.binsPerFrame = nb ∧
      d.binsBeforeLower = s0 ∧ d.binsAfterUpper = s1 ∧ d.rebin = rbn := by
    have := hf
    simp only [meaning, FrameArgs.mk.injEq] at this
    exact this
  obtain ⟨pp, i0, A, t, ph, e, b, dE, eta, coef, om, hpp, hi0, hA, hiA, hT, _⟩ := C39_turn_arrays_partial L _ o ho
  have hacc := accepted_pars hpp
  obtain ⟨⟨⟨x1, e1, p1⟩, ⟨x2, e2, p2⟩, _, ⟨x3, e3, p3⟩, ⟨x4, e4, p4⟩, _, ⟨x5, e5, p5⟩, ⟨x6, e6, p6⟩, _, _, _, _, _⟩, _⟩ :=
    (C38_accepts_iff _).mp ⟨pp, hpp⟩
  cases e1; cases e2; cases e3; cases e4; cases e5; cases e6
  change 0 < d.binWidth at p1
  change 0 < d.turnsBetweenFrames at p2
  change 0 < d.iterations at p3
  change 0 < d.sqrtTestParticles at p4
  change 0 ≤ d.bunchReferenceFrame - 1 at p5
  change 0 < d.harmonic at p6
  obtain ⟨dt, hdt⟩ := Int.eq_ofNat_of_zero_le p2.le
  obtain ⟨ref, href⟩ := Int.eq_ofNat_of_zero_le p5
  have hrb : ((meaning d).frames.rebin).toNat = rbn := by
    change d.rebin.toNat = rbn
    rw [f6]; rfl
  have hnp : nf - sf = (rawMach (meaning d)).obj.nprofiles := by
    change nf - sf = (d.framesInData - d.framesToIgnore).toNat
    omega
  have hbr : (rawMach (meaning d)).beamRefFrame = (ref : ℤ) := href
  rw [hrb] at hr
  have hrlt : ref < nf - sf := by
    by_contra hge
    rw [rawProfiles_noRef _ (by rw [hbr]; omega) (by rw [hbr]; omega)] at hr
    cases hr
  obtain ⟨q1, q2, q3⟩ := rawProfiles_eq (rawAt nb sf s0 data) hnp c3 hrlt hbr (by omega : 0 < nb - s0 - s1)
    (meaning d).samplingTime
  have h20 : 20 ≤ nb - s0 - s1 := by
    by_contra hlt
    rw [q1 (by omega)] at hr
    cases hr
  have hex : ∃ i k, i < nf - sf ∧ k < rebinCount (nb - s0 - s1) rbn ∧
      0 < rebinned (nb - s0 - s1) rbn (fun i j => rawAt nb sf s0 data i j - baseline (nb - s0 - s1) ref (rawAt nb sf s0 data)) i k := by
    by_contra hno
    rw [q3 h20 hno] at hr
    cases hr
  rw [q2 h20 hex] at hr
  cases hr
  set m0 := loadedMach (meaning d) o (afterLoad (rawMach (meaning d)) (nf - sf) (nb - s0 - s1) rbn ref (rawAt nb sf s0 data)
    (meaning d).samplingTime) with hm0
  obtain ⟨g1, g2⟩ := fitStep_inv hm
  have hrK : (0 : K) < rbn := by exact_mod_cast c3
  have hx0 : m0.synchPartX = d.synchronousPhase / rbn := rfl
  have hall : ∃ x, m = { m0 with synchPartX := x } := by
    rcases lt_or_ge m0.synchPartX 0 with hneg | hpos
    · obtain ⟨_, _, x, _, hx⟩ := g2 hneg
      exact ⟨x, hx⟩
    · exact ⟨m0.synchPartX, g1 hpos⟩
  have hcounts : Counts d nf sf nb s0 s1 rbn ref dt :=
    ⟨f1, f2, f3, f4, f5, f6, by omega, hdt, c1, c2, c3, by omega, hrlt⟩
  have hconf : Configured m d := by
    obtain ⟨x, rfl⟩ := hall
    refine ⟨rfl, rfl, rfl, rfl, rfl, rfl, rfl, rfl, rfl, rfl, rfl, rfl, rfl, ?_, ?_, ?_⟩
    · change ((d.sqrtTestParticles.toNat : ℕ) : ℤ) = _
      omega
    · change ((d.iterations.toNat : ℕ) : ℤ) = _
      omega
    · change ((nf - sf : ℕ) : ℤ) = _
      omega
  have hAn : A = (nf - sf - 1) * dt := by
    have h1 : pp.nprofiles = ((nf - sf : ℕ) : ℤ) := by
      rw [hacc.2.2.2.2.2.2.1]
      change d.framesInData - d.framesToIgnore = _
      omega
    have h2 : pp.dturns = (dt : ℤ) := by
      have := hacc.1
      change some d.turnsBetweenFrames = some pp.dturns at this
      injection this with this
      omega
    have h3 : ((nf - sf : ℕ) : ℤ) - 1 = ((nf - sf - 1 : ℕ) : ℤ) := by omega
    rw [h1, h2, h3] at hA
    exact_mod_cast hA
  refine ⟨d, nf, sf, nb, s0, s1, rbn, ref, dt, ⟨fun i => pp.vrf1 + pp.vrf1dot * t i, fun i => pp.vrf2 + pp.vrf2dot * t i, ph, dE, coef,
    om⟩, hd, hcounts, hlen, h20, hconf, ?_, ?_, ?_, ?_, ?_, ?_, ?_⟩
  · obtain ⟨x, rfl⟩ := hall
    exact ho
  · obtain ⟨x, rfl⟩ := hall
    rfl
  · obtain ⟨x, rfl⟩ := hall
    rfl
  · obtain ⟨x, rfl⟩ := hall
    rfl
  · intro hpos
    rw [g1 (by rw [hx0]; positivity)]
    exact hx0
  · intro hneg
    obtain ⟨lo, up, x, h1, rfl⟩ := g2 (by rw [hx0]; exact div_neg_of_neg_of_pos hneg hrK)
    exact ⟨lo, up, h1⟩
  · intro hsx hwin
    subst hAn
    obtain ⟨x, rfl⟩ := hall
    have hn : m0.nprofiles = nf - sf := rfl
    refine ⟨rfl, hdt, hT.vrf1, hT.vrf2, hT.phi0, hT.deltaE0, hT.driftCoef, hT.omegaRev0, mul_pos p1 hrK, ?_, hsx, rfl, ?_⟩
    · intro k hk
      have hle : k * dt ≤ (nf - sf - 1) * dt := Nat.mul_le_mul_right _ (by omega)
      have hb : b (k * dt) ≠ 0 := by
        intro hz
        apply (hT.coefEq _ hle).1
        rw [hz]; ring
      have hR : pp.meanOrbitRad ≠ 0 := hacc.2.2.2.2.2.2.2.2.2.2.2.1.ne'
      change d.harmonic * om (k * dt) ≠ 0
      rw [hT.omEq _ hle]
      exact mul_ne_zero p6.ne' (div_ne_zero (mul_ne_zero hb hc) hR)
    · rcases hwin with h0 | h0
      · left
        change decide (d.extendRegion ≠ 0) = false
        rw [h0]; rfl
      · right
        change ((d.binsPerFrame - d.binsBeforeLower - d.binsAfterUpper - d.emptyBeforeUpper : ℤ) : K) * d.binWidth
          ≤ ((rebinCount (nb - s0 - s1) rbn : ℕ) : K) * (d.binWidth * rbn)
        have h1 : nb - s0 - s1 ≤ rebinCount (nb - s0 - s1) rbn * rbn := by
          unfold rebinCount
          have := Nat.div_add_mod (nb - s0 - s1 + rbn - 1) rbn
          have := Nat.mod_lt (nb - s0 - s1 + rbn - 1) c3
          rw [Nat.mul_comm] 
          omega
        have h2 : d.binsPerFrame - d.binsBeforeLower - d.binsAfterUpper - d.emptyBeforeUpper
            ≤ ((rebinCount (nb - s0 - s1) rbn * rbn : ℕ) : ℤ) := by omega
        have h3 : ((d.binsPerFrame - d.binsBeforeLower - d.binsAfterUpper - d.emptyBeforeUpper : ℤ) : K)
            ≤ ((rebinCount (nb - s0 - s1) rbn * rbn : ℕ) : K) := by exact_mod_cast h2
        calc _ ≤ ((rebinCount (nb - s0 - s1) rbn * rbn : ℕ) : K) * d.binWidth := mul_le_mul_of_nonneg_right h3 p1.le
          _ = _ := by push_cast; ring

theorem runMachine_synch {L : MathLib K} {m : Run.Mach K} {past : K} {self : M (Tracked K)} {wf : Arr2 K} {recArg : Option ℤ}
    {t : Bool} {out : Run.Out K} (h : runMachine L m past self wf recArg t = .ok out) : 0 ≤ m.synchPartX := by
  by_contra hneg
  unfold runMachine newTracker at h
  rw [if_pos (not_le.mp hneg)] at h
  cases h

/-- C69: whatever a run of a parameter file returns is a density with one cell per new time bin and energy bin: none
negative, sum one, on the axes of the new bin width and of a positive energy bin.  Missing (hence `_partial`): a region
extended beyond the last sample, which the code does not reject (`C69_violated_window`). -/
theorem C69_density_partial {L : MathLib K} (hc : L.c ≠ 0) {R : Reader S K} {qe past : K} {self : M (Tracked K)}
    {params : List S} {data : List K} {recArg : Option ℤ} {out : Run.Out K}
    (h : runFile L R qe past self params data recArg false = .ok out)
    (hwin : ∀ d, IsFile R params d → d.extendRegion = 0 ∨ 0 ≤ d.emptyBeforeUpper) :
    ∃ (d : FileDoc S K) (nf sf nb s0 s1 rbn ref dt n : ℕ) (x dE : K) (img : ℕ → ℕ → K),
      IsFile R params d ∧ Counts d nf sf nb s0 s1 rbn ref dt ∧ data.length = nf * nb ∧
      n = rebinCount (nb - s0 - s1) rbn ∧ 0 ≤ x ∧ (0 ≤ d.synchronousPhase → x = d.synchronousPhase / rbn) ∧ 0 < dE ∧
      out.density = flat n n img ∧ (∀ a b, 0 ≤ img a b) ∧ ∑ a ∈ range n, ∑ b ∈ range n, img a b = 1 ∧
      (∀ a, img a 0 = 0) ∧ out.tRange = Img.axis n x (d.binWidth * rbn) ∧ out.eRange = Img.axis n ((n : K) / 2) dE := by
  unfold runFile at h
  obtain ⟨⟨m, wf⟩, hl, hrun⟩ := bind_inv h
  dsimp only at hrun
  have hsx := runMachine_synch hrun
  obtain ⟨d, nf, sf, nb, s0, s1, rbn, ref, dt, A, hd, hC, hlen, h20, hconf, hv, hnb, hdt, rfl, hx, _, hload⟩ := C69_loaded hc hl
  have hL := hload hsx (hwin d hd)
  obtain ⟨xo, dE, l, img, q1, q2, q3, q4, q5, q6, q7, q8⟩ := C66_density hL hrun
  have hdE := (C51_limits_partial q1 hL.dtbin hL.window).1
  rw [hL.synchY] at q8
  rw [hdt] at q7
  exact ⟨d, nf, sf, nb, s0, s1, rbn, ref, dt, m.nbins, m.synchPartX, dE, img, hd, hC, hlen, hnb, hsx, hx, hdE, q2, q3, q4, q6,
    q7, q8⟩

/-! ## C70 -/

theorem map_arr {α β : Type _} (n m : ℕ) (f : ℕ → ℕ → α) (g : α → β) :
    (arr n m f).map g = arr n m fun i j => g (f i j) := by
  unfold arr Arr2.map
  dsimp only
  rw [map_tab]
  congr 1
  exact tab_congr fun i _ => map_tab _ _ _

theorem toWaterfall_map (f : FrameArgs) (data : List K) (g : K → K) :
    toWaterfall f (some (data.map g)) = (toWaterfall f (some data)).map fun w => w.map g := by
  have hlen : (data.map g).length = data.length := List.length_map ..
  cases hw : toWaterfall f (some data) with
  | ok w =>
    obtain ⟨nf, sf, nb, s0, s1, rb, rfl, c1, c2, c3, hl, _⟩ := toWaterfall_inv hw
    let _ : Inhabited K := ⟨0⟩
    obtain ⟨g0, rfl⟩ : ∃ g0, data = tab (nf * nb) g0 := by
      have := eq_tab_of_length data
      rw [hl] at this
      exact ⟨_, this⟩
    rw [toWaterfall_eq c1 c2 c3] at hw
    cases hw
    rw [map_tab, toWaterfall_eq c1 c2 c3]
    exact congrArg Except.ok (map_arr _ _ _ g).symm
  | error e =>
    obtain ⟨a1, a2, a3⟩ := C33_accepts f (some data)
    obtain ⟨b1, b2, b3⟩ := C33_accepts f (some (data.map g))
    by_cases hl : (data.length : ℤ) = f.nframes * f.nbinsFrame
    · have h1 := a3 ⟨data, rfl, hl⟩ e hw
      cases hw' : toWaterfall f (some (data.map g)) with
      | ok w' =>
        obtain ⟨_, hok⟩ := b1.mp ⟨w', hw'⟩
        obtain ⟨w, hw2⟩ := a1.mpr ⟨⟨data, rfl, hl⟩, hok⟩
        rw [hw] at hw2
        cases hw2
      | error e' =>
        have h2 := b3 ⟨_, rfl, by rw [hlen]; exact hl⟩ e' hw'
        rw [h1, h2]
        rfl
    · have h1 := a2 (by rintro ⟨l, hl1, hl2⟩; cases hl1; exact hl hl2)
      have h2 := b2 (by rintro ⟨l, hl1, hl2⟩; cases hl1; rw [hlen] at hl2; exact hl hl2)
      rw [h1] at hw
      cases hw
      rw [h2]
      rfl

theorem baseline_affine {nb ref : ℕ} (h : 20 ≤ nb) (f : ℕ → ℕ → K) (c k : K) :
    baseline nb ref (fun i j => c * f i j + k) = c * baseline nb ref f + k := by
  unfold baseline
  have hne : ((nb / 20 : ℕ) : K) ≠ 0 := by
    have : nb / 20 ≠ 0 := by omega
    exact_mod_cast this
  rw [sum_add_distrib, ← mul_sum, sum_const, card_range, nsmul_eq_mul, add_div, mul_div_assoc, mul_div_cancel_left₀ _ hne]

theorem rebinned_scale (nb rbn : ℕ) (f g : ℕ → ℕ → K) (c : K) (h : ∀ i j, g i j = c * f i j) (i k : ℕ) :
    rebinned nb rbn g i k = c * rebinned nb rbn f i k := by
  unfold rebinned binSum
  split
  · simp only [h, mul_sum]
  · simp only [h, ← mul_sum]
    ring

theorem treated_affine {nb rbn ref : ℕ} (h : 20 ≤ nb) (f : ℕ → ℕ → K) {c : K} (hc : 0 < c) (k : K) (i j : ℕ) :
    treated nb rbn ref (fun i j => c * f i j + k) i j = c * treated nb rbn ref f i j := by
  unfold treated
  rw [rebinned_scale nb rbn (fun i j => f i j - baseline nb ref f) _ c, mul_max_of_nonneg _ _ hc.le, mul_zero]
  intro i j
  rw [baseline_affine h]
  ring

theorem initWaterfall_scale {n m : ℕ} {c : K} (hc : 0 < c) (hm : 0 < m) (g : ℕ → ℕ → K) :
    Tomo.initWaterfall (flat n m fun i j => c * g i j) n m = Tomo.initWaterfall (flat n m g) n m := by
  obtain ⟨i1, i2, i3⟩ := initWaterfall_char (nprof := n) hm g
  obtain ⟨j1, j2, j3⟩ := initWaterfall_char (nprof := n) hm fun i j => c * g i j
  have hpos : ∀ p b, 0 < c * g p b ↔ 0 < g p b := fun p b => mul_pos_iff_of_pos_left hc
  have hle : ∀ p b, c * g p b ≤ 0 ↔ g p b ≤ 0 := fun p b => by
    rw [← not_lt, ← not_lt, hpos]
  simp only [hpos, hle] at j1 j2 j3
  by_cases ha : ∀ p b, p < n → b < m → g p b ≤ 0
  · rw [i1 ha, j1 ha]
  · have ha' : ∃ p b, p < n ∧ b < m ∧ 0 < g p b := by
      push Not at ha
      exact ha
    by_cases hb : ∃ p, p < n ∧ ∀ b, b < m → g p b ≤ 0
    · rw [i2 ha' hb, j2 ha' hb]
    · have hb' : ∀ p, p < n → ∃ b, b < m ∧ 0 < g p b := by
        push Not at hb
        exact hb
      rw [i3 ha' hb', j3 ha' hb']
      congr 1
      apply flat_congr
      intro p b _ _
      unfold normRows rowSum
      have : ∀ p b, max (c * g p b) 0 = c * max (g p b) 0 := fun p b => by rw [mul_max_of_nonneg _ _ hc.le, mul_zero]
      simp only [this, ← mul_sum]
      rw [mul_div_mul_left _ _ hc.ne']

theorem runMachine_scale {L : MathLib K} {m : Run.Mach K} {past : K} {self : M (Tracked K)} {n b : ℕ} {c : K} (hc : 0 < c)
    (hb : 0 < b) (g : ℕ → ℕ → K) (recArg : Option ℤ) (t : Bool) :
    runMachine L m past self (arr n b fun i j => c * g i j) recArg t = runMachine L m past self (arr n b g) recArg t := by
  have : ∀ x y, tomogram L.sqrt (arr n b fun i j => c * g i j) x y m.niter = tomogram L.sqrt (arr n b g) x y m.niter := by
    intro x y
    unfold tomogram
    have h1 : ∀ g : ℕ → ℕ → K, (arr n b g).flatten = flat n b g := fun g => flatten_tab n b g
    rw [h1, h1]
    simp only [arr_rows, arr_cols, length_tab]
    rw [initWaterfall_scale hc hb]
  unfold runMachine
  simp only [this]

/-- C70: gain and offset of the measurement do not matter.  Multiplying every raw sample by a positive number and adding a
constant to all of them changes nothing in what a run does: same axes, same density, same discrepancies, same films, same
exception, for every file, reconstructed profile and tomoscope switch. -/
theorem C70_gain_offset {c : K} (hc : 0 < c) (k : K) (L : MathLib K) (R : Reader S K) (qe past : K) (self : M (Tracked K))
    (params : List S) (data : List K) (recArg : Option ℤ) (tomoscope : Bool) :
    runFile L R qe past self params (data.map fun v => c * v + k) recArg tomoscope
      = runFile L R qe past self params data recArg tomoscope := by
  unfold runFile loadFile
  cases hp : txtInputToMachine R params with
  | error e => rfl
  | ok p =>
  simp only [bind_ok]
  cases ho : valuesAtTurns L (machineArgs p) with
  | error e => rfl
  | ok o =>
  simp only [bind_ok]
  rw [toWaterfall_map]
  cases hw : toWaterfall p.frames (some data) with
  | error e => rfl
  | ok w =>
  obtain ⟨nf, sf, nb, s0, s1, rbn, hf, c1, c2, c3, hlen, rfl⟩ := toWaterfall_inv hw
  obtain ⟨pp, _, _, _, _, _, _, _, _, _, _, hpp, _⟩ := C39_turn_arrays_partial L _ o ho
  obtain ⟨⟨_, _, _, _, _, _, ⟨x5, e5, p5⟩, _, _, _, _, _, _⟩, _⟩ := (C38_accepts_iff _).mp ⟨pp, hpp⟩
  cases e5
  change 0 ≤ p.beamRefFrame at p5
  obtain ⟨ref, href⟩ := Int.eq_ofNat_of_zero_le p5
  have hmap : ((Except.ok (arr (nf - sf) (nb - s0 - s1) (rawAt nb sf s0 data)) : M (Arr2 K)).map
      fun w => w.map fun v => c * v + k)
      = .ok (arr (nf - sf) (nb - s0 - s1) fun i j => c * rawAt nb sf s0 data i j + k) :=
    congrArg Except.ok (map_arr _ _ _ _)
  rw [hmap, bind_ok, bind_ok]
  have hrb : p.frames.rebin.toNat = rbn := by rw [hf]; rfl
  have hnp : nf - sf = (rawMach p).obj.nprofiles := by
    change nf - sf = p.nprofiles.toNat
    obtain ⟨d, _, rfl⟩ := (C40_parameters R params p).mp hp
    have h1 : d.framesInData = nf := congrArg FrameArgs.nframes hf
    have h2 : d.framesToIgnore = sf := congrArg FrameArgs.skipFrames hf
    change nf - sf = (d.framesInData - d.framesToIgnore).toNat
    omega
  have hbr : (rawMach p).beamRefFrame = (ref : ℤ) := href
  rw [hrb]
  rcases le_or_gt (nf - sf) ref with hge | hrlt
  · rw [rawProfiles_noRef _ (by rw [hbr]; omega) (by rw [hbr]; omega),
      rawProfiles_noRef _ (by rw [hbr]; omega) (by rw [hbr]; omega)]
  · have hb0 : 0 < nb - s0 - s1 := by omega
    obtain ⟨q1, q2, q3⟩ := rawProfiles_eq (rawAt nb sf s0 data) hnp c3 hrlt hbr hb0 p.samplingTime
    obtain ⟨t1, t2, t3⟩ := rawProfiles_eq (fun i j => c * rawAt nb sf s0 data i j + k) hnp c3 hrlt hbr hb0 p.samplingTime
    rcases lt_or_ge (nb - s0 - s1) 20 with h20 | h20
    · rw [q1 h20, t1 h20]
    · have hpos : ∀ i j, 0 < rebinned (nb - s0 - s1) rbn (fun i j => (c * rawAt nb sf s0 data i j + k) -
          baseline (nb - s0 - s1) ref fun i j => c * rawAt nb sf s0 data i j + k) i j ↔
          0 < rebinned (nb - s0 - s1) rbn (fun i j => rawAt nb sf s0 data i j -
            baseline (nb - s0 - s1) ref (rawAt nb sf s0 data)) i j := by
        intro i j
        rw [rebinned_scale _ rbn (fun i j => rawAt nb sf s0 data i j - baseline (nb - s0 - s1) ref (rawAt nb sf s0 data)) _ c]
        · exact mul_pos_iff_of_pos_left hc
        · intro i j
          rw [baseline_affine h20]
          ring
      simp only [hpos] at t2 t3
      by_cases hex : ∃ i j, i < nf - sf ∧ j < rebinCount (nb - s0 - s1) rbn ∧
          0 < rebinned (nb - s0 - s1) rbn (fun i j => rawAt nb sf s0 data i j -
            baseline (nb - s0 - s1) ref (rawAt nb sf s0 data)) i j
      · rw [q2 h20 hex, t2 h20 hex]
        simp only [bind_ok]
        have htr : (arr (nf - sf) (rebinCount (nb - s0 - s1) rbn)
            (treated (nb - s0 - s1) rbn ref fun i j => c * rawAt nb sf s0 data i j + k))
            = arr (nf - sf) (rebinCount (nb - s0 - s1) rbn)
              (fun i j => c * treated (nb - s0 - s1) rbn ref (rawAt nb sf s0 data) i j) :=
          arr_congr fun i j _ _ => treated_affine h20 _ hc k i j
        rw [htr]
        have hcnt : 0 < rebinCount (nb - s0 - s1) rbn := by
          obtain ⟨_, j, _, hj, _⟩ := hex
          omega
        set g := treated (nb - s0 - s1) rbn ref (rawAt nb sf s0 data) with hg
        have hfit : ∀ m : Run.Mach K, fitStep L p m (arr (nf - sf) (rebinCount (nb - s0 - s1) rbn) fun i j => c * g i j)
            = fitStep L p m (arr (nf - sf) (rebinCount (nb - s0 - s1) rbn) g) := by
          intro m
          unfold fitStep
          rw [← C65_scale hc L (Run.fitMach p m) (arr (nf - sf) (rebinCount (nb - s0 - s1) rbn) g), map_arr]
        rw [href]
        rw [chargeStep_ok _ hrlt, chargeStep_ok _ hrlt, bind_ok, bind_ok, hfit]
        have hsame : loadedMach p o (afterLoad (rawMach p) (nf - sf) (nb - s0 - s1) rbn ref
            (fun i j => c * rawAt nb sf s0 data i j + k) p.samplingTime)
            = loadedMach p o (afterLoad (rawMach p) (nf - sf) (nb - s0 - s1) rbn ref (rawAt nb sf s0 data) p.samplingTime) := rfl
        rw [hsame]
        cases fitStep L p (loadedMach p o (afterLoad (rawMach p) (nf - sf) (nb - s0 - s1) rbn ref (rawAt nb sf s0 data)
          p.samplingTime)) (arr (nf - sf) (rebinCount (nb - s0 - s1) rbn) g) with
        | error e => rfl
        | ok m => exact runMachine_scale hc hcnt g recArg tomoscope
      · rw [q3 h20 hex, t3 h20 hex]

/-! ## C71 -/

/-- C71: raw samples that the file says to leave out (the first frames, the first and last samples of each frame) do not
matter: two data sets with the same number of samples and equal in the selected ones give the same run. -/
theorem C71_ignored_samples (L : MathLib K) (R : Reader S K) (qe past : K) (self : M (Tracked K)) (params : List S)
    {data data' : List K} (hlen : data.length = data'.length)
    (h : ∀ d, IsFile R params d → ∀ i j : ℕ, (i : ℤ) < d.framesInData - d.framesToIgnore →
      (j : ℤ) < d.binsPerFrame - d.binsBeforeLower - d.binsAfterUpper →
      rawAt d.binsPerFrame.toNat d.framesToIgnore.toNat d.binsBeforeLower.toNat data i j
        = rawAt d.binsPerFrame.toNat d.framesToIgnore.toNat d.binsBeforeLower.toNat data' i j)
    (recArg : Option ℤ) (tomoscope : Bool) :
    runFile L R qe past self params data recArg tomoscope = runFile L R qe past self params data' recArg tomoscope := by
  unfold runFile loadFile
  cases hp : txtInputToMachine R params with
  | error e => rfl
  | ok p =>
  obtain ⟨d, hd, rfl⟩ := (C40_parameters R params p).mp hp
  simp only [bind_ok]
  have hw : toWaterfall (meaning d).frames (some data) = toWaterfall (meaning d).frames (some data') := by
    obtain ⟨a1, a2, a3⟩ := C33_accepts (meaning d).frames (some data)
    obtain ⟨b1, b2, b3⟩ := C33_accepts (meaning d).frames (some data')
    cases hw : toWaterfall (meaning d).frames (some data) with
    | ok w =>
      obtain ⟨⟨l, hl1, hl2⟩, hok⟩ := a1.mp ⟨w, hw⟩
      cases hl1
      obtain ⟨w', hw'⟩ := b1.mpr ⟨⟨data', rfl, by rw [← hlen]; exact hl2⟩, hok⟩
      rw [hw']
      obtain ⟨nf, sf, nb, s0, s1, rbn, hf, c1, c2, c3, _, rfl⟩ := toWaterfall_inv hw
      obtain ⟨nf', sf', nb', s0', s1', rbn', hf', _, _, _, _, rfl⟩ := toWaterfall_inv hw'
      rw [hf] at hf'
      simp only [FrameArgs.mk.injEq, Nat.cast_inj] at hf'
      obtain ⟨rfl, rfl, rfl, rfl, rfl, rfl⟩ := hf'
      congr 1
      apply arr_congr
      intro i j hi hj
      have e1 : d.framesInData = nf := congrArg FrameArgs.nframes hf
      have e2 : d.framesToIgnore = sf := congrArg FrameArgs.skipFrames hf
      have e3 : d.binsPerFrame = nb := congrArg FrameArgs.nbinsFrame hf
      have e4 : d.binsBeforeLower = s0 := congrArg FrameArgs.skipBinsStart hf
      have e5 : d.binsAfterUpper = s1 := congrArg FrameArgs.skipBinsEnd hf
      have := h d hd i j (by omega) (by omega)
      rwa [e2, e3, e4] at this
    | error e =>
      by_cases hl : (data.length : ℤ) = (meaning d).frames.nframes * (meaning d).frames.nbinsFrame
      · have h1 := a3 ⟨data, rfl, hl⟩ e hw
        cases hw' : toWaterfall (meaning d).frames (some data') with
        | ok w' =>
          obtain ⟨_, hok⟩ := b1.mp ⟨w', hw'⟩
          obtain ⟨w, hw2⟩ := a1.mpr ⟨⟨data, rfl, hl⟩, hok⟩
          rw [hw] at hw2
          cases hw2
        | error e' => rw [h1, b3 ⟨_, rfl, by rw [← hlen]; exact hl⟩ e' hw']
      · have h1 := a2 (by rintro ⟨l, hl1, hl2⟩; cases hl1; exact hl hl2)
        have h2 := b2 (by rintro ⟨l, hl1, hl2⟩; cases hl1; rw [← hlen] at hl2; exact hl hl2)
        rw [h1] at hw
        cases hw
        rw [h2]
  rw [hw]

/-! ## C67, from the file -/

/-- C67 fails for every file: the self-field switch, the coupling coefficient, the wall impedance and the pickup sensitivity
written in a parameter file have no effect on the result. -/
theorem C67_violated_file (L : MathLib K) (R : Reader S K) (qe past : K) (self self' : M (Tracked K)) {params params' : List S}
    {d : FileDoc S K} {sw : ℤ} {g z s : K} (h : IsFile R params d)
    (h' : IsFile R params' { d with selfFields := sw, coupling := g, impedance := z, sensitivity := s })
    (hg : 0 ≤ d.coupling) (hs : 0 ≤ d.sensitivity) (hg' : 0 ≤ g) (hs' : 0 ≤ s) (data : List K) (recArg : Option ℤ)
    (tomoscope : Bool) :
    runFile L R qe past self params data recArg tomoscope = runFile L R qe past self' params' data recArg tomoscope := by
  set d' : FileDoc S K := { d with selfFields := sw, coupling := g, impedance := z, sensitivity := s } with hd'
  have hp := (C40_parameters R params _).mpr ⟨d, h, rfl⟩
  have hp' := (C40_parameters R params' _).mpr ⟨d', h', rfl⟩
  have hsc : ∀ x : K, 0 ≤ x → assertSpaceCharge (some x) = .ok () := by
    intro x hx
    exact (spaceCharge_ok _ _).mpr fun y hy => by cases hy; exact hx
  have hargs : assertMachineInput (machineArgs (meaning d)) = assertMachineInput (machineArgs (meaning d')) := by
    unfold assertMachineInput
    have e1 : assertSpaceCharge (machineArgs (meaning d)).pickupSensitivity = .ok () := hsc _ hs
    have e2 : assertSpaceCharge (machineArgs (meaning d)).gCoupling = .ok () := hsc _ hg
    have e3 : assertSpaceCharge (machineArgs (meaning d')).pickupSensitivity = .ok () := hsc _ hs'
    have e4 : assertSpaceCharge (machineArgs (meaning d')).gCoupling = .ok () := hsc _ hg'
    rw [e1, e2, e3, e4]
    rfl
  have hvals : valuesAtTurns L (machineArgs (meaning d)) = valuesAtTurns L (machineArgs (meaning d')) := by
    unfold valuesAtTurns
    rw [hargs]
  unfold runFile loadFile
  rw [hp, hp']
  simp only [bind_ok]
  rw [← hvals]
  cases ho : valuesAtTurns L (machineArgs (meaning d)) with
  | error e => rfl
  | ok o =>
  simp only [bind_ok]
  have hfr : (meaning d').frames = (meaning d).frames := rfl
  rw [hfr]
  cases hw : toWaterfall (meaning d).frames (some data) with
  | error e => rfl
  | ok w =>
  simp only [bind_ok]
  have hraw : rawMach (meaning d') = rawMach (meaning d) := rfl
  have hst : (meaning d').samplingTime = (meaning d).samplingTime := rfl
  rw [hraw, hst]
  cases hr : rawProfiles (rawMach (meaning d)) w (meaning d).frames.rebin.toNat (meaning d).samplingTime with
  | error e => rfl
  | ok rw' =>
  obtain ⟨r, wf⟩ := rw'
  simp only [bind_ok]
  have hch : chargeStep wf (meaning d).beamRefFrame (meaning d).samplingTime qe (meaning d).pickupSensitivity
      = chargeStep wf (meaning d').beamRefFrame (meaning d).samplingTime qe (meaning d').pickupSensitivity := by
    change chargeStep wf (meaning d).beamRefFrame (meaning d).samplingTime qe d.sensitivity
      = chargeStep wf (meaning d).beamRefFrame (meaning d).samplingTime qe s
    unfold chargeStep profileCharge
    cases npGet wf.rows (meaning d).beamRefFrame with
    | error e => rfl
    | ok row =>
      have : ∀ x : K, (match FDiv.fdiv (row.sum * (meaning d).samplingTime) (qe * x) with
          | .ok _ => (.ok () : M Unit)
          | .error .nonFinite => .ok ()
          | .error e => .error e) = .ok () := by
        intro x
        by_cases hz : qe * x = 0
        · rw [hz, fdiv_zero]
        · rw [fdiv_ok hz]
      exact (this _).trans (this _).symm
  rw [hch]
  cases chargeStep wf (meaning d').beamRefFrame (meaning d).samplingTime qe (meaning d').pickupSensitivity with
  | error e => rfl
  | ok u =>
  simp only [bind_ok]
  have hfit : fitStep L (meaning d') (loadedMach (meaning d') o r) wf
      = (fitStep L (meaning d) (loadedMach (meaning d) o r) wf).map
          fun m => { m with selfField := decide (sw ≠ 0) } := by
    unfold fitStep
    have hx : (loadedMach (meaning d') o r).synchPartX = (loadedMach (meaning d) o r).synchPartX := rfl
    have hm : Run.fitMach (meaning d') (loadedMach (meaning d') o r) = Run.fitMach (meaning d) (loadedMach (meaning d) o r) := rfl
    rw [hx, hm]
    split
    · cases Fit.fitSynchPartX L (Run.fitMach (meaning d) (loadedMach (meaning d) o r)) wf <;> rfl
    · rfl
  rw [hfit]
  cases fitStep L (meaning d) (loadedMach (meaning d) o r) wf with
  | error e => rfl
  | ok m => exact C67_violated_self_field_ignored L m past self self' wf recArg tomoscope (decide (sw ≠ 0))

/-! ## Concrete files -/

/-- numbers in the lines (from 0) of a parameter file: four frames of 22 samples, the first frame and one sample at each end
left out, rebinned by 5; the machine of the example has constant energy and revolution frequency 1 -/
def fileVals : List (ℕ × ℚ) :=
  [(16, 4), (18, 1), (20, 22), (22, 1/35), (24, 1), (26, 1), (28, 1), (31, 0), (34, 0), (36, 5), (39, 10), (41, 1/14), (43, 1),
   (45, 2), (47, 1), (49, 1), (51, 1), (53, 1), (55, 1), (57, 2), (61, 1/10), (63, 0), (65, 0), (67, 0), (69, 1), (71, 2),
   (73, 0), (75, 1), (77, 0), (79, 3/4), (81, 1), (83, 4), (85, 1), (87, 1), (91, 1), (93, 1), (95, 0), (97, 1)]

/-- a parameter file with these numbers -/
def fileLines (vals : List (ℕ × ℚ)) : List Text :=
  (List.range 98).map fun i =>
    if i = 12 ∨ i = 14 then .path false true
    else match vals.find? fun p => p.1 = i with
      | some p => .num p.2 true
      | none => .empty

/-- raw samples -/
def fileRaw : List ℚ := (List.range 88).map fun k => if k % 22 < 4 then 1 else (((k * 7) % 11 : ℕ) : ℚ)

/-- the example file is loaded and run: a density in 4 × 4 cells -/
example : (runFile libQ textReader 1 7 (.error .oob) (fileLines fileVals) fileRaw none false).map (fun o => o.density)
    = .ok [0, 9025/351649, 6564/351649, 0, 0, 118610/1054947, 102023/1054947, 56686/1054947, 0, 33959/351649, 28430/351649,
      87964/1054947, 0, 489385/2109894, 255463/2109894, 83306/1054947] := by decide +kernel

example : (loadFile libQ textReader 1 (fileLines fileVals) fileRaw).map (fun r => r.2.rows)
    = .ok [[6, 22, 21, 20], [6, 22, 21, 20], [6, 22, 21, 20]] := by decide +kernel

/-- C69 fails: the file says to reconstruct one sample beyond the end of the data (a negative number of empty bins, with the
whole region asked for).  Every check accepts it and it is loaded; the run then ends with an IndexError. -/
theorem C69_violated_window :
    (loadFile libQ textReader 1 (fileLines ((34, -1) :: fileVals)) fileRaw).isOk = true ∧
    (runFile libQ textReader 1 7 (.error .oob) (fileLines ((34, -1) :: fileVals)) fileRaw none false).map (fun o => o.density)
      = .error (.exc .indexError) := by
  constructor <;> decide +kernel

/-- other self-field parameters: the same density -/
example : fileLines fileVals ≠ fileLines ((91, 0) :: (93, 5) :: (95, 2) :: (97, 3) :: fileVals) ∧
    ((runFile libQ textReader 1 7 (.error .oob) (fileLines ((91, 0) :: (93, 5) :: (95, 2) :: (97, 3) :: fileVals)) fileRaw none
      false).map fun o => o.density)
    = (runFile libQ textReader 1 7 (.error .oob) (fileLines fileVals) fileRaw none false).map fun o => o.density := by
  constructor <;> decide +kernel

/-- other gain and offset, other left-out samples: the same density -/
example : ((runFile libQ textReader 1 7 (.error .oob) (fileLines fileVals) (fileRaw.map fun v => 3 * v + 5) none false).map
      fun o => o.density)
    = (runFile libQ textReader 1 7 (.error .oob) (fileLines fileVals) fileRaw none false).map fun o => o.density := by
  rw [C70_gain_offset (by norm_num)]

example : fileRaw ≠ (List.replicate 22 9 ++ fileRaw.drop 22) ∧
    ((runFile libQ textReader 1 7 (.error .oob) (fileLines fileVals) (List.replicate 22 9 ++ fileRaw.drop 22) none false).map
      fun o => o.density)
    = (runFile libQ textReader 1 7 (.error .oob) (fileLines fileVals) fileRaw none false).map fun o => o.density := by
  constructor <;> decide +kernel

end Verif.Props

import Verif.Lemmas.Fit
import Mathlib.Analysis.SpecialFunctions.Trigonometric.Basic

/-!
# C65: limits of the bunch and fit of the synchronous particle
-/

namespace Verif.Props
open Verif Verif.Pre Verif.Spec Verif.Fit Verif.Mch

set_option linter.unusedSectionVars false
variable {K : Type} [Field K] [LinearOrder K] [IsStrictOrderedRing K]

/-- C65 (limits): for every profile with a non-negative maximum the limits returned are `u`, `l` exactly when the profile has
an edge on either side and `l`, `u` are the zeros of the least-squares lines through the four bins around the edges (three, if
the upper edge is the last bin). -/
theorem C65_feet {n p : ℕ} {f : ℕ → K} (hp : Peak n f p) (u l : K) :
    tangentFeet (tab n f) = .ok (u, l) ↔ ∃ i j, LeftEdge f p i ∧ RightEdge n f p j ∧
      IsFoot f (i - 1) (i + 3) l ∧ IsFoot f (j - 2) (min (j + 2) n) u := by
  constructor
  · intro h
    rcases left_cases hp with ⟨i, hi⟩ | hi
    · rcases right_cases hp with ⟨j, hj⟩ | hj
      · refine ⟨i, j, hi, hj, ?_⟩
        rw [tangentFeet_ok hp hi hj] at h
        split at h
        · exact absurd h (by simp)
        · rename_i hs
          rw [not_or] at hs
          simp only [Except.ok.injEq, Prod.mk.injEq] at h
          obtain ⟨rfl, rfl⟩ := h
          have h1 := hi.pos; have h2 := hi.lt; have h3 := hj.gt; have h4 := hj.lt
          constructor
          · rw [show i + 3 = i - 1 + 4 by omega, isFoot_four]
            refine ⟨hs.1, ?_⟩
            unfold footLow
            rw [Nat.cast_sub h1]; push_cast; ring
          · have ej : (((j - 2 : ℕ) : K)) = j - 2 := by rw [Nat.cast_sub (by omega)]; push_cast; ring
            unfold footUp
            have hs2 := hs.2
            unfold slopeUp at hs2
            split
            · rename_i hn
              rw [if_pos hn] at hs2
              rw [show min (j + 2) n = j - 2 + 3 by omega, isFoot_three]
              refine ⟨hs2, ?_⟩
              rw [ej]; ring
            · rename_i hn
              rw [if_neg hn] at hs2
              rw [show min (j + 2) n = j - 2 + 4 by omega, isFoot_four]
              refine ⟨hs2, ?_⟩
              rw [ej]; ring
      · unfold tangentFeet at h
        rw [tangentBins_right hp hj] at h
        exact absurd h (by simp)
    · unfold tangentFeet at h
      rw [tangentBins_left hp hi] at h
      exact absurd h (by simp)
  · rintro ⟨i, j, hi, hj, hl, hu⟩
    have h1 := hi.pos; have h2 := hi.lt; have h3 := hj.gt; have h4 := hj.lt
    rw [tangentFeet_ok hp hi hj]
    have ej : (((j - 2 : ℕ) : K)) = j - 2 := by rw [Nat.cast_sub (by omega)]; push_cast; ring
    rw [show i + 3 = i - 1 + 4 by omega, isFoot_four] at hl
    have hlow : footLow f i = l := by
      unfold footLow
      rw [hl.2, Nat.cast_sub h1]; push_cast; ring
    have hup : slopeUp n f j ≠ 0 ∧ footUp n f j = u := by
      unfold slopeUp footUp
      by_cases hn : j + 1 = n
      · rw [show min (j + 2) n = j - 2 + 3 by omega, isFoot_three] at hu
        rw [if_pos hn, if_pos hn]
        refine ⟨hu.1, ?_⟩
        rw [hu.2, ej]; ring
      · rw [show min (j + 2) n = j - 2 + 4 by omega, isFoot_four] at hu
        rw [if_neg hn, if_neg hn]
        refine ⟨hu.1, ?_⟩
        rw [hu.2, ej]; ring
    rw [if_neg (by rw [not_or]; exact ⟨hl.1, hup.1⟩), hlow, hup.2]

/-- C65 (failures): every outcome other than limits is UnboundLocalError, exactly when an edge is missing, or a division by
zero, when the line at an edge is level. -/
theorem C65_failures {n p : ℕ} {f : ℕ → K} (hp : Peak n f p) :
    (tangentFeet (tab n f) = .error (.exc .unboundLocalError) ↔ (¬ ∃ i, LeftEdge f p i) ∨ ¬ ∃ j, RightEdge n f p j) ∧
    (∀ e, tangentFeet (tab n f) = .error e → e = .exc .unboundLocalError ∨ e = .nonFinite) := by
  rcases left_cases hp with ⟨i, hi⟩ | hi
  · rcases right_cases hp with ⟨j, hj⟩ | hj
    · rw [tangentFeet_ok hp hi hj]
      constructor
      · constructor
        · intro h
          split at h <;> exact absurd h (by simp)
        · rintro (h | h)
          · exact absurd ⟨i, hi⟩ h
          · exact absurd ⟨j, hj⟩ h
      · intro e h
        split at h
        · exact Or.inr (by simpa using h.symm)
        · exact absurd h (by simp)
    · unfold tangentFeet
      rw [tangentBins_right hp hj]
      refine ⟨⟨fun _ => Or.inr ?_, fun _ => rfl⟩, fun e h => Or.inl (by simpa using h.symm)⟩
      rintro ⟨j, h⟩
      exact absurd (hj j h.gt.le h.lt) (not_le.mpr h.below)
  · unfold tangentFeet
    rw [tangentBins_left hp hi]
    refine ⟨⟨fun _ => Or.inl ?_, fun _ => rfl⟩, fun e h => Or.inl (by simpa using h.symm)⟩
    rintro ⟨i, h⟩
    exact absurd (hi i h.pos h.lt.le) (not_le.mpr h.below)

/-- a triangular bunch between 3/2 and 17/2, peak in bin 4 -/
def triangle : ℕ → ℚ := fun k => [0, 0, 1, 2, 4, 3, 2, 1, 0, 0].getD k 0

example : Peak 10 triangle 4 ∧ LeftEdge triangle 4 1 ∧ RightEdge 10 triangle 4 8 ∧
    tangentFeet (tab 10 triangle) = .ok (127 / 14, 13 / 14) := by
  refine ⟨⟨by norm_num, by decide +kernel, by decide +kernel, by decide +kernel⟩,
    ⟨by norm_num, by norm_num, by decide +kernel, ?_⟩, ⟨by norm_num, by norm_num, by decide +kernel, ?_⟩, by decide +kernel⟩
  · intro k h1 h2; interval_cases k <;> decide +kernel
  · intro k h1 h2; interval_cases k <;> decide +kernel

/-- C65 violated: bin 0 is never looked at. The bunch is surrounded by empty bins, yet its lower limit is an UnboundLocalError;
the mirrored profile, with one empty bin after the bunch, is accepted. -/
theorem C65_violated_first_bin :
    tangentFeet ([0, 10, 20, 10, 0, 0] : List ℚ) = .error (.exc .unboundLocalError) ∧
    tangentFeet ([0, 0, 10, 20, 10, 0] : List ℚ) = .ok (11 / 2, 13 / 14) := by decide +kernel

/-- C65 (exactness): where the flank of the bunch is straight over the bins used, the limit is exactly where that straight line
reaches zero. -/
theorem C65_straight_flank {n p i j : ℕ} {f : ℕ → K} (hp : Peak n f p) (hi : LeftEdge f p i) (hj : RightEdge n f p j)
    {sl xl su xu : K} (hsl : sl ≠ 0) (hsu : su ≠ 0)
    (hl : ∀ k, i - 1 ≤ k → k < i + 3 → f k = sl * (k + 1 / 2 - xl))
    (hu : ∀ k, j - 2 ≤ k → k < j + 2 → k < n → f k = su * (k + 1 / 2 - xu)) :
    tangentFeet (tab n f) = .ok (xu, xl) := by
  have h1 := hi.pos; have h2 := hi.lt; have h3 := hj.gt; have h4 := hj.lt
  rw [C65_feet hp]
  have zero : ∀ (a b : ℕ) (s x : K), s ≠ 0 → (∀ k, a ≤ k → k < b → f k = s * (k + 1 / 2 - x)) → IsFoot f a b x := by
    intro a b s x hs h
    refine ⟨s, -s * x, hs, fun s' c' => ?_, by ring⟩
    have : Spec.residual f a b s (-s * x) = 0 := by
      unfold Spec.residual
      refine Finset.sum_eq_zero fun k hk => ?_
      rw [Finset.mem_Ico] at hk
      rw [h k hk.1 hk.2]; ring
    rw [this]
    exact Finset.sum_nonneg fun k _ => sq_nonneg _
  exact ⟨i, j, hi, hj, zero _ _ _ _ hsl hl, zero _ _ _ _ hsu fun k a b => hu k a (by omega) (by omega)⟩

/-- a bunch with straight flanks reaching zero at 2 and at 8; measured samples below the baseline are negative -/
def straight : ℕ → ℚ := fun k => if k ≤ 4 then (k : ℚ) - 3 / 2 else 15 / 2 - k

example : tangentFeet (tab 10 straight) = .ok (8, 2) := by
  have hp : Peak 10 straight 4 := ⟨by norm_num, by decide +kernel, by decide +kernel, by decide +kernel⟩
  refine C65_straight_flank (i := 1) (j := 8) (sl := 1) (su := -1) hp ⟨by norm_num, by norm_num, by decide +kernel, ?_⟩
    ⟨by norm_num, by norm_num, by decide +kernel, ?_⟩ one_ne_zero (by norm_num) ?_ ?_
  · intro k h1 h2; interval_cases k <;> decide +kernel
  · intro k h1 h2; interval_cases k <;> decide +kernel
  · intro k h1 h2; interval_cases k <;> (unfold straight; norm_num)
  · intro k h1 h2; interval_cases k <;> (unfold straight; norm_num)

/-! ## Rescaling, moving and mirroring the profile -/

/-- C65 (units): multiplying the measured waterfall by a positive constant changes neither the fitted position nor the limits
nor the error raised, for every waterfall and machine. -/
theorem C65_scale {c : K} (hc : 0 < c) (L : MathLib K) (m : FitMach K) (w : Arr2 K) :
    fitSynchPartX L m (w.map fun v => c * v) = fitSynchPartX L m w := by
  unfold fitSynchPartX
  have : npGet (w.map fun v => c * v).rows m.beamRefFrame
      = (npGet w.rows m.beamRefFrame).map fun r => r.map fun v => c * v := by
    exact npGet_map _ w.rows m.beamRefFrame
  rw [this]
  cases npGet w.rows m.beamRefFrame with
  | error e => rfl
  | ok r =>
    show (do let t ← tangentFeet (r.map fun v => c * v); _) = (do let t ← tangentFeet r; _)
    rw [tangentFeet_scale hc]

/-- C65 (translation): bins put in front of the profile, all lower than its peak, move the limits by their number. -/
theorem C65_shift {n p d : ℕ} {f g : ℕ → K} (hp : Peak n f p) (hg : ∀ k, k < d → g k < f p) (hf : ∀ k, g (d + k) = f k)
    {u l : K} (h : tangentFeet (tab n f) = .ok (u, l)) : tangentFeet (tab (d + n) g) = .ok (u + d, l + d) := by
  obtain ⟨i, j, hi, hj, hl, hu⟩ := (C65_feet hp u l).mp h
  have h1 := hi.pos; have h2 := hi.lt; have h3 := hj.gt; have h4 := hj.lt
  have hfoot : ∀ a b x, IsFoot f a b x → IsFoot g (d + a) (d + b) (x + d) := by
    rintro a b x ⟨s, c, hs, hmin, hz⟩
    have hres : ∀ s c, Spec.residual g (d + a) (d + b) s c = Spec.residual f a b s (c + s * d) := by
      intro s c
      unfold Spec.residual
      rw [Nat.add_comm d a, Nat.add_comm d b, ← Finset.sum_Ico_add']
      refine Finset.sum_congr rfl fun k _ => ?_
      rw [Nat.add_comm k d, hf]; push_cast; ring
    refine ⟨s, c - s * d, hs, fun s' c' => ?_, by linear_combination hz⟩
    rw [hres, hres]
    have := hmin s' (c' + s' * d)
    rwa [show c - s * (d : K) + s * d = c by ring]
  have hpk : g (d + p) = f p := hf p
  have hp' : Peak (d + n) g (d + p) := by
    refine ⟨by have := hp.lt; omega, by rw [hpk]; exact hp.nonneg, ?_, ?_⟩
    · intro k hk
      rw [hpk]
      rcases Nat.lt_or_ge k d with hd | hd
      · exact (hg k hd).le
      · have := hp.le (k - d) (by omega)
        rwa [← hf, show d + (k - d) = k by omega] at this
    · intro k hk
      rw [hpk]
      rcases Nat.lt_or_ge k d with hd | hd
      · exact hg k hd
      · have := hp.first (k - d) (by omega)
        rwa [← hf, show d + (k - d) = k by omega] at this
  rw [C65_feet hp']
  refine ⟨d + i, d + j, ⟨by omega, by omega, ?_, ?_⟩, ⟨by omega, by omega, ?_, ?_⟩, ?_, ?_⟩
  · rw [hf, hf]; exact hi.below
  · intro k a b
    have := hi.above (k - d) (by omega) (by omega)
    rwa [← hf (k - d), show d + (k - d) = k by omega, ← hpk] at this
  · rw [hf, hf]; exact hj.below
  · intro k a b
    have := hj.above (k - d) (by omega) (by omega)
    rwa [← hf (k - d), show d + (k - d) = k by omega, ← hpk] at this
  · have := hfoot _ _ _ hl
    rwa [show d + (i - 1) = d + i - 1 by omega, ← Nat.add_assoc] at this
  · have := hfoot _ _ _ hu
    rwa [show d + (j - 2) = d + j - 2 by omega, show d + min (j + 2) n = min (d + j + 2) (d + n) by omega] at this

example : tangentFeet (tab (3 + 10) fun k => if k < 3 then 1 / 10 else straight (k - 3)) = .ok (11, 5) := by
  decide +kernel

/-- C65 (mirror): with a single highest bin and at least one bin after the upper edge, the limits of the mirrored profile are
the mirrored limits. -/
theorem C65_mirror_partial {n p : ℕ} {f : ℕ → K} (hp : Peak n f p) (h1 : ∀ k, k < n → k ≠ p → f k < f p) {u l : K}
    (h : tangentFeet (tab n f) = .ok (u, l)) (hlast : ∀ j, RightEdge n f p j → j + 1 < n) :
    tangentFeet (tab n fun k => f (n - 1 - k)) = .ok (n - l, n - u) := by
  obtain ⟨i, j, hi, hj, hl, hu⟩ := (C65_feet hp u l).mp h
  have hjn := hlast j hj
  have g1 := hi.pos; have g2 := hi.lt; have g3 := hj.gt
  have hfoot : ∀ a b x, a ≤ b → b ≤ n → IsFoot f a b x → IsFoot (fun k => f (n - 1 - k)) (n - b) (n - a) (n - x) := by
    rintro a b x hab hb ⟨s, c, hs, hmin, hz⟩
    have hres : ∀ s c, Spec.residual (fun k => f (n - 1 - k)) (n - b) (n - a) s c = Spec.residual f a b (-s) (c + s * n) := by
      intro s c
      unfold Spec.residual
      have hr := Finset.sum_Ico_reflect (fun k => (f (n - 1 - k) - (s * ((k : K) + 1 / 2) + c)) ^ 2) a (m := b) (n := n - 1)
        (by omega)
      rw [show n - 1 + 1 - b = n - b by omega, show n - 1 + 1 - a = n - a by omega] at hr
      rw [← hr]
      refine Finset.sum_congr rfl fun k hk => ?_
      rw [Finset.mem_Ico] at hk
      rw [show n - 1 - (n - 1 - k) = k by omega, Nat.cast_sub (by omega), Nat.cast_sub (by omega)]
      push_cast
      ring
    refine ⟨-s, c + s * n, neg_ne_zero.mpr hs, fun s' c' => ?_, by linear_combination hz⟩
    rw [hres, hres]
    have := hmin (-s') (c' + s' * n)
    rwa [show - -s = s by ring, show c + s * (n : K) + -s * n = c by ring]
  have hpn := hp.lt
  have hpp : n - 1 - (n - 1 - p) = p := by omega
  have hp' : Peak n (fun k => f (n - 1 - k)) (n - 1 - p) := by
    refine ⟨by omega, ?_, ?_, ?_⟩
    · rw [hpp]; exact hp.nonneg
    · intro k hk; rw [hpp]; exact hp.le _ (by omega)
    · intro k hk; rw [hpp]; exact h1 _ (by omega) (by omega)
  rw [C65_feet hp']
  refine ⟨n - 1 - j, n - 1 - i, ⟨by omega, by omega, ?_, ?_⟩, ⟨by omega, by omega, ?_, ?_⟩, ?_, ?_⟩
  · rw [hpp, show n - 1 - (n - 1 - j) = j by omega]; exact hj.below
  · intro k a b; rw [hpp]; exact hj.above _ (by omega) (by omega)
  · rw [hpp, show n - 1 - (n - 1 - i) = i by omega]; exact hi.below
  · intro k a b; rw [hpp]; exact hi.above _ (by omega) (by omega)
  · have := hfoot _ _ _ (by omega) (by omega) hu
    rwa [show n - min (j + 2) n = n - 1 - j - 1 by omega, show n - (j - 2) = n - 1 - j + 3 by omega] at this
  · have := hfoot _ _ _ (by omega) (by omega) hl
    rwa [show n - (i + 3) = n - 1 - i - 2 by omega, show n - (i - 1) = min (n - 1 - i + 2) n by omega] at this

example : Peak 10 triangle 4 ∧ (∀ k, k < 10 → k ≠ 4 → triangle k < triangle 4) ∧
    tangentFeet (tab 10 fun k => triangle (10 - 1 - k)) = .ok (10 - 13 / 14, 10 - 127 / 14) :=
  ⟨⟨by norm_num, by decide +kernel, by decide +kernel, by decide +kernel⟩, by decide +kernel, by decide +kernel⟩

/-! ## The fitted position -/

/-- the values the fit reads: frequency, synchronous phase, voltages at the turn of the fit and at the index of the reference
frame, phase difference -/
structure Reads (m : FitMach K) (om p0 v1r v2r v1t v2t p12 p12t : K) : Prop where
  at_om : npGet m.omegaRev0 (m.beamRefFrame * m.dturns) = .ok om
  at_p0 : npGet m.phi0 (m.beamRefFrame * m.dturns) = .ok p0
  at_v1r : npGet m.vrf1AtTurn m.machineRefFrame = .ok v1r
  at_v2r : npGet m.vrf2AtTurn m.machineRefFrame = .ok v2r
  at_v1t : npGet m.vrf1AtTurn (m.beamRefFrame * m.dturns) = .ok v1t
  at_v2t : npGet m.vrf2AtTurn (m.beamRefFrame * m.dturns) = .ok v2t
  at_p12 : phi12At m.phi12 m.machineRefFrame = .ok p12
  at_p12t : phi12At m.phi12 (m.beamRefFrame * m.dturns) = .ok p12t
  at_h : m.hRatio ≠ 0
  scale : m.hNum * om * m.dtbin ≠ 0

theorem fit_eq {L : MathLib K} {m : FitMach K} {w : Arr2 K} {om p0 v1r v2r v1t v2t p12 p12t : K}
    (R : Reads m om p0 v1r v2r v1t v2t p12 p12t) {prof : List K} (hw : npGet w.rows m.beamRefFrame = .ok prof) {u l : K}
    (ht : tangentFeet prof = .ok (u, l)) :
    fitSynchPartX L m w = (newtonRaw L (phaseLowFn L (m.hNum * ((u - l) * m.dtbin) * om) v1r v2r v1t v2t p0 m.hRatio p12)
        (dphaseLowFn L (m.hNum * ((u - l) * m.dtbin) * om) v1t v2t m.hRatio p12t)
        (p0 - m.hNum * ((u - l) * m.dtbin) * om / 2)).map fun φ => (l + (p0 - φ) / (m.hNum * om * m.dtbin), l, u) := by
  unfold fitSynchPartX potentials
  rw [hw, bind_ok]
  dsimp only
  rw [ht, bind_ok]
  dsimp only
  rw [R.at_om, bind_ok, R.at_p0, bind_ok, R.at_p12, bind_ok, R.at_v1r, bind_ok, R.at_v2r, bind_ok, fdiv_ok R.at_h, bind_ok, bind_ok, R.at_v1t, bind_ok,
    R.at_v2t, bind_ok, R.at_p12t, bind_ok, pure_eq_ok, bind_ok]
  dsimp only
  cases newtonRaw L _ _ _ with
  | error e => rfl
  | ok φ => rw [bind_ok, fdiv_ok R.scale]; rfl

/-- the solver only returns roots -/
def RootFinder (L : MathLib K) : Prop := ∀ f f' x0 r, L.newton f f' x0 = some r → f r = 0

/-- C65 (meaning of the fit): if the fit gives the position `x` and the limits `l`, `u`, the two ends of the bunch lie at the same
potential, the phases of the bins being counted from the synchronous phase at `x` — provided the voltages and the phase
difference at the index equal to the number of the reference frame are those at the turn of the fit. -/
theorem C65_equal_potential_partial {L : MathLib K} (hL : RootFinder L) {m : FitMach K} {w : Arr2 K}
    {om p0 v1 v2 p12 p12t : K} (R : Reads m om p0 v1 v2 v1 v2 p12 p12t) {prof : List K}
    (hw : npGet w.rows m.beamRefFrame = .ok prof) {x l u : K} (h : fitSynchPartX L m w = .ok (x, l, u))
    (phase : K → K) (hphase : ∀ b, phase b = p0 + (b - x) * (m.hNum * om * m.dtbin)) :
    tangentFeet prof = .ok (u, l) ∧
    potential L.cos v1 v2 m.hRatio p12 (rfVoltageAtPhase L p0 v1 v2 m.hRatio p12) (phase l)
      = potential L.cos v1 v2 m.hRatio p12 (rfVoltageAtPhase L p0 v1 v2 m.hRatio p12) (phase u) := by
  have ht : ∃ r, tangentFeet prof = .ok r := by
    cases ht : tangentFeet prof with
    | ok r => exact ⟨r, rfl⟩
    | error e =>
      unfold fitSynchPartX at h
      rw [hw, bind_ok] at h
      dsimp only at h
      rw [ht, bind_error] at h
      exact absurd h (by simp)
  obtain ⟨⟨u', l'⟩, ht⟩ := ht
  rw [fit_eq R hw ht] at h
  unfold newtonRaw at h
  split at h
  · rename_i φ hφ
    have h0 := hL _ _ _ _ hφ
    have h' : (l' + (p0 - φ) / (m.hNum * om * m.dtbin), l', u') = (x, l, u) := Except.ok.inj h
    simp only [Prod.mk.injEq] at h'
    obtain ⟨rfl, rfl, rfl⟩ := h'
    refine ⟨ht, ?_⟩
    have e1 : phase l' = φ := by
      rw [hphase]
      have := div_mul_cancel₀ (p0 - φ) R.scale
      linear_combination -this
    have e2 : phase u' = φ + m.hNum * ((u' - l') * m.dtbin) * om := by
      have : phase u' = phase l' + (u' - l') * (m.hNum * om * m.dtbin) := by rw [hphase, hphase]; ring
      rw [this, e1]; ring
    rw [e2, e1]
    unfold phaseLowFn at h0
    unfold potential
    linear_combination -h0
  · exact absurd h (by intro e; cases e)

/-- C65 violated: the number of the reference frame is used as the number of a turn. With a single RF system whose voltage there
(`v1r`) differs from the one at the turn of the fit (`v1t`), whenever the beam is accelerated and the fit succeeds, the two
ends of the fitted bunch do NOT lie at the same potential. -/
theorem C65_violated_reference {L : MathLib K} (hL : RootFinder L) {m : FitMach K} {w : Arr2 K}
    {om p0 v1r v1t p12 p12t : K} (R : Reads m om p0 v1r 0 v1t 0 p12 p12t) (hne : v1r ≠ v1t)
    (hacc : v1t * L.sin p0 ≠ 0) {prof : List K}
    (hw : npGet w.rows m.beamRefFrame = .ok prof) {x l u : K} (h : fitSynchPartX L m w = .ok (x, l, u)) (hlu : l ≠ u)
    (phase : K → K) (hphase : ∀ b, phase b = p0 + (b - x) * (m.hNum * om * m.dtbin)) :
    potential L.cos v1t 0 m.hRatio p12t (rfVoltageAtPhase L p0 v1t 0 m.hRatio p12t) (phase l)
      ≠ potential L.cos v1t 0 m.hRatio p12t (rfVoltageAtPhase L p0 v1t 0 m.hRatio p12t) (phase u) := by
  have ht : ∃ r, tangentFeet prof = .ok r := by
    cases ht : tangentFeet prof with
    | ok r => exact ⟨r, rfl⟩
    | error e =>
      unfold fitSynchPartX at h
      rw [hw, bind_ok] at h
      dsimp only at h
      rw [ht, bind_error] at h
      exact absurd h (by simp)
  obtain ⟨⟨u', l'⟩, ht⟩ := ht
  rw [fit_eq R hw ht] at h
  unfold newtonRaw at h
  split at h
  · rename_i φ hφ
    have h0 := hL _ _ _ _ hφ
    have h' : (l' + (p0 - φ) / (m.hNum * om * m.dtbin), l', u') = (x, l, u) := Except.ok.inj h
    simp only [Prod.mk.injEq] at h'
    obtain ⟨rfl, rfl, rfl⟩ := h'
    have e1 : phase l' = φ := by
      rw [hphase]
      have := div_mul_cancel₀ (p0 - φ) R.scale
      linear_combination -this
    have e2 : phase u' = φ + m.hNum * ((u' - l') * m.dtbin) * om := by
      have : phase u' = phase l' + (u' - l') * (m.hNum * om * m.dtbin) := by rw [hphase, hphase]; ring
      rw [this, e1]; ring
    rw [e2, e1]
    have hlen : m.hNum * ((u' - l') * m.dtbin) * om ≠ 0 := by
      have : m.hNum * ((u' - l') * m.dtbin) * om = (u' - l') * (m.hNum * om * m.dtbin) := by ring
      rw [this]
      exact mul_ne_zero (sub_ne_zero.mpr (Ne.symm hlu)) R.scale
    generalize m.hNum * ((u' - l') * m.dtbin) * om = len at *
    intro hc
    unfold potential rfVoltageAtPhase at hc
    unfold phaseLowFn rfVoltageAtPhase at h0
    simp only [zero_mul, zero_div, add_zero] at hc h0
    have hprod : (v1r - v1t) * (len * (v1t * L.sin p0)) = 0 := by
      linear_combination (-v1r) * hc - v1t * h0
    rcases mul_eq_zero.mp hprod with h | h
    · exact hne (sub_eq_zero.mp h)
    · exact mul_ne_zero hlen hacc h
  · exact absurd h (by intro e; cases e)

/-- an exact library for parabolic potentials: `sin x = x`, `cos x = 1 - x²/2`, and a solver that finds the roots of linear
functions -/
def libLin : MathLib ℚ := ⟨fun x => x, fun x => 1 - x * x / 2, fun x => x, 3, 1,
  fun f _ _ => if f (-f 0 / (f 1 - f 0)) = 0 then some (-f 0 / (f 1 - f 0)) else none⟩

theorem libLin_root : RootFinder libLin := by
  intro f f' x0 r h
  simp only [libLin] at h
  split at h
  · rename_i h0
    rw [← Option.some.inj h]; exact h0
  · exact absurd h (by simp)

/-- reference frame 1, fit at frame 2, two turns per frame: the voltage at index 1 is 2, at turn 4 it is 5 -/
def fitMach : FitMach ℚ := ⟨2, 1, 2, 1 / 10, 1, 1, .number 0, [1, 1, 1, 1, 1, 1, 1], [1, 1, 1, 1, 1 / 2, 1, 1],
  [1, 2, 3, 4, 5, 6, 7], [0, 0, 0, 0, 0, 0, 0]⟩

example : Reads fitMach 1 (1 / 2) 2 0 5 0 0 0 ∧
    fitSynchPartX libLin fitMach ⟨10, [tab 10 straight, tab 10 straight, tab 10 straight]⟩ = .ok (-5 / 2, 2, 8) := by
  refine ⟨⟨by decide +kernel, by decide +kernel, by decide +kernel, by decide +kernel, by decide +kernel, by decide +kernel,
    rfl, rfl, by decide +kernel, by decide +kernel⟩, by decide +kernel⟩

/-- with a constant voltage of 5 -/
example : Reads { fitMach with vrf1AtTurn := [5, 5, 5, 5, 5, 5, 5] } 1 (1 / 2) 5 0 5 0 0 0 ∧
    fitSynchPartX libLin { fitMach with vrf1AtTurn := [5, 5, 5, 5, 5, 5, 5] }
      ⟨10, [tab 10 straight, tab 10 straight, tab 10 straight]⟩ = .ok (5, 2, 8) := by
  refine ⟨⟨by decide +kernel, by decide +kernel, by decide +kernel, by decide +kernel, by decide +kernel, by decide +kernel,
    rfl, rfl, by decide +kernel, by decide +kernel⟩, by decide +kernel⟩

/-- C65 (no acceleration): in a stationary bucket (the voltage of both systems vanishes at the synchronous phase) the fitted
position is the middle of the bunch, whatever the voltages are. The solver is assumed to return a starting value that is
already a root, as scipy's does. -/
theorem C65_stationary {L : MathLib ℝ} (hsin : L.sin = Real.sin) (hcos : L.cos = Real.cos)
    (hN : ∀ f f' x0, f x0 = 0 → L.newton f f' x0 = some x0) {m : FitMach ℝ} {w : Arr2 ℝ}
    {om p0 v1r v2r v1t v2t p12 p12t : ℝ} (R : Reads m om p0 v1r v2r v1t v2t p12 p12t) {prof : List ℝ}
    (hw : npGet w.rows m.beamRefFrame = .ok prof) {l u : ℝ} (ht : tangentFeet prof = .ok (u, l))
    (h1 : Real.sin p0 = 0) (h2 : Real.sin (m.hRatio * (p0 - p12)) = 0) :
    fitSynchPartX L m w = .ok ((l + u) / 2, l, u) := by
  rw [fit_eq R hw ht]
  set len := m.hNum * ((u - l) * m.dtbin) * om with hlen
  have hz : phaseLowFn L len v1r v2r v1t v2t p0 m.hRatio p12 (p0 - len / 2) = 0 := by
    unfold phaseLowFn rfVoltageAtPhase
    rw [hsin, hcos, h1, h2]
    have e1 : Real.cos (p0 - len / 2 + len) - Real.cos (p0 - len / 2) = 0 := by
      rw [show p0 - len / 2 + len = p0 + len / 2 by ring, Real.cos_add, Real.cos_sub, h1]; ring
    have e2 : Real.cos (m.hRatio * (p0 - len / 2 + len - p12)) - Real.cos (m.hRatio * (p0 - len / 2 - p12)) = 0 := by
      rw [show m.hRatio * (p0 - len / 2 + len - p12) = m.hRatio * (p0 - p12) + m.hRatio * (len / 2) by ring,
        show m.hRatio * (p0 - len / 2 - p12) = m.hRatio * (p0 - p12) - m.hRatio * (len / 2) by ring,
        Real.cos_add, Real.cos_sub, h2]
      ring
    rw [e1, e2]
    ring
  unfold newtonRaw
  rw [hN _ _ _ hz]
  show Except.ok (l + (p0 - (p0 - len / 2)) / (m.hNum * om * m.dtbin), l, u) = Except.ok _
  congr 2
  have := R.scale
  have h3 : p0 - (p0 - len / 2) = (u - l) / 2 * (m.hNum * om * m.dtbin) := by rw [hlen]; ring
  rw [h3, mul_div_cancel_right₀ _ this]
  ring

example : Reads (K := ℝ) ⟨0, 0, 1, 1, 1, 2, .number 0, [1], [0], [7], [3]⟩ 1 0 7 3 7 3 0 0 :=
  ⟨rfl, rfl, rfl, rfl, rfl, rfl, rfl, rfl, by norm_num, by norm_num⟩

end Verif.Props

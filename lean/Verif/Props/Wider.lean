import Verif.Spec.Wider
import Verif.Props.Sensitive
import Verif.Props.Identical
import Mathlib.Analysis.Real.Sqrt
import Mathlib.Data.Rat.BigOperators

/-!
# C126 — columns without particles

Columns of the image that no particle visits do not change the weights.
-/

set_option linter.unusedSectionVars false

namespace Verif.Props
open Finset Verif.Spec Verif.Recon Verif.Tomo

variable {K : Type} [Field K] [LinearOrder K] [IsStrictOrderedRing K]
variable {npart nprof m nbins a : ℕ} {x : ℕ → ℕ → ℕ} {f wf : ℕ → ℕ → K}

theorem wider_sum (h : a + m ≤ nbins) (g : ℕ → K) :
    ∑ b ∈ range nbins, g b = ∑ b ∈ range m, g (a + b) + ∑ b ∈ margin m nbins a, g b := by
  have hin : (range nbins).filter (fun b => ¬ (b < a ∨ a + m ≤ b)) = (range m).image fun b => a + b := by
    ext b
    simp only [mem_filter, mem_range, mem_image]
    constructor
    · rintro ⟨_, hb⟩
      exact ⟨b - a, by omega, by omega⟩
    · rintro ⟨b', hb', rfl⟩
      omega
  rw [← sum_filter_not_add_sum_filter (range nbins) (fun b => b < a ∨ a + m ≤ b), hin, sum_image]
  · rfl
  · intro u _ v _ e
    have e : a + u = a + v := e
    omega

theorem wider_inRange (h : a + m ≤ nbins) (hx : InRange npart nprof m x) : InRange npart nprof nbins fun i p => x i p + a := by
  intro i hi p hp
  have := hx i hi p hp
  show x i p + a < nbins
  omega

theorem wider_count (p b : ℕ) : count npart (fun i p => x i p + a) p (a + b) = count npart x p b := by
  unfold count
  congr 1
  apply filter_congr
  intro i _
  dsimp only
  omega

theorem wider_count_zero (hx : InRange npart nprof m x) {p b : ℕ} (hp : p < nprof) (hb : b ∈ margin m nbins a) :
    count npart (fun i p => x i p + a) p b = 0 := by
  unfold count
  rw [card_eq_zero, filter_eq_empty_iff]
  intro i hi e
  dsimp only at e
  have := hx i (mem_range.mp hi) p hp
  have := (mem_filter.mp hb).2
  omega

theorem wider_max (h : a + m ≤ nbins) (hx : InRange npart nprof m x) :
    maxCount npart nprof nbins (fun i p => x i p + a) = maxCount npart nprof m x := by
  unfold maxCount
  apply sup_congr rfl
  intro p hp
  apply le_antisymm
  · apply Finset.sup_le
    intro b hb
    by_cases hm : b ∈ margin m nbins a
    · rw [wider_count_zero hx (mem_range.mp hp) hm]
      exact Nat.zero_le _
    · have hm' : ¬ (b < a ∨ a + m ≤ b) := fun hno => hm (mem_filter.mpr ⟨hb, hno⟩)
      obtain ⟨c, rfl⟩ := Nat.exists_eq_add_of_le (show a ≤ b by omega)
      rw [wider_count]
      exact le_sup (f := fun b => count npart x p b) (mem_range.mpr (by omega))
  · apply Finset.sup_le
    intro b hb
    rw [← wider_count (a := a)]
    exact le_sup (f := fun b => count npart (fun i p => x i p + a) p b) (mem_range.mpr (by have := mem_range.mp hb; omega))

theorem wider_recip (h : a + m ≤ nbins) (hx : InRange npart nprof m x) (p b : ℕ) :
    recip K npart nprof nbins (fun i p => x i p + a) p (a + b) = recip K npart nprof m x p b := by
  unfold recip
  rw [wider_max h hx, wider_count]

theorem wider_proj (w : ℕ → K) (p b : ℕ) : proj npart (fun i p => x i p + a) w p (a + b) = proj npart x w p b := by
  unfold proj
  apply sum_congr rfl
  intro i _
  exact if_congr (by dsimp only; omega) rfl rfl

theorem wider_proj_zero (hx : InRange npart nprof m x) (w : ℕ → K) {p b : ℕ} (hp : p < nprof) (hb : b ∈ margin m nbins a) :
    proj npart (fun i p => x i p + a) w p b = 0 := by
  unfold proj
  apply sum_eq_zero
  intro i hi
  rw [if_neg]
  intro e
  dsimp only at e
  have := hx i (mem_range.mp hi) p hp
  have := (mem_filter.mp hb).2
  omega

theorem wider_back (hx : InRange npart nprof m x) {g g' : ℕ → ℕ → K} (hg : ∀ p, p < nprof → ∀ b, b < m → g p (a + b) = g' p b) {i : ℕ}
    (hi : i < npart) : backProj nprof (fun i p => x i p + a) g i = backProj nprof x g' i := by
  unfold backProj
  apply sum_congr rfl
  intro p hp
  have hp := mem_range.mp hp
  dsimp only
  rw [Nat.add_comm, hg p hp _ (hx i hi p hp)]

theorem proj_congr' {w w' : ℕ → K} (hw : ∀ i, i < npart → w i = w' i) (p b : ℕ) : proj npart x w p b = proj npart x w' p b := by
  unfold proj
  apply sum_congr rfl
  intro i hi
  rw [hw i (mem_range.mp hi)]

/-- the sequences of the two images -/
theorem wider_seq (keep : Bool) (h : Embedded nprof m nbins a f wf) (hx : InRange npart nprof m x) (k : ℕ) :
    (∀ i, i < npart → W keep npart nprof nbins (fun i p => x i p + a) wf k i = W keep npart nprof m x f k i) ∧
    (∀ p, p < nprof → ∀ b, b < m → R keep npart nprof nbins (fun i p => x i p + a) wf k p (a + b) = R keep npart nprof m x f k p b) ∧
    ∀ p, p < nprof → ∀ b ∈ margin m nbins a, R keep npart nprof nbins (fun i p => x i p + a) wf k p b = 0 := by
  induction k with
  | zero =>
    refine ⟨fun i hi => ?_, fun p _ b _ => rfl, fun p _ b _ => rfl⟩
    show max (backProj nprof (fun i p => x i p + a) wf i) 0 = max (backProj nprof x f i) 0
    rw [wider_back hx h.data hi]
  | succ k ih =>
    obtain ⟨h1, h2, h3⟩ := ih
    have hz : ∀ p, p < nprof → ∀ b ∈ margin m nbins a,
        (if keep then R keep npart nprof nbins (fun i p => x i p + a) wf k p b else 0) +
          proj npart (fun i p => x i p + a) (W keep npart nprof nbins (fun i p => x i p + a) wf k) p b = 0 := by
      intro p hp b hb
      rw [h3 p hp b hb, wider_proj_zero hx _ hp hb, ite_self, add_zero]
    have hv : ∀ p, p < nprof → ∀ b, b < m →
        (if keep then R keep npart nprof nbins (fun i p => x i p + a) wf k p (a + b) else 0) +
          proj npart (fun i p => x i p + a) (W keep npart nprof nbins (fun i p => x i p + a) wf k) p (a + b) =
        (if keep then R keep npart nprof m x f k p b else 0) + proj npart x (W keep npart nprof m x f k) p b := by
      intro p hp b hb
      rw [h2 p hp b hb, wider_proj, proj_congr' h1]
    have hrow : ∀ p, p < nprof → rowSum nbins (fun p b => (if keep then R keep npart nprof nbins (fun i p => x i p + a) wf k p b else 0) +
          proj npart (fun i p => x i p + a) (W keep npart nprof nbins (fun i p => x i p + a) wf k) p b) p =
        rowSum m (fun p b => (if keep then R keep npart nprof m x f k p b else 0) + proj npart x (W keep npart nprof m x f k) p b) p := by
      intro p hp
      unfold rowSum
      rw [wider_sum h.fits, sum_eq_zero (s := margin m nbins a) (hz p hp), add_zero]
      exact sum_congr rfl fun b hb => hv p hp b (mem_range.mp hb)
    have hR : ∀ p, p < nprof → ∀ b, b < m →
        R keep npart nprof nbins (fun i p => x i p + a) wf (k + 1) p (a + b) = R keep npart nprof m x f (k + 1) p b := by
      intro p hp b hb
      rw [R_succ, R_succ]
      unfold normRows
      rw [hrow p hp]
      dsimp only
      rw [hv p hp b hb]
    refine ⟨fun i hi => ?_, hR, fun p hp b hb => ?_⟩
    · show max (W keep npart nprof nbins (fun i p => x i p + a) wf k i + backProj nprof (fun i p => x i p + a) (fun p b => (wf p b -
          R keep npart nprof nbins (fun i p => x i p + a) wf (k + 1) p b) * recip K npart nprof nbins (fun i p => x i p + a) p b) i) 0 =
        max (W keep npart nprof m x f k i + backProj nprof x (fun p b => (f p b - R keep npart nprof m x f (k + 1) p b) *
          recip K npart nprof m x p b) i) 0
      rw [h1 i hi, wider_back hx (g' := fun p b => (f p b - R keep npart nprof m x f (k + 1) p b) * recip K npart nprof m x p b) (by
        intro p hp b hb
        rw [h.data p hp b hb, hR p hp b hb, wider_recip h.fits hx]) hi]
    · rw [R_succ]
      unfold normRows
      dsimp only
      rw [hz p hp b hb, zero_div]

theorem wider_good (keep : Bool) (h : Embedded nprof m nbins a f wf) (hx : InRange npart nprof m x) (k : ℕ) :
    Good keep npart nprof nbins (fun i p => x i p + a) wf k ↔ Good keep npart nprof m x f k := by
  unfold Good
  refine forall₂_congr fun j _ => ?_
  rw [sum_congr rfl fun i hi => (wider_seq keep h hx j).1 i (mem_range.mp hi)]

theorem wider_msq (keep : Bool) (h : Embedded nprof m nbins a f wf) (hx : InRange npart nprof m x) (hp : 0 < nprof) (hm : 0 < m) (k : ℕ) :
    msq keep npart nprof nbins (fun i p => x i p + a) wf k * ((nprof * nbins : ℕ) : K) =
      msq keep npart nprof m x f k * ((nprof * m : ℕ) : K) + ∑ p ∈ range nprof, ∑ b ∈ margin m nbins a, wf p b ^ 2 := by
  have hne : ∀ {j : ℕ}, 0 < j → ((nprof * j : ℕ) : K) ≠ 0 := fun hj => Nat.cast_ne_zero.mpr (Nat.mul_pos hp hj).ne'
  have := h.fits
  unfold msq meanSquare
  rw [div_mul_cancel₀ _ (hne (by omega)), div_mul_cancel₀ _ (hne hm), ← sum_add_distrib]
  apply sum_congr rfl
  intro p hp
  have hp := mem_range.mp hp
  rw [wider_sum h.fits]
  congr 1
  · apply sum_congr rfl
    intro b hb
    dsimp only
    rw [h.data p hp b (mem_range.mp hb), (wider_seq keep h hx (k + 1)).2.1 p hp b (mem_range.mp hb)]
  · apply sum_congr rfl
    intro b hb
    dsimp only
    rw [(wider_seq keep h hx (k + 1)).2.2 p hp b hb, sub_zero]

/-- result `u` for the wider image beside result `t` for the smaller one: same weights, same recreated profiles with nothing recreated in the
margin, sum of squares behind the discrepancies larger by the squares measured in the margin -/
def Widened (nprof m nbins a niter : ℕ) (wf : ℕ → ℕ → K) (t u : RState K) : Prop :=
  u.weights = t.weights ∧
  (∃ r q : ℕ → ℕ → K, t.flatRec = flat nprof m r ∧ u.flatRec = flat nprof nbins q ∧
    (∀ p, p < nprof → ∀ b, b < m → q p (a + b) = r p b) ∧ ∀ p, p < nprof → ∀ b ∈ margin m nbins a, q p b = 0) ∧
  ∃ d D : ℕ → K, t.discr = tab (niter + 1) d ∧ u.discr = tab (niter + 1) D ∧ ∀ k, k ≤ niter →
    D k ^ 2 * ((nprof * nbins : ℕ) : K) = d k ^ 2 * ((nprof * m : ℕ) : K) + ∑ p ∈ range nprof, ∑ b ∈ margin m nbins a, wf p b ^ 2

theorem wider_out (keep : Bool) {sqrt : K → K} (hsq : ∀ v, 0 ≤ v → sqrt v ^ 2 = v) (h : Embedded nprof m nbins a f wf)
    (hx : InRange npart nprof m x) (hp : 0 < nprof) (hm : 0 < m) (niter : ℕ) :
    Widened nprof m nbins a niter wf
      ⟨tab npart (W keep npart nprof m x f niter), flat nprof m (R keep npart nprof m x f (niter + 1)),
        tab (niter + 1) (fun k => sqrt (msq keep npart nprof m x f k))⟩
      ⟨tab npart (W keep npart nprof nbins (fun i p => x i p + a) wf niter),
        flat nprof nbins (R keep npart nprof nbins (fun i p => x i p + a) wf (niter + 1)),
        tab (niter + 1) (fun k => sqrt (msq keep npart nprof nbins (fun i p => x i p + a) wf k))⟩ := by
  have hms : ∀ (j : ℕ) (g : ℕ → ℕ → K), 0 ≤ meanSquare nprof j g := fun j g =>
    div_nonneg (sum_nonneg fun p _ => sum_nonneg fun b _ => sq_nonneg _) (Nat.cast_nonneg _)
  refine ⟨?_, ⟨_, _, rfl, rfl, (wider_seq keep h hx (niter + 1)).2⟩, _, _, rfl, rfl, fun k _ => ?_⟩
  · exact tab_congr fun i hi => (wider_seq keep h hx niter).1 i hi
  · rw [hsq (msq ..) (hms _ _), hsq (msq ..) (hms _ _)]
    exact wider_msq keep h hx hp hm k

/-- C126: the C++ routine on an image with further columns, which no particle visits, whatever is measured there.  It returns or raises
as on the smaller image, with the same progress reports. -/
theorem C126_run {sqrt : K → K} (hsq : ∀ v, 0 ≤ v → sqrt v ^ 2 = v) (h : Embedded nprof m nbins a f wf) (hx : InRange npart nprof m x)
    (hp : 0 < nprof) (hm : 0 < m) (niter : ℕ) :
    (run sqrt npart nprof nbins (fun i p => x i p + a) wf niter).1 = (run sqrt npart nprof m x f niter).1 ∧
    (∀ t, (run sqrt npart nprof m x f niter).2 = .ok t →
      ∃ u, (run sqrt npart nprof nbins (fun i p => x i p + a) wf niter).2 = .ok u ∧ Widened nprof m nbins a niter wf t u) ∧
    ∀ e, (run sqrt npart nprof m x f niter).2 = .error e → (run sqrt npart nprof nbins (fun i p => x i p + a) wf niter).2 = .error e := by
  have hfit := h.fits
  have hx' := wider_inRange h.fits hx
  have hG := wider_good true h hx
  have up : ∀ {j k}, j ≤ k → Good true npart nprof m x f k → Good true npart nprof m x f j := fun h g j hj => g j (by omega)
  rcases reconstruct_run sqrt hp hm hx f niter with ⟨hg, he⟩ | ⟨hg, he⟩ | ⟨g, hf, hg, hng, he⟩ <;>
  rcases reconstruct_run sqrt hp (by omega) hx' wf niter with ⟨hg', he'⟩ | ⟨hg', he'⟩ | ⟨g', hf', hg', hng', he'⟩ <;>
  rw [hG] at hg' <;> (try rw [hG] at hng')
  · rw [run, run, he, he']
    refine ⟨rfl, fun t ht => ?_, fun e ht => by cases ht⟩
    cases ht
    exact ⟨_, rfl, wider_out true hsq h hx hp hm niter⟩
  · exact absurd (up (by omega) hg) hg'
  · exact absurd (up (by omega) hg) hng'
  · exact absurd (up (by omega) hg') hg
  · rw [run, run, he, he']
    exact ⟨rfl, fun t ht => (by cases ht), fun e ht => ht⟩
  · exact absurd (up (by omega) hg') hg
  · exact absurd (up (by omega) hg') hng
  · exact absurd (up (by omega) hg) hg'
  · have : g = g' := by
      rcases Nat.lt_trichotomy g g' with h | h | h
      · exact absurd (up (by omega) hg') hng
      · exact h
      · exact absurd (up (by omega) hg) hng'
    subst this
    rw [run, run, he, he']
    exact ⟨rfl, fun t ht => (by cases ht), fun e ht => ht⟩

/-- C126, the python routine: it returns on the wider image exactly when it does on the smaller one. -/
theorem C126_hybrid {sqrt : K → K} (hsq : ∀ v, 0 ≤ v → sqrt v ^ 2 = v) (h : Embedded nprof m nbins a f wf) (hx : InRange npart nprof m x)
    (hn : 0 < npart) (hp : 0 < nprof) (hm : 0 < m) (niter : ℕ) :
    (∀ t, hybrid sqrt npart nprof m x f niter = .ok t →
      ∃ u, hybrid sqrt npart nprof nbins (fun i p => x i p + a) wf niter = .ok u ∧ Widened nprof m nbins a niter wf t u) ∧
    ∀ u, hybrid sqrt npart nprof nbins (fun i p => x i p + a) wf niter = .ok u → ∃ t, hybrid sqrt npart nprof m x f niter = .ok t := by
  have hx' := wider_inRange h.fits hx
  constructor
  · intro t ht
    obtain ⟨hg, rfl⟩ := (hybrid_ok_iff sqrt hn hp hx niter t).mp ht
    exact ⟨_, (hybrid_ok_iff sqrt hn hp hx' niter _).mpr ⟨(wider_good false h hx niter).mpr hg, rfl⟩, wider_out false hsq h hx hp hm niter⟩
  · intro u hu
    obtain ⟨hg, _⟩ := (hybrid_ok_iff sqrt hn hp hx' niter u).mp hu
    exact ⟨_, (hybrid_ok_iff sqrt hn hp hx niter _).mpr ⟨(wider_good false h hx niter).mp hg, rfl⟩⟩

/-- C126, the data as measured: without positive samples in the margin, the waterfall that the wider image is turned into holds that of the
smaller one, and nothing in the margin. -/
theorem C126_measured (h : Embedded nprof m nbins a f wf) (hp : 0 < nprof) (hs : ∀ p, p < nprof → ∃ b, b < m ∧ 0 < f p b)
    (hz : ∀ p, p < nprof → ∀ b ∈ margin m nbins a, wf p b ≤ 0) :
    ∃ g g' : ℕ → ℕ → K, initWaterfall (flat nprof m f) nprof m = .ok (flat nprof m g) ∧
      initWaterfall (flat nprof nbins wf) nprof nbins = .ok (flat nprof nbins g') ∧ Embedded nprof m nbins a g g' ∧
      ∀ p, p < nprof → ∀ b ∈ margin m nbins a, g' p b = 0 := by
  have hfit := h.fits
  obtain ⟨b₀, hb₀, hm₀⟩ := hs 0 hp
  have hs' : ∀ p, p < nprof → ∃ b, b < nbins ∧ 0 < wf p b := by
    intro p hp
    obtain ⟨b, hb, h0⟩ := hs p hp
    exact ⟨a + b, by omega, by rw [h.data p hp b hb]; exact h0⟩
  obtain ⟨b₁, hb₁, hm₁⟩ := hs' 0 hp
  obtain ⟨_, _, h3⟩ := initWaterfall_char (nprof := nprof) (nbins := m) (by omega) f
  obtain ⟨_, _, h4⟩ := initWaterfall_char (nprof := nprof) (nbins := nbins) (by omega) wf
  have hrow : ∀ p, p < nprof → rowSum nbins (fun p b => max (wf p b) 0) p = rowSum m (fun p b => max (f p b) 0) p := by
    intro p hp
    unfold rowSum
    rw [wider_sum h.fits, sum_eq_zero (s := margin m nbins a) fun b hb => max_eq_right (hz p hp b hb), add_zero]
    exact sum_congr rfl fun b hb => by dsimp only; rw [h.data p hp b (mem_range.mp hb)]
  refine ⟨_, _, h3 ⟨0, b₀, hp, hb₀, hm₀⟩ hs, h4 ⟨0, b₁, hp, hb₁, hm₁⟩ hs', ⟨h.fits, fun p hp b hb => ?_⟩, fun p hp b hb => ?_⟩
  · unfold normRows
    rw [hrow p hp]
    dsimp only
    rw [h.data p hp b hb]
  · unfold normRows
    dsimp only
    rw [max_eq_right (hz p hp b hb), zero_div]

/-- `fOne` with a further column, in which the first profile has as much signal as in the other two together -/
def fSignal : ℕ → ℕ → ℚ := fun p b => if b = 2 then (if p = 0 then 1 else 0) else fOne p b

/-- C126 is violated from the data as measured on when there is signal where no particle is: the profiles are normalised with it.  The further
column, although no particle visits it, takes all weight from the third of the three particles. -/
theorem C126_violated_signal :
    ((initWaterfall (flat 2 2 fOne) 2 2).bind fun F => (reconstruct id (xbuf 3 2 twoClouds.x) F 2 2 3 2).2).toOption.map (·.weights)
      = some [1003/6600, 14923/6600, 4699/6600] ∧
    ((initWaterfall (flat 2 3 fSignal) 2 3).bind fun F => (reconstruct id (xbuf 3 2 twoClouds.x) F 2 3 3 2).2).toOption.map (·.weights)
      = some [21/1256, 56719/87920, 0] ∧ Embedded 2 2 3 0 fOne fSignal := by
  refine ⟨by decide +kernel, by decide +kernel, by decide, fun p _ b hb => ?_⟩
  unfold fSignal
  rw [zero_add, if_neg (by omega)]

/-- `fOne` in the bins 1 and 2 of four, with negative samples in the others -/
def fWide : ℕ → ℕ → ℚ := fun p b => if b = 0 ∨ b = 3 then -1/16 else fOne p (b - 1)

theorem fWide_embedded : Embedded 2 2 4 1 fOne fWide := by
  refine ⟨by decide, fun p _ b hb => ?_⟩
  unfold fWide
  rw [if_neg (by omega), Nat.add_sub_cancel_left]

/-- the hypotheses of `C126_measured` -/
example : Embedded 2 2 4 1 fOne fWide ∧ (∀ p, p < 2 → ∃ b, b < 2 ∧ 0 < fOne p b) ∧ margin 2 4 1 = {0, 3} ∧
    ∀ p, p < 2 → ∀ b ∈ margin 2 4 1, fWide p b ≤ 0 := by
  refine ⟨fWide_embedded, by decide +kernel, by decide +kernel, by decide +kernel⟩

/-- the hypotheses of `C126_run` and `C126_hybrid` with the real square root, arbitrary samples `g` in the margin: both routines return, for
every number of iterations -/
example (g : ℕ → ℕ → ℝ) (niter : ℕ) : ∃ t u t' u' : RState ℝ,
    (run Real.sqrt 3 2 2 twoClouds.x (fun p b => (fOne p b : ℝ)) niter).2 = .ok t ∧
    (run Real.sqrt 3 2 4 (fun i p => twoClouds.x i p + 1) (fun p b => if b = 0 ∨ b = 3 then g p b else (fOne p (b - 1) : ℝ)) niter).2 = .ok u ∧
    hybrid Real.sqrt 3 2 2 twoClouds.x (fun p b => (fOne p b : ℝ)) niter = .ok t' ∧
    hybrid Real.sqrt 3 2 4 (fun i p => twoClouds.x i p + 1) (fun p b => if b = 0 ∨ b = 3 then g p b else (fOne p (b - 1) : ℝ)) niter
      = .ok u' ∧ u.weights = t.weights ∧ u'.weights = t'.weights := by
  have hx : InRange 3 2 2 twoClouds.x := twoClouds_identical.cloud
  have he : Embedded 2 2 4 1 (fun p b => (fOne p b : ℝ)) (fun p b => if b = 0 ∨ b = 3 then g p b else (fOne p (b - 1) : ℝ)) :=
    ⟨by decide, fun p _ b hb => by
      rw [if_neg (by omega), Nat.add_sub_cancel_left]⟩
  have hw : Profiled 2 2 fun p b => (fOne p b : ℝ) := by
    refine ⟨fun p _ b _ => Rat.cast_nonneg.mpr (fOne_nonneg p b), ?_⟩
    have : ∀ p, p < 2 → rowSum 2 fOne p = 1 := by decide +kernel
    intro p hp
    have := this p hp
    unfold rowSum at this ⊢
    rw [← Rat.cast_sum, this, Rat.cast_one]
  have hc : Covered 3 2 2 twoClouds.x fun p b => (fOne p b : ℝ) := by
    intro p hp b hb _
    have : ∀ p, p < 2 → ∀ b, b < 2 → ∃ i, i < 3 ∧ twoClouds.x i p = b := by decide +kernel
    exact this p hp b hb
  obtain ⟨⟨t, ht⟩, t', ht'⟩ := C116_returns Real.sqrt (nprof := 2) (by norm_num) hx hw hc niter
  obtain ⟨u, hu, h1, -⟩ := (C126_run (fun v hv => Real.sq_sqrt hv) he hx (by norm_num) (by norm_num) niter).2.1 t ht
  obtain ⟨u', hu', h2, -⟩ := (C126_hybrid (fun v hv => Real.sq_sqrt hv) he hx (by norm_num) (by norm_num) (by norm_num) niter).1 t' ht'
  exact ⟨t, u, t', u', ht, hu, ht', hu', h1, h2⟩

end Verif.Props

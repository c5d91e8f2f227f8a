import Verif.Props.Copies
import Verif.Props.Manual

/-!
# C127 — taking every profile several times

`Copies c P P' ψ`: profile `p` of the `P'` profiles is a copy of profile `ψ p`, each of the `P` profiles has `c` copies.
-/

set_option linter.unusedSectionVars false

namespace Verif.Props
open Finset Verif.Spec Verif.Recon Verif.Tomo

variable {K : Type} [Field K] [LinearOrder K] [IsStrictOrderedRing K]
variable {c n P P' nb : ℕ} {ψ : ℕ → ℕ} {x : ℕ → ℕ → ℕ} {wf : ℕ → ℕ → K}

theorem repeated_inRange (h : Copies c P P' ψ) (hx : InRange n P nb x) : InRange n P' nb fun i p => x i (ψ p) :=
  fun i hi p hp => hx i hi _ (h.lt p hp)

theorem repeated_onto (h : Copies c P P' ψ) (hc : 0 < c) {p : ℕ} (hp : p < P) : ∃ p', p' < P' ∧ ψ p' = p := by
  have : 0 < ((range P').filter fun i => ψ i = p).card := by rw [h.card p hp]; exact hc
  obtain ⟨p', hp'⟩ := card_pos.mp this
  exact ⟨p', mem_range.mp (mem_filter.mp hp').1, (mem_filter.mp hp').2⟩

theorem repeated_max (h : Copies c P P' ψ) (hc : 0 < c) : maxCount n P' nb (fun i p => x i (ψ p)) = maxCount n P nb x := by
  unfold maxCount
  apply le_antisymm
  · apply Finset.sup_le
    intro p hp
    exact le_sup (f := fun p => (range nb).sup fun b => count n x p b) (mem_range.mpr (h.lt p (mem_range.mp hp)))
  · apply Finset.sup_le
    intro p hp
    obtain ⟨p', hp', rfl⟩ := repeated_onto h hc (mem_range.mp hp)
    exact le_sup (f := fun p => (range nb).sup fun b => count n (fun i p => x i (ψ p)) p b) (mem_range.mpr hp')

theorem repeated_recip (h : Copies c P P' ψ) (hc : 0 < c) (p b : ℕ) :
    recip K n P' nb (fun i p => x i (ψ p)) p b = recip K n P nb x (ψ p) b := by
  unfold recip
  rw [repeated_max h hc]
  rfl

theorem repeated_back (h : Copies c P P' ψ) (g : ℕ → ℕ → K) (i : ℕ) :
    backProj P' (fun i p => x i (ψ p)) (fun p => g (ψ p)) i = c * backProj P x g i := copies_sum h fun p => g p (x i p)

theorem repeated_proj (w : ℕ → K) (p b : ℕ) : proj n (fun i p => x i (ψ p)) (fun i => (c : K) * w i) p b = c * proj n x w (ψ p) b := by
  unfold proj
  rw [mul_sum]
  exact sum_congr rfl fun i _ => by rw [mul_ite, mul_zero]

theorem repeated_pos (c : ℕ) (w : ℕ → K) : pos (fun i => (c : K) * w i) = fun i => c * pos w i := by
  funext i
  unfold pos
  rw [mul_max_of_nonneg _ _ (Nat.cast_nonneg c), mul_zero]

theorem repeated_first (h : Copies c P P' ψ) (hc : 0 < c) (keep : Bool) :
    W keep n P' nb (fun i p => x i (ψ p)) (fun p => wf (ψ p)) 0 = (fun i => c * W keep n P nb x wf 0 i) ∧
    R keep n P' nb (fun i p => x i (ψ p)) (fun p => wf (ψ p)) 1 = fun p => R keep n P nb x wf 1 (ψ p) := by
  have h0 : W keep n P' nb (fun i p => x i (ψ p)) (fun p => wf (ψ p)) 0 = (fun i => c * W keep n P nb x wf 0 i) := by
    show pos (backProj P' (fun i p => x i (ψ p)) fun p => wf (ψ p)) = fun i => c * pos (backProj P x wf) i
    rw [← repeated_pos]
    congr 1
    funext i
    exact repeated_back h wf i
  refine ⟨h0, ?_⟩
  rw [R_succ, R_succ, h0, ← copies_norm hc fun p b => (if keep then R keep n P nb x wf 0 p b else 0) + proj n x (W keep n P nb x wf 0) p b]
  funext p b
  unfold normRows rowSum
  simp only [repeated_proj, R, seq, ite_self, zero_add]

theorem repeated_step (h : Copies c P P' ψ) (hc : 0 < c) {keep : Bool} {k : ℕ}
    (hw : W keep n P' nb (fun i p => x i (ψ p)) (fun p => wf (ψ p)) k = fun i => c * W keep n P nb x wf k i)
    (hr : R keep n P' nb (fun i p => x i (ψ p)) (fun p => wf (ψ p)) (k + 1) = fun p => R keep n P nb x wf (k + 1) (ψ p)) :
    W keep n P' nb (fun i p => x i (ψ p)) (fun p => wf (ψ p)) (k + 1) = fun i => c * W keep n P nb x wf (k + 1) i := by
  show pos (fun i => W keep n P' nb (fun i p => x i (ψ p)) (fun p => wf (ψ p)) k i + backProj P' (fun i p => x i (ψ p)) (fun p b =>
      (wf (ψ p) b - R keep n P' nb (fun i p => x i (ψ p)) (fun p => wf (ψ p)) (k + 1) p b) * recip K n P' nb (fun i p => x i (ψ p)) p b) i) =
    fun i => c * pos (fun i => W keep n P nb x wf k i + backProj P x (fun p b => (wf p b - R keep n P nb x wf (k + 1) p b) *
      recip K n P nb x p b) i) i
  rw [← repeated_pos, hw, hr]
  congr 1
  funext i
  simp only [repeated_recip h hc]
  rw [mul_add]
  congr 1
  exact repeated_back h (fun p b => (wf p b - R keep n P nb x wf (k + 1) p b) * recip K n P nb x p b) i

theorem repeated_seq (h : Copies c P P' ψ) (hc : 0 < c) (k : ℕ) :
    W false n P' nb (fun i p => x i (ψ p)) (fun p => wf (ψ p)) k = (fun i => c * W false n P nb x wf k i) ∧
    R false n P' nb (fun i p => x i (ψ p)) (fun p => wf (ψ p)) (k + 1) = fun p => R false n P nb x wf (k + 1) (ψ p) := by
  induction k with
  | zero => exact repeated_first h hc false
  | succ k ih =>
    have hw := repeated_step h hc ih.1 ih.2
    refine ⟨hw, ?_⟩
    rw [R_succ false n P' nb _ _ (k + 1), R_succ false n P nb x wf (k + 1), hw, ← copies_norm hc fun p b =>
      (if false then R false n P nb x wf (k + 1) p b else 0) + proj n x (W false n P nb x wf (k + 1)) p b]
    funext p b
    unfold normRows rowSum
    simp [repeated_proj]

theorem repeated_total (hc : 0 < c) {w : ℕ → K} : 0 < ∑ i ∈ range n, (c : K) * w i ↔ 0 < ∑ i ∈ range n, w i := by
  rw [← mul_sum]
  exact mul_pos_iff_of_pos_left (by exact_mod_cast hc)

theorem repeated_good (h : Copies c P P' ψ) (hc : 0 < c) (k : ℕ) :
    Good false n P' nb (fun i p => x i (ψ p)) (fun p => wf (ψ p)) k ↔ Good false n P nb x wf k := by
  unfold Good
  refine forall₂_congr fun m _ => ?_
  rw [(repeated_seq h hc m).1]
  exact repeated_total hc

theorem repeated_msq (h : Copies c P P' ψ) (hc : 0 < c) (hP : 0 < P) {keep : Bool} {k : ℕ}
    (hr : R keep n P' nb (fun i p => x i (ψ p)) (fun p => wf (ψ p)) (k + 1) = fun p => R keep n P nb x wf (k + 1) (ψ p)) :
    msq keep n P' nb (fun i p => x i (ψ p)) (fun p => wf (ψ p)) k = msq keep n P nb x wf k := by
  have hc' : (c : K) ≠ 0 := by exact_mod_cast hc.ne'
  have hPc : (P' : K) = c * P := by
    have := copies_sum (K := K) h fun _ => 1
    simpa using this
  unfold msq meanSquare
  rw [hr]
  have := copies_sum h fun p => ∑ b ∈ range nb, (wf p b - R keep n P nb x wf (k + 1) p b) ^ 2
  rw [this]
  push_cast
  rw [hPc, mul_assoc]
  exact mul_div_mul_left _ _ hc'

theorem repeated_P (h : Copies c P P' ψ) (hc : 0 < c) (hP : 0 < P) : 0 < P' := by
  obtain ⟨p, hp, _⟩ := repeated_onto h hc hP
  omega

/-- C127 for the python reference `run_hybrid`: every profile taken `c` times, in any order.  All weights are multiplied by `c`, every copy of a
profile is recreated like the original, the discrepancies stay as they are; and it returns in the same cases. -/
theorem C127_hybrid_partial (sqrt : K → K) (h : Copies c P P' ψ) (hc : 0 < c) (hn : 0 < n) (hP : 0 < P) (hx : InRange n P nb x)
    (wf : ℕ → ℕ → K) (niter : ℕ) :
    (∀ st, hybrid sqrt n P nb x wf niter = .ok st → ∃ (w : ℕ → K) (r : ℕ → ℕ → K), st.weights = tab n w ∧ st.flatRec = flat P nb r ∧
      hybrid sqrt n P' nb (fun i p => x i (ψ p)) (fun p => wf (ψ p)) niter
        = .ok ⟨tab n fun i => c * w i, flat P' nb fun p => r (ψ p), st.discr⟩) ∧
    ∀ e, hybrid sqrt n P nb x wf niter = .error e ↔ hybrid sqrt n P' nb (fun i p => x i (ψ p)) (fun p => wf (ψ p)) niter = .error e := by
  have hx' := repeated_inRange h hx
  have hP' := repeated_P h hc hP
  have hG := repeated_good (n := n) (nb := nb) (x := x) (wf := wf) h hc niter
  constructor
  · intro st hst
    obtain ⟨hg, rfl⟩ := (hybrid_ok_iff sqrt hn hP hx niter st).mp hst
    refine ⟨_, _, rfl, rfl, (hybrid_ok_iff sqrt hn hP' hx' niter _).mpr ⟨hG.mpr hg, ?_⟩⟩
    rw [(repeated_seq h hc niter).1, (repeated_seq h hc niter).2]
    simp only [fun k => repeated_msq h hc hP (repeated_seq (n := n) (nb := nb) (x := x) (wf := wf) h hc k).2]
  · intro e
    rcases runHybrid_run sqrt hn hP hx wf niter with ⟨hg, he⟩ | ⟨hg, he⟩ <;>
    rcases runHybrid_run sqrt hn hP' hx' (fun p => wf (ψ p)) niter with ⟨hg', he'⟩ | ⟨hg', he'⟩
    · rw [hybrid, hybrid, he, he']
      exact ⟨fun h => (by cases h), fun h => (by cases h)⟩
    · exact absurd (hG.mpr hg) hg'
    · exact absurd (hG.mp hg') hg
    · rw [hybrid, hybrid, he, he']

/-- C127 for the C++ routine, without iterations.  Missing: from the first iteration on it does depend on how often the profiles are taken, see
`C127_violated_repeated`. -/
theorem C127_cpp_partial (sqrt : K → K) (h : Copies c P P' ψ) (hc : 0 < c) (hP : 0 < P) (hb : 0 < nb) (hx : InRange n P nb x)
    (wf : ℕ → ℕ → K) (st : RState K) (hst : (run sqrt n P nb x wf 0).2 = .ok st) :
    ∃ (w : ℕ → K) (r : ℕ → ℕ → K), st.weights = tab n w ∧ st.flatRec = flat P nb r ∧
      (run sqrt n P' nb (fun i p => x i (ψ p)) (fun p => wf (ψ p)) 0).2
        = .ok ⟨tab n fun i => c * w i, flat P' nb fun p => r (ψ p), st.discr⟩ := by
  obtain ⟨hg, rfl⟩ := (run_ok_iff sqrt hP hb hx 0 st).mp hst
  have hf := repeated_first (n := n) (nb := nb) (x := x) (wf := wf) h hc true
  refine ⟨_, _, rfl, rfl, (run_ok_iff sqrt (repeated_P h hc hP) hb (repeated_inRange h hx) 0 _).mpr ⟨?_, ?_⟩⟩
  · intro m hm
    obtain rfl : m = 0 := by omega
    rw [hf.1]
    exact (repeated_total hc).mpr (hg 0 le_rfl)
  · rw [hf.1, hf.2]
    congr 1
    apply tab_congr
    intro k hk
    obtain rfl : k = 0 := by omega
    rw [repeated_msq h hc hP hf.2]

/-- C127 violated: one flat profile of two bins, one particle in the first and three in the second, two iterations of the C++ routine.  With the
profile taken twice the weights are not twice those of the profile taken once, and the discrepancies differ from the first iteration on. -/
theorem C127_violated_repeated (sqrt : ℚ → ℚ) :
    ∃ s t : RState ℚ, (run sqrt 4 1 2 x13 wfHalf 2).2 = .ok s ∧
      (run sqrt 4 2 2 (fun i p => x13 i (p % 1)) (fun p => wfHalf (p % 1)) 2).2 = .ok t ∧
      s.weights = [5/4, 1/4, 1/4, 1/4] ∧ s.discr[1]? = some (sqrt 0) ∧
      t.weights = [11/5, 3/5, 3/5, 3/5] ∧ t.discr[1]? = some (sqrt (1/400)) := by
  have hx' : InRange 4 2 2 fun i p => x13 i (p % 1) := repeated_inRange (copies_twice 1 (by norm_num)) x13_inRange
  have g : Good true 4 1 2 x13 wfHalf 2 := by
    intro m hm
    interval_cases m <;> decide +kernel
  have g' : Good true 4 2 2 (fun i p => x13 i (p % 1)) (fun p => wfHalf (p % 1)) 2 := by
    intro m hm
    interval_cases m <;> decide +kernel
  refine ⟨_, _, (run_ok_iff sqrt (by norm_num) (by norm_num) x13_inRange 2 _).mpr ⟨g, rfl⟩,
    (run_ok_iff sqrt (by norm_num) (by norm_num) hx' 2 _).mpr ⟨g', rfl⟩, ?_, ?_, ?_, ?_⟩
  · dsimp only; decide +kernel
  · have : msq true 4 1 2 x13 wfHalf 1 = 0 := by decide +kernel
    simp only [getElem?_tab]
    rw [this]; rfl
  · dsimp only; decide +kernel
  · have : msq true 4 2 2 (fun i p => x13 i (p % 1)) (fun p => wfHalf (p % 1)) 1 = 1/400 := by decide +kernel
    simp only [getElem?_tab]
    rw [this]; rfl

/-- two different profiles, each taken twice, with the python reference and any number of iterations -/
example (sqrt : ℚ → ℚ) (niter : ℕ) (st : RState ℚ) (h : hybrid sqrt 4 2 2 xEven wfEven niter = .ok st) :
    ∃ (w : ℕ → ℚ) (r : ℕ → ℕ → ℚ), st.weights = tab 4 w ∧ st.flatRec = flat 2 2 r ∧
      hybrid sqrt 4 4 2 (fun i p => xEven i (p % 2)) (fun p => wfEven (p % 2)) niter
        = .ok ⟨tab 4 fun i => 2 * w i, flat 4 2 fun p => r (p % 2), st.discr⟩ :=
  (C127_hybrid_partial sqrt (copies_twice 2 (by norm_num)) (by norm_num) (by norm_num) (by norm_num)
    xEven_inRange wfEven niter).1 st h

/-- for which the reference returns -/
example : ((hybrid id 4 2 2 xEven wfEven 3).toOption.map (·.weights)).isSome = true ∧
    ((run id 4 2 2 xEven wfEven 0).2.toOption.map (·.weights)).isSome = true := by
  constructor <;> decide +kernel

end Verif.Props

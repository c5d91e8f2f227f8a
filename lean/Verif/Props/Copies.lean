import Verif.Props.ReconSym
import Verif.Lemmas.Copies
import Mathlib.Tactic.IntervalCases

/-!
# C122 — taking every particle several times
-/

set_option linter.unusedSectionVars false

namespace Verif.Props
open Finset Verif.Spec Verif.Recon Verif.Tomo

variable {K : Type} [Field K] [LinearOrder K] [IsStrictOrderedRing K]
variable {c n n' P nb : ℕ} {φ : ℕ → ℕ} {x : ℕ → ℕ → ℕ}

theorem copies_inRange (h : Copies c n n' φ) (hx : InRange n P nb x) : InRange n' P nb fun i => x (φ i) := fun i hi p hp => hx _ (h.lt i hi) p hp

/-- C122 for the python reference `run_hybrid`: every particle taken `c` times, in any order.  Every copy gets the weight of its original, recreated
profiles and discrepancies stay as they are; and it fails in the same cases with the same error. -/
theorem C122_hybrid_partial (sqrt : K → K) (h : Copies c n n' φ) (hc : 0 < c) (hn : 0 < n) (hP : 0 < P) (hx : InRange n P nb x) (wf : ℕ → ℕ → K)
    (niter : ℕ) :
    (∀ st, hybrid sqrt n P nb x wf niter = .ok st → ∃ w : ℕ → K, st.weights = tab n w ∧
      hybrid sqrt n' P nb (fun i => x (φ i)) wf niter = .ok ⟨tab n' fun i => w (φ i), st.flatRec, st.discr⟩) ∧
    ∀ e, hybrid sqrt n P nb x wf niter = .error e ↔ hybrid sqrt n' P nb (fun i => x (φ i)) wf niter = .error e := by
  have hx' := copies_inRange h hx
  have hn' : 0 < n' := by
    by_contra hne
    have h0 := h.card 0 hn
    rw [show n' = 0 by omega] at h0
    simp at h0
    omega
  have hG := copies_good (P := P) (nb := nb) (x := x) (wf := wf) h hc niter
  constructor
  · intro st hst
    obtain ⟨hg, rfl⟩ := (hybrid_ok_iff sqrt hn hP hx niter st).mp hst
    refine ⟨_, rfl, (hybrid_ok_iff sqrt hn' hP hx' niter _).mpr ⟨hG.mpr hg, ?_⟩⟩
    have e1 : tab n' (W false n' P nb (fun i => x (φ i)) wf niter) = tab n' fun i => W false n P nb x wf niter (φ i) :=
      tab_congr fun i hi => (copies_seq h hc niter).1 i hi
    have e2 : ∀ k, msq false n' P nb (fun i => x (φ i)) wf k = msq false n P nb x wf k := by
      intro k
      unfold msq
      rw [(copies_seq h hc k).2]
    rw [e1, (copies_seq h hc niter).2]
    simp only [e2]
  · intro e
    rcases runHybrid_run sqrt hn hP hx wf niter with ⟨hg, he⟩ | ⟨hg, he⟩ <;>
    rcases runHybrid_run sqrt hn' hP hx' wf niter with ⟨hg', he'⟩ | ⟨hg', he'⟩
    · rw [hybrid, hybrid, he, he']
      exact ⟨fun h => (by cases h), fun h => (by cases h)⟩
    · exact absurd (hG.mpr hg) hg'
    · exact absurd (hG.mp hg') hg
    · rw [hybrid, hybrid, he, he']

/-- C122 for the C++ routine, without iterations.  Missing: from the first iteration on it does depend on how often the particles are taken, see
`C122_violated_copies`. -/
theorem C122_cpp_partial (sqrt : K → K) (h : Copies c n n' φ) (hc : 0 < c) (hP : 0 < P) (hb : 0 < nb) (hx : InRange n P nb x)
    (wf : ℕ → ℕ → K) (st : RState K) (hst : (run sqrt n P nb x wf 0).2 = .ok st) :
    ∃ w : ℕ → K, st.weights = tab n w ∧
      (run sqrt n' P nb (fun i => x (φ i)) wf 0).2 = .ok ⟨tab n' fun i => w (φ i), st.flatRec, st.discr⟩ := by
  obtain ⟨hg, rfl⟩ := (run_ok_iff sqrt hP hb hx 0 st).mp hst
  have hf := copies_first (P := P) (nb := nb) (x := x) (wf := wf) h hc true
  refine ⟨_, rfl, (run_ok_iff sqrt hP hb (copies_inRange h hx) 0 _).mpr ⟨?_, ?_⟩⟩
  · intro m hm
    obtain rfl : m = 0 := by omega
    rw [sum_congr rfl fun i hi => hf.1 i (mem_range.mp hi), copies_sum h]
    exact mul_pos (by exact_mod_cast hc) (hg 0 le_rfl)
  · rw [tab_congr fun i hi => hf.1 i hi, hf.2]
    congr 1
    apply tab_congr
    intro k hk
    obtain rfl : k = 0 := by omega
    unfold msq
    rw [hf.2]

/-- every particle once more after all the others -/
theorem copies_twice (n : ℕ) (hn : 0 < n) : Copies 2 n (2 * n) (· % n) where
  lt i _ := Nat.mod_lt i hn
  card j hj := by
    have : ((range (2 * n)).filter fun i => i % n = j) = {j, n + j} := by
      ext i
      simp only [mem_filter, mem_range, mem_insert, mem_singleton]
      constructor
      · rintro ⟨h1, h2⟩
        rcases Nat.lt_or_ge i n with h | h
        · rw [Nat.mod_eq_of_lt h] at h2
          exact Or.inl h2
        · rw [Nat.mod_eq_sub_mod h, Nat.mod_eq_of_lt (by omega)] at h2
          omega
      · rintro (rfl | rfl)
        · exact ⟨by omega, Nat.mod_eq_of_lt hj⟩
        · exact ⟨by omega, by rw [Nat.add_mod_left, Nat.mod_eq_of_lt hj]⟩
    rw [this, card_pair (by omega)]

/-- C122 violated: one flat profile of two bins, one particle in the first and three in the second, two iterations.  Taken once, the C++ routine
ends with the discrepancy `sqrt (1/144)` and the weights 5/4, 1/4, 1/4, 1/4; with every particle taken twice it ends with other weights and
another discrepancy.  It adds the new projection, whose total is that of the weights and therefore grows with the number of particles, to the recreated
profiles of the iteration before, whose total is one. -/
theorem C122_violated_copies (sqrt : ℚ → ℚ) :
    ∃ s t : RState ℚ, (run sqrt 4 1 2 x13 wfHalf 2).2 = .ok s ∧ (run sqrt 8 1 2 (fun i => x13 (i % 4)) wfHalf 2).2 = .ok t ∧
      s.weights = [5/4, 1/4, 1/4, 1/4] ∧ s.discr[2]? = some (sqrt (1/144)) ∧
      t.weights = [11/10, 3/10, 3/10, 3/10, 11/10, 3/10, 3/10, 3/10] ∧ t.discr[2]? = some (sqrt (1/400)) := by
  have hx' : InRange 8 1 2 fun i => x13 (i % 4) := copies_inRange (copies_twice 4 (by norm_num)) x13_inRange
  have g : Good true 4 1 2 x13 wfHalf 2 := by
    intro m hm
    interval_cases m <;> decide +kernel
  have g' : Good true 8 1 2 (fun i => x13 (i % 4)) wfHalf 2 := by
    intro m hm
    interval_cases m <;> decide +kernel
  refine ⟨_, _, (run_ok_iff sqrt (by norm_num) (by norm_num) x13_inRange 2 _).mpr ⟨g, rfl⟩,
    (run_ok_iff sqrt (by norm_num) (by norm_num) hx' 2 _).mpr ⟨g', rfl⟩, ?_, ?_, ?_, ?_⟩
  · dsimp only; decide +kernel
  · have : msq true 4 1 2 x13 wfHalf 2 = 1/144 := by decide +kernel
    simp only [getElem?_tab]
    rw [this]; rfl
  · dsimp only; decide +kernel
  · have : msq true 8 1 2 (fun i => x13 (i % 4)) wfHalf 2 = 1/400 := by decide +kernel
    simp only [getElem?_tab]
    rw [this]; rfl

/-- the same cloud in the python reference, seven iterations -/
example (sqrt : ℚ → ℚ) (st : RState ℚ) (h : hybrid sqrt 4 1 2 x13 wfHalf 7 = .ok st) : ∃ w, st.weights = tab 4 w ∧
    hybrid sqrt 8 1 2 (fun i => x13 (i % 4)) wfHalf 7 = .ok ⟨tab 8 fun i => w (i % 4), st.flatRec, st.discr⟩ :=
  (C122_hybrid_partial sqrt (copies_twice 4 (by norm_num)) (by norm_num) (by norm_num) (by norm_num) x13_inRange wfHalf 7).1 st h

end Verif.Props

import Verif.Props.Tomography
import Verif.Lemmas.PhaseSpace

/-!
# Properties of the phase-space image (C30, C31, C54)
-/

set_option linter.unusedSectionVars false

namespace Verif.Props
open Finset Verif.Spec Verif.Recon Verif.Tomo Verif.Img

variable {K : Type} [Field K] [LinearOrder K] [IsStrictOrderedRing K]

/-! ## C30 -/

/-- C30: for coordinates inside the image, cell `[a][b]` holds exactly the weights of the particles at `x = a, y = b`. -/
theorem C30_cells {n nbins : ℕ} {x y : ℕ → ℕ} (hx : ∀ i, i < n → x i < nbins) (hy : ∀ i, i < n → y i < nbins)
    (w : ℕ → K) :
    makePhaseSpace (tab n fun i => (x i : ℤ)) (tab n fun i => (y i : ℤ)) (tab n w) nbins
      = .ok (flat nbins nbins fun a b => ∑ i ∈ (range n).filter (fun i => x i = a ∧ y i = b), w i) := by
  rw [makePhaseSpace_inRange hx hy]
  simp only [sum_filter]

/-- C30: whenever an image is returned, for whatever coordinates, it carries the total weight of the particles. -/
theorem C30_conserves_weight {n nbins : ℕ} (x y : ℕ → ℤ) (w : ℕ → K) {img : List K}
    (h : makePhaseSpace (tab n x) (tab n y) (tab n w) nbins = .ok img) :
    img.length = nbins * nbins ∧ img.sum = ∑ i ∈ range n, w i := by
  rcases makePhaseSpace_cases n nbins x y w with ⟨hr, he⟩ | ⟨_, _, _, ⟨_, he⟩ | ⟨_, he⟩⟩
  · rw [he] at h
    cases h
    refine ⟨by simp, ?_⟩
    rw [sum_tab, sum_comm]
    apply sum_congr rfl
    intro i hi
    obtain ⟨h0, h1⟩ := hr i (mem_range.mp hi)
    obtain ⟨c, hc⟩ := Int.eq_ofNat_of_zero_le h0
    rw [hc]
    have hc' : c < nbins * nbins := by omega
    rw [sum_eq_single c]
    · simp
    · intro d _ hd; rw [if_neg]; intro e; exact hd (by exact_mod_cast e.symm)
    · intro hn; exact absurd (mem_range.mpr hc') hn
  · rw [he] at h; cases h
  · rw [he] at h; cases h

/-- C30, the part of "fails loudly" that holds: an image is returned exactly when every flat index `y + x*nbins` is
inside the image; a particle beyond the last column (with `y ≥ 0`) raises `std::out_of_range`, unless an earlier
particle already left the buffer at the low end. -/
theorem C30_fails_partial {n nbins : ℕ} (x y : ℕ → ℤ) (w : ℕ → K) :
    ((∃ img, makePhaseSpace (tab n x) (tab n y) (tab n w) nbins = .ok img) ↔
      ∀ i, i < n → 0 ≤ y i + x i * nbins ∧ y i + x i * nbins < (nbins * nbins : ℕ)) ∧
    ((∀ i, i < n → 0 ≤ x i ∧ 0 ≤ y i) → (∃ i, i < n ∧ (nbins : ℤ) ≤ x i) →
      makePhaseSpace (tab n x) (tab n y) (tab n w) nbins = .error (.exc .outOfRange)) := by
  rcases makePhaseSpace_cases n nbins x y w with ⟨hr, he⟩ | ⟨k, hk, _, ⟨hi, he⟩ | ⟨hi, he⟩⟩
  · refine ⟨⟨fun _ => hr, fun _ => ⟨_, he⟩⟩, ?_⟩
    rintro hpos ⟨i, hi, hx⟩
    have h1 := (hr i hi).2
    have h0 := hpos i hi
    unfold idx at h1
    push_cast at h1
    nlinarith [h0.1, h0.2]
  · refine ⟨⟨fun ⟨img, h⟩ => (by rw [he] at h; cases h), fun h => ?_⟩, fun _ _ => he⟩
    have := (h k hk).2
    unfold idx at hi
    omega
  · refine ⟨⟨fun ⟨img, h⟩ => (by rw [he] at h; cases h), fun h => ?_⟩, fun hpos _ => ?_⟩
    · have := (h k hk).1
      unfold idx at hi
      omega
    · have h0 := hpos k hk
      unfold idx at hi
      nlinarith [h0.1, h0.2]

/-- C30 violated: an energy coordinate one past the image is not reported; the particle is counted in the first
energy bin of the next column (for every image with at least two bins, every weight). -/
theorem C30_violated_aliasing {nbins : ℕ} (hn : 2 ≤ nbins) (w : K) :
    makePhaseSpace [0] [(nbins : ℤ)] [w] nbins
      = .ok (flat nbins nbins fun a b => if a = 1 ∧ b = 0 then w else 0) := by
  have h1 : ((nbins : ℤ)) < ((nbins * nbins : ℕ) : ℤ) := by push_cast; nlinarith
  rcases makePhaseSpace_cases 1 nbins (fun _ => 0) (fun _ => (nbins : ℤ)) (fun _ => w) with ⟨_, he⟩ | ⟨k, hk, _, ⟨hi, _⟩ | ⟨hi, _⟩⟩
  · have e : ∀ {β : Type} (b : β), tab 1 (fun _ => b) = [b] := fun b => rfl
    rw [e, e, e] at he
    rw [he]
    congr 1
    unfold flat
    apply tab_congr
    intro c hc
    rw [sum_range_one]
    apply if_congr _ rfl rfl
    unfold idx
    simp only [zero_mul, add_zero]
    have hcc : c / nbins * nbins + c % nbins = c := by rw [Nat.mul_comm]; exact Nat.div_add_mod c nbins
    constructor
    · intro h
      have h : c = nbins := by exact_mod_cast h.symm
      subst h
      exact ⟨Nat.div_self (by omega), Nat.mod_self _⟩
    · rintro ⟨h, h'⟩
      rw [h, h'] at hcc
      have : c = nbins := by omega
      exact_mod_cast this.symm
  · unfold idx at hi; simp only [zero_mul, add_zero] at hi; omega
  · unfold idx at hi; simp only [zero_mul, add_zero] at hi; omega

/-- C30 violated: a negative coordinate in the first column makes the C++ code write in front of the image (undefined
behaviour) instead of raising. -/
theorem C30_violated_negative (nbins : ℕ) (w : K) : makePhaseSpace [0] [-1] [w] nbins = .error .oob := by
  have e : ∀ {β : Type} (b : β), tab 1 (fun _ => b) = [b] := fun b => rfl
  rcases makePhaseSpace_cases 1 nbins (fun _ => 0) (fun _ => -1) (fun _ => w) with ⟨h, he⟩ | ⟨k, hk, _, ⟨hi, _⟩ | ⟨hi, he⟩⟩
  · have := (h 0 (by omega)).1
    unfold idx at this; simp at this
  · unfold idx at hi; simp only [zero_mul, add_zero] at hi; omega
  · exact he

/-- C30: on the GPU the same image results for coordinates inside the image. -/
theorem C30_gpu_agrees {n nbins : ℕ} {x y : ℕ → ℕ} (hx : ∀ i, i < n → x i < nbins) (hy : ∀ i, i < n → y i < nbins)
    (w : ℕ → K) :
    makePhaseSpaceCupy (tab n fun i => (x i : ℤ)) (tab n fun i => (y i : ℤ)) (tab n w) nbins
      = makePhaseSpace (tab n fun i => (x i : ℤ)) (tab n fun i => (y i : ℤ)) (tab n w) nbins := by
  unfold makePhaseSpaceCupy makePhaseSpace
  rw [if_pos (by simp), length_tab]
  apply forN_congr
  intro i ps hi
  obtain ⟨h0, h1⟩ := idx_range (hx i hi) (hy i hi)
  unfold cellBody
  simp only [rd_tab _ hi, bind_ok]
  have h0 : 0 ≤ (y i : ℤ) + (x i : ℤ) * nbins := h0
  have h1 : (y i : ℤ) + (x i : ℤ) * nbins < (nbins * nbins : ℕ) := h1
  rw [Int.emod_eq_of_lt h0 h1, if_neg (by omega)]

example : makePhaseSpace [0, 1, 1] [0, 1, 0] [(1 : ℚ), 2, 3] 2 = .ok [1, 0, 3, 2] := by decide +kernel
example : makePhaseSpace [0, 2] [0, 1] [(1 : ℚ), 2] 2 = .error (.exc .outOfRange) := by decide +kernel

/-! ## C31 -/

/-- the image at profile `p` summed over energy, divided by its total -/
def imageProfile (nbins : ℕ) (img : ℕ → ℕ → K) (a : ℕ) : K :=
  (∑ b ∈ range nbins, img a b) / ∑ a ∈ range nbins, ∑ b ∈ range nbins, img a b

theorem sum_cells {npart nprof nbins : ℕ} {y : ℕ → ℕ → ℕ} (x : ℕ → ℕ → ℕ) (hy : InRange npart nprof nbins y)
    (w : ℕ → K) {p : ℕ} (hp : p < nprof) (a : ℕ) :
    ∑ b ∈ range nbins, ∑ i ∈ (range npart).filter (fun i => x i p = a ∧ y i p = b), w i
      = ∑ i ∈ range npart, if x i p = a then w i else 0 := by
  simp only [sum_filter]
  rw [sum_comm]
  apply sum_congr rfl
  intro i hi
  by_cases h : x i p = a
  · simp only [h, true_and, if_true]
    rw [sum_ite_eq, if_pos (mem_range.mpr (hy i (mem_range.mp hi) p hp))]
  · simp [h]

/-- C31 for the reference implementation: after `run_hybrid`, for every profile `p` and every number of iterations, the
image that `phase_space` returns for `p`, summed over energy and normalised, is the recreated profile `p`. -/
theorem C31_hybrid (sqrt : K → K) {npart nprof nbins : ℕ} (hn : 0 < npart) (hp : 0 < nprof)
    {x y : ℕ → ℕ → ℕ} (hx : InRange npart nprof nbins x) (hy : InRange npart nprof nbins y) (wf : ℕ → ℕ → K)
    (niter : ℕ) {st : RState K} (h : hybrid sqrt npart nprof nbins x wf niter = .ok st)
    (synchX synchY dtbin dE : K) {p : ℕ} (hpp : p < nprof) :
    ∃ (t e : List K) (img r : ℕ → ℕ → K),
      phaseSpace (arr npart nprof fun i j => (x i j : ℤ)) (arr npart nprof fun i j => (y i j : ℤ)) st.weights nbins
        synchX synchY dtbin (some dE) p = .ok (t, e, flat nbins nbins img) ∧
      st.flatRec = flat nprof nbins r ∧ ∀ a, a < nbins → imageProfile nbins img a = r p a := by
  obtain ⟨w, hw, hr⟩ := C06_hybrid_recreated sqrt hn hp hx wf niter h
  refine ⟨axis nbins synchX dtbin, axis nbins synchY dE,
    fun a b => ∑ i ∈ (range npart).filter (fun i => x i p = a ∧ y i p = b), w i, _, ?_, hr, ?_⟩
  · unfold phaseSpace
    dsimp only
    rw [column_arr _ hpp, bind_ok, column_arr _ hpp, bind_ok, hw]
    unfold phaseSpaceFromCoordinates
    rw [C30_cells (fun i hi => hx i hi p hpp) (fun i hi => hy i hi p hpp), bind_ok]
    rfl
  · intro a ha
    unfold imageProfile
    simp only [sum_cells x hy w hpp]

/-- C31 for the C++ implementation, part that holds: without iterations. -/
theorem C31_cpp_without_iterations_partial (sqrt : K → K) {npart nprof nbins : ℕ} (hn : 0 < npart) (hp : 0 < nprof)
    {x y : ℕ → ℕ → ℕ} (hx : InRange npart nprof nbins x) (hy : InRange npart nprof nbins y) (wf : ℕ → ℕ → K)
    {st : RState K} (h : (run sqrt npart nprof nbins x wf 0).2 = .ok st)
    (synchX synchY dtbin dE : K) {p : ℕ} (hpp : p < nprof) :
    ∃ (t e : List K) (img r : ℕ → ℕ → K),
      phaseSpace (arr npart nprof fun i j => (x i j : ℤ)) (arr npart nprof fun i j => (y i j : ℤ)) st.weights nbins
        synchX synchY dtbin (some dE) p = .ok (t, e, flat nbins nbins img) ∧
      st.flatRec = flat nprof nbins r ∧ ∀ a, a < nbins → imageProfile nbins img a = r p a :=
  C31_hybrid sqrt hn hp hx hy wf 0 ((C06_agree_without_iterations_partial sqrt hn hp hx wf st).mp h) synchX synchY dtbin dE hpp

/-- C31 violated by the C++ code with one iteration: the image of profile 0 has column sums 11/6 and 7/6 (11/18 and
7/18 of the total), the recreated profile shown to the user is 5/8, 3/8. -/
theorem C31_violated_cpp (sqrt : ℚ → ℚ) :
    ∃ s : RState ℚ, (run sqrt 3 2 2 x3 wfHalf 1).2 = .ok s ∧ s.flatRec = [5/8, 3/8, 3/8, 5/8] ∧
      phaseSpace (arr 3 2 fun i j => (x3 i j : ℤ)) (arr 3 2 fun _ _ => 0) s.weights 2 0 0 1 (some 1) 0
        = .ok ([0, 1], [0, 1], [11/6, 0, 7/6, 0]) := by
  obtain ⟨s, t, h1, _, h3, _, h5, _⟩ := C06_violated_recreated sqrt
  refine ⟨s, h1, h5, ?_⟩
  rw [h3]
  decide +kernel

/-- The normalised image of `create_phase_space_image` is non-negative, sums to one and its columns are the recreated
profile (reference implementation). -/
theorem C31_image_file (sqrt : K → K) {npart nprof nbins : ℕ} (hn : 0 < npart) (hp : 0 < nprof)
    {x y : ℕ → ℕ → ℕ} (hx : InRange npart nprof nbins x) (hy : InRange npart nprof nbins y) (wf : ℕ → ℕ → K)
    (niter : ℕ) {st : RState K} (h : hybrid sqrt npart nprof nbins x wf niter = .ok st) {p : ℕ} (hpp : p < nprof) :
    ∃ img r : ℕ → ℕ → K,
      createPhaseSpaceImage (arr npart nprof fun i j => (x i j : ℤ)) (arr npart nprof fun i j => (y i j : ℤ)) st.weights
        nbins p = .ok (flat nbins nbins img) ∧ (∀ a b, 0 ≤ img a b) ∧
      st.flatRec = flat nprof nbins r ∧ ∀ a, a < nbins → ∑ b ∈ range nbins, img a b = r p a := by
  rcases runHybrid_run sqrt hn hp hx wf niter with ⟨hg, he⟩ | ⟨_, he⟩
  · rw [hybrid, he] at h
    cases h
    set w := W false npart nprof nbins x wf niter with hw
    have hw0 : ∀ i, 0 ≤ w i := W_nonneg false npart nprof nbins x wf niter
    have hpos : 0 < ∑ i ∈ range npart, w i := hg niter le_rfl
    set img : ℕ → ℕ → K := fun a b => ∑ i ∈ (range npart).filter (fun i => x i p = a ∧ y i p = b), w i with himg
    have hi0 : ∀ a b, 0 ≤ img a b := fun a b => sum_nonneg fun i _ => hw0 i
    have htot : ∑ a ∈ range nbins, ∑ b ∈ range nbins, img a b = ∑ i ∈ range npart, w i := by
      simp only [himg, sum_cells x hy w hpp]
      exact rowSum_proj hx w hpp
    refine ⟨fun a b => img a b / ∑ i ∈ range npart, w i, _, ?_, fun a b => div_nonneg (hi0 a b) hpos.le, rfl, ?_⟩
    · unfold createPhaseSpaceImage
      rw [column_arr _ hpp, bind_ok, column_arr _ hpp, bind_ok,
        C30_cells (fun i hi => hx i hi p hpp) (fun i hi => hy i hi p hpp), bind_ok]
      dsimp only
      rw [npClip0_flat]
      have hc : (flat nbins nbins fun a b => max (img a b) 0) = flat nbins nbins img :=
        flat_congr fun a b _ _ => max_eq_left (hi0 a b)
      rw [hc, sum_flat, htot]
      unfold flat
      rw [mapM_tab (g := fun v => v / ∑ i ∈ range npart, w i)]
      intro i _
      exact fdiv_ok hpos.ne'
    · intro a ha
      rw [← sum_div, R_false_succ]
      simp only [himg, sum_cells x hy w hpp]
      unfold normRows
      rw [rowSum_proj hx _ hpp]
      rfl
  · rw [hybrid, he] at h; cases h

example : createPhaseSpaceImage (arr 3 2 fun i j => (x3 i j : ℤ)) (arr 3 2 fun i _ => (i % 2 : ℕ)) [7/6, 2/3, (7/6 : ℚ)] 2 0
    = .ok [7/18, 2/9, 7/18, 0] := by decide +kernel

end Verif.Props

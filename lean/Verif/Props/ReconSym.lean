import Verif.Props.Tomography
import Verif.Lemmas.ReconSym

/-!
# Symmetries and fixed points of the reconstruction (C94, C95, C05)
-/

set_option linter.unusedSectionVars false

namespace Verif.Props
open Finset Verif.Spec Verif.Recon Verif.Tomo

variable {K : Type} [Field K] [LinearOrder K] [IsStrictOrderedRing K]

/-! ## C94 -/

/-- C94: put the profiles in another order (`σ`) and rename the bins of each profile (`τ p`), in the measured waterfall and in the
coordinates alike.  The C++ reconstruction then makes the same callbacks, fails in the same cases with the same error, and
returns the same weights and the same history; the recreated waterfall is reordered like the measured one. -/
theorem C94_profiles_and_bins (sqrt : K → K) {npart nprof nbins : ℕ} (hp : 0 < nprof) (hb : 0 < nbins)
    {x : ℕ → ℕ → ℕ} (hx : InRange npart nprof nbins x) (wf : ℕ → ℕ → K) (niter : ℕ)
    (σ : Equiv.Perm ℕ) (hσ : ∀ p, σ p < nprof ↔ p < nprof) (τ : ℕ → Equiv.Perm ℕ) (hτ : ∀ p b, τ p b < nbins ↔ b < nbins) :
    (run sqrt npart nprof nbins (fun i p => τ p (x i (σ p))) (fun p b => wf (σ p) ((τ p).symm b)) niter).1
      = (run sqrt npart nprof nbins x wf niter).1 ∧
    (∀ st, (run sqrt npart nprof nbins x wf niter).2 = .ok st → ∃ r : ℕ → ℕ → K, st.flatRec = flat nprof nbins r ∧
      (run sqrt npart nprof nbins (fun i p => τ p (x i (σ p))) (fun p b => wf (σ p) ((τ p).symm b)) niter).2
        = .ok ⟨st.weights, flat nprof nbins fun p b => r (σ p) ((τ p).symm b), st.discr⟩) ∧
    (∀ e, (run sqrt npart nprof nbins (fun i p => τ p (x i (σ p))) (fun p b => wf (σ p) ((τ p).symm b)) niter).2 = .error e ↔
      (run sqrt npart nprof nbins x wf niter).2 = .error e) := by
  have hx' := inRange_mv σ hσ τ hτ hx
  have ht := run_transport sqrt (wf := wf) (wf' := mv σ τ wf) hp hb hx hx' (good_mv σ hσ τ hτ true npart x wf) niter
  refine ⟨ht.1, fun st h => ?_, ht.2⟩
  obtain ⟨hg, rfl⟩ := (run_ok_iff sqrt hp hb hx niter st).mp h
  refine ⟨_, rfl, (run_ok_iff sqrt hp hb hx' niter _).mpr ⟨(good_mv σ hσ τ hτ true npart x wf niter).mpr hg, ?_⟩⟩
  simp only [msq_mv σ hσ τ hτ, W, R, seq_mv σ hσ τ hτ]

/-- C94 for the python reference `run_hybrid`. -/
theorem C94_profiles_and_bins_hybrid (sqrt : K → K) {npart nprof nbins : ℕ} (hn : 0 < npart) (hp : 0 < nprof)
    {x : ℕ → ℕ → ℕ} (hx : InRange npart nprof nbins x) (wf : ℕ → ℕ → K) (niter : ℕ)
    (σ : Equiv.Perm ℕ) (hσ : ∀ p, σ p < nprof ↔ p < nprof) (τ : ℕ → Equiv.Perm ℕ) (hτ : ∀ p b, τ p b < nbins ↔ b < nbins)
    {st : RState K} (h : hybrid sqrt npart nprof nbins x wf niter = .ok st) :
    ∃ r : ℕ → ℕ → K, st.flatRec = flat nprof nbins r ∧
      hybrid sqrt npart nprof nbins (fun i p => τ p (x i (σ p))) (fun p b => wf (σ p) ((τ p).symm b)) niter
        = .ok ⟨st.weights, flat nprof nbins fun p b => r (σ p) ((τ p).symm b), st.discr⟩ := by
  have hx' := inRange_mv σ hσ τ hτ hx
  obtain ⟨hg, rfl⟩ := (hybrid_ok_iff sqrt hn hp hx niter st).mp h
  refine ⟨_, rfl, (hybrid_ok_iff sqrt hn hp hx' niter _).mpr ⟨(good_mv σ hσ τ hτ false npart x wf niter).mpr hg, ?_⟩⟩
  simp only [msq_mv σ hσ τ hτ, W, R, seq_mv σ hσ τ hτ]

/-- the bins counted from the other end -/
def mirror (n : ℕ) : Equiv.Perm ℕ := Function.Involutive.toPerm (fun b => if b < n then n - 1 - b else b) (by
  intro b
  by_cases h : b < n
  · have : n - 1 - b < n := by omega
    simp only [h, this, if_true]
    omega
  · simp [h])

theorem mirror_of_lt {n b : ℕ} (h : b < n) : mirror n b = n - 1 - b := by
  show (if b < n then n - 1 - b else b) = _
  rw [if_pos h]

theorem mirror_lt (n b : ℕ) : mirror n b < n ↔ b < n := by
  show (if b < n then n - 1 - b else b) < n ↔ _
  split <;> omega

/-- C94: if the time axis is reversed, and the coordinates with it, the weights and the history stay and the recreated profiles are
reversed. -/
theorem C94_reversed_time (sqrt : K → K) {npart nprof nbins : ℕ} (hp : 0 < nprof) (hb : 0 < nbins)
    {x : ℕ → ℕ → ℕ} (hx : InRange npart nprof nbins x) (wf : ℕ → ℕ → K) (niter : ℕ) {st : RState K}
    (h : (run sqrt npart nprof nbins x wf niter).2 = .ok st) :
    ∃ r : ℕ → ℕ → K, st.flatRec = flat nprof nbins r ∧
      (run sqrt npart nprof nbins (fun i p => nbins - 1 - x i p) (fun p b => wf p (nbins - 1 - b)) niter).2
        = .ok ⟨st.weights, flat nprof nbins fun p b => r p (nbins - 1 - b), st.discr⟩ := by
  obtain ⟨r, h1, h2⟩ := (C94_profiles_and_bins sqrt hp hb hx wf niter (Equiv.refl ℕ) (fun _ => Iff.rfl) (fun _ => mirror nbins)
    (fun _ b => mirror_lt nbins b)).2.1 st h
  refine ⟨r, h1, ?_⟩
  have ex : xbuf npart nprof (fun i p => nbins - 1 - x i p) = xbuf npart nprof fun i p => mirror nbins (x i p) := by
    unfold xbuf
    apply flat_congr
    intro i p hi hp
    show ((nbins - 1 - x i p : ℕ) : Int) = ((mirror nbins (x i p) : ℕ) : Int)
    rw [mirror_of_lt (hx i hi p hp)]
  have ef : ∀ f : ℕ → ℕ → K, (flat nprof nbins fun p b => f p (nbins - 1 - b))
      = flat nprof nbins fun p b => f p ((mirror nbins).symm b) := by
    intro f
    apply flat_congr
    intro p b _ hb
    show _ = f p (mirror nbins b)
    rw [mirror_of_lt hb]
  rw [run, ex, ef wf, ef r]
  exact h2

/-- C94: particles that are in the same bin in every profile get the same weight. -/
theorem C94_twins (sqrt : K → K) {npart nprof nbins : ℕ} (hp : 0 < nprof) (hb : 0 < nbins)
    {x : ℕ → ℕ → ℕ} (hx : InRange npart nprof nbins x) (wf : ℕ → ℕ → K) (niter : ℕ) {st : RState K}
    (h : (run sqrt npart nprof nbins x wf niter).2 = .ok st) {i j : ℕ} (hi : i < npart) (hj : j < npart)
    (hij : ∀ p, p < nprof → x i p = x j p) : st.weights[i]? = st.weights[j]? := by
  obtain ⟨_, rfl⟩ := (run_ok_iff sqrt hp hb hx niter st).mp h
  simp only [getElem?_tab, hi, hj, if_true]
  rw [W_twin true wf hij]

/-- exchange the two profiles, and the two bins of the profile that is then the first -/
def swap2 : ℕ → Equiv.Perm ℕ := fun p => if p = 0 then Equiv.swap 0 1 else Equiv.refl ℕ

-- two profiles exchanged, in one of them the bins exchanged: same weights, waterfall moved along
example : ((run (id : ℚ → ℚ) 3 2 2 x3 wf3 1).2.toOption.map fun s => (s.weights, s.flatRec))
      = some ([1321/510, 0, 77/1020], [3642/3739, 97/3739, 3422/3739, 317/3739]) ∧
    ((run (id : ℚ → ℚ) 3 2 2 (fun i p => swap2 p (x3 i (Equiv.swap 0 1 p)))
        (fun p b => wf3 (Equiv.swap 0 1 p) ((swap2 p).symm b)) 1).2.toOption.map fun s => (s.weights, s.flatRec))
      = some ([1321/510, 0, 77/1020], [317/3739, 3422/3739, 3642/3739, 97/3739]) := by decide +kernel

/-- `x3` with its last particle twice -/
def x4 : ℕ → ℕ → ℕ := fun i p => if i = 0 then 0 else if i = 1 then p else 1

-- twins
example : (run (id : ℚ → ℚ) 4 2 2 x4 wf3 2).2.toOption.map (·.weights)
    = some [918207/269230, 0, 8097/82840, 8097/82840] := by decide +kernel

/-! ## C95 -/

/-- C95: a particle that is only found in bins without signal, in all profiles, ends with weight zero. -/
theorem C95_dark_particles (sqrt : K → K) {npart nprof nbins : ℕ} (hp : 0 < nprof) (hb : 0 < nbins)
    {x : ℕ → ℕ → ℕ} (hx : InRange npart nprof nbins x) (wf : ℕ → ℕ → K) (niter : ℕ) {st : RState K}
    (h : (run sqrt npart nprof nbins x wf niter).2 = .ok st) {i : ℕ} (hi : i < npart)
    (hd : ∀ p, p < nprof → wf p (x i p) ≤ 0) : st.weights[i]? = some 0 := by
  obtain ⟨hg, rfl⟩ := (run_ok_iff sqrt hp hb hx niter st).mp h
  simp only [getElem?_tab, hi, if_true]
  rw [W_dark hx hd (fun m hm => hg m (by omega))]

/-- C95 for the python reference: if `k` iterations reproduce the measured waterfall exactly, every larger number of iterations
succeeds, returns the same weights and the same waterfall, and the history is `sqrt 0` from entry `k` on. -/
theorem C95_kept_hybrid (sqrt : K → K) {npart nprof nbins : ℕ} (hn : 0 < npart) (hp : 0 < nprof)
    {x : ℕ → ℕ → ℕ} (hx : InRange npart nprof nbins x) (wf : ℕ → ℕ → K) (k : ℕ) {st : RState K}
    (h : hybrid sqrt npart nprof nbins x wf k = .ok st) (hrec : st.flatRec = flat nprof nbins wf) (n : ℕ) :
    ∃ st', hybrid sqrt npart nprof nbins x wf (k + n) = .ok st' ∧ st'.weights = st.weights ∧ st'.flatRec = flat nprof nbins wf ∧
      ∀ m, k ≤ m → m ≤ k + n → st'.discr[m]? = some (sqrt 0) := by
  obtain ⟨hg, rfl⟩ := (hybrid_ok_iff sqrt hn hp hx k st).mp h
  have hr : ∀ p b, p < nprof → b < nbins → R false npart nprof nbins x wf (k + 1) p b = wf p b :=
    fun p b hp hb => flat_inj hrec p b hp hb
  have hf := fix_hybrid hx hr
  refine ⟨_, (hybrid_ok_iff sqrt hn hp hx (k + n) _).mpr ⟨good_of_const hg (fun n => (hf n).1) n, rfl⟩, ?_, ?_, ?_⟩
  · exact tab_congr fun i hi => (hf n).1 i hi
  · exact flat_congr fun p b hp hb => (hf n).2 p b hp hb
  · intro m h1 h2
    obtain ⟨d, rfl⟩ := Nat.exists_eq_add_of_le h1
    simp only [getElem?_tab]
    rw [if_pos (by omega), msq_zero (hf d).2]

/-- C95 for the C++ routine, the part that holds: if `k` iterations and `k + 1` iterations both reproduce the measured waterfall
exactly, every larger number of iterations returns the same weights and the same waterfall.  Missing: one exact reproduction
is not enough (see below). -/
theorem C95_kept_cpp_partial (sqrt : K → K) {npart nprof nbins : ℕ} (hp : 0 < nprof) (hb : 0 < nbins)
    {x : ℕ → ℕ → ℕ} (hx : InRange npart nprof nbins x) (wf : ℕ → ℕ → K) (k : ℕ) {st s1 : RState K}
    (h : (run sqrt npart nprof nbins x wf k).2 = .ok st) (hrec : st.flatRec = flat nprof nbins wf)
    (h1 : (run sqrt npart nprof nbins x wf (k + 1)).2 = .ok s1) (hrec1 : s1.flatRec = flat nprof nbins wf) (n : ℕ) :
    ∃ st', (run sqrt npart nprof nbins x wf (k + n)).2 = .ok st' ∧ st'.weights = st.weights ∧
      st'.flatRec = flat nprof nbins wf ∧ ∀ m, k ≤ m → m ≤ k + n → st'.discr[m]? = some (sqrt 0) := by
  obtain ⟨hg, rfl⟩ := (run_ok_iff sqrt hp hb hx k st).mp h
  obtain ⟨_, rfl⟩ := (run_ok_iff sqrt hp hb hx (k + 1) s1).mp h1
  have hf := fix_cpp hx (fun p b hp hb => flat_inj hrec p b hp hb) (fun p b hp hb => flat_inj hrec1 p b hp hb)
  refine ⟨_, (run_ok_iff sqrt hp hb hx (k + n) _).mpr ⟨good_of_const hg (fun n => (hf n).1) n, rfl⟩, ?_, ?_, ?_⟩
  · exact tab_congr fun i hi => (hf n).1 i hi
  · exact flat_congr fun p b hp hb => (hf n).2 p b hp hb
  · intro m h1 h2
    obtain ⟨d, rfl⟩ := Nat.exists_eq_add_of_le h1
    simp only [getElem?_tab]
    rw [if_pos (by omega), msq_zero (hf d).2]

-- three bins, nothing measured in the last: its particle has no weight; the data are reproduced exactly and stay so
example : (run (id : ℚ → ℚ) 3 2 3 (fun i _ => i) (fun _ b => if b = 2 then 0 else 1/2) 2).2.toOption.map
    (fun s => (s.weights, s.flatRec, s.discr)) = some ([1, 1, 0], [1/2, 1/2, 0, 1/2, 1/2, 0], [0, 0, 0]) := by decide +kernel

/-- one particle in bin 0, three in bin 1, one profile -/
def x13 : ℕ → ℕ → ℕ := fun i _ => if i = 0 then 0 else 1

theorem x13_inRange : InRange 4 1 2 x13 := by
  intro i _ p _; unfold x13; split <;> omega

/-- C95 violated: one flat profile of two bins, one particle in the first and three in the second.  After one iteration the C++
routine reports the discrepancy `sqrt 0`, although its weights project to (5/8, 3/8) instead of (1/2, 1/2); the second
iteration then moves away from the data again, to (7/12, 5/12).  For every square root function. -/
theorem C95_violated_zero_discrepancy (sqrt : ℚ → ℚ) :
    ∃ s t : RState ℚ, (run sqrt 4 1 2 x13 wfHalf 1).2 = .ok s ∧ (run sqrt 4 1 2 x13 wfHalf 2).2 = .ok t ∧
      s.flatRec = flat 1 2 wfHalf ∧ s.discr[1]? = some (sqrt 0) ∧ s.weights = [5/4, 1/4, 1/4, 1/4] ∧
      t.weights = s.weights ∧ t.flatRec = [7/12, 5/12] ∧ t.discr[2]? = some (sqrt (1/144)) := by
  have g : Good true 4 1 2 x13 wfHalf 2 := by
    intro m hm
    interval_cases m <;> decide +kernel
  refine ⟨_, _, (run_ok_iff sqrt (by norm_num) (by norm_num) x13_inRange 1 _).mpr ⟨fun m hm => g m (by omega), rfl⟩,
    (run_ok_iff sqrt (by norm_num) (by norm_num) x13_inRange 2 _).mpr ⟨g, rfl⟩, ?_, ?_, ?_, ?_, ?_, ?_⟩
  · dsimp only; decide +kernel
  · have : msq true 4 1 2 x13 wfHalf 1 = 0 := by decide +kernel
    simp only [getElem?_tab]
    rw [this]; rfl
  · dsimp only; decide +kernel
  · dsimp only; decide +kernel
  · dsimp only; decide +kernel
  · have : msq true 4 1 2 x13 wfHalf 2 = 1/144 := by decide +kernel
    simp only [getElem?_tab]
    rw [this]; rfl

/-! ## C05 -/

/-- C05: for a normalised waterfall (as every `Tomography` object holds, C12) with a monotone square root, no entry of the history
exceeds `sqrt (2 / nbins)`. -/
theorem C05_bound (sqrt : K → K) (hs : ∀ a b, 0 ≤ a → a ≤ b → sqrt a ≤ sqrt b) {npart nprof nbins : ℕ} (hp : 0 < nprof)
    (hb : 0 < nbins) {x : ℕ → ℕ → ℕ} (hx : InRange npart nprof nbins x) (wf : ℕ → ℕ → K)
    (h0 : ∀ p b, p < nprof → b < nbins → 0 ≤ wf p b) (h1 : ∀ p, p < nprof → ∑ b ∈ range nbins, wf p b = 1) (niter : ℕ)
    {st : RState K} (h : (run sqrt npart nprof nbins x wf niter).2 = .ok st) : ∀ d ∈ st.discr, d ≤ sqrt (2 / (nbins : K)) := by
  obtain ⟨hg, rfl⟩ := (run_ok_iff sqrt hp hb hx niter st).mp h
  intro d hd
  obtain ⟨m, hm, rfl⟩ := List.mem_iff_getElem.mp hd
  simp only [length_tab] at hm
  rw [getElem_tab]
  have hR := R_nonneg_rowSum (keep := true) (wf := wf) hx (k := m + 1) (Or.inr fun k hk => hg k (by omega))
  refine hs _ _ ?_ (meanSquare_le hp hb h0 h1 (fun p b _ _ => hR.1 p b) (fun p hp => by rw [hR.2 p hp, if_neg (by omega)]))
  exact div_nonneg (sum_nonneg fun p _ => sum_nonneg fun b _ => sq_nonneg _) (Nat.cast_nonneg _)

end Verif.Props

import Verif.Spec.Union
import Verif.Props.Multi
import Verif.Props.Converge
import Mathlib.Tactic.IntervalCases

/-!
# C123 — a multi-bunch reconstruction is the single-bunch reconstruction of all particles together

`unionCloud S` (`Spec/Union.lean`) is the cloud of all bunches.  When no particle is cut away the two routines differ only in the test
for "all weights zero", which looks at the first bunch alone.
-/

set_option linter.unusedSectionVars false

namespace Verif.Props
open Finset Verif.Spec Verif.Recon Verif.Multi

variable {K : Type} [Field K] [LinearOrder K] [IsStrictOrderedRing K]

theorem union_div {nc n j : ℕ} (h : j < nc * n) : j / n < nc ∧ j % n < n := by
  have hn : 0 < n := Nat.pos_of_ne_zero (by rintro rfl; simp at h)
  exact ⟨(Nat.div_lt_iff_lt_mul hn).mpr h, Nat.mod_lt _ hn⟩

theorem union_inRange {S : Setup} (h : S.Ok) : InRange (S.nc * S.npart) S.nprof S.nbins (unionCloud S) := by
  intro j hj p hp
  obtain ⟨hc, hi⟩ := union_div hj
  have := h.image _ hc _ hi p hp
  unfold unionCloud moved
  omega

theorem union_count (S : Setup) : count (S.nc * S.npart) (unionCloud S) = countAll S.nc S.npart S.x S.ctr := by
  funext p b
  have hs : ((count (S.nc * S.npart) (unionCloud S) p b : ℕ) : ℚ) = (countAll S.nc S.npart S.x S.ctr p b : ℕ) := by
    unfold countAll count
    push_cast [Finset.card_filter]
    exact sum_flat_range S.nc S.npart fun c i => if moved S.x (S.ctr c) i p = b then (1 : ℚ) else 0
  exact_mod_cast hs

theorem union_recip (S : Setup) :
    recip K (S.nc * S.npart) S.nprof S.nbins (unionCloud S) = recipAll K S.nc S.npart S.nprof S.nbins S.x S.ctr := by
  funext p b
  unfold recipAll recip maxAll maxCount
  rw [union_count]

theorem union_proj (S : Setup) (w : ℕ → ℕ → K) (v : ℕ → K) (h : ∀ j, j < S.nc * S.npart → v j = w (j / S.npart) (j % S.npart)) :
    proj (S.nc * S.npart) (unionCloud S) v = projAll S.nc S.npart S.x S.ctr w := by
  funext p b
  unfold projAll proj
  rw [← sum_flat_range S.nc S.npart fun c i => if moved S.x (S.ctr c) i p = b then w c i else 0]
  apply Finset.sum_congr rfl
  intro j hj
  rw [h j (mem_range.mp hj)]
  rfl

theorem union_back {S : Setup} (hin : AllInside S) (f : ℕ → ℕ → K) {j : ℕ} (hj : j < S.nc * S.npart) :
    backProj S.nprof (unionCloud S) f j = backAll S.nprof S.x S.ctr S.cl S.cr f (j / S.npart) (j % S.npart) := by
  obtain ⟨hc, hi⟩ := union_div hj
  unfold backAll
  rw [if_pos (hin _ hc _ hi)]
  rfl

theorem union_seq {S : Setup} (hin : AllInside S) {wf : ℕ → ℕ → K} (hpos : ∀ p b, 0 ≤ wf p b) (k : ℕ) :
    (∀ j, j < S.nc * S.npart → W true (S.nc * S.npart) S.nprof S.nbins (unionCloud S) wf k j = WM S wf k (j / S.npart) (j % S.npart)) ∧
    R true (S.nc * S.npart) S.nprof S.nbins (unionCloud S) wf k = RM S wf k := by
  induction k with
  | zero =>
    refine ⟨?_, rfl⟩
    intro j hj
    show max (backProj S.nprof (unionCloud S) wf j) 0 = backAll S.nprof S.x S.ctr S.cl S.cr wf (j / S.npart) (j % S.npart)
    rw [max_eq_left (show 0 ≤ backProj S.nprof (unionCloud S) wf j from sum_nonneg fun p _ => hpos _ _), union_back hin wf hj]
  | succ k ih =>
    obtain ⟨ih1, ih2⟩ := ih
    have hR : R true (S.nc * S.npart) S.nprof S.nbins (unionCloud S) wf (k + 1) = RM S wf (k + 1) := by
      rw [RM_succ, R_succ, ih2, union_proj S (WM S wf k) _ ih1]
      rfl
    refine ⟨?_, hR⟩
    intro j hj
    show max (W true (S.nc * S.npart) S.nprof S.nbins (unionCloud S) wf k j + backProj S.nprof (unionCloud S)
      (fun p b => (wf p b - R true (S.nc * S.npart) S.nprof S.nbins (unionCloud S) wf (k + 1) p b) *
        recip K (S.nc * S.npart) S.nprof S.nbins (unionCloud S) p b) j) 0 = _
    rw [ih1 j hj, union_back hin _ hj, hR, union_recip]
    rfl

theorem union_good {S : Setup} (h : S.Ok) (hin : AllInside S) {wf : ℕ → ℕ → K} (hpos : ∀ p b, 0 ≤ wf p b) {k : ℕ} (hg : GoodM S wf k) :
    Good true (S.nc * S.npart) S.nprof S.nbins (unionCloud S) wf k := by
  intro m hm
  rw [Finset.sum_congr rfl fun j hj => (union_seq hin hpos m).1 j (mem_range.mp hj), sum_flat_range S.nc S.npart (WM S wf m)]
  refine lt_of_lt_of_le (hg m hm) ?_
  exact Finset.single_le_sum (f := fun c => ∑ i ∈ range S.npart, WM S wf m c i)
    (fun c _ => sum_nonneg fun i _ => WM_nonneg hpos m c i) (mem_range.mpr h.nc)

theorem union_out {S : Setup} (sqrt : K → K) (hin : AllInside S) {wf : ℕ → ℕ → K} (hpos : ∀ p b, 0 ≤ wf p b) (niter : ℕ) :
    (⟨(outM sqrt S wf niter).weights, (outM sqrt S wf niter).flatRec, (outM sqrt S wf niter).discr⟩ : RState K)
      = ⟨tab (S.nc * S.npart) (W true (S.nc * S.npart) S.nprof S.nbins (unionCloud S) wf niter),
        flat S.nprof S.nbins (R true (S.nc * S.npart) S.nprof S.nbins (unionCloud S) wf (niter + 1)),
        tab (niter + 1) (fun m => sqrt (msq true (S.nc * S.npart) S.nprof S.nbins (unionCloud S) wf m))⟩ := by
  have h1 : (outM sqrt S wf niter).weights = tab (S.nc * S.npart) (W true (S.nc * S.npart) S.nprof S.nbins (unionCloud S) wf niter) := by
    show flat S.nc S.npart _ = _
    unfold flat
    apply tab_congr
    intro j hj
    exact ((union_seq hin hpos niter).1 j hj).symm
  have h2 : (outM sqrt S wf niter).flatRec
      = flat S.nprof S.nbins (R true (S.nc * S.npart) S.nprof S.nbins (unionCloud S) wf (niter + 1)) := by
    rw [(union_seq hin hpos (niter + 1)).2]; rfl
  have h3 : (outM sqrt S wf niter).discr
      = tab (niter + 1) (fun m => sqrt (msq true (S.nc * S.npart) S.nprof S.nbins (unionCloud S) wf m)) := by
    show tab (niter + 1) (fun m => sqrt (meanSquare S.nprof S.nbins (diffM S wf m))) = _
    apply tab_congr
    intro m _
    unfold diffM msq
    rw [(union_seq hin hpos (m + 1)).2]
  rw [h1, h2, h3]

/-- C123: when no particle is cut away and the multi-bunch routine returns, the single-bunch routine on all particles together returns
the same weights, recreated waterfall and discrepancies, with the same callbacks. -/
theorem C123_union (sqrt : K → K) (junk : K) {S : Setup} (h : S.Ok) (hin : AllInside S) {wf : ℕ → ℕ → K} (hpos : ∀ p b, 0 ≤ wf p b)
    (niter : ℕ) {st : MState K} (hr : (multi sqrt junk S wf niter).2 = .ok st) :
    run sqrt (S.nc * S.npart) S.nprof S.nbins (unionCloud S) wf niter
      = ((multi sqrt junk S wf niter).1, .ok ⟨st.weights, st.flatRec, st.discr⟩) := by
  rcases multi_run sqrt junk h hpos niter with ⟨hg, he⟩ | ⟨_, he⟩ | ⟨f, _, _, _, he⟩
  · rw [multi, he] at hr ⊢
    cases hr
    rcases reconstruct_run sqrt h.nprof h.nbins (union_inRange h) wf niter with ⟨_, ke⟩ | ⟨kg, _⟩ | ⟨f', hf', _, kng, _⟩
    · rw [run, ke, union_out sqrt hin hpos niter]
    · exact absurd (fun m hm => union_good h hin hpos hg m (by omega)) kg
    · exact absurd (fun m hm => union_good h hin hpos hg m (by omega)) kng
  · rw [multi, he] at hr; cases hr
  · rw [multi, he] at hr; cases hr

/-- C123: when the single-bunch routine on all particles returns, the multi-bunch routine returns the same, or gives up because all
weights of the first bunch are zero after some number `k ≤ niter` of iterations: then the single-bunch routine, stopped there, returns
weights that are zero for the first `npart` particles. -/
theorem C123_converse (sqrt : K → K) (junk : K) {S : Setup} (h : S.Ok) (hin : AllInside S) {wf : ℕ → ℕ → K} (hpos : ∀ p b, 0 ≤ wf p b)
    (niter : ℕ) {t : RState K} (hr : (run sqrt (S.nc * S.npart) S.nprof S.nbins (unionCloud S) wf niter).2 = .ok t) :
    (∃ st : MState K, (multi sqrt junk S wf niter).2 = .ok st ∧ (⟨st.weights, st.flatRec, st.discr⟩ : RState K) = t) ∨
    ((multi sqrt junk S wf niter).2 = .error (.exc .allZero) ∧ ∃ k, k ≤ niter ∧ ∃ s : RState K,
      (run sqrt (S.nc * S.npart) S.nprof S.nbins (unionCloud S) wf k).2 = .ok s ∧ ∀ i, i < S.npart → s.weights[i]? = some 0) := by
  obtain ⟨hg, _⟩ := (run_ok_iff sqrt h.nprof h.nbins (union_inRange h) niter t).mp hr
  have stop : ∀ k, k ≤ niter → (∑ i ∈ range S.npart, WM S wf k 0 i) ≤ 0 → ∃ s : RState K,
      (run sqrt (S.nc * S.npart) S.nprof S.nbins (unionCloud S) wf k).2 = .ok s ∧ ∀ i, i < S.npart → s.weights[i]? = some 0 := by
    intro k hk h0
    refine ⟨_, (run_ok_iff sqrt h.nprof h.nbins (union_inRange h) k _).mpr ⟨fun m hm => hg m (by omega), rfl⟩, ?_⟩
    intro i hi
    have hlt : i < S.nc * S.npart := lt_of_lt_of_le hi (Nat.le_mul_of_pos_left _ h.nc)
    have hz := (Finset.sum_eq_zero_iff_of_nonneg fun i _ => WM_nonneg hpos k 0 i).mp
      (le_antisymm h0 (sum_nonneg fun i _ => WM_nonneg hpos k 0 i)) i (mem_range.mpr hi)
    rw [some_tab _ hlt, (union_seq hin hpos k).1 i hlt, Nat.div_eq_of_lt hi, Nat.mod_eq_of_lt hi, hz]
  rcases multi_run sqrt junk h hpos niter with ⟨_, he⟩ | ⟨hg', he⟩ | ⟨f, hf, hg', hng, he⟩
  · have hm : (multi sqrt junk S wf niter).2 = .ok (outM sqrt S wf niter) := by rw [multi, he]
    left
    refine ⟨_, hm, ?_⟩
    rw [C123_union sqrt junk h hin hpos niter hm] at hr
    exact Except.ok.inj hr
  · right
    refine ⟨by rw [multi, he], 0, by omega, stop 0 (by omega) ?_⟩
    by_contra hc
    exact hg' fun m hm => by
      have : m = 0 := by omega
      subst this; exact not_le.mp hc
  · right
    refine ⟨by rw [multi, he], f + 1, by omega, stop (f + 1) (by omega) ?_⟩
    by_contra hc
    exact hng fun m hm => by
      rcases Nat.lt_or_ge m (f + 1) with hl | hl
      · exact hg' m (by omega)
      · have : m = f + 1 := by omega
        subst this; exact not_le.mp hc

/-- C123: what is known of the single-bunch routine holds for the bunches together: with normalised profiles and a particle in every bin
that is not empty, more iterations never lower the total of all weights (C116). -/
theorem C123_total (sqrt : K → K) (junk : K) {S : Setup} (h : S.Ok) (hin : AllInside S) {wf : ℕ → ℕ → K}
    (hpos : ∀ p b, 0 ≤ wf p b) (hw : Profiled S.nprof S.nbins wf) (hc : Covered (S.nc * S.npart) S.nprof S.nbins (unionCloud S) wf)
    {k n : ℕ} {s t : MState K} (h1 : (multi sqrt junk S wf k).2 = .ok s) (h2 : (multi sqrt junk S wf (k + n)).2 = .ok t) :
    s.weights.sum ≤ t.weights.sum := by
  have e1 := congrArg Prod.snd (C123_union sqrt junk h hin hpos k h1)
  have e2 := congrArg Prod.snd (C123_union sqrt junk h hin hpos (k + n) h2)
  exact (C116_total sqrt h.nprof h.nbins (union_inRange h) hw hc e1 e2).1

/-- two bunches of one particle in the bins 0 and 1 -/
def pair : Setup := ⟨2, 1, 1, 2, fun _ _ => 0, fun c => c, fun c => c, fun c => c + 1⟩

/-- C123 is violated when the first bunch is empty: the union is reconstructed, the bunches are not. -/
theorem C123_violated_first_bunch :
    (run id 2 1 2 (unionCloud pair) (fun _ b => if b = 0 then 0 else (1 : ℚ)) 3).2 = .ok ⟨[0, 1], [0, 1], [0, 0, 0, 0]⟩ ∧
    (multi id 0 pair (fun _ b => if b = 0 then 0 else (1 : ℚ)) 3).2 = .error (.exc .allZero) := by
  constructor <;> decide +kernel

/-- one bunch of three particles in bins 0, 1, 1 of the first and 0, 1, 2 of the second profile; bin 2 is cut away -/
def cutAway : Setup := ⟨1, 3, 2, 3, fun i p => if p = 0 then min i 1 else i, fun _ => 0, fun _ => 0, fun _ => 1⟩

/-- C123 is violated for particles that are cut away: they have no weight but are still counted, so the result is not that of the
single-bunch routine on the remaining two particles. -/
theorem C123_violated_cut_away :
    (run id 2 2 3 (fun i _ => i) (fun p b => if b = 2 then 0 else if b = p then (1/4 : ℚ) else 3/4) 1).2.toOption.map (·.weights)
      ≠ (multi id 0 cutAway (fun p b => if b = 2 then 0 else if b = p then (1/4 : ℚ) else 3/4) 1).2.toOption.map (·.weights.take 2) ∧
    (multi id 0 cutAway (fun p b => if b = 2 then 0 else if b = p then (1/4 : ℚ) else 3/4) 1).2.toOption.map (·.weights.drop 2)
      = some [0] := by
  constructor <;> decide +kernel

theorem twoBunches_inside : AllInside twoBunches := by
  intro c hc i hi p _
  have hi : i < 2 := hi
  show (2 * c : ℤ) ≤ (i : ℤ) + 2 * c ∧ (i : ℤ) + 2 * c ≤ 2 * c + 2
  omega

/-- the hypotheses of the C123 theorems, a run that iterates, and the four particles of the union -/
example : twoBunches.Ok ∧ AllInside twoBunches ∧ (∀ p b, 0 ≤ wfB p b) ∧ Profiled 2 4 wfB ∧
    Covered (2 * 2) 2 4 (unionCloud twoBunches) wfB ∧ (List.range 4).map (fun j => unionCloud twoBunches j 0) = [0, 1, 2, 3] ∧
    (multi id 0 twoBunches wfB 2).2.toOption.map (·.weights) = some [3/8, 5/8, 1/2, 1/2] ∧
    (run id (2 * 2) 2 4 (unionCloud twoBunches) wfB 2).2.toOption.map (·.weights) = some [3/8, 5/8, 1/2, 1/2] := by
  refine ⟨twoBunches_ok, twoBunches_inside, wfB_nonneg, ⟨fun p _ b _ => wfB_nonneg p b, by decide +kernel⟩, ?_, by decide +kernel,
    by decide +kernel, by decide +kernel⟩
  intro p hp b hb _
  exact ⟨b, hb, by interval_cases p <;> interval_cases b <;> decide +kernel⟩

/-- the hypotheses of `C123_violated_first_bunch`: every bunch is inside the image and its cuts -/
example : pair.Ok ∧ AllInside pair := by
  refine ⟨⟨by decide, by decide, by decide, ?_, ?_⟩, ?_⟩
  · intro c hc i hi p _
    have hc : c < 2 := hc
    show (0 : ℤ) ≤ ((0 : ℕ) : ℤ) + c ∧ ((0 : ℕ) : ℤ) + c < (2 : ℕ)
    omega
  · intro c _
    show (c : ℤ) < c + 1
    omega
  · intro c _ i _ p _
    show (c : ℤ) ≤ ((0 : ℕ) : ℤ) + c ∧ ((0 : ℕ) : ℤ) + c ≤ c + 1
    omega

end Verif.Props

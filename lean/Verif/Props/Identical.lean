import Verif.Spec.Identical
import Verif.Props.Union
import Mathlib.Algebra.Order.Field.Basic

/-!
# C125 — bunches of the same shape are reconstructed like one bunch

Each bunch of a multi-bunch image gets its share of the weights that the single-bunch routine finds for one bunch alone.
-/

set_option linter.unusedSectionVars false

namespace Verif.Props
open Finset Verif.Spec Verif.Recon Verif.Multi

variable {K : Type} [Field K] [LinearOrder K] [IsStrictOrderedRing K]
variable {S : Setup} {m : ℕ} {a : ℕ → ℕ} {s : ℕ → K} {f wf : ℕ → ℕ → K}

theorem identical_moved (h : Identical S m a s f wf) {c : ℕ} (hc : c < S.nc) (i p : ℕ) : moved S.x (S.ctr c) i p = S.x i p + a c := by
  unfold moved
  rw [h.start c hc]
  omega

theorem identical_other (h : Identical S m a s f wf) {c c' : ℕ} (hc : c < S.nc) (hc' : c' < S.nc) (hne : c' ≠ c) {i p b : ℕ}
    (hi : i < S.npart) (hp : p < S.nprof) (hb : b < m) : moved S.x (S.ctr c') i p ≠ a c + b := by
  rw [identical_moved h hc']
  have := h.cloud i hi p hp
  have := h.apart c hc c' hc' hne.symm
  omega

theorem identical_same (h : Identical S m a s f wf) {c : ℕ} (hc : c < S.nc) (i p b : ℕ) :
    moved S.x (S.ctr c) i p = a c + b ↔ S.x i p = b := by
  rw [identical_moved h hc]
  omega

theorem identical_count (h : Identical S m a s f wf) {c : ℕ} (hc : c < S.nc) {p b : ℕ} (hp : p < S.nprof) (hb : b < m) :
    countAll S.nc S.npart S.x S.ctr p (a c + b) = count S.npart S.x p b := by
  unfold countAll
  rw [Finset.sum_eq_single c]
  · unfold count
    congr 1
    apply Finset.filter_congr
    intro i _
    exact identical_same h hc i p b
  · intro c' hc' hne
    unfold count
    rw [Finset.card_eq_zero, Finset.filter_eq_empty_iff]
    intro i hi
    exact identical_other h hc (mem_range.mp hc') hne (mem_range.mp hi) hp hb
  · intro hn
    exact absurd (mem_range.mpr hc) hn

theorem identical_max (h : Identical S m a s f wf) (hn : 0 < S.nc) :
    maxAll S.nc S.npart S.nprof S.nbins S.x S.ctr = maxCount S.npart S.nprof m S.x := by
  unfold maxAll maxCount
  apply le_antisymm
  · apply Finset.sup_le
    intro p hp
    apply Finset.sup_le
    intro b _
    by_cases hz : countAll S.nc S.npart S.x S.ctr p b = 0
    · rw [hz]; exact Nat.zero_le _
    · have : ∃ c, c < S.nc ∧ ∃ i, i < S.npart ∧ moved S.x (S.ctr c) i p = b := by
        by_contra hno
        apply hz
        unfold countAll
        apply Finset.sum_eq_zero
        intro c hc
        unfold count
        rw [Finset.card_eq_zero, Finset.filter_eq_empty_iff]
        intro i hi e
        exact hno ⟨c, mem_range.mp hc, i, mem_range.mp hi, e⟩
      obtain ⟨c, hc, i, hi, e⟩ := this
      have hx := h.cloud i hi p (mem_range.mp hp)
      rw [identical_moved h hc] at e
      rw [← e, Nat.add_comm, identical_count h hc (mem_range.mp hp) hx]
      exact (Finset.le_sup (f := fun b => count S.npart S.x p b) (mem_range.mpr hx)).trans
        (Finset.le_sup (f := fun p => (range m).sup fun b => count S.npart S.x p b) hp)
  · apply Finset.sup_le
    intro p hp
    apply Finset.sup_le
    intro b hb
    rw [← identical_count h hn (mem_range.mp hp) (mem_range.mp hb)]
    have hb' : a 0 + b ∈ range S.nbins := by
      have := h.image 0 hn
      have := mem_range.mp hb
      exact mem_range.mpr (by omega)
    exact (Finset.le_sup (f := fun b => countAll S.nc S.npart S.x S.ctr p b) hb').trans
      (Finset.le_sup (f := fun p => (range S.nbins).sup fun b => countAll S.nc S.npart S.x S.ctr p b) hp)

theorem identical_recip (h : Identical S m a s f wf) (hn : 0 < S.nc) {c : ℕ} (hc : c < S.nc) {p b : ℕ} (hp : p < S.nprof) (hb : b < m) :
    recipAll K S.nc S.npart S.nprof S.nbins S.x S.ctr p (a c + b) = recip K S.npart S.nprof m S.x p b := by
  unfold recipAll recip
  rw [identical_max h hn, identical_count h hc hp hb]

theorem identical_proj (h : Identical S m a s f wf) {w : ℕ → ℕ → K} {v : ℕ → K}
    (hw : ∀ c, c < S.nc → ∀ i, i < S.npart → w c i = s c * v i) {c : ℕ} (hc : c < S.nc) {p b : ℕ} (hp : p < S.nprof) (hb : b < m) :
    projAll S.nc S.npart S.x S.ctr w p (a c + b) = s c * proj S.npart S.x v p b := by
  unfold projAll
  rw [Finset.sum_eq_single c]
  · unfold proj
    rw [Finset.mul_sum]
    apply Finset.sum_congr rfl
    intro i hi
    rw [hw c hc i (mem_range.mp hi), mul_ite, mul_zero]
    exact if_congr (identical_same h hc i p b) rfl rfl
  · intro c' hc' hne
    unfold proj
    apply Finset.sum_eq_zero
    intro i hi
    rw [if_neg (identical_other h hc (mem_range.mp hc') hne (mem_range.mp hi) hp hb)]
  · intro hn
    exact absurd (mem_range.mpr hc) hn

theorem identical_back (h : Identical S m a s f wf) {g g' : ℕ → ℕ → K} {c : ℕ} (hc : c < S.nc)
    (hg : ∀ p, p < S.nprof → ∀ b, b < m → g p (a c + b) = s c * g' p b) {i : ℕ} (hi : i < S.npart) :
    backAll S.nprof S.x S.ctr S.cl S.cr g c i = s c * backProj S.nprof S.x g' i := by
  unfold backAll
  rw [if_pos (h.inside c hc i hi)]
  unfold backProj
  rw [Finset.mul_sum]
  apply Finset.sum_congr rfl
  intro p hp
  have hp := mem_range.mp hp
  rw [identical_moved h hc, Nat.add_comm, hg p hp _ (h.cloud i hi p hp)]

/-- what holds after `k` iterations -/
def Shared (S : Setup) (m : ℕ) (a : ℕ → ℕ) (s : ℕ → K) (f wf : ℕ → ℕ → K) (k : ℕ) : Prop :=
  (∀ c, c < S.nc → ∀ i, i < S.npart → WM S wf k c i = s c * W true S.npart S.nprof m S.x f k i) ∧
  ∀ c, c < S.nc → ∀ p, p < S.nprof → ∀ b, b < m → RM S wf k p (a c + b) = s c * R true S.npart S.nprof m S.x f k p b

theorem shared_total (h : Identical S m a s f wf) {k : ℕ} (hs : Shared S m a s f wf k) :
    ∑ c ∈ range S.nc, ∑ i ∈ range S.npart, WM S wf k c i = ∑ i ∈ range S.npart, W true S.npart S.nprof m S.x f k i := by
  have : ∀ c ∈ range S.nc, ∑ i ∈ range S.npart, WM S wf k c i = s c * ∑ i ∈ range S.npart, W true S.npart S.nprof m S.x f k i := by
    intro c hc
    rw [Finset.mul_sum]
    exact Finset.sum_congr rfl fun i hi => hs.1 c (mem_range.mp hc) i (mem_range.mp hi)
  rw [Finset.sum_congr rfl this, ← Finset.sum_mul, h.shares, one_mul]

theorem shared_first (hn : 0 < S.nc) {k : ℕ} (hs : Shared S m a s f wf k) :
    ∑ i ∈ range S.npart, WM S wf k 0 i = s 0 * ∑ i ∈ range S.npart, W true S.npart S.nprof m S.x f k i := by
  rw [Finset.mul_sum]
  exact Finset.sum_congr rfl fun i hi => hs.1 0 hn i (mem_range.mp hi)

/-- the recreated waterfall after the next projection -/
theorem shared_rec (h : Identical S m a s f wf) (hok : S.Ok) (hpos : ∀ p b, 0 ≤ wf p b) {k : ℕ} (hs : Shared S m a s f wf k)
    (hg : Good true S.npart S.nprof m S.x f k) (hG : GoodM S wf k) :
    ∀ c, c < S.nc → ∀ p, p < S.nprof → ∀ b, b < m →
      RM S wf (k + 1) p (a c + b) = s c * R true S.npart S.nprof m S.x f (k + 1) p b := by
  intro c hc p hp b hb
  have hrow : rowSum S.nbins (fun p b => RM S wf k p b + projAll S.nc S.npart S.x S.ctr (WM S wf k) p b) p
      = rowSum m (fun p b => R true S.npart S.nprof m S.x f k p b + proj S.npart S.x (W true S.npart S.nprof m S.x f k) p b) p := by
    rw [rowSum_add, rowSum_add, rowSum_projAll hok _ hp, rowSum_proj h.cloud _ hp, shared_total h hs]
    congr 1
    rcases k with _ | k
    · show ∑ _ ∈ range S.nbins, (0 : K) = ∑ _ ∈ range m, (0 : K)
      simp
    · have h1 := rowSum_RM hok hpos (k := k) (fun j hj => hG j (by omega)) hp
      have h2 := (R_nonneg_rowSum (keep := true) (wf := f) h.cloud (k := k + 1) (Or.inr fun j hj => hg j (by omega))).2 p hp
      rw [if_neg (by omega)] at h2
      rw [h1]
      exact h2.symm
  rw [RM_succ, R_succ]
  show (RM S wf k p (a c + b) + projAll S.nc S.npart S.x S.ctr (WM S wf k) p (a c + b)) / _ =
    s c * ((R true S.npart S.nprof m S.x f k p b + proj S.npart S.x (W true S.npart S.nprof m S.x f k) p b) / _)
  rw [hrow, hs.2 c hc p hp b hb, identical_proj h hs.1 hc hp hb, ← mul_add, mul_div_assoc]
  rfl

theorem shared_all (h : Identical S m a s f wf) (hok : S.Ok) (hpos : ∀ p b, 0 ≤ wf p b) (hf : ∀ p b, 0 ≤ f p b) {k : ℕ}
    (hg : k = 0 ∨ Good true S.npart S.nprof m S.x f (k - 1)) :
    Shared S m a s f wf k ∧ (k = 0 ∨ GoodM S wf (k - 1)) := by
  induction k with
  | zero =>
    refine ⟨⟨?_, ?_⟩, Or.inl rfl⟩
    · intro c hc i hi
      show backAll S.nprof S.x S.ctr S.cl S.cr wf c i = s c * max (backProj S.nprof S.x f i) 0
      rw [identical_back h hc (fun p hp b hb => h.data c hc p hp b hb) hi,
        max_eq_left (show 0 ≤ backProj S.nprof S.x f i from sum_nonneg fun p _ => hf _ _)]
    · intro c hc p hp b hb
      show (0 : K) = s c * 0
      rw [mul_zero]
  | succ k ih =>
    have hg' : Good true S.npart S.nprof m S.x f k := by simpa using hg
    obtain ⟨hs, hG⟩ := ih (by
      rcases Nat.eq_zero_or_pos k with h0 | h0
      · exact Or.inl h0
      · exact Or.inr fun j hj => hg' j (by omega))
    have hG' : GoodM S wf k := by
      intro j hj
      rcases Nat.lt_or_ge j k with hl | hl
      · rcases hG with h0 | h0
        · omega
        · exact h0 j (by omega)
      · have : j = k := by omega
        subst this
        rw [shared_first hok.nc hs]
        exact mul_pos h.first (hg' j le_rfl)
    have hR := shared_rec h hok hpos hs hg' hG'
    refine ⟨⟨?_, hR⟩, Or.inr (by simpa using hG')⟩
    intro c hc i hi
    show max (WM S wf k c i + backAll S.nprof S.x S.ctr S.cl S.cr
      (fun p b => (wf p b - RM S wf (k + 1) p b) * recipAll K S.nc S.npart S.nprof S.nbins S.x S.ctr p b) c i) 0 =
      s c * max (W true S.npart S.nprof m S.x f k i + backProj S.nprof S.x
        (fun p b => (f p b - R true S.npart S.nprof m S.x f (k + 1) p b) * recip K S.npart S.nprof m S.x p b) i) 0
    rw [hs.1 c hc i hi, identical_back h hc (g' := fun p b => (f p b - R true S.npart S.nprof m S.x f (k + 1) p b) *
      recip K S.npart S.nprof m S.x p b) (by
        intro p hp b hb
        rw [h.data c hc p hp b hb, hR c hc p hp b hb, identical_recip h hok.nc hc hp hb]
        ring) hi, ← mul_add, mul_max_of_nonneg _ _ (h.share c), mul_zero]

/-- C125: bunches of the same shape, apart from each other: if the single-bunch routine returns for one bunch alone, the multi-bunch
routine returns for all, every particle of bunch `c` has the share `s c` of its weight in the single bunch, and so has every bin of the
bunch in the recreated waterfall. -/
theorem C125_shares (sqrt : K → K) (junk : K) (h : Identical S m a s f wf) (hok : S.Ok) (hm : 0 < m) (hpos : ∀ p b, 0 ≤ wf p b)
    (hf : ∀ p b, 0 ≤ f p b) (niter : ℕ) {t : RState K} (hr : (run sqrt S.npart S.nprof m S.x f niter).2 = .ok t) :
    ∃ (u : MState K) (w : ℕ → K) (r q : ℕ → ℕ → K), (multi sqrt junk S wf niter).2 = .ok u ∧ t.weights = tab S.npart w ∧
      t.flatRec = flat S.nprof m r ∧ u.weights = flat S.nc S.npart (fun c i => s c * w i) ∧ u.flatRec = flat S.nprof S.nbins q ∧
      ∀ c, c < S.nc → ∀ p, p < S.nprof → ∀ b, b < m → q p (a c + b) = s c * r p b := by
  obtain ⟨hg, rfl⟩ := (run_ok_iff sqrt hok.nprof hm h.cloud niter t).mp hr
  obtain ⟨hs, hG⟩ := shared_all h hok hpos hf (k := niter + 1) (Or.inr hg)
  have hG' : GoodM S wf niter := by simpa using hG
  have hs' := (shared_all h hok hpos hf (k := niter) (by
    rcases Nat.eq_zero_or_pos niter with h0 | h0
    · exact Or.inl h0
    · exact Or.inr fun j hj => hg j (by omega))).1
  rcases multi_run sqrt junk hok hpos niter with ⟨_, he⟩ | ⟨hn, _⟩ | ⟨e, hfe, _, hn, _⟩
  · refine ⟨outM sqrt S wf niter, _, _, _, by rw [multi, he], rfl, rfl, ?_, rfl, hs.2⟩
    show flat S.nc S.npart (WM S wf niter) = _
    exact flat_congr fun c i hc hi => hs'.1 c hc i hi
  · exact absurd (fun j hj => hG' j (by omega)) hn
  · exact absurd (fun j hj => hG' j (by omega)) hn

/-- C125: and if the single-bunch routine gives up, so does the multi-bunch routine. -/
theorem C125_fails (sqrt : K → K) (junk : K) (h : Identical S m a s f wf) (hok : S.Ok) (hm : 0 < m) (hpos : ∀ p b, 0 ≤ wf p b)
    (hf : ∀ p b, 0 ≤ f p b) (niter : ℕ) {e : Fault} (hr : (run sqrt S.npart S.nprof m S.x f niter).2 = .error e) :
    (multi sqrt junk S wf niter).2 = .error (.exc .allZero) ∧ e = .exc .allZero := by
  have stop : ∀ k, k ≤ niter → (k = 0 ∨ Good true S.npart S.nprof m S.x f (k - 1)) → ¬ Good true S.npart S.nprof m S.x f k →
      ¬ GoodM S wf niter := by
    intro k hk hg hng hG
    apply hng
    intro j hj
    have hs := (shared_all h hok hpos hf (k := j) (by
      rcases hg with h0 | h0
      · exact Or.inl (by omega)
      · rcases Nat.eq_zero_or_pos j with h1 | h1
        · exact Or.inl h1
        · exact Or.inr fun i hi => h0 i (by omega))).1
    have := hG j (by omega)
    rw [shared_first hok.nc hs] at this
    exact (mul_pos_iff_of_pos_left h.first).mp this
  have key : ¬ GoodM S wf niter ∧ e = .exc .allZero := by
    rcases reconstruct_run sqrt hok.nprof hm h.cloud f niter with ⟨kg, ke⟩ | ⟨kg, ke⟩ | ⟨g, hg, kg, kng, ke⟩
    · rw [run, ke] at hr; cases hr
    · rw [run, ke] at hr; cases hr
      exact ⟨stop 0 (by omega) (Or.inl rfl) kg, rfl⟩
    · rw [run, ke] at hr; cases hr
      exact ⟨stop (g + 1) (by omega) (Or.inr (by simpa using kg)) kng, rfl⟩
  refine ⟨?_, key.2⟩
  rcases multi_run sqrt junk hok hpos niter with ⟨hG, _⟩ | ⟨_, he⟩ | ⟨g, _, _, _, he⟩
  · exact absurd hG key.1
  · rw [multi, he]
  · rw [multi, he]

/-- one bunch of two bins -/
def fOne : ℕ → ℕ → ℚ := fun p b => if b = 0 then (if p = 0 then 1/8 else 1/4) else (if p = 0 then 7/8 else 3/4)

/-- a quarter of the charge in the first bunch, the rest in the second -/
def wfShares : ℕ → ℕ → ℚ := fun p b => if b < 2 then 1/4 * fOne p b else 3/4 * fOne p (b - 2)

/-- a cloud of three particles that move, two bunches of it -/
def twoClouds : Setup := ⟨2, 3, 2, 4, fun i p => if i = 2 then 1 - p else i, fun c => 2 * c, fun c => 2 * c, fun c => 2 * c + 2⟩

/-- C125 is violated for bunches of different shapes: half of the charge is in each bunch of every profile; the second is flat. After
two iterations its weights are not half of those found for it alone, and the two bunches do not have the same total. -/
theorem C125_violated_shapes :
    (∀ p, p < 2 → wfB p 0 + wfB p 1 = 1/2 ∧ wfB p 2 = 1/2 * (1/2) ∧ wfB p 3 = 1/2 * (1/2)) ∧
    (run id 3 2 2 twoClouds.x (fun _ _ => (1/2 : ℚ)) 2).2.toOption.map (·.weights) = some [31/24, 31/24, 5/12] ∧
    (multi id 0 twoClouds wfB 2).2.toOption.map (·.weights) = some [193/600, 4907/6600, 3151/6600, 556/825, 556/825, 129/550] ∧
    ([193/600, 4907/6600, 3151/6600] : List ℚ).sum ≠ [556/825, 556/825, 129/550].sum := by
  refine ⟨?_, by decide +kernel, by decide +kernel, by decide +kernel⟩
  intro p hp
  interval_cases p <;> decide +kernel

theorem twoClouds_ok : twoClouds.Ok := by
  refine ⟨by decide, by decide, by decide, ?_, ?_⟩
  · intro c hc i hi p hp
    have hc : c < 2 := hc
    have hi : i < 3 := hi
    have hp : p < 2 := hp
    interval_cases c <;> interval_cases i <;> interval_cases p <;> decide
  · intro c _
    show (2 * c : ℤ) < 2 * c + 2
    omega

theorem twoClouds_identical : Identical twoClouds 2 (fun c => 2 * c) (fun c => if c = 0 then 1/4 else 3/4) fOne wfShares := by
  refine ⟨fun c _ => by simp [twoClouds], ?_, ?_, ?_, ?_, ?_, ?_, by norm_num, by decide +kernel⟩
  · intro c hc
    have hc : c < 2 := hc
    show 2 * c + 2 ≤ 4
    omega
  · intro c _ c' _ hne
    omega
  · intro i hi p hp
    have hi : i < 3 := hi
    have hp : p < 2 := hp
    interval_cases i <;> interval_cases p <;> decide
  · intro c hc i hi p hp
    have hc : c < 2 := hc
    have hi : i < 3 := hi
    have hp : p < 2 := hp
    interval_cases c <;> interval_cases i <;> interval_cases p <;> decide
  · intro c hc p hp b hb
    have hc : c < 2 := hc
    have hp : p < 2 := hp
    interval_cases c <;> interval_cases p <;> interval_cases b <;> decide +kernel
  · intro c
    split <;> norm_num

theorem fOne_nonneg (p b : ℕ) : 0 ≤ fOne p b := by
  unfold fOne; split <;> split <;> norm_num

/-- the hypotheses of the C125 theorems, and three iterations: the weights of the bunches are a quarter and three quarters of those of
the single bunch -/
example : Identical twoClouds 2 (fun c => 2 * c) (fun c => if c = 0 then 1/4 else 3/4) fOne wfShares ∧ twoClouds.Ok ∧
    (∀ p b, 0 ≤ wfShares p b) ∧ (∀ p b, 0 ≤ fOne p b) ∧
    (run id 3 2 2 twoClouds.x fOne 3).2.toOption.map (·.weights) = some [239/968, 1107/484, 13/22] ∧
    (multi id 0 twoClouds wfShares 3).2.toOption.map (·.weights)
      = some [239/968/4, 1107/484/4, 13/22/4, 239/968*3/4, 1107/484*3/4, 13/22*3/4] := by
  refine ⟨twoClouds_identical, twoClouds_ok, ?_, fOne_nonneg, by decide +kernel, by decide +kernel⟩
  intro p b
  unfold wfShares
  split
  · exact mul_nonneg (by norm_num) (fOne_nonneg _ _)
  · exact mul_nonneg (by norm_num) (fOne_nonneg _ _)

end Verif.Props

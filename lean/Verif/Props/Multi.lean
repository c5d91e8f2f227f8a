import Verif.Lemmas.MultiRun
import Verif.Lemmas.MultiPy
import Verif.Lemmas.PreProcess
import Verif.Props.Recon

/-!
# C46, C60 — multi-bunch reconstruction

A `Setup` (`Spec/Multi.lean`) holds sizes, cloud, centres and cuts; `Ok` says that every bunch is inside the image and that no cut is
empty.  The waterfall of a `Tomography` object is never negative (C12).
-/

set_option linter.unusedSectionVars false

namespace Verif.Props
open Finset Verif.Spec Verif.Recon Verif.Multi

variable {K : Type} [Field K] [LinearOrder K] [IsStrictOrderedRing K]

/-- `libtomo.reconstruct_multi` -/
abbrev multi (sqrt : K → K) (junk : K) (S : Setup) (wf : ℕ → ℕ → K) (niter : ℕ) : List (ℕ × ℕ) × M (MState K) :=
  reconstructMulti sqrt junk (xbuf S.npart S.nprof S.x) (flat S.nprof S.nbins wf) (tab S.nc S.cl) (tab S.nc S.cr) (tab S.nc S.ctr)
    niter S.nbins S.npart S.nprof S.nc

/-- C46: on success all weights of all bunches are non-negative, particles that leave the cuts of their bunch have weight zero, and
the rows of the recreated waterfall sum to one. The callback is called as in the single-bunch routine. -/
theorem C46_weights (sqrt : K → K) (junk : K) {S : Setup} (h : S.Ok) {wf : ℕ → ℕ → K} (hpos : ∀ p b, 0 ≤ wf p b) (niter : ℕ)
    {st : MState K} (hr : (multi sqrt junk S wf niter).2 = .ok st) :
    (∃ w : ℕ → ℕ → K, st.weights = flat S.nc S.npart w ∧ (∀ c i, 0 ≤ w c i) ∧
      (∀ c i, ¬ Inside S.nprof S.x S.ctr S.cl S.cr c i → w c i = 0) ∧ 0 < ∑ i ∈ range S.npart, w 0 i) ∧
    (∃ r : ℕ → ℕ → K, st.flatRec = flat S.nprof S.nbins r ∧ (∀ p b, 0 ≤ r p b) ∧
      ∀ p, p < S.nprof → ∑ b ∈ range S.nbins, r p b = 1) ∧
    st.discr.length = niter + 1 ∧ st.split.length = (niter + 1) * S.nc ∧
    (multi sqrt junk S wf niter).1 = (tab niter fun k => (k + 1, niter)) ++ [(niter, niter)] := by
  rcases multi_run sqrt junk h hpos niter with ⟨hg, he⟩ | ⟨_, he⟩ | ⟨f, _, _, _, he⟩
  · rw [multi, he] at hr
    cases hr
    refine ⟨⟨_, rfl, WM_nonneg hpos niter, fun c i hn => WM_masked hn niter, hg niter le_rfl⟩,
      ⟨_, rfl, RM_nonneg hpos _, fun p hp => rowSum_RM h hpos hg hp⟩, ?_, ?_, ?_⟩
    · simp [outM]
    · simp [outM]
    · rw [multi, he]; rfl
  · rw [multi, he] at hr; cases hr
  · rw [multi, he] at hr; cases hr

/-- C46: the only failure is the all-zero error: no division by zero, no access outside a buffer. -/
theorem C46_no_other_error (sqrt : K → K) (junk : K) {S : Setup} (h : S.Ok) {wf : ℕ → ℕ → K} (hpos : ∀ p b, 0 ≤ wf p b) (niter : ℕ) :
    (∃ st, (multi sqrt junk S wf niter).2 = .ok st) ∨ (multi sqrt junk S wf niter).2 = .error (.exc .allZero) := by
  rcases multi_run sqrt junk h hpos niter with ⟨hg, he⟩ | ⟨_, he⟩ | ⟨f, _, _, _, he⟩
  · exact Or.inl ⟨_, by rw [multi, he]⟩
  · exact Or.inr (by rw [multi, he])
  · exact Or.inr (by rw [multi, he])

/-- C46: the discrepancy of the whole waterfall is its RMS difference from the recreated one (last entry). -/
theorem C46_discrepancy (sqrt : K → K) (junk : K) {S : Setup} (h : S.Ok) {wf : ℕ → ℕ → K} (hpos : ∀ p b, 0 ≤ wf p b) (niter : ℕ)
    {st : MState K} (hr : (multi sqrt junk S wf niter).2 = .ok st) :
    ∃ r : ℕ → ℕ → K, st.flatRec = flat S.nprof S.nbins r ∧
      st.discr[niter]? = some (sqrt (meanSquare S.nprof S.nbins fun p b => wf p b - r p b)) := by
  rcases multi_run sqrt junk h hpos niter with ⟨hg, he⟩ | ⟨_, he⟩ | ⟨f, _, _, _, he⟩
  · rw [multi, he] at hr
    cases hr
    exact ⟨_, rfl, by rw [outM, some_tab _ (by omega)]; rfl⟩
  · rw [multi, he] at hr; cases hr
  · rw [multi, he] at hr; cases hr

/-! ## one bunch -/

/-- one bunch at its own place with cuts that contain the image -/
def single (npart nprof nbins : ℕ) (x : ℕ → ℕ → ℕ) (l r : ℤ) : Setup :=
  ⟨1, npart, nprof, nbins, x, fun _ => 0, fun _ => l, fun _ => r⟩

theorem moved_zero (x : ℕ → ℕ → ℕ) : moved x 0 = x := by
  funext i p; simp [moved]

theorem single_ok {npart nprof nbins : ℕ} (hp : 0 < nprof) (hb : 0 < nbins) {x : ℕ → ℕ → ℕ} (hx : InRange npart nprof nbins x)
    {l r : ℤ} (hl : l ≤ 0) (hr : (nbins : ℤ) ≤ r) : (single npart nprof nbins x l r).Ok := by
  refine ⟨by simp [single], hp, hb, ?_, ?_⟩
  · intro c _ i hi p hpp
    have h1 : x i p < nbins := hx i hi p hpp
    show (0 : ℤ) ≤ (x i p : ℤ) + 0 ∧ (x i p : ℤ) + 0 < (nbins : ℤ)
    omega
  · intro c _
    show l < r
    omega

theorem single_seq {npart nprof nbins : ℕ} {x : ℕ → ℕ → ℕ} (hx : InRange npart nprof nbins x) {l r : ℤ} (hl : l ≤ 0)
    (hr : (nbins : ℤ) ≤ r) {wf : ℕ → ℕ → K} (hpos : ∀ p b, 0 ≤ wf p b) (k : ℕ) :
    (∀ i, i < npart → WM (single npart nprof nbins x l r) wf k 0 i = W true npart nprof nbins x wf k i) ∧
    RM (single npart nprof nbins x l r) wf k = R true npart nprof nbins x wf k := by
  have hin : ∀ i, i < npart → Inside nprof x (fun _ => 0) (fun _ => l) (fun _ => r) 0 i := by
    intro i hi p hp
    have h1 : x i p < nbins := hx i hi p hp
    show l ≤ (x i p : ℤ) + 0 ∧ (x i p : ℤ) + 0 ≤ r
    omega
  have hrec : recipAll K 1 npart nprof nbins x (fun _ => 0) = recip K npart nprof nbins x := by
    have hc : countAll 1 npart x (fun _ => 0) = count npart x := by
      funext p b; simp [countAll, moved_zero]
    funext p b
    unfold recipAll recip maxAll maxCount
    rw [hc]
  have hproj : ∀ (w : ℕ → ℕ → K) (v : ℕ → K), (∀ i, i < npart → w 0 i = v i) →
      projAll 1 npart x (fun _ => 0) w = proj npart x v := by
    intro w v hwv
    funext p b
    unfold projAll
    rw [Finset.sum_range_one, moved_zero]
    unfold proj
    apply Finset.sum_congr rfl
    intro i hi
    rw [hwv i (mem_range.mp hi)]
  have hback : ∀ (f : ℕ → ℕ → K) i, i < npart →
      backAll nprof x (fun _ => 0) (fun _ => l) (fun _ => r) f 0 i = backProj nprof x f i := by
    intro f i hi
    unfold backAll
    rw [if_pos (hin i hi), moved_zero]
  induction k with
  | zero =>
    refine ⟨?_, rfl⟩
    intro i hi
    show backAll nprof x (fun _ => 0) (fun _ => l) (fun _ => r) wf 0 i = max (backProj nprof x wf i) 0
    rw [hback wf i hi, max_eq_left]
    exact sum_nonneg fun p _ => hpos _ _
  | succ k ih =>
    obtain ⟨ih1, ih2⟩ := ih
    have hR : RM (single npart nprof nbins x l r) wf (k + 1) = R true npart nprof nbins x wf (k + 1) := by
      rw [RM_succ, R_succ, ih2]
      have := hproj (WM (single npart nprof nbins x l r) wf k) _ ih1
      show normRows nbins (fun p b => R true npart nprof nbins x wf k p b + projAll 1 npart x (fun _ => 0) _ p b) = _
      rw [this]
      rfl
    refine ⟨?_, hR⟩
    intro i hi
    show max (WM (single npart nprof nbins x l r) wf k 0 i + backAll nprof x (fun _ => 0) (fun _ => l) (fun _ => r)
      (fun p b => (wf p b - RM (single npart nprof nbins x l r) wf (k + 1) p b) * recipAll K 1 npart nprof nbins x (fun _ => 0) p b) 0 i) 0 = _
    rw [ih1 i hi, hback _ i hi, hR, hrec]
    rfl

/-- C46: with one bunch spanning the whole image the routine returns what the single-bunch routine returns (weights, recreated
waterfall, discrepancy), makes the same callbacks and fails in the same way. -/
theorem C46_single_bunch (sqrt : K → K) (junk : K) {npart nprof nbins : ℕ} (hp : 0 < nprof) (hb : 0 < nbins) {x : ℕ → ℕ → ℕ}
    (hx : InRange npart nprof nbins x) {l r : ℤ} (hl : l ≤ 0) (hr : (nbins : ℤ) ≤ r) {wf : ℕ → ℕ → K} (hpos : ∀ p b, 0 ≤ wf p b)
    (niter : ℕ) :
    (multi sqrt junk (single npart nprof nbins x l r) wf niter).1 = (run sqrt npart nprof nbins x wf niter).1 ∧
    (multi sqrt junk (single npart nprof nbins x l r) wf niter).2.map (fun st => (⟨st.weights, st.flatRec, st.discr⟩ : RState K))
      = (run sqrt npart nprof nbins x wf niter).2 := by
  have hok := single_ok hp hb hx hl hr
  have hseq := single_seq hx hl hr hpos
  have hsum : ∀ m, ∑ i ∈ range npart, WM (single npart nprof nbins x l r) wf m 0 i = ∑ i ∈ range npart, W true npart nprof nbins x wf m i :=
    fun m => Finset.sum_congr rfl fun i hi => (hseq m).1 i (mem_range.mp hi)
  have hgood : ∀ k, GoodM (single npart nprof nbins x l r) wf k ↔ Good true npart nprof nbins x wf k := by
    intro k
    unfold GoodM Good
    have : (single npart nprof nbins x l r).npart = npart := rfl
    rw [this]
    simp only [hsum]
  have hout : (⟨(outM sqrt (single npart nprof nbins x l r) wf niter).weights, (outM sqrt (single npart nprof nbins x l r) wf niter).flatRec,
      (outM sqrt (single npart nprof nbins x l r) wf niter).discr⟩ : RState K)
      = ⟨tab npart (W true npart nprof nbins x wf niter), flat nprof nbins (R true npart nprof nbins x wf (niter + 1)),
        tab (niter + 1) (fun m => sqrt (msq true npart nprof nbins x wf m))⟩ := by
    have h1 : (outM sqrt (single npart nprof nbins x l r) wf niter).weights = tab npart (W true npart nprof nbins x wf niter) := by
      show flat 1 npart _ = _
      unfold flat
      rw [Nat.one_mul]
      apply tab_congr
      intro i hi
      rw [Nat.div_eq_of_lt hi, Nat.mod_eq_of_lt hi]
      exact (hseq niter).1 i hi
    have h2 : (outM sqrt (single npart nprof nbins x l r) wf niter).flatRec = flat nprof nbins (R true npart nprof nbins x wf (niter + 1)) := by
      show flat nprof nbins (RM _ wf (niter + 1)) = _
      rw [(hseq (niter + 1)).2]
    have h3 : (outM sqrt (single npart nprof nbins x l r) wf niter).discr = tab (niter + 1) (fun m => sqrt (msq true npart nprof nbins x wf m)) := by
      show tab (niter + 1) (fun m => sqrt (meanSquare nprof nbins (diffM _ wf m))) = _
      apply tab_congr
      intro m _
      unfold diffM msq
      rw [(hseq (m + 1)).2]
    rw [h1, h2, h3]
  rcases multi_run sqrt junk hok hpos niter with ⟨hg, he⟩ | ⟨hg, he⟩ | ⟨f, hf, hg, hng, he⟩ <;>
    rcases reconstruct_run sqrt hp hb hx wf niter with ⟨kg, ke⟩ | ⟨kg, ke⟩ | ⟨f', hf', kg, kng, ke⟩
  · rw [multi, he, run, ke]
    exact ⟨rfl, by rw [← hout]; rfl⟩
  · exact absurd (fun m hm => (hgood niter).mp hg m (by omega)) kg
  · exact absurd (fun m hm => (hgood niter).mp hg m (by omega)) kng
  · exact absurd (fun m hm => (hgood niter).mpr kg m (by omega)) hg
  · rw [multi, he, run, ke]
    exact ⟨rfl, rfl⟩
  · exact absurd (fun m hm => (hgood f').mpr kg m (by omega)) hg
  · exact absurd (fun m hm => (hgood niter).mpr kg m (by omega)) hng
  · exact absurd (fun m hm => (hgood f).mp hg m (by omega)) kg
  · have hff : f = f' := by
      by_contra hne
      rcases Nat.lt_or_gt_of_ne hne with hlt | hlt
      · exact hng fun m hm => (hgood f').mpr kg m (by omega)
      · exact kng fun m hm => (hgood f).mp hg m (by omega)
    subst hff
    rw [multi, he, run, ke]
    exact ⟨rfl, rfl⟩

/-! ## what the object holds -/

/-- C46: the object's `weight_split[c]` are the weights of bunch `c`, and `diff_split[c][k]` is entry `(k, c)` of the routine's table. -/
theorem C46_unpacked (sqrt : K → K) (junk : K) {S : Setup} (h : S.Ok) {wf : ℕ → ℕ → K} (hpos : ∀ p b, 0 ≤ wf p b) (niter : ℕ)
    {st : MState K} (hr : (multi sqrt junk S wf niter).2 = .ok st) :
    ∃ (w : ℕ → ℕ → K) (s : ℕ → ℕ → K) (B : Bunches K), st.weights = flat S.nc S.npart w ∧ st.split = flat (niter + 1) S.nc s ∧
      unpack st niter S.npart S.nc = .ok B ∧ B.weightCombined = st.weights ∧
      B.weightSplit = tab S.nc (fun c => tab S.npart (w c)) ∧ B.diffSplit = tab S.nc (fun c => tab (niter + 1) fun k => s k c) := by
  rcases multi_run sqrt junk h hpos niter with ⟨hg, he⟩ | ⟨_, he⟩ | ⟨f, _, _, _, he⟩
  · rw [multi, he] at hr
    cases hr
    have hd : ∀ (s : ℕ → ℕ → K), ((List.range S.nc).mapM fun c => (List.range (niter + 1)).mapM fun k =>
        rd (flat (niter + 1) S.nc s) ((k * S.nc + c : Nat) : Int)) = .ok (tab S.nc fun c => tab (niter + 1) fun k => s k c) := by
      intro s
      unfold tab
      apply mapM_ok
      intro c hc
      apply mapM_ok
      intro k hk
      exact rd_flat s (by simpa using hk) (by simpa using hc) rfl
    refine ⟨WM S wf niter, fun m c => sqrt (splitMsq S.nprof S.nbins S.cl S.cr (diffM S wf m) c),
      ⟨(outM sqrt S wf niter).discr, tab S.nc (fun c => tab (niter + 1) fun k => sqrt (splitMsq S.nprof S.nbins S.cl S.cr (diffM S wf k) c)),
        (outM sqrt S wf niter).flatRec, (outM sqrt S wf niter).weights,
        (List.range S.nc).map fun i => npRange (outM sqrt S wf niter).weights (i * S.npart) ((i + 1) * S.npart)⟩, rfl, rfl, ?_, rfl, ?_, rfl⟩
    · unfold unpack
      have := hd fun m c => sqrt (splitMsq S.nprof S.nbins S.cl S.cr (diffM S wf m) c)
      rw [outM, this, bind_ok]
      rfl
    · show (List.range S.nc).map _ = _
      unfold tab
      apply List.map_congr_left
      intro c hc
      have hc : c < S.nc := by simpa using hc
      have h1 : (c + 1) * S.npart ≤ S.nc * S.npart := Nat.mul_le_mul_right _ hc
      show ((flat S.nc S.npart (WM S wf niter)).take ((c + 1) * S.npart)).drop (c * S.npart) = tab S.npart (WM S wf niter c)
      unfold flat
      rw [take_tab _ h1, drop_tab _ (Nat.mul_le_mul_right _ (by omega))]
      have h2 : (c + 1) * S.npart - c * S.npart = S.npart := by rw [Nat.succ_mul]; omega
      rw [h2]
      apply tab_congr
      intro i hi
      rw [idx_div hi, idx_mod hi]
  · rw [multi, he] at hr; cases hr
  · rw [multi, he] at hr; cases hr

/-! ## discrepancy of the bunches -/

/-- C46, what is reported for bunch `c` (last iteration): the squares of the samples with flat index strictly between the cuts —
summed over bunches `0 … c` — over `nprof * (right - left)`. -/
theorem C46_split_value_partial (sqrt : K → K) (junk : K) {S : Setup} (h : S.Ok) {wf : ℕ → ℕ → K} (hpos : ∀ p b, 0 ≤ wf p b)
    (niter : ℕ) {st : MState K} (hr : (multi sqrt junk S wf niter).2 = .ok st) :
    ∃ r s : ℕ → ℕ → K, st.flatRec = flat S.nprof S.nbins r ∧ st.split = flat (niter + 1) S.nc s ∧ ∀ c,
      s niter c = sqrt ((∑ a ∈ range (c + 1), ∑ k ∈ range (S.nprof * S.nbins), if (k : ℤ) < S.cr a ∧ S.cl a < (k : ℤ) then
        (wf (k / S.nbins) (k % S.nbins) - r (k / S.nbins) (k % S.nbins)) ^ 2 else 0) / (((S.nprof : ℤ) * (S.cr c - S.cl c) : ℤ) : K)) := by
  rcases multi_run sqrt junk h hpos niter with ⟨hg, he⟩ | ⟨_, he⟩ | ⟨f, _, _, _, he⟩
  · rw [multi, he] at hr
    cases hr
    exact ⟨RM S wf (niter + 1), fun m c => sqrt (splitMsq S.nprof S.nbins S.cl S.cr (diffM S wf m) c), rfl, rfl, fun c => rfl⟩
  · rw [multi, he] at hr; cases hr
  · rw [multi, he] at hr; cases hr

/-- C46, a case in which the value for a bunch is right: one profile, the first bunch, and no difference at the left cut. -/
theorem C46_split_right_partial (nbins l r : ℕ) (hlr : l < r) (hr : r ≤ nbins) (d : ℕ → ℕ → K) (h0 : d 0 l = 0) :
    splitMsq 1 nbins (fun _ => (l : ℤ)) (fun _ => (r : ℤ)) d 0 = meanSquareCut 1 l r d := by
  unfold splitMsq accSquares meanSquareCut
  rw [Finset.sum_range_one, Finset.sum_range_one, Nat.one_mul]
  have h1 : ∑ k ∈ range nbins, (if (k : ℤ) < (r : ℤ) ∧ (l : ℤ) < (k : ℤ) then d (k / nbins) (k % nbins) ^ 2 else 0)
      = ∑ b ∈ Ico l r, d 0 b ^ 2 := by
    rw [← Finset.sum_filter, Finset.sum_eq_sum_Ico_succ_bot hlr, h0]
    have : (range nbins).filter (fun k : ℕ => (k : ℤ) < (r : ℤ) ∧ (l : ℤ) < (k : ℤ)) = Ico (l + 1) r := by
      ext k
      simp only [Finset.mem_filter, Finset.mem_range, Finset.mem_Ico]
      omega
    rw [this, zero_pow (by norm_num), zero_add]
    apply Finset.sum_congr rfl
    intro k hk
    have hk := Finset.mem_Ico.mp hk
    rw [Nat.div_eq_of_lt (by omega), Nat.mod_eq_of_lt (by omega)]
  rw [h1]
  congr 1
  push_cast [Nat.cast_sub hlr.le]
  ring

/-- two bunches of two particles at distance two in an image of four bins, two profiles -/
def twoBunches : Setup := ⟨2, 2, 2, 4, fun i _ => i, fun c => 2 * c, fun c => 2 * c, fun c => 2 * c + 2⟩

theorem twoBunches_ok : twoBunches.Ok := by
  refine ⟨by decide, by decide, by decide, ?_, ?_⟩
  · intro c hc i hi p _
    have hc : c < 2 := hc
    have hi : i < 2 := hi
    show (0 : ℤ) ≤ (i : ℤ) + 2 * c ∧ (i : ℤ) + 2 * c < (4 : ℕ)
    omega
  · intro c _
    show (2 * c : ℤ) < 2 * c + 2
    omega

/-- the first bunch moves, the second does not -/
def wfB : ℕ → ℕ → ℚ := fun p b =>
  if b = 0 then (if p = 0 then 1/8 else 1/4) else if b = 1 then (if p = 0 then 3/8 else 1/4) else 1/4

theorem wfB_nonneg (p b : ℕ) : 0 ≤ wfB p b := by
  unfold wfB; split
  · split <;> norm_num
  · split
    · split <;> norm_num
    · norm_num

/-- C46 is violated for the discrepancy of a bunch: the second bunch is recreated exactly (its mean square is 0) but gets 1/1024; the
first has mean square 1/256 and gets 1/1024 too. (`sqrt` is left out: mean squares.) -/
theorem C46_violated_split :
    ∃ st r, (multi id 0 twoBunches wfB 0).2 = .ok st ∧ st.flatRec = flat 2 4 r ∧ st.split = [1/1024, 1/1024] ∧
      meanSquareCut 2 0 2 (fun p b => wfB p b - r p b) = 1/256 ∧ meanSquareCut 2 2 4 (fun p b => wfB p b - r p b) = 0 := by
  refine ⟨⟨[3/8, 5/8, 1/2, 1/2], [3/16, 5/16, 1/4, 1/4, 3/16, 5/16, 1/4, 1/4], [1/512], [1/1024, 1/1024]⟩,
    fun _ b => if b = 0 then 3/16 else if b = 1 then 5/16 else 1/4, by decide +kernel, by decide +kernel, rfl, ?_, ?_⟩
  · decide +kernel
  · decide +kernel

/-- C46 is violated when the first bunch is empty: the run is given up although the second bunch holds everything. -/
theorem C46_violated_first_bunch :
    Setup.Ok ⟨2, 1, 1, 2, fun _ _ => 0, fun c => c, fun c => c, fun c => c + 1⟩ ∧
    (multi id 0 ⟨2, 1, 1, 2, fun _ _ => 0, fun c => c, fun c => c, fun c => c + 1⟩ (fun _ b => if b = 0 then 0 else (1 : ℚ)) 3).2
      = .error (.exc .allZero) ∧
    backAll 1 (fun _ _ => 0) (fun c => c) (fun c => c) (fun c => c + 1) (fun _ b => if b = 0 then 0 else (1 : ℚ)) 1 0 = 1 := by
  refine ⟨⟨by decide, by decide, by decide, ?_, ?_⟩, by decide +kernel, by decide +kernel⟩
  · intro c hc i hi p _
    have hc : c < 2 := hc
    show (0 : ℤ) ≤ ((0 : ℕ) : ℤ) + c ∧ ((0 : ℕ) : ℤ) + c < (2 : ℕ)
    omega
  · intro c _
    show (c : ℤ) < c + 1
    omega

/-- C46 is violated for particles moved out of the image: although they are outside the cuts of their bunch and the coordinates are
accepted (`InRange`), they are counted and projected — outside the buffer, or into the next profile (bin 0 of profile 1 gets two counts,
one of them from profile 0). -/
theorem C46_violated_memory :
    InRange 2 2 3 (fun i _ => 2 * i) ∧
    (multi id 0 ⟨2, 2, 2, 3, fun i _ => 2 * i, fun c => c, fun c => c, fun _ => 2⟩ (fun _ _ => (1/3 : ℚ)) 1).2 = .error .oob ∧
    countMulti (tab 6 fun _ => (0 : ℚ)) [0, 0, 2, 1] [0, 1] 2 2 3 2 = .ok [1, 1, 1, 2, 2, 1] := by
  refine ⟨?_, by decide +kernel, by decide +kernel⟩
  intro i hi p _
  show 2 * i < 3
  omega

/-- the hypotheses of the C46 theorems, and a run that iterates -/
example : twoBunches.Ok ∧ (∀ p b, 0 ≤ wfB p b) ∧
    ((multi id 0 twoBunches wfB 2).2.map fun st => st.weights.length) = .ok 4 :=
  ⟨twoBunches_ok, wfB_nonneg, by decide +kernel⟩

/-- a particle that is cut away in the second bunch only: x = 0 and 1 with second bunch cut at [2.5, 4] -/
example : ¬ Inside 1 (fun i _ => i) (fun c => 2 * c) (fun c => 3 * c) (fun _ => 4) 1 0 ∧
    Inside 1 (fun i _ => i) (fun c => 2 * c) (fun c => 3 * c) (fun _ => 4) 0 0 := by decide

/-! ## C60 the hybrid implementation -/

/-- C60: the hybrid routine's discrepancy of a bunch is the RMS over the bunch's columns in all profiles. -/
theorem C60_hybrid_split (sqrt : K → K) {nprof nbins : ℕ} (hp : 0 < nprof) (d : ℕ → ℕ → K) (cuts : List (ℤ × ℤ))
    (hc : ∀ c ∈ cuts, 0 ≤ c.1 ∧ c.1 < c.2 ∧ c.2 ≤ nbins) :
    discrepancyMultiPy sqrt (flat nprof nbins d) cuts nprof nbins
      = .ok (cuts.map fun c => sqrt (meanSquareCut nprof c.1.toNat c.2.toNat d)) :=
  discrepancyMultiPy_ok sqrt hp d cuts hc

/-- C60 is violated: on one bunch, one profile, cuts `[0, 2]` the hybrid routine drops the particle on the cut, the C++ routine keeps it. -/
theorem C60_violated_mask :
    ((runHybridMulti id [0, 1] [1/3, (2/3 : ℚ)] [0] [(0, 2)] 1 2 2 1).map fun st => (st.weights, st.flatRec)) = .ok ([[0, 1/3]], [0, 1]) ∧
    ((reconstructMulti id 0 [0, 1] [1/3, (2/3 : ℚ)] [0] [2] [0] 1 2 2 1 1).2.map fun st => (st.weights, st.flatRec))
      = .ok ([1/3, 2/3], [1/3, 2/3]) := by
  exact ⟨by decide +kernel, by decide +kernel⟩

/-- C60 is violated: the hybrid routine hands the coordinates over transposed, so its compensation factors belong to other bins. -/
theorem C60_violated_counts :
    reciprocalMultiPy (α := ℚ) [0, 0, 0, 1, 1, 1] [0] 2 2 3 = .ok [2, 1, 1, 2] ∧
    reciprocalMulti (tab 4 fun _ => (0 : ℚ)) [0, 0, 0, 1, 1, 1] [0] 2 2 3 1 = .ok [1, 2, 2, 1] := by
  exact ⟨by decide +kernel, by decide +kernel⟩

/-- C60, where the two agree on the mask: a bunch that does not touch its cuts. -/
theorem C60_mask_partial {npart nprof : ℕ} (x : ℕ → ℕ → ℕ) (z l r : ℤ)
    (hedge : ∀ i, i < npart → ∀ p, p < nprof → (x i p : ℤ) + z ≠ l ∧ (x i p : ℤ) + z ≠ r) :
    ∃ m : ℕ → Bool, maskPy (xbuf npart nprof x) z (l, r) npart nprof = .ok (tab npart m) ∧
      createMask (xbuf npart nprof x) [z] [l] [r] (tab npart fun _ => true) npart nprof 1 = .ok (tab npart m) := by
  refine ⟨fun i => decide (Inside nprof x (fun _ => z) (fun _ => l) (fun _ => r) 0 i), ?_, ?_⟩
  · unfold maskPy tab
    apply mapM_ok
    intro i hi
    have hi : i < npart := by simpa using hi
    have hrow : ((List.range nprof).mapM fun j => rd (xbuf npart nprof x) ((i * nprof + j : Nat) : Int))
        = .ok ((List.range nprof).map fun j => (x i j : ℤ)) := by
      apply mapM_ok
      intro j hj
      exact rd_flat _ hi (by simpa using hj) rfl
    rw [hrow, bind_ok]
    simp only [pure_eq_ok]
    congr 1
    rw [Bool.eq_iff_iff]
    simp only [List.all_map, List.all_eq_true, List.mem_range, Function.comp, Bool.and_eq_true, decide_eq_true_eq]
    constructor
    · intro h p hp
      have := h p hp
      show l ≤ (x i p : ℤ) + z ∧ (x i p : ℤ) + z ≤ r
      omega
    · intro h p hp
      have h1 : l ≤ (x i p : ℤ) + z ∧ (x i p : ℤ) + z ≤ r := h p hp
      have h2 := hedge i hi p hp
      omega
  · have e := createMask_ok (nc := 1) (npart := npart) (nprof := nprof) x (fun _ => z) (fun _ => l) (fun _ => r)
    have f1 : ∀ (g : ℕ → ℕ → Bool), flat 1 npart g = tab npart (g 0) := by
      intro g
      unfold flat
      rw [Nat.one_mul]
      apply tab_congr
      intro i hi
      rw [Nat.div_eq_of_lt hi, Nat.mod_eq_of_lt hi]
    rw [f1, f1] at e
    exact e

example : ∀ i, i < 3 → ∀ p, p < 2 → ((x3 i p : ℕ) : ℤ) + 1 ≠ 0 ∧ ((x3 i p : ℕ) : ℤ) + 1 ≠ 3 := by decide

end Verif.Props

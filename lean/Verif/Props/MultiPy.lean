import Verif.Lemmas.MultiPy
import Verif.Lemmas.ReconSym
import Verif.Props.Multi

/-!
# C60, C96 — the hybrid multi-bunch routines

`run_hybrid_multi` of the single-bunch class keeps one row of weights per bunch, `run_hybrid` of the multi-bunch class one array for all.
-/

set_option linter.unusedSectionVars false

namespace Verif.Props
open Finset Verif.Spec Verif.Recon Verif.Multi Verif.Tomo

variable {K : Type} [Field K] [LinearOrder K] [IsStrictOrderedRing K]

/-- `TomographyCpp.run_hybrid_multi` -/
abbrev hybridRows (sqrt : K → K) (S : Setup) (wf : ℕ → ℕ → K) (niter : ℕ) : M (HState K) :=
  runHybridMulti sqrt (xbuf S.npart S.nprof S.x) (flat S.nprof S.nbins wf) (tab S.nc S.ctr) (tab S.nc fun c => (S.cl c, S.cr c)) niter
    S.nbins S.npart S.nprof

/-- `tomography_multibunch.Tomography.run_hybrid` -/
abbrev hybridOne (sqrt : K → K) (S : Setup) (wf : ℕ → ℕ → K) (niter : ℕ) : M (FState K) :=
  runHybridFlat sqrt (xbuf S.npart S.nprof S.x) (flat S.nprof S.nbins wf) (tab S.nc S.ctr) (tab S.nc fun c => (S.cl c, S.cr c)) niter
    S.nbins S.npart S.nprof

/-- C96: the two hybrid routines return the same weights (row after row), waterfall and history, and fail together. -/
theorem C96_both_agree (sqrt : K → K) {S : Setup} (h : S.Ok) (hc : CutsIn S) (wf : ℕ → ℕ → K) (niter : ℕ) :
    ((hybridOne sqrt S wf niter).map fun st => (st.weights, st.flatRec, st.discr))
      = (hybridRows sqrt S wf niter).map fun st => (st.weights.flatten, st.flatRec, st.discr) := by
  rcases hybridFlat_run (wf := wf) sqrt h hc niter with ⟨hg, he⟩ | ⟨hg, he⟩ <;>
    rcases hybridMulti_run (wf := wf) sqrt h niter with ⟨hg', he'⟩ | ⟨hg', he'⟩
  · rw [hybridOne, hybridRows, he, he']
    show Except.ok _ = Except.ok _
    simp only [outF, outH, flatten_tab]
  · exact absurd hg hg'
  · exact absurd hg' hg
  · rw [hybridOne, hybridRows, he, he']; rfl

/-- C96: a run succeeds, or raises `WaterfallReducedToZero` and nothing else. On success no weight of any bunch is negative, particles that
are not strictly between the cuts of their bunch weigh nothing, some weight is positive, the recreated waterfall is the normalised
projection of the returned weights, its profiles sum to one, and the last entry of the history is its RMS difference to the measured one. -/
theorem C96_result (sqrt : K → K) {S : Setup} (h : S.Ok) (wf : ℕ → ℕ → K) (niter : ℕ) :
    hybridRows sqrt S wf niter = .error (.exc .waterfallReducedToZero) ∨
    ∃ (w r : ℕ → ℕ → K) (d : ℕ → K),
      hybridRows sqrt S wf niter = .ok ⟨tab S.nc fun c => tab S.npart (w c), flat S.nprof S.nbins r, tab (niter + 1) d⟩ ∧
      (∀ c i, 0 ≤ w c i) ∧ (∀ c i, ¬ Clear S c i → w c i = 0) ∧ 0 < ∑ c ∈ range S.nc, ∑ i ∈ range S.npart, w c i ∧
      r = normRows S.nbins (projAll S.nc S.npart S.x S.ctr w) ∧
      (∀ p, p < S.nprof → ∑ b ∈ range S.nbins, r p b = 1) ∧
      d niter = sqrt (meanSquare S.nprof S.nbins fun p b => wf p b - r p b) := by
  rcases hybridMulti_run (wf := wf) sqrt h niter with ⟨hg, he⟩ | ⟨hg, he⟩
  · exact Or.inr ⟨_, _, _, he, WH_nonneg niter, fun c i hn => WH_masked hn niter, hg niter le_rfl, rfl,
      fun p hp => rowSum_recH h (hg niter le_rfl) hp, rfl⟩
  · exact Or.inl he

/-- C96: with no iteration the run fails exactly when no particle strictly between the cuts of its bunch collects anything. -/
theorem C96_fails_iff (sqrt : K → K) {S : Setup} (h : S.Ok) (wf : ℕ → ℕ → K) :
    hybridRows sqrt S wf 0 = .error (.exc .waterfallReducedToZero) ↔
      ∀ c, c < S.nc → ∀ i, i < S.npart → Clear S c i → backProj S.nprof (moved S.x (S.ctr c)) wf i ≤ 0 := by
  have key : GoodH S wf 0 ↔ ¬ ∀ c, c < S.nc → ∀ i, i < S.npart → Clear S c i → backProj S.nprof (moved S.x (S.ctr c)) wf i ≤ 0 := by
    constructor
    · intro hg hall
      have hg := hg 0 le_rfl
      apply hg.ne'
      apply sum_eq_zero; intro c hc
      apply sum_eq_zero; intro i hi
      show max (backH S wf c i) 0 = 0
      apply max_eq_right
      unfold backH
      split
      · next hs => exact hall c (mem_range.mp hc) i (mem_range.mp hi) hs
      · exact le_rfl
    · intro hn m hm
      obtain rfl : m = 0 := by omega
      push Not at hn
      obtain ⟨c, hc, i, hi, hs, hlt⟩ := hn
      refine lt_of_lt_of_le (b := WH S wf 0 c i) ?_ ?_
      · show 0 < max (backH S wf c i) 0
        rw [backH, if_pos hs]
        exact lt_max_of_lt_left hlt
      · refine le_trans ?_ (single_le_sum (f := fun c => ∑ i ∈ range S.npart, WH S wf 0 c i)
          (fun c _ => sum_nonneg fun i _ => WH_nonneg 0 c i) (mem_range.mpr hc))
        exact single_le_sum (f := fun i => WH S wf 0 c i) (fun i _ => WH_nonneg 0 c i) (mem_range.mpr hi)
  rcases hybridMulti_run (wf := wf) sqrt h 0 with ⟨hg, he⟩ | ⟨hg, he⟩
  · rw [hybridRows, he]
    constructor
    · intro h; cases h
    · intro h; exact absurd h (key.mp hg)
  · rw [hybridRows, he]
    refine ⟨fun _ => ?_, fun _ => rfl⟩
    by_contra hc
    exact hg (key.mpr hc)

/-- C96: the multi-bunch class's history of bunch `c` is, at every iteration, the RMS difference over the columns of its cut, of the same
differences whose RMS over all columns is in `diff`. -/
theorem C96_histories (sqrt : K → K) {S : Setup} (h : S.Ok) (hc : CutsIn S) (wf : ℕ → ℕ → K) (niter : ℕ) {st : FState K}
    (hr : hybridOne sqrt S wf niter = .ok st) :
    ∃ r : ℕ → ℕ → ℕ → K, st.flatRec = flat S.nprof S.nbins (r niter) ∧
      st.discr = (tab (niter + 1) fun k => sqrt (meanSquare S.nprof S.nbins fun p b => wf p b - r k p b)) ∧
      st.split = tab S.nc fun c => tab (niter + 1) fun k =>
        sqrt (meanSquareCut S.nprof (S.cl c).toNat (S.cr c).toNat fun p b => wf p b - r k p b) := by
  rcases hybridFlat_run (wf := wf) sqrt h hc niter with ⟨_, he⟩ | ⟨_, he⟩
  · rw [hybridOne, he] at hr
    cases hr
    exact ⟨fun k => recH S (WH S wf k), rfl, rfl, rfl⟩
  · rw [hybridOne, he] at hr
    cases hr

/-- the hypotheses: two bunches of two particles in two profiles, between cuts of two columns -/
def two : Setup := ⟨2, 2, 2, 6, fun i _ => i, fun c => 1 + 2 * c, fun c => 2 * c, fun c => 3 + 2 * c⟩

example : two.Ok ∧ CutsIn two ∧ OffCuts two :=
  ⟨⟨by decide, by decide, by decide, by unfold InImage; decide, by decide⟩, by unfold CutsIn; decide, by unfold OffCuts; decide⟩

example : ((hybridRows (id : ℚ → ℚ) two (fun p b => if b = 1 then 1/2 else if b = p + 3 then 1/2 else 0) 2).map fun st => st.weights)
    = .ok [[1/2, 0], [1/4, 1/4]] := by decide +kernel

/-! ## C60: agreement with the C++ routine -/

theorem clear_iff_inside {S : Setup} (ho : OffCuts S) {c i : ℕ} (hc : c < S.nc) (hi : i < S.npart) :
    Clear S c i ↔ Inside S.nprof S.x S.ctr S.cl S.cr c i := by
  constructor
  · intro h p hp
    have := h p hp
    exact ⟨this.1.le, this.2.le⟩
  · intro h p hp
    have h1 := h p hp
    have h2 := ho c hc i hi p hp
    constructor <;> omega

/-- C60: without iterations, for a cloud off the cuts, whenever the C++ routine returns the hybrid routine returns the same weights,
waterfall and discrepancy. -/
theorem C60_first_partial (sqrt : K → K) (junk : K) {S : Setup} (h : S.Ok) (hc : CutsIn S) (ho : OffCuts S) {wf : ℕ → ℕ → K}
    (hpos : ∀ p b, 0 ≤ wf p b) {st : MState K} (hr : (multi sqrt junk S wf 0).2 = .ok st) :
    ∃ st', hybridOne sqrt S wf 0 = .ok st' ∧ st'.weights = st.weights ∧ st'.flatRec = st.flatRec ∧ st'.discr = st.discr := by
  have hW : ∀ c, c < S.nc → ∀ i, i < S.npart → WH S wf 0 c i = WM S wf 0 c i := by
    intro c hc i hi
    show max (backH S wf c i) 0 = backAll S.nprof S.x S.ctr S.cl S.cr wf c i
    unfold backH backAll
    by_cases hs : Clear S c i
    · rw [if_pos hs, if_pos ((clear_iff_inside ho hc hi).mp hs)]
      exact max_eq_left (sum_nonneg fun p _ => hpos _ _)
    · rw [if_neg hs, if_neg (fun h => hs ((clear_iff_inside ho hc hi).mpr h)), max_self]
  have hP : projAll S.nc S.npart S.x S.ctr (WH S wf 0) = projAll S.nc S.npart S.x S.ctr (WM S wf 0) := by
    funext p b
    unfold projAll
    exact sum_congr rfl fun c hc => proj_congr (fun i hi => hW c (mem_range.mp hc) i hi) p b
  have hR : recH S (WH S wf 0) = RM S wf 1 := by
    rw [RM_succ, recH, hP]
    congr 1
    funext p b
    exact (zero_add _).symm
  have hg : (multi sqrt junk S wf 0).2 = .ok (outM sqrt S wf 0) ∧ GoodM S wf 0 := by
    rcases multi_run sqrt junk h hpos 0 with ⟨hg, he⟩ | ⟨_, he⟩ | ⟨f, hf, _⟩
    · rw [multi, he]; exact ⟨rfl, hg⟩
    · rw [multi, he] at hr; cases hr
    · omega
  rw [hg.1] at hr
  cases hr
  rcases hybridFlat_run (wf := wf) sqrt h hc 0 with ⟨_, he⟩ | ⟨hb, _⟩
  · refine ⟨_, he, ?_, ?_, ?_⟩
    · exact flat_congr fun c i hc hi => hW c hc i hi
    · simp only [outF, outM, hR]
    · simp only [outF, outM]
      apply tab_congr
      intro m hm
      obtain rfl : m = 0 := by omega
      congr 2
      funext p b
      simp only [diffH, diffM, hR]
  · exfalso
    apply hb
    intro m hm
    obtain rfl : m = 0 := by omega
    have h0 := hg.2 0 le_rfl
    refine h0.trans_le (le_trans ?_ (single_le_sum (f := fun c => ∑ i ∈ range S.npart, WH S wf 0 c i)
      (fun c _ => sum_nonneg fun i _ => WH_nonneg 0 c i) (mem_range.mpr h.nc)))
    exact le_of_eq (sum_congr rfl fun i hi => (hW 0 h.nc i (mem_range.mp hi)).symm)

example : ((multi (id : ℚ → ℚ) 0 two (fun p b => if b = 1 then 1/2 else if b = p + 3 then 1/2 else 0) 0).2.map fun st => st.weights)
    = .ok [1, 0, 1/2, 1/2] := by decide +kernel

/-! ## C60: one bunch spanning the image -/

theorem recip_whole {npart nbins : ℕ} (hn : 0 < npart) {x : ℕ → ℕ → ℕ} (hx : InRange npart 1 nbins x) {p : ℕ} (hp : p < 1) (b : ℕ) :
    recipH (whole npart 1 nbins x) K p b = recip K npart 1 nbins x p b := by
  have hcount : ∀ q, q < 1 → ∀ b, countAll 1 npart (twisted npart 1 x) (fun _ => 0) q b = count npart x q b := by
    intro q hq b
    obtain rfl : q = 0 := by omega
    unfold countAll count
    rw [sum_range_one, moved_zero]
    congr 1
    apply filter_congr
    intro i hi
    have hi := mem_range.mp hi
    unfold twisted
    rw [Nat.mul_one, Nat.add_zero, Nat.mod_eq_of_lt hi, Nat.div_eq_of_lt hi]
  have hmax : maxAll 1 npart 1 nbins (twisted npart 1 x) (fun _ => 0) = maxCount npart 1 nbins x := by
    unfold maxAll maxCount
    apply Finset.sup_congr rfl
    intro q hq
    apply Finset.sup_congr rfl
    intro c _
    exact hcount q (mem_range.mp hq) c
  have hpos := maxCount_pos hn (by omega : 0 < 1) hx
  simp only [recipH, whole, recip]
  rw [hmax, hcount p hp b, max_eq_right hpos]

/-- C60: one bunch that spans the image. With one profile, or without iterations, the hybrid multi-bunch routine does what the hybrid
single-bunch routine does. -/
theorem C60_one_bunch_partial (sqrt : K → K) {npart nprof nbins : ℕ} (hn : 0 < npart) (hp : 0 < nprof) {x : ℕ → ℕ → ℕ}
    (hx : InRange npart nprof nbins x) (wf : ℕ → ℕ → K) {niter : ℕ} (hcase : nprof = 1 ∨ niter = 0) :
    hybridRows sqrt (whole npart nprof nbins x) wf niter
      = (runHybrid sqrt (xbuf npart nprof x) (flat nprof nbins wf) niter nbins npart nprof).map fun st =>
          ⟨[st.weights], st.flatRec, st.discr⟩ := by
  have hb : 0 < nbins := by have := hx 0 hn 0 hp; omega
  have hok : (whole npart nprof nbins x).Ok := by
    refine ⟨by simp [whole], hp, hb, ?_, ?_⟩
    · intro c _ i hi p hp
      have := hx i hi p hp
      simp only [whole]
      omega
    · intro c _
      simp only [whole]
      omega
  have hclear : ∀ i, i < npart → Clear (whole npart nprof nbins x) 0 i := by
    intro i hi p hp
    have := hx i hi p hp
    simp only [whole]
    omega
  have hback : ∀ (f : ℕ → ℕ → K) i, i < npart → backH (whole npart nprof nbins x) f 0 i = backProj nprof x f i := by
    intro f i hi
    rw [backH, if_pos (hclear i hi)]
    show backProj nprof (moved x 0) f i = _
    rw [moved_zero]
  have hrec : ∀ {w : ℕ → ℕ → K} {w' : ℕ → K}, (∀ i, i < npart → w 0 i = w' i) →
      recH (whole npart nprof nbins x) w = normRows nbins (proj npart x w') := by
    intro w w' hw
    have : projAll 1 npart x (fun _ => 0) w = proj npart x w' := by
      funext p b
      unfold projAll
      rw [sum_range_one, moved_zero]
      exact proj_congr hw p b
    show normRows nbins (projAll 1 npart x (fun _ => 0) w) = _
    rw [this]
  have hW : ∀ k, k ≤ niter → ∀ i, i < npart → WH (whole npart nprof nbins x) wf k 0 i = W false npart nprof nbins x wf k i := by
    intro k
    induction k with
    | zero =>
      intro _ i hi
      show max (backH _ wf 0 i) 0 = max (backProj nprof x wf i) 0
      rw [hback wf i hi]
    | succ k ih =>
      intro hk i hi
      have ih := ih (by omega)
      have h1 : nprof = 1 := hcase.resolve_right (by omega)
      subst h1
      show max (WH _ wf k 0 i + backH _ _ 0 i) 0 = max (W false npart 1 nbins x wf k i + backProj 1 x _ i) 0
      rw [hback _ i hi, ih i hi]
      congr 2
      unfold backProj
      apply sum_congr rfl
      intro p hp
      dsimp only
      rw [recip_whole hn hx (mem_range.mp hp), hrec ih]
      simp
  have hR : ∀ k, k ≤ niter → recH (whole npart nprof nbins x) (WH (whole npart nprof nbins x) wf k) = R false npart nprof nbins x wf (k + 1) := by
    intro k hk
    rw [R_false_succ, hrec (hW k hk)]
  have hsum : ∀ k, k ≤ niter → ∑ c ∈ range 1, ∑ i ∈ range npart, WH (whole npart nprof nbins x) wf k c i
      = ∑ i ∈ range npart, W false npart nprof nbins x wf k i := by
    intro k hk
    rw [sum_range_one]
    exact sum_congr rfl fun i hi => hW k hk i (mem_range.mp hi)
  have hgood : GoodH (whole npart nprof nbins x) wf niter ↔ Good false npart nprof nbins x wf niter := by
    constructor
    · intro h m hm
      rw [← hsum m hm]; exact h m hm
    · intro h m hm
      have := h m hm
      rw [← hsum m hm] at this; exact this
  rcases hybridMulti_run (wf := wf) sqrt hok niter with ⟨hg, he⟩ | ⟨hg, he⟩ <;>
    rcases runHybrid_run sqrt hn hp hx wf niter with ⟨hg', he'⟩ | ⟨hg', he'⟩
  · rw [hybridRows, he, he']
    show Except.ok _ = Except.ok _
    congr 1
    have e1 : (tab 1 fun c => tab npart (WH (whole npart nprof nbins x) wf niter c)) = [tab npart (W false npart nprof nbins x wf niter)] := by
      show [tab npart (WH (whole npart nprof nbins x) wf niter 0)] = _
      rw [tab_congr fun i hi => hW niter le_rfl i hi]
    have e2 : (tab (niter + 1) fun m => sqrt (meanSquare nprof nbins (diffH (whole npart nprof nbins x) wf m)))
        = tab (niter + 1) fun m => sqrt (msq false npart nprof nbins x wf m) := by
      apply tab_congr
      intro m hm
      unfold msq
      rw [← hR m (by omega)]
      rfl
    show HState.mk (tab 1 fun c => tab npart (WH (whole npart nprof nbins x) wf niter c)) _ _ = _
    rw [e1, hR niter le_rfl]
    exact congrArg _ e2
  · exact absurd (hgood.mp hg) hg'
  · exact absurd (hgood.mpr hg') hg
  · rw [hybridRows, he, he']; rfl

/-- C60 is violated: one bunch spanning the image, two profiles, three particles, one iteration. The compensation factors belong to other
bins, so the multi-bunch routine drops a particle that the single-bunch routine keeps and reproduces the profiles differently. -/
theorem C60_violated_one_bunch :
    ((runHybridMulti id [0, 0, 0, 1, 1, 1] [1/3, 2/3, 2/3, (1/3 : ℚ)] [0] [(-1, 2)] 1 2 3 2).map fun st => (st.weights, st.flatRec))
      = .ok ([[17/24, 0, 17/24]], [1/2, 1/2, 1/2, 1/2]) ∧
    ((runHybrid id [0, 0, 0, 1, 1, 1] [1/3, 2/3, 2/3, (1/3 : ℚ)] 1 2 3 2).map fun st => (st.weights, st.flatRec))
      = .ok ([31/24, 1/12, 31/24], [33/64, 31/64, 31/64, 33/64]) := by
  exact ⟨by decide +kernel, by decide +kernel⟩

/-- C96 is violated: to keep the particles in bin 0 the left cut has to be -1, since the comparisons are strict; the python slice
`[-1:2]` of the differences is then the last column only, divided by three columns: 49/1728 is reported instead of 49/576. -/
theorem C96_violated_left_cut :
    ((runHybridFlat id [0, 0, 0, 1, 1, 1] [1/3, 2/3, 2/3, (1/3 : ℚ)] [0] [(-1, 2)] 0 2 3 2).map fun st => (st.discr, st.split))
      = .ok ([49/576], [[49/1728]]) := by
  decide +kernel

end Verif.Props

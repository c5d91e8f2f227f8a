import Verif.Lemmas.ReconPerm

/-!
# Reordering the profiles and renaming the bins; twins; empty bins; fixed points (helper lemmas)
-/

set_option linter.unusedSectionVars false

namespace Verif.Recon
open Finset Verif.Spec

variable {K : Type} [Field K] [LinearOrder K] [IsStrictOrderedRing K]

section
variable {nprof nbins : ℕ} (σ : Equiv.Perm ℕ) (hσ : ∀ p, σ p < nprof ↔ p < nprof)
  (τ : ℕ → Equiv.Perm ℕ) (hτ : ∀ p b, τ p b < nbins ↔ b < nbins)

/-- the matrix `f` with profile `σ p` in place `p` and its bin `b` renamed `τ p b` -/
abbrev mv {β : Type} (f : ℕ → ℕ → β) : ℕ → ℕ → β := fun p b => f (σ p) ((τ p).symm b)
/-- coordinates in the renamed bins -/
abbrev mvx (x : ℕ → ℕ → ℕ) : ℕ → ℕ → ℕ := fun i p => τ p (x i (σ p))

theorem mv_at {β : Type} (f : ℕ → ℕ → β) (x : ℕ → ℕ → ℕ) (i p : ℕ) : mv σ τ f p (mvx σ τ x i p) = f (σ p) (x i (σ p)) := by
  simp [mv, mvx]

theorem proj_mv (npart : ℕ) (x : ℕ → ℕ → ℕ) (w : ℕ → K) : proj npart (mvx σ τ x) w = mv σ τ (proj npart x w) := by
  funext p b
  unfold proj
  apply sum_congr rfl
  intro i _
  simp only [mvx, Equiv.eq_symm_apply]

theorem count_mv (npart : ℕ) (x : ℕ → ℕ → ℕ) : count npart (mvx σ τ x) = mv σ τ (count npart x) := by
  funext p b
  unfold count
  congr 1
  ext i
  simp only [mvx, mem_filter, Equiv.eq_symm_apply]

include hσ in
theorem backProj_mv (x : ℕ → ℕ → ℕ) (f : ℕ → ℕ → K) : backProj nprof (mvx σ τ x) (mv σ τ f) = backProj nprof x f := by
  funext i
  unfold backProj
  rw [← sum_perm σ hσ (fun p => f p (x i p))]
  exact sum_congr rfl fun p _ => mv_at σ τ f x i p

include hτ

theorem symm_lt (p b : ℕ) : (τ p).symm b < nbins ↔ b < nbins := by
  rw [← hτ p ((τ p).symm b), Equiv.apply_symm_apply]

theorem rowSum_mv (f : ℕ → ℕ → K) (p : ℕ) : rowSum nbins (mv σ τ f) p = rowSum nbins f (σ p) := by
  unfold rowSum
  exact sum_perm (τ p).symm (fun b => symm_lt τ hτ p b) (fun b => f (σ p) b)

theorem normRows_mv (f : ℕ → ℕ → K) : normRows nbins (mv σ τ f) = mv σ τ (normRows nbins f) := by
  funext p b
  unfold normRows
  rw [rowSum_mv σ τ hτ]

include hσ

theorem sup_perm (π : Equiv.Perm ℕ) {n : ℕ} (hπ : ∀ i, π i < n ↔ i < n) (f : ℕ → ℕ) :
    (range n).sup (fun i => f (π i)) = (range n).sup f := by
  apply le_antisymm
  · apply Finset.sup_le
    intro i hi
    exact Finset.le_sup (f := f) (mem_range.mpr ((hπ i).mpr (mem_range.mp hi)))
  · apply Finset.sup_le
    intro i hi
    have := Finset.le_sup (f := fun i => f (π i)) (s := range n) (b := π.symm i)
      (mem_range.mpr ((hπ _).mp (by rw [Equiv.apply_symm_apply]; exact mem_range.mp hi)))
    simpa using this

theorem maxCount_mv (npart : ℕ) (x : ℕ → ℕ → ℕ) : maxCount npart nprof nbins (mvx σ τ x) = maxCount npart nprof nbins x := by
  unfold maxCount
  rw [count_mv]
  have : ∀ p, ((range nbins).sup fun b => mv σ τ (count npart x) p b) = (range nbins).sup fun b => count npart x (σ p) b :=
    fun p => sup_perm (nprof := nprof) (nbins := nbins) σ hσ τ hτ (τ p).symm (fun b => symm_lt τ hτ p b)
      (fun b => count npart x (σ p) b)
  simp only [this]
  exact sup_perm (nprof := nprof) (nbins := nbins) σ hσ τ hτ σ hσ (fun p => (range nbins).sup fun b => count npart x p b)

theorem recip_mv (npart : ℕ) (x : ℕ → ℕ → ℕ) :
    recip K npart nprof nbins (mvx σ τ x) = mv σ τ (recip K npart nprof nbins x) := by
  funext p b
  unfold recip
  rw [maxCount_mv σ hσ τ hτ, count_mv]

theorem inRange_mv {npart : ℕ} {x : ℕ → ℕ → ℕ} (hx : InRange npart nprof nbins x) :
    InRange npart nprof nbins (mvx σ τ x) := fun i hi p hp => (hτ _ _).mpr (hx i hi _ ((hσ p).mpr hp))

theorem seq_mv (keep : Bool) (npart : ℕ) (x : ℕ → ℕ → ℕ) (wf : ℕ → ℕ → K) (k : ℕ) :
    seq keep npart nprof nbins (mvx σ τ x) (mv σ τ wf) k
      = (W keep npart nprof nbins x wf k, mv σ τ (R keep npart nprof nbins x wf k)) := by
  induction k with
  | zero =>
    show (pos (backProj nprof (mvx σ τ x) (mv σ τ wf)), _) = _
    rw [backProj_mv σ hσ τ]
    rfl
  | succ k ih =>
    have e : normRows nbins (fun p b => (if keep then mv σ τ (R keep npart nprof nbins x wf k) p b else 0)
        + proj npart (mvx σ τ x) (W keep npart nprof nbins x wf k) p b)
        = mv σ τ (R keep npart nprof nbins x wf (k + 1)) := by
      rw [proj_mv, R_succ, ← normRows_mv σ τ hτ]
    simp only [seq]
    rw [ih]
    simp only [seqStep]
    rw [e, recip_mv σ hσ τ hτ]
    have e2 : (fun p b => (mv σ τ wf p b - mv σ τ (R keep npart nprof nbins x wf (k + 1)) p b)
        * mv σ τ (recip K npart nprof nbins x) p b)
        = mv σ τ (fun p b => (wf p b - R keep npart nprof nbins x wf (k + 1) p b) * recip K npart nprof nbins x p b) := rfl
    rw [e2, backProj_mv σ hσ τ]
    rfl

theorem good_mv (keep : Bool) (npart : ℕ) (x : ℕ → ℕ → ℕ) (wf : ℕ → ℕ → K) (k : ℕ) :
    Good keep npart nprof nbins (mvx σ τ x) (mv σ τ wf) k ↔ Good keep npart nprof nbins x wf k := by
  unfold Good W
  simp only [seq_mv σ hσ τ hτ]

theorem msq_mv (keep : Bool) (npart : ℕ) (x : ℕ → ℕ → ℕ) (wf : ℕ → ℕ → K) (k : ℕ) :
    msq keep npart nprof nbins (mvx σ τ x) (mv σ τ wf) k = msq keep npart nprof nbins x wf k := by
  unfold msq meanSquare R
  rw [seq_mv σ hσ τ hτ]
  congr 1
  rw [← sum_perm σ hσ (fun p => ∑ b ∈ range nbins, (wf p b - (seq keep npart nprof nbins x wf (k + 1)).2 p b) ^ 2)]
  apply sum_congr rfl
  intro p _
  exact sum_perm (τ p).symm (fun b => symm_lt τ hτ p b)
    (fun b => (wf (σ p) b - (seq keep npart nprof nbins x wf (k + 1)).2 (σ p) b) ^ 2)

end

section
variable {npart nprof nbins : ℕ} {x : ℕ → ℕ → ℕ} {wf : ℕ → ℕ → K}

/-- a successful run of the C++ routine -/
theorem run_ok_iff (sqrt : K → K) (hp : 0 < nprof) (hb : 0 < nbins) (hx : InRange npart nprof nbins x) (niter : ℕ)
    (st : RState K) :
    (reconstruct sqrt (xbuf npart nprof x) (flat nprof nbins wf) niter nbins npart nprof).2 = .ok st ↔
      Good true npart nprof nbins x wf niter ∧ st = ⟨tab npart (W true npart nprof nbins x wf niter),
        flat nprof nbins (R true npart nprof nbins x wf (niter + 1)),
        tab (niter + 1) (fun m => sqrt (msq true npart nprof nbins x wf m))⟩ := by
  rcases reconstruct_run sqrt hp hb hx wf niter with ⟨hg, he⟩ | ⟨hg, he⟩ | ⟨f, hf, hg, hng, he⟩
  · rw [he]
    exact ⟨fun h => by cases h; exact ⟨hg, rfl⟩, fun h => by rw [h.2]⟩
  · rw [he]
    exact ⟨fun h => (by cases h), fun h => absurd (fun m hm => h.1 m (by omega)) hg⟩
  · rw [he]
    exact ⟨fun h => (by cases h), fun h => absurd (fun m hm => h.1 m (by omega)) hng⟩

/-- a successful run of the python reference -/
theorem hybrid_ok_iff (sqrt : K → K) (hn : 0 < npart) (hp : 0 < nprof) (hx : InRange npart nprof nbins x) (niter : ℕ)
    (st : RState K) :
    Tomo.runHybrid sqrt (xbuf npart nprof x) (flat nprof nbins wf) niter nbins npart nprof = .ok st ↔
      Good false npart nprof nbins x wf niter ∧ st = ⟨tab npart (W false npart nprof nbins x wf niter),
        flat nprof nbins (R false npart nprof nbins x wf (niter + 1)),
        tab (niter + 1) (fun m => sqrt (msq false npart nprof nbins x wf m))⟩ := by
  rcases Tomo.runHybrid_run sqrt hn hp hx wf niter with ⟨hg, he⟩ | ⟨hg, he⟩
  · rw [he]
    exact ⟨fun h => by cases h; exact ⟨hg, rfl⟩, fun h => by rw [h.2]⟩
  · rw [he]
    exact ⟨fun h => (by cases h), fun h => absurd h.1 hg⟩

/-- callbacks and errors depend only on where the weights vanish -/
theorem run_transport (sqrt : K → K) {npart' : ℕ} {x' : ℕ → ℕ → ℕ} {wf' : ℕ → ℕ → K} (hp : 0 < nprof) (hb : 0 < nbins)
    (hx : InRange npart nprof nbins x) (hx' : InRange npart' nprof nbins x')
    (hG : ∀ k, Good true npart' nprof nbins x' wf' k ↔ Good true npart nprof nbins x wf k) (niter : ℕ) :
    (reconstruct sqrt (xbuf npart' nprof x') (flat nprof nbins wf') niter nbins npart' nprof).1
      = (reconstruct sqrt (xbuf npart nprof x) (flat nprof nbins wf) niter nbins npart nprof).1 ∧
    ∀ e, (reconstruct sqrt (xbuf npart' nprof x') (flat nprof nbins wf') niter nbins npart' nprof).2 = .error e ↔
      (reconstruct sqrt (xbuf npart nprof x) (flat nprof nbins wf) niter nbins npart nprof).2 = .error e := by
  have up : ∀ {a b}, a ≤ b → Good true npart nprof nbins x wf b → Good true npart nprof nbins x wf a :=
    fun h g m hm => g m (by omega)
  rcases reconstruct_run sqrt hp hb hx wf niter with ⟨hg, he⟩ | ⟨hg, he⟩ | ⟨f, hf, hg, hng, he⟩ <;>
  rcases reconstruct_run sqrt hp hb hx' wf' niter with ⟨hg', he'⟩ | ⟨hg', he'⟩ | ⟨f', hf', hg', hng', he'⟩ <;>
  rw [he, he'] <;> rw [hG] at hg' <;> (try rw [hG] at hng')
  · exact ⟨rfl, fun e => ⟨fun h => (by cases h), fun h => (by cases h)⟩⟩
  · exact absurd (up (by omega) hg) hg'
  · exact absurd (up (by omega) hg) hng'
  · exact absurd (up (by omega) hg') hg
  · exact ⟨rfl, fun e => Iff.rfl⟩
  · exact absurd (up (by omega) hg') hg
  · exact absurd (up (by omega) hg') hng
  · exact absurd (up (by omega) hg) hg'
  · have : f = f' := by
      rcases Nat.lt_trichotomy f f' with h | h | h
      · exact absurd (up (by omega) hg') hng
      · exact h
      · exact absurd (up (by omega) hg) hng'
    subst this
    exact ⟨rfl, fun e => Iff.rfl⟩

/-- particles with the same bins have the same weights -/
theorem W_twin (keep : Bool) (wf : ℕ → ℕ → K) {i j : ℕ} (h : ∀ p, p < nprof → x i p = x j p) (k : ℕ) :
    W keep npart nprof nbins x wf k i = W keep npart nprof nbins x wf k j := by
  have bp : ∀ f : ℕ → ℕ → K, backProj nprof x f i = backProj nprof x f j := fun f =>
    sum_congr rfl fun p hp => by rw [h p (mem_range.mp hp)]
  induction k with
  | zero => simp only [W, seq, pos, bp]
  | succ k ih =>
    simp only [W] at ih
    simp only [W, seq, seqStep, pos, bp, ih]

theorem recip_nonneg (p b : ℕ) : 0 ≤ recip K npart nprof nbins x p b :=
  div_nonneg (Nat.cast_nonneg _) (Nat.cast_nonneg _)

/-- a particle that never visits a bin with data has no weight -/
theorem W_dark {keep : Bool} (hx : InRange npart nprof nbins x) {i : ℕ} (h : ∀ p, p < nprof → wf p (x i p) ≤ 0) {k : ℕ}
    (hg : Good keep npart nprof nbins x wf (k - 1)) : W keep npart nprof nbins x wf k i = 0 := by
  induction k with
  | zero =>
    simp only [W, seq, pos]
    exact max_eq_right (sum_nonpos fun p hp => h p (mem_range.mp hp))
  | succ k ih =>
    have hR := (R_nonneg_rowSum (keep := keep) (wf := wf) hx (k := k + 1) (Or.inr hg)).1
    have ih := ih (fun m hm => hg m (by omega))
    simp only [W] at ih
    simp only [W, seq, seqStep, pos]
    rw [ih, zero_add]
    refine max_eq_right (sum_nonpos fun p hp => mul_nonpos_of_nonpos_of_nonneg ?_ (recip_nonneg _ _))
    exact sub_nonpos.mpr ((h p (mem_range.mp hp)).trans (hR p (x i p)))

/-- if the recreated waterfall is the measured one, the weights stay -/
theorem W_fix {keep : Bool} (hx : InRange npart nprof nbins x) {k : ℕ}
    (h : ∀ p b, p < nprof → b < nbins → R keep npart nprof nbins x wf (k + 1) p b = wf p b) {i : ℕ} (hi : i < npart) :
    W keep npart nprof nbins x wf (k + 1) i = W keep npart nprof nbins x wf k i := by
  have hb : backProj nprof x (fun p b => (wf p b - R keep npart nprof nbins x wf (k + 1) p b)
      * recip K npart nprof nbins x p b) i = 0 :=
    sum_eq_zero fun p hp => by
      have hp := mem_range.mp hp
      show (wf p (x i p) - R keep npart nprof nbins x wf (k + 1) p (x i p)) * _ = 0
      rw [h p _ hp (hx i hi p hp), sub_self, zero_mul]
  show max (W keep npart nprof nbins x wf k i + backProj nprof x (fun p b => (wf p b - R keep npart nprof nbins x wf (k + 1) p b)
      * recip K npart nprof nbins x p b) i) 0 = _
  rw [hb, add_zero]
  exact max_eq_left (W_nonneg ..)

theorem proj_congr {w w' : ℕ → K} (h : ∀ i, i < npart → w i = w' i) (p b : ℕ) : proj npart x w p b = proj npart x w' p b :=
  sum_congr rfl fun i hi => by rw [h i (mem_range.mp hi)]

theorem normRows_congr {f g : ℕ → ℕ → K} {p : ℕ} (h : ∀ b, b < nbins → f p b = g p b) {b : ℕ} (hb : b < nbins) :
    normRows nbins f p b = normRows nbins g p b := by
  have : rowSum nbins f p = rowSum nbins g p := sum_congr rfl fun c hc => h c (mem_range.mp hc)
  unfold normRows
  rw [this, h b hb]

/-- the python reference stays where it reproduces the data -/
theorem fix_hybrid (hx : InRange npart nprof nbins x) {k : ℕ}
    (h : ∀ p b, p < nprof → b < nbins → R false npart nprof nbins x wf (k + 1) p b = wf p b) (n : ℕ) :
    (∀ i, i < npart → W false npart nprof nbins x wf (k + n) i = W false npart nprof nbins x wf k i) ∧
    ∀ p b, p < nprof → b < nbins → R false npart nprof nbins x wf (k + n + 1) p b = wf p b := by
  induction n with
  | zero => exact ⟨fun _ _ => rfl, h⟩
  | succ n ih =>
    have hw : ∀ i, i < npart → W false npart nprof nbins x wf (k + n + 1) i = W false npart nprof nbins x wf k i :=
      fun i hi => (W_fix hx ih.2 hi).trans (ih.1 i hi)
    refine ⟨hw, fun p b hp hb => ?_⟩
    rw [← h p b hp hb]
    show R false npart nprof nbins x wf (k + n + 1 + 1) p b = _
    rw [R_succ false npart nprof nbins x wf (k + n + 1), R_succ false npart nprof nbins x wf k]
    refine normRows_congr (K := K) (fun c _ => ?_) hb
    simp only [Bool.false_eq_true, if_false, zero_add]
    exact proj_congr hw p c

/-- the C++ routine stays where it reproduces the data twice in a row -/
theorem fix_cpp (hx : InRange npart nprof nbins x) {k : ℕ}
    (h : ∀ p b, p < nprof → b < nbins → R true npart nprof nbins x wf (k + 1) p b = wf p b)
    (h' : ∀ p b, p < nprof → b < nbins → R true npart nprof nbins x wf (k + 2) p b = wf p b) (n : ℕ) :
    (∀ i, i < npart → W true npart nprof nbins x wf (k + n) i = W true npart nprof nbins x wf k i) ∧
    ∀ p b, p < nprof → b < nbins → R true npart nprof nbins x wf (k + n + 1) p b = wf p b := by
  induction n with
  | zero => exact ⟨fun _ _ => rfl, h⟩
  | succ n ih =>
    have hw : ∀ i, i < npart → W true npart nprof nbins x wf (k + n + 1) i = W true npart nprof nbins x wf k i :=
      fun i hi => (W_fix hx ih.2 hi).trans (ih.1 i hi)
    refine ⟨hw, fun p b hp hb => ?_⟩
    rw [← h' p b hp hb]
    show R true npart nprof nbins x wf (k + n + 1 + 1) p b = R true npart nprof nbins x wf (k + 1 + 1) p b
    rw [R_succ, R_succ true npart nprof nbins x wf (k + 1)]
    refine normRows_congr (fun c hc => ?_) hb
    simp only [if_true]
    rw [ih.2 p c hp hc, h p c hp hc]
    congr 1
    exact proj_congr (fun i hi => (hw i hi).trans (W_fix hx h hi).symm) p c

theorem good_of_const {keep : Bool} {k : ℕ} (hg : Good keep npart nprof nbins x wf k)
    (hw : ∀ n, ∀ i, i < npart → W keep npart nprof nbins x wf (k + n) i = W keep npart nprof nbins x wf k i) (n : ℕ) :
    Good keep npart nprof nbins x wf (k + n) := by
  intro m hm
  rcases Nat.lt_or_ge k m with h | h
  · obtain ⟨d, rfl⟩ := Nat.exists_eq_add_of_lt h
    rw [show k + d + 1 = k + (d + 1) from rfl, sum_congr rfl fun i hi => hw (d + 1) i (mem_range.mp hi)]
    exact hg k le_rfl
  · exact hg m h

theorem msq_zero {keep : Bool} {k : ℕ}
    (h : ∀ p b, p < nprof → b < nbins → R keep npart nprof nbins x wf (k + 1) p b = wf p b) :
    msq keep npart nprof nbins x wf k = 0 := by
  unfold msq meanSquare
  rw [sum_eq_zero, zero_div]
  intro p hp
  apply sum_eq_zero
  intro b hb
  show (wf p b - R keep npart nprof nbins x wf (k + 1) p b) ^ 2 = 0
  rw [h p b (mem_range.mp hp) (mem_range.mp hb), sub_self, zero_pow two_ne_zero]

/-- mean square of a difference of two sets of normalised profiles -/
theorem meanSquare_le {f g : ℕ → ℕ → K} (hp : 0 < nprof) (hb : 0 < nbins) (hf : ∀ p b, p < nprof → b < nbins → 0 ≤ f p b)
    (hf1 : ∀ p, p < nprof → rowSum nbins f p = 1) (hg : ∀ p b, p < nprof → b < nbins → 0 ≤ g p b)
    (hg1 : ∀ p, p < nprof → rowSum nbins g p = 1) : meanSquare nprof nbins (fun p b => f p b - g p b) ≤ 2 / (nbins : K) := by
  have hN : (0 : K) < ((nprof * nbins : ℕ) : K) := by exact_mod_cast Nat.mul_pos hp hb
  have hb' : (0 : K) < (nbins : K) := by exact_mod_cast hb
  have row : ∀ p, p < nprof → ∑ b ∈ range nbins, (f p b - g p b) ^ 2 ≤ 2 := by
    intro p hp
    have le1 : ∀ (h : ℕ → ℕ → K), (∀ b, b < nbins → 0 ≤ h p b) → rowSum nbins h p = 1 → ∀ b, b < nbins → h p b ≤ 1 := by
      intro h h0 h1 b hb
      rw [← h1]
      exact single_le_sum (f := fun b => h p b) (fun c hc => h0 c (mem_range.mp hc)) (mem_range.mpr hb)
    calc ∑ b ∈ range nbins, (f p b - g p b) ^ 2 ≤ ∑ b ∈ range nbins, (f p b + g p b) := by
          apply sum_le_sum
          intro b hb
          have hb := mem_range.mp hb
          have f0 := hf p b hp hb
          have g0 := hg p b hp hb
          have f1 := le1 f (fun c hc => hf p c hp hc) (hf1 p hp) b hb
          have g1 := le1 g (fun c hc => hg p c hp hc) (hg1 p hp) b hb
          nlinarith [mul_nonneg f0 g0, mul_nonneg f0 (sub_nonneg.mpr f1), mul_nonneg g0 (sub_nonneg.mpr g1)]
      _ = 2 := by
          have e1 := hf1 p hp
          have e2 := hg1 p hp
          unfold rowSum at e1 e2
          rw [sum_add_distrib, e1, e2]; norm_num
  unfold meanSquare
  rw [div_le_div_iff₀ hN hb']
  calc (∑ p ∈ range nprof, ∑ b ∈ range nbins, (f p b - g p b) ^ 2) * (nbins : K)
      ≤ (∑ _p ∈ range nprof, (2 : K)) * (nbins : K) :=
        mul_le_mul_of_nonneg_right (sum_le_sum fun p hp => row p (mem_range.mp hp)) hb'.le
    _ = 2 * ((nprof * nbins : ℕ) : K) := by
        rw [sum_const, card_range, nsmul_eq_mul]; push_cast; ring

end
end Verif.Recon

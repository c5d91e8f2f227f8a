import Verif.Lemmas.Tomography
import Verif.Lemmas.ReconSym
import Verif.Lemmas.PhaseSpace
import Verif.Model.Manual
import Verif.Spec.Manual

/-!
# The manual reconstruction computes its specification (helper lemmas)
-/

set_option linter.unusedSectionVars false

namespace Verif.Manual
open Finset Verif.Spec Verif.Recon Verif.Tomo

variable {K : Type} [Field K] [LinearOrder K] [IsStrictOrderedRing K]

theorem divRows_ok {nprof nbins : ℕ} (r : ℕ → ℕ → K) (hr : ∀ p, p < nprof → rowSum nbins r p ≠ 0) :
    divRows (flat nprof nbins r) nprof nbins = .ok (flat nprof nbins (normRows nbins r)) := by
  unfold divRows
  rw [rowSums_ok, bind_ok]
  apply gridLoop_eq
  intro i j hi hj g hg
  rw [rd_flat g hi hj rfl, bind_ok, rd_tab _ hi, bind_ok, fdiv_ok (hr i hi), bind_ok, upd_flat g _ hi hj rfl, hg]
  rfl

/-- a profile that sums to zero -/
theorem divRows_zero {nprof nbins : ℕ} (hb : 0 < nbins) (r : ℕ → ℕ → K) (hr : ∃ p, p < nprof ∧ rowSum nbins r p = 0) :
    divRows (flat nprof nbins r) nprof nbins = .error .nonFinite := by
  by_cases h : ∃ i j, i < nprof ∧ j < nbins ∧ r i j ≠ 0
  · have := normalizeProfiles_nonFinite hb r h hr
    unfold normalizeProfiles at this
    rw [if_pos ((any_flat _ _ _).mpr h)] at this
    exact this
  · obtain ⟨p, hp, -⟩ := hr
    unfold divRows
    rw [rowSums_ok, bind_ok]
    obtain ⟨n, rfl⟩ : ∃ n, nprof = n + 1 := ⟨nprof - 1, by omega⟩
    obtain ⟨m, rfl⟩ : ∃ m, nbins = m + 1 := ⟨nbins - 1, by omega⟩
    push Not at h
    have hz : ∀ p, p < n + 1 → rowSum (m + 1) r p = 0 := fun p hp => sum_eq_zero fun b hb => h p b hp (mem_range.mp hb)
    refine forN_fail (k := 0) (s' := flat (n + 1) (m + 1) r) (by omega) rfl ?_
    refine forN_fail (k := 0) (s' := flat (n + 1) (m + 1) r) (by omega) rfl ?_
    rw [rd_flat r (Nat.succ_pos n) (Nat.succ_pos m) rfl, bind_ok, rd_tab _ (Nat.succ_pos n), bind_ok, hz 0 (Nat.succ_pos n), fdiv_zero]
    rfl

section
variable (npart nprof nbins : ℕ) (x : ℕ → ℕ → ℕ) (f g : ℕ → ℕ → K)

/-- the weights did not vanish up to round `k` -/
def Alive (k : ℕ) : Prop := ∀ m, m ≤ k → 0 < ∑ i ∈ range npart, plainW npart nprof nbins x f g m i

theorem plainW_nonneg (k i : ℕ) : 0 ≤ plainW npart nprof nbins x f g k i := by
  cases k with
  | zero => exact le_max_right _ _
  | succ k => exact le_max_right _ _

/-- the variables after `k` rounds -/
def stAt (sqrt : K → K) (k : ℕ) : RState K :=
  ⟨tab npart (plainW npart nprof nbins x f g k), flat nprof nbins (fun _ _ => 0),
    tab k fun m => sqrt (meanSquare nprof nbins fun p b => g p b - plainR npart nprof nbins x f g m p b)⟩
end

section
variable {npart nprof nbins : ℕ} {x : ℕ → ℕ → ℕ}

theorem project_divRows (hp : 0 < nprof) (hb : 0 < nbins) (hx : InRange npart nprof nbins x) (w : ℕ → K) :
    (do let r ← project (flat nprof nbins fun _ _ => (0 : K)) (fpbuf npart nprof nbins x) (tab npart w) npart nprof
        divRows r nprof nbins) =
      if (∑ i ∈ range npart, w i) = 0 then .error .nonFinite else .ok (flat nprof nbins (normRows nbins (proj npart x w))) := by
  rw [project_ok hx, bind_ok]
  simp only [zero_add]
  by_cases h : (∑ i ∈ range npart, w i) = 0
  · rw [if_pos h]
    exact divRows_zero hb _ ⟨0, hp, (rowSum_proj hx w hp).trans h⟩
  · rw [if_neg h]
    exact divRows_ok _ fun p hp => by rw [rowSum_proj hx w hp]; exact h

theorem flat_map_zero (r : ℕ → ℕ → K) : ((flat nprof nbins r).map fun _ => (0 : K)) = flat nprof nbins fun _ _ => 0 := by
  unfold flat tab
  rw [List.map_map]
  rfl

theorem body_ok (sqrt : K → K) (hp : 0 < nprof) (hb : 0 < nbins) (hx : InRange npart nprof nbins x) (f g : ℕ → ℕ → K) (k : ℕ) :
    body sqrt (fpbuf npart nprof nbins x) (flat nprof nbins g) nbins npart nprof (stAt npart nprof nbins x f g sqrt k) =
      if (∑ i ∈ range npart, plainW npart nprof nbins x f g k i) = 0 then .error .nonFinite
      else .ok (stAt npart nprof nbins x f g sqrt (k + 1)) := by
  have key := project_divRows hp hb hx (plainW npart nprof nbins x f g k)
  unfold body stAt
  dsimp only
  rw [← bind_assoc, key]
  split
  · rfl
  · rw [bind_ok, zip2_flat, bind_ok, discrepancyPy_ok sqrt hp hb, bind_ok, backProject_ok hx, bind_ok, npClip0_tab, flat_map_zero,
      tab_succ]
    rfl

theorem loop_ok (sqrt : K → K) (hp : 0 < nprof) (hb : 0 < nbins) (hx : InRange npart nprof nbins x) (f g : ℕ → ℕ → K) (k : ℕ) :
    (forN k (fun _ => body sqrt (fpbuf npart nprof nbins x) (flat nprof nbins g) nbins npart nprof)
        (stAt npart nprof nbins x f g sqrt 0) = .ok (stAt npart nprof nbins x f g sqrt k) ∧
      ∀ m, m < k → 0 < ∑ i ∈ range npart, plainW npart nprof nbins x f g m i) ∨
    (forN k (fun _ => body sqrt (fpbuf npart nprof nbins x) (flat nprof nbins g) nbins npart nprof)
        (stAt npart nprof nbins x f g sqrt 0) = .error .nonFinite ∧
      ∃ m, m < k ∧ ¬ 0 < ∑ i ∈ range npart, plainW npart nprof nbins x f g m i) := by
  induction k with
  | zero => exact Or.inl ⟨rfl, fun m hm => absurd hm (by omega)⟩
  | succ k ih =>
    rcases ih with ⟨h1, h2⟩ | ⟨h1, m, h2, h3⟩
    · rw [forN_succ, h1, bind_ok, body_ok sqrt hp hb hx]
      by_cases hs : (∑ i ∈ range npart, plainW npart nprof nbins x f g k i) = 0
      · right
        rw [if_pos hs]
        exact ⟨rfl, k, by omega, by rw [hs]; exact lt_irrefl _⟩
      · left
        rw [if_neg hs]
        refine ⟨rfl, fun m hm => ?_⟩
        rcases Nat.lt_or_ge m k with h | h
        · exact h2 m h
        · have : m = k := by omega
          subst this
          exact lt_of_le_of_ne (sum_nonneg fun i _ => plainW_nonneg ..) (Ne.symm hs)
    · right
      rw [forN_succ, h1]
      exact ⟨rfl, m, by omega, h3⟩

/-- the complete behaviour on coordinates in the image and profiles that do not sum to zero -/
theorem reconstruct_run (sqrt : K → K) (hp : 0 < nprof) (hb : 0 < nbins) (hx : InRange npart nprof nbins x) (wf : ℕ → ℕ → K)
    (hc : ∀ p, p < nprof → rowSum nbins (fun p b => max (wf p b) 0) p ≠ 0) (hr : ∀ p, p < nprof → rowSum nbins wf p ≠ 0) (niter : ℕ) :
    let f := normRows nbins fun p b => max (wf p b) 0
    let g := normRows nbins wf
    (Alive npart nprof nbins x f g niter ∧
      reconstruct sqrt (xbuf npart nprof x) (flat nprof nbins wf) niter nbins npart nprof =
        .ok ⟨tab npart (plainW npart nprof nbins x f g niter), flat nprof nbins (plainR npart nprof nbins x f g niter),
          tab (niter + 1) fun m => sqrt (meanSquare nprof nbins fun p b => g p b - plainR npart nprof nbins x f g m p b)⟩) ∨
    (¬ Alive npart nprof nbins x f g niter ∧
      reconstruct sqrt (xbuf npart nprof x) (flat nprof nbins wf) niter nbins npart nprof = .error .nonFinite) := by
  intro f g
  unfold reconstruct
  rw [npClip0_flat, divRows_ok _ hc, bind_ok, divRows_ok _ hr, bind_ok, createFlatPointsPy_ok, bind_ok, backProject_ok hx, bind_ok,
    npClip0_tab]
  have hst0 : (⟨tab npart (pos fun i => (0 : K) + backProj nprof x (normRows nbins fun p b => max (wf p b) 0) i),
      tab (nprof * nbins) fun _ => 0, []⟩ : RState K) = stAt npart nprof nbins x f g sqrt 0 := by
    simp only [stAt, zero_add]
    rfl
  rw [hst0]
  rcases loop_ok sqrt hp hb hx f g niter with ⟨h1, h2⟩ | ⟨h1, m, h2, h3⟩
  · have key := project_divRows hp hb hx (plainW npart nprof nbins x f g niter)
    rw [show normRows nbins wf = g from rfl, h1, bind_ok]
    unfold stAt
    dsimp only
    rw [← bind_assoc, key]
    by_cases hs : (∑ i ∈ range npart, plainW npart nprof nbins x f g niter i) = 0
    · right
      rw [if_pos hs]
      refine ⟨fun h => ?_, rfl⟩
      have := h niter le_rfl
      rw [hs] at this
      exact lt_irrefl _ this
    · left
      rw [if_neg hs]
      refine ⟨fun m hm => ?_, ?_⟩
      · rcases Nat.lt_or_ge m niter with h | h
        · exact h2 m h
        · have : m = niter := by omega
          subst this
          exact lt_of_le_of_ne (sum_nonneg fun i _ => plainW_nonneg ..) (Ne.symm hs)
      · rw [bind_ok, zip2_flat, bind_ok, discrepancyPy_ok sqrt hp hb, bind_ok, pure_eq_ok, tab_succ]
        rfl
  · right
    rw [show normRows nbins wf = g from rfl, h1]
    exact ⟨fun h => h3 (h m (by omega)), rfl⟩

/-- where every bin holds the same number of particles the factors of the library are one -/
theorem recip_even {c : ℕ} (hc : 0 < c) (h : ∀ p, p < nprof → ∀ b, b < nbins → count npart x p b = c) {p b : ℕ} (hp : p < nprof)
    (hb : b < nbins) : recip K npart nprof nbins x p b = 1 := by
  have hm : maxCount npart nprof nbins x = c := by
    unfold maxCount
    apply le_antisymm
    · refine Finset.sup_le fun q hq => Finset.sup_le fun d hd => ?_
      rw [h q (mem_range.mp hq) d (mem_range.mp hd)]
    · rw [← h p hp b hb]
      refine le_trans ?_ (le_sup (f := fun q => (range nbins).sup fun d => count npart x q d) (mem_range.mpr hp))
      exact le_sup (f := fun d => count npart x p d) (mem_range.mpr hb)
  unfold recip
  rw [hm, h p hp b hb, max_eq_right (by omega)]
  exact div_self (by exact_mod_cast hc.ne')

theorem seq_even (hx : InRange npart nprof nbins x) (he : EvenlyFilled npart nprof nbins x) (wf : ℕ → ℕ → K) (k : ℕ) :
    ∀ i, i < npart → W false npart nprof nbins x wf k i = plainW npart nprof nbins x wf wf k i := by
  obtain ⟨c, hc, h⟩ := he
  induction k with
  | zero => intro i _; rfl
  | succ k ih =>
    intro i hi
    have hR : R false npart nprof nbins x wf (k + 1) = normRows nbins (proj npart x (plainW npart nprof nbins x wf wf k)) := by
      rw [R_false_succ]
      have : proj npart x (W false npart nprof nbins x wf k) = proj npart x (plainW npart nprof nbins x wf wf k) := by
        funext p b
        exact proj_congr ih p b
      rw [this]
    show pos (fun i => W false npart nprof nbins x wf k i + backProj nprof x (fun p b =>
      (wf p b - R false npart nprof nbins x wf (k + 1) p b) * recip K npart nprof nbins x p b) i) i = _
    rw [hR]
    show max (W false npart nprof nbins x wf k i + _) _ = max (plainW npart nprof nbins x wf wf k i + _) _
    rw [ih i hi]
    congr 2
    unfold backProj
    refine sum_congr rfl fun p hp => ?_
    dsimp only
    rw [recip_even hc h (mem_range.mp hp) (hx i hi p (mem_range.mp hp)), mul_one]

end
end Verif.Manual

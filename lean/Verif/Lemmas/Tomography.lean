import Verif.Lemmas.ReconRun
import Verif.Model.Tomography

/-!
# `run_hybrid` and the constructor compute their specifications (helper lemmas)
-/

set_option linter.unusedSectionVars false

namespace Verif.Tomo
open Finset Verif.Spec Verif.Recon

variable {K : Type} [Field K] [LinearOrder K] [IsStrictOrderedRing K]

theorem tab_succ {α : Type _} (n : ℕ) (g : ℕ → α) : tab (n + 1) g = tab n g ++ [g n] := by
  simp [tab, List.range_succ]

theorem rowSums_ok (nprof nbins : ℕ) (r : ℕ → ℕ → K) :
    rowSums (flat nprof nbins r) nprof nbins = .ok (tab nprof (rowSum nbins r)) := by
  unfold rowSums
  rw [forN_eq (g := fun i => tab i (rowSum nbins r))]
  · rfl
  · intro i hi
    have : forN nbins (fun j s => do
      let v ← rd (flat nprof nbins r) ((i * nbins + j : Nat) : Int)
      pure (s + v)) (0 : K) = .ok (rowSum nbins r i) := by
      rw [forN_eq (g := fun j => ∑ b ∈ range j, r i b)]
      · rfl
      · simp
      · intro j hj
        rw [rd_flat r hi hj rfl, bind_ok, sum_range_succ]; rfl
    rw [this, bind_ok, tab_succ]; rfl

theorem any_flat {α : Type _} [Zero α] [DecidableEq α] (n m : ℕ) (f : ℕ → ℕ → α) :
    ((flat n m f).any (fun v => v ≠ 0)) = true ↔ ∃ i j, i < n ∧ j < m ∧ f i j ≠ 0 := by
  simp only [List.any_eq_true, flat, tab, List.mem_map, List.mem_range, decide_eq_true_eq]
  constructor
  · rintro ⟨v, ⟨k, hk, rfl⟩, hv⟩
    exact ⟨_, _, div_lt_of_lt_mul' hk, mod_lt_of_lt_mul' hk, hv⟩
  · rintro ⟨i, j, hi, hj, h⟩
    exact ⟨f i j, ⟨i * m + j, idx_lt hi hj, by rw [idx_div hj, idx_mod hj]⟩, h⟩

theorem normalizeProfiles_ok {nprof nbins : ℕ} (r : ℕ → ℕ → K) (h : ∃ i j, i < nprof ∧ j < nbins ∧ r i j ≠ 0)
    (hr : ∀ p, p < nprof → rowSum nbins r p ≠ 0) :
    normalizeProfiles (flat nprof nbins r) nprof nbins = .ok (flat nprof nbins (normRows nbins r)) := by
  unfold normalizeProfiles
  rw [if_pos ((any_flat _ _ _).mpr h), rowSums_ok, bind_ok]
  apply gridLoop_eq
  intro i j hi hj g hg
  rw [rd_flat g hi hj rfl, bind_ok, rd_tab _ hi, bind_ok, fdiv_ok (hr i hi), bind_ok, upd_flat g _ hi hj rfl, hg]
  rfl

theorem normalizeProfiles_zero {nprof nbins : ℕ} (r : ℕ → ℕ → K)
    (h : ∀ i j, i < nprof → j < nbins → r i j = 0) :
    normalizeProfiles (flat nprof nbins r) nprof nbins = .error (.exc .waterfallReducedToZero) := by
  unfold normalizeProfiles
  rw [if_neg]
  rw [any_flat]
  rintro ⟨i, j, hi, hj, hn⟩
  exact hn (h i j hi hj)

/-- a row that sums to zero while something else is non-zero: division by zero -/
theorem normalizeProfiles_nonFinite {nprof nbins : ℕ} (hb : 0 < nbins) (r : ℕ → ℕ → K)
    (h : ∃ i j, i < nprof ∧ j < nbins ∧ r i j ≠ 0) (hr : ∃ p, p < nprof ∧ rowSum nbins r p = 0) :
    normalizeProfiles (flat nprof nbins r) nprof nbins = .error .nonFinite := by
  unfold normalizeProfiles
  rw [if_pos ((any_flat _ _ _).mpr h), rowSums_ok, bind_ok]
  have inner : ∀ i, i < nprof → ∀ w : List K, w.length = nprof * nbins →
      ((∀ j, j < nbins → rowSum nbins r i ≠ 0) → ∃ w', forN nbins (fun j w => do
        let v ← rd w ((i * nbins + j : Nat) : Int)
        let s ← rd (tab nprof (rowSum nbins r)) (i : Int)
        let q ← FDiv.fdiv v s
        upd w ((i * nbins + j : Nat) : Int) q) w = .ok w' ∧ w'.length = nprof * nbins) ∧
      ((∃ j, j < nbins ∧ ¬ rowSum nbins r i ≠ 0) → forN nbins (fun j w => do
        let v ← rd w ((i * nbins + j : Nat) : Int)
        let s ← rd (tab nprof (rowSum nbins r)) (i : Int)
        let q ← FDiv.fdiv v s
        upd w ((i * nbins + j : Nat) : Int) q) w = .error .nonFinite) := by
    intro i hi w hw
    apply forN_total (fun w : List K => w.length = nprof * nbins) (fun _ => rowSum nbins r i ≠ 0) hw
    · intro j w hj hw hg
      have hidx := idx_lt hi hj
      obtain ⟨v, hv⟩ := rd_eq_ok w (i := ((i * nbins + j : ℕ) : ℤ)) (by omega) (by rw [hw]; exact_mod_cast hidx)
      rw [hv, bind_ok, rd_tab _ hi, bind_ok, fdiv_ok hg, bind_ok]
      obtain ⟨l, h1, h2⟩ := upd_eq_ok w (i := ((i * nbins + j : ℕ) : ℤ)) (v / rowSum nbins r i) (by omega)
        (by rw [hw]; exact_mod_cast hidx)
      exact ⟨l, h1, h2.trans hw⟩
    · intro j w hj hw hg
      have hidx := idx_lt hi hj
      obtain ⟨v, hv⟩ := rd_eq_ok w (i := ((i * nbins + j : ℕ) : ℤ)) (by omega) (by rw [hw]; exact_mod_cast hidx)
      rw [hv, bind_ok, rd_tab _ hi, bind_ok, not_not.mp hg, fdiv_zero]; rfl
  have outer := forN_total (n := nprof) (s := flat nprof nbins r) (e := .nonFinite)
    (f := fun i w => forN nbins (fun j w => do
        let v ← rd w ((i * nbins + j : Nat) : Int)
        let s ← rd (tab nprof (rowSum nbins r)) (i : Int)
        let q ← FDiv.fdiv v s
        upd w ((i * nbins + j : Nat) : Int) q) w)
    (fun w : List K => w.length = nprof * nbins) (fun i => rowSum nbins r i ≠ 0) (by simp)
    (fun i w hi hw hg => (inner i hi w hw).1 (fun _ _ => hg))
    (fun i w hi hw hg => (inner i hi w hw).2 ⟨0, hb, hg⟩)
  obtain ⟨p, hp, hz⟩ := hr
  exact outer.2 ⟨p, hp, not_not.mpr hz⟩

theorem npClip0_tab (n : ℕ) (w : ℕ → K) : npClip0 (tab n w) = tab n (pos w) := by
  unfold npClip0 tab
  rw [List.map_map]
  apply List.map_congr_left
  intro i _
  simp only [Function.comp, pos]
  split
  · rename_i h; exact (max_eq_right h.le).symm
  · rename_i h; exact (max_eq_left (not_lt.mp h)).symm

theorem npClip0_flat (n m : ℕ) (w : ℕ → ℕ → K) :
    npClip0 (flat n m w) = flat n m (fun p b => max (w p b) 0) := by
  unfold flat
  rw [npClip0_tab]
  rfl

theorem zip2_flat (f : K → K → K) (n m : ℕ) (a b : ℕ → ℕ → K) :
    zip2 f (flat n m a) (flat n m b) = .ok (flat n m fun p q => f (a p q) (b p q)) := by
  unfold zip2
  rw [if_pos (by simp)]
  congr 1
  apply List.ext_getElem?
  intro i
  rw [List.getElem?_zipWith]
  unfold flat
  rw [getElem?_tab, getElem?_tab, getElem?_tab]
  by_cases h : i < n * m <;> simp [h]

theorem foldl_tab {β : Type _} (g : β → K → β) (b : β) (n : ℕ) (f : ℕ → K) (acc : ℕ → β) (h0 : acc 0 = b)
    (hs : ∀ i, i < n → g (acc i) (f i) = acc (i + 1)) : (tab n f).foldl g b = acc n := by
  induction n with
  | zero => simp [tab, h0]
  | succ n ih =>
    rw [tab_succ, List.foldl_append, ih (fun i hi => hs i (by omega))]
    exact hs n (by omega)

theorem discrepancyPy_ok (sqrt : K → K) {nprof nbins : ℕ} (hp : 0 < nprof) (hb : 0 < nbins) (d : ℕ → ℕ → K) :
    discrepancyPy sqrt (flat nprof nbins d) nprof nbins = .ok (sqrt (meanSquare nprof nbins d)) := by
  unfold discrepancyPy
  have h1 : (flat nprof nbins d).foldl (fun s v => s + v * v) 0
      = ∑ p ∈ range nprof, ∑ b ∈ range nbins, d p b ^ 2 := by
    unfold flat
    rw [foldl_tab (acc := fun i => ∑ k ∈ range i, (d (k / nbins) (k % nbins)) ^ 2)]
    · exact sum_flat_range nprof nbins (fun p b => d p b ^ 2)
    · simp
    · intro i _; rw [sum_range_succ, pow_two (d (i / nbins) (i % nbins))]
  have hN : ((nbins * nprof : ℕ) : K) ≠ 0 := by
    have : 0 < nbins * nprof := Nat.mul_pos hb hp
    exact_mod_cast this.ne'
  rw [h1, fdiv_ok hN, bind_ok]
  unfold meanSquare
  rw [Nat.mul_comm]; rfl

theorem createFlatPointsPy_ok (npart nprof nbins : ℕ) (x : ℕ → ℕ → ℕ) :
    createFlatPointsPy (xbuf npart nprof x) npart nprof nbins = .ok (fpbuf npart nprof nbins x) := by
  unfold createFlatPointsPy xbuf fpbuf
  rw [forN_eq (g := fun c => flat npart nprof
    (fun i j => if j < c then (x i j : Int) + (nbins * j : ℕ) else (x i j : Int)))]
  · congr 1; apply flat_congr; intro i j _ hj; simp [hj]
  · apply flat_congr; intro i j _ _; simp
  · intro c hc
    rw [forN_eq (g := fun r => flat npart nprof
      (fun i j => if j < c ∨ (j = c ∧ i < r) then (x i j : Int) + (nbins * j : ℕ) else (x i j : Int)))]
    · congr 1; apply flat_congr; intro i j hi _
      have : (j < c ∨ (j = c ∧ i < npart)) ↔ j < c + 1 := by omega
      simp only [this]
    · apply flat_congr; intro i j _ _; simp
    · intro r hr
      rw [rd_flat _ hr hc rfl, bind_ok, upd_flat _ _ hr hc rfl]
      congr 1; apply flat_congr; intro i j _ _
      unfold upd2
      by_cases h1 : i = r ∧ j = c
      · obtain ⟨rfl, rfl⟩ := h1; simp
      · have : (j < c ∨ (j = c ∧ i < r + 1)) ↔ (j < c ∨ (j = c ∧ i < r)) := by omega
        rw [if_neg h1]; exact if_congr this.symm rfl rfl

theorem countPy_ok {npart nprof nbins : ℕ} {x : ℕ → ℕ → ℕ} (hx : InRange npart nprof nbins x) :
    countParticlesInBinsPy (flat nbins nprof fun _ _ => (0 : K)) (xbuf npart nprof x) nprof npart
      = .ok (flat nbins nprof (fun b p => (count npart x p b : K))) := by
  unfold countParticlesInBinsPy xbuf
  rw [forN_eq (g := fun c => flat nbins nprof (fun b p => if p < c then (count npart x p b : K) else 0))]
  · congr 1; apply flat_congr; intro b p _ hp; simp [hp]
  · apply flat_congr; intro i j _ _; simp
  · intro c hc
    rw [forN_eq (g := fun r => flat nbins nprof
      (fun b p => if p < c then (count npart x p b : K) else if p = c then (count r x p b : K) else 0))]
    · congr 1; apply flat_congr; intro b p _ _
      by_cases h1 : p < c
      · have : p < c + 1 := by omega
        rw [if_pos h1, if_pos this]
      · by_cases h2 : p = c
        · subst h2; simp
        · have : ¬ p < c + 1 := by omega
          rw [if_neg h1, if_neg h2, if_neg this]
    · apply flat_congr; intro b p _ _
      simp [count]
    · intro r hr
      have hidx : ((x r c : ℕ) : ℤ) * (nprof : ℤ) + (c : ℤ) = ((x r c * nprof + c : ℕ) : ℤ) := by push_cast; ring
      rw [rd_flat _ hr hc rfl, bind_ok, rd_flat _ (hx r hr c hc) hc hidx, bind_ok,
        upd_flat _ _ (hx r hr c hc) hc hidx]
      congr 1; apply flat_congr; intro b p _ _
      unfold upd2
      by_cases h1 : b = x r c ∧ p = c
      · obtain ⟨rfl, rfl⟩ := h1
        simp [count_succ]
      · rw [if_neg h1]
        by_cases h2 : p = c
        · subst h2
          have : ¬ x r p = b := fun e => h1 ⟨e.symm, rfl⟩
          simp [count_succ, this]
        · simp [h2]

theorem npMax_nat (n : ℕ) (c : ℕ → ℕ) (hn : 0 < n) :
    npMax (tab n (fun i => (c i : K))) = .ok (((range n).sup c : ℕ) : K) := by
  obtain ⟨m, rfl⟩ : ∃ m, n = m + 1 := ⟨n - 1, by omega⟩
  have h : tab (m + 1) (fun i => (c i : K)) = (c 0 : K) :: tab m (fun i => (c (i + 1) : K)) := by
    simp [tab, List.range_succ_eq_map]
  rw [h]
  simp only [npMax]
  congr 1
  rw [foldl_tab (acc := fun i => (((range (i + 1)).sup c : ℕ) : K))]
  · simp
  · intro i _
    rw [range_add_one (n := i + 1), sup_insert]
    by_cases h : (((range (i + 1)).sup c : ℕ) : K) < (c (i + 1) : K)
    · rw [if_pos h]
      have : (range (i + 1)).sup c ≤ c (i + 1) := by
        have : (range (i + 1)).sup c < c (i + 1) := by exact_mod_cast h
        omega
      rw [sup_eq_left.mpr this]
    · rw [if_neg h]
      have : c (i + 1) ≤ (range (i + 1)).sup c := by
        have := not_lt.mp h
        exact_mod_cast this
      rw [sup_eq_right.mpr this]

theorem divInto_ok (m : K) (l : List K) (h : ∀ a ∈ l, a ≠ 0) : divInto m l = .ok (l.map fun a => m / a) := by
  induction l with
  | nil => rfl
  | cons a l ih =>
    unfold divInto
    rw [fdiv_ok (h a (by simp)), bind_ok, ih (fun a ha => h a (by simp [ha])), bind_ok]; rfl

theorem transpose_ok (n m : ℕ) (f : ℕ → ℕ → K) :
    transpose (flat n m f) n m = .ok (flat m n fun i j => f j i) := by
  unfold transpose
  rw [forN_eq (g := fun k => tab k (fun k => f (k % n) (k / n)))]
  · rfl
  · rfl
  · intro k hk
    have h1 : k / n < m := div_lt_of_lt_mul' hk
    have h2 : k % n < n := mod_lt_of_lt_mul' hk
    rw [rd_flat f h2 h1 rfl, bind_ok, tab_succ]; rfl

theorem maxCount_pos {npart nprof nbins : ℕ} {x : ℕ → ℕ → ℕ} (hn : 0 < npart) (hp : 0 < nprof)
    (hx : InRange npart nprof nbins x) : 1 ≤ maxCount npart nprof nbins x := by
  have h1 : 1 ≤ count npart x 0 (x 0 0) := by
    unfold count
    exact card_pos.mpr ⟨0, mem_filter.mpr ⟨mem_range.mpr hn, rfl⟩⟩
  refine le_trans h1 ?_
  refine le_trans ?_ (le_sup (f := fun q => (range nbins).sup fun c => count npart x q c) (mem_range.mpr hp))
  exact le_sup (f := fun c => count npart x 0 c) (mem_range.mpr (hx 0 hn 0 hp))

theorem reciprocalPy_ok {npart nprof nbins : ℕ} {x : ℕ → ℕ → ℕ} (hn : 0 < npart) (hp : 0 < nprof)
    (hx : InRange npart nprof nbins x) :
    reciprocalParticlesPy (α := K) (xbuf npart nprof x) nbins nprof npart
      = .ok (flat nbins nprof (fun b p => recip K npart nprof nbins x p b)) := by
  have hb : 0 < nbins := by have := hx 0 hn 0 hp; omega
  unfold reciprocalParticlesPy
  have hz : (tab (nbins * nprof) fun _ => (0 : K)) = flat nbins nprof fun _ _ => (0 : K) := rfl
  rw [hz, countPy_ok hx, bind_ok]
  have hmap : (flat nbins nprof (fun b p => (count npart x p b : K))).map (fun v => if v = 0 then 1 else v)
      = tab (nbins * nprof) (fun k => ((max 1 (count npart x (k % nprof) (k / nprof)) : ℕ) : K)) := by
    unfold flat tab
    rw [List.map_map]
    apply List.map_congr_left
    intro k _
    simp only [Function.comp]
    by_cases h : count npart x (k % nprof) (k / nprof) = 0
    · simp [h]
    · rw [if_neg (by exact_mod_cast h), max_eq_right (by omega)]
  dsimp only
  rw [hmap, npMax_nat _ _ (Nat.mul_pos hb hp), bind_ok]
  have hsup : (range (nbins * nprof)).sup (fun k => max 1 (count npart x (k % nprof) (k / nprof)))
      = maxCount npart nprof nbins x := by
    rw [sup_flat_range nbins nprof (fun b p => max 1 (count npart x p b))]
    apply le_antisymm
    · apply Finset.sup_le; intro b hb'
      apply Finset.sup_le; intro p hp'
      apply max_le (maxCount_pos hn hp hx)
      refine le_trans ?_ (le_sup (f := fun q => (range nbins).sup fun c => count npart x q c) hp')
      exact le_sup (f := fun c => count npart x p c) hb'
    · unfold maxCount
      apply Finset.sup_le; intro p hp'
      apply Finset.sup_le; intro b hb'
      refine le_trans (le_max_right 1 _) ?_
      refine le_trans ?_ (le_sup (f := fun b => (range nprof).sup fun p => max 1 (count npart x p b)) hb')
      exact le_sup (f := fun p => max 1 (count npart x p b)) hp'
  rw [hsup, divInto_ok]
  · congr 1
    unfold flat tab
    rw [List.map_map]
    rfl
  · intro a ha
    simp only [tab, List.mem_map] at ha
    obtain ⟨k, _, rfl⟩ := ha
    have : 0 < max 1 (count npart x (k % nprof) (k / nprof)) := by omega
    exact_mod_cast this.ne'

section hybrid
variable {npart nprof nbins : ℕ} {x : ℕ → ℕ → ℕ}

theorem projectPy_ok (hp : 0 < nprof) (hx : InRange npart nprof nbins x) (w : ℕ → K)
    (hw : ∀ i, i < npart → 0 ≤ w i) :
    projectPy (fpbuf npart nprof nbins x) (tab npart w) npart nprof nbins
      = if (∑ i ∈ range npart, w i) ≤ 0 then .error (.exc .waterfallReducedToZero)
        else .ok (flat nprof nbins (normRows nbins (proj npart x w))) := by
  unfold projectPy
  have hz : (tab (nprof * nbins) fun _ => (0 : K)) = flat nprof nbins fun _ _ => (0 : K) := rfl
  rw [hz, project_ok hx, bind_ok]
  simp only [zero_add]
  by_cases h : (∑ i ∈ range npart, w i) ≤ 0
  · rw [if_pos h]
    apply normalizeProfiles_zero
    intro p b _ _
    have hs : ∑ i ∈ range npart, w i = 0 := le_antisymm h (sum_nonneg fun i hi => hw i (mem_range.mp hi))
    rw [sum_eq_zero_iff_of_nonneg (fun i hi => hw i (mem_range.mp hi))] at hs
    unfold proj
    apply sum_eq_zero
    intro i hi
    split
    · exact hs i hi
    · rfl
  · rw [if_neg h]
    have hrow : ∀ p, p < nprof → rowSum nbins (proj npart x w) p ≠ 0 := by
      intro p hp
      rw [rowSum_proj hx w hp]
      exact (not_le.mp h).ne'
    apply normalizeProfiles_ok
    · by_contra hc
      push Not at hc
      apply hrow 0 hp
      unfold rowSum
      apply sum_eq_zero
      intro b hb
      exact hc 0 b hp (mem_range.mp hb)
    · exact hrow

/-- discr buffer with the first `k` entries written -/
def hdiscr (sqrt : K → K) (npart nprof nbins : ℕ) (x : ℕ → ℕ → ℕ) (wf : ℕ → ℕ → K) (niter k : ℕ) : List K :=
  tab (niter + 1) (fun m => if m < k then sqrt (msq false npart nprof nbins x wf m) else 0)

def hst (sqrt : K → K) (npart nprof nbins : ℕ) (x : ℕ → ℕ → ℕ) (wf : ℕ → ℕ → K) (niter k : ℕ) : RState K :=
  ⟨tab npart (W false npart nprof nbins x wf k), flat nprof nbins (R false npart nprof nbins x wf k),
   hdiscr sqrt npart nprof nbins x wf niter k⟩

theorem upd_hdiscr (sqrt : K → K) (wf : ℕ → ℕ → K) {niter k : ℕ} (hk : k ≤ niter) :
    upd (hdiscr sqrt npart nprof nbins x wf niter k) (k : Int) (sqrt (msq false npart nprof nbins x wf k))
      = .ok (hdiscr sqrt npart nprof nbins x wf niter (k + 1)) := by
  unfold hdiscr
  rw [upd_tab _ _ (by omega)]
  congr 1; apply tab_congr; intro m _
  by_cases h : m = k
  · subst h; simp
  · have : m < k + 1 ↔ m < k := by omega
    simp only [h, if_false]
    exact if_congr this.symm rfl rfl

theorem R_false_succ (wf : ℕ → ℕ → K) (k : ℕ) : R false npart nprof nbins x wf (k + 1) =
    normRows nbins (proj npart x (W false npart nprof nbins x wf k)) := by
  rw [R_succ]; simp

theorem hybridBody_ok (sqrt : K → K) (hp : 0 < nprof) (hb : 0 < nbins) (hx : InRange npart nprof nbins x)
    (wf : ℕ → ℕ → K) {niter k : ℕ} (hk : k ≤ niter) :
    hybridBody sqrt (fpbuf npart nprof nbins x) (flat nprof nbins wf)
      (flat nprof nbins (recip K npart nprof nbins x)) nbins npart nprof k
      (hst sqrt npart nprof nbins x wf niter k)
      = if (∑ i ∈ range npart, W false npart nprof nbins x wf k i) ≤ 0 then
          .error (.exc .waterfallReducedToZero)
        else .ok (hst sqrt npart nprof nbins x wf niter (k + 1)) := by
  unfold hybridBody hst
  dsimp only
  rw [projectPy_ok hp hx _ (fun i _ => W_nonneg ..)]
  split
  · rfl
  · rw [bind_ok, zip2_flat, bind_ok, discrepancyPy_ok sqrt hp hb, bind_ok, ← R_false_succ]
    have := upd_hdiscr (npart := npart) (nprof := nprof) (nbins := nbins) (x := x) sqrt wf hk
    unfold msq at this
    rw [this, bind_ok, zip2_flat, bind_ok, backProject_ok hx, bind_ok, npClip0_tab]
    rfl

theorem hybridLoop_ok (sqrt : K → K) (hp : 0 < nprof) (hb : 0 < nbins) (hx : InRange npart nprof nbins x)
    (wf : ℕ → ℕ → K) {niter : ℕ} (k : ℕ) (hk : k ≤ niter) :
    forN k (hybridBody sqrt (fpbuf npart nprof nbins x) (flat nprof nbins wf)
      (flat nprof nbins (recip K npart nprof nbins x)) nbins npart nprof)
      (hst sqrt npart nprof nbins x wf niter 0) = .ok (hst sqrt npart nprof nbins x wf niter k) ∧
      (∀ m, m < k → 0 < ∑ i ∈ range npart, W false npart nprof nbins x wf m i) ∨
    forN k (hybridBody sqrt (fpbuf npart nprof nbins x) (flat nprof nbins wf)
      (flat nprof nbins (recip K npart nprof nbins x)) nbins npart nprof)
      (hst sqrt npart nprof nbins x wf niter 0) = .error (.exc .waterfallReducedToZero) ∧
      (∃ m, m < k ∧ ¬ 0 < ∑ i ∈ range npart, W false npart nprof nbins x wf m i) := by
  induction k with
  | zero => exact Or.inl ⟨rfl, fun m hm => absurd hm (by omega)⟩
  | succ k ih =>
    rcases ih (by omega) with ⟨h1, h2⟩ | ⟨h1, m, h2, h3⟩
    · rw [forN_succ, h1, bind_ok, hybridBody_ok sqrt hp hb hx wf (by omega)]
      by_cases hs : (∑ i ∈ range npart, W false npart nprof nbins x wf k i) ≤ 0
      · right; rw [if_pos hs]; exact ⟨rfl, k, by omega, not_lt.mpr hs⟩
      · left; rw [if_neg hs]
        refine ⟨rfl, fun m hm => ?_⟩
        rcases Nat.lt_or_ge m k with h | h
        · exact h2 m h
        · have : m = k := by omega
          subst this; exact not_le.mp hs
    · right
      rw [forN_succ, h1]
      exact ⟨rfl, m, by omega, h3⟩

/-- The complete behaviour of `run_hybrid` on in-range coordinates. -/
theorem runHybrid_run (sqrt : K → K) (hn : 0 < npart) (hp : 0 < nprof)
    (hx : InRange npart nprof nbins x) (wf : ℕ → ℕ → K) (niter : ℕ) :
    (Good false npart nprof nbins x wf niter ∧
      runHybrid sqrt (xbuf npart nprof x) (flat nprof nbins wf) niter nbins npart nprof
        = .ok ⟨tab npart (W false npart nprof nbins x wf niter),
            flat nprof nbins (R false npart nprof nbins x wf (niter + 1)),
            tab (niter + 1) (fun m => sqrt (msq false npart nprof nbins x wf m))⟩) ∨
    (¬ Good false npart nprof nbins x wf niter ∧
      runHybrid sqrt (xbuf npart nprof x) (flat nprof nbins wf) niter nbins npart nprof
        = .error (.exc .waterfallReducedToZero)) := by
  have hb : 0 < nbins := by have := hx 0 hn 0 hp; omega
  unfold runHybrid
  rw [reciprocalPy_ok hn hp hx, bind_ok, createFlatPointsPy_ok, bind_ok, backProject_ok hx, bind_ok,
    transpose_ok, bind_ok, npClip0_tab]
  have hst0 : (⟨tab npart (pos fun i => (0 : K) + backProj nprof x wf i), tab (nprof * nbins) fun _ => 0,
      tab (niter + 1) fun _ => 0⟩ : RState K) = hst sqrt npart nprof nbins x wf niter 0 := by
    simp only [hst, hdiscr, zero_add]
    congr 1
  rw [hst0]
  rcases hybridLoop_ok sqrt hp hb hx wf niter le_rfl with ⟨h1, h2⟩ | ⟨h1, m, h2, h3⟩
  · rw [h1, bind_ok]
    have hw : (hst sqrt npart nprof nbins x wf niter niter).weights = tab npart (W false npart nprof nbins x wf niter) := rfl
    have hd : (hst sqrt npart nprof nbins x wf niter niter).discr = hdiscr sqrt npart nprof nbins x wf niter niter := rfl
    rw [hw, projectPy_ok hp hx _ (fun i _ => W_nonneg ..)]
    by_cases hs : (∑ i ∈ range npart, W false npart nprof nbins x wf niter i) ≤ 0
    · right
      rw [if_pos hs]
      exact ⟨fun h => absurd (h niter le_rfl) (not_lt.mpr hs), rfl⟩
    · left
      rw [if_neg hs]
      refine ⟨?_, ?_⟩
      · intro m hm
        rcases Nat.lt_or_ge m niter with h | h
        · exact h2 m h
        · have : m = niter := by omega
          subst this; exact not_le.mp hs
      · rw [bind_ok, zip2_flat, bind_ok, discrepancyPy_ok sqrt hp hb, bind_ok, ← R_false_succ, hd]
        have := upd_hdiscr (npart := npart) (nprof := nprof) (nbins := nbins) (x := x) sqrt wf (le_refl niter)
        unfold msq at this
        rw [this, bind_ok, pure_eq_ok]
        unfold hdiscr
        congr 2
        apply tab_congr; intro m hm; simp [hm]
  · right
    rw [h1]
    exact ⟨fun h => h3 (h m (by omega)), rfl⟩

end hybrid

end Verif.Tomo

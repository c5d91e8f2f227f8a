import Verif.Lemmas.MultiRun
import Verif.Lemmas.Tomography
import Verif.Lemmas.PreProcess

/-!
# The hybrid multi-bunch routines compute their specification (helper lemmas)
-/

set_option linter.unusedSectionVars false

namespace Verif.Multi
open Finset Verif.Spec Verif.Recon Verif.Tomo

variable {K : Type} [Field K] [LinearOrder K] [IsStrictOrderedRing K]

/-! ## lists -/

theorem compress_map {β : Type _} (m : ℕ → Bool) (f : ℕ → β) (l : List ℕ) : compress (l.map m) (l.map f) = (l.filter m).map f := by
  unfold compress
  induction l with
  | nil => rfl
  | cons a l ih =>
    cases h : m a <;> simp_all

theorem scatter_map {β : Type _} (m : ℕ → Bool) (h f : ℕ → β) (l : List ℕ) :
    scatter (l.map m) ((l.filter m).map h) (l.map f) = l.map fun i => if m i then h i else f i := by
  induction l with
  | nil => rfl
  | cons a l ih =>
    cases hm : m a <;> simp [hm, scatter, ih]

theorem list_eq_tab (l : List ℕ) : l = tab l.length fun k => l.getD k 0 := by
  apply List.ext_getElem?
  intro i
  rw [getElem?_tab]
  split
  · next h => simp [h]
  · next h => simp; omega

/-- the coordinates the compiled counting routine sees: the transposed array read in the old shape -/
def twisted (npart nprof : ℕ) (x : ℕ → ℕ → ℕ) (i p : ℕ) : ℕ := x ((i * nprof + p) % npart) ((i * nprof + p) / npart)

theorem maskPy_ok (S : Setup) (c : ℕ) :
    maskPy (xbuf S.npart S.nprof S.x) (S.ctr c) (S.cl c, S.cr c) S.npart S.nprof = .ok (tab S.npart fun i => decide (Clear S c i)) := by
  unfold maskPy tab
  apply mapM_ok
  intro i hi
  have hi : i < S.npart := by simpa using hi
  have hrow : ((List.range S.nprof).mapM fun j => rd (xbuf S.npart S.nprof S.x) ((i * S.nprof + j : Nat) : Int))
      = .ok ((List.range S.nprof).map fun j => (S.x i j : ℤ)) := by
    apply mapM_ok
    intro j hj
    exact rd_flat _ hi (by simpa using hj) rfl
  rw [hrow, bind_ok]
  simp only [pure_eq_ok]
  congr 1
  rw [Bool.eq_iff_iff]
  simp only [List.all_map, List.all_eq_true, List.mem_range, Function.comp, Bool.and_eq_true, decide_eq_true_eq]
  rfl

theorem fp_shift {npart nprof nbins : ℕ} {x : ℕ → ℕ → ℕ} {z : ℤ} (h : ∀ i, i < npart → ∀ p, p < nprof → 0 ≤ (x i p : ℤ) + z) :
    (fpbuf npart nprof nbins x).map (fun v => v + z) = fpbuf npart nprof nbins (moved x z) := by
  unfold fpbuf flat tab
  rw [List.map_map]
  apply List.map_congr_left
  intro k hk
  have hk : k < npart * nprof := by simpa using hk
  have := h (k / nprof) (div_lt_of_lt_mul' hk) (k % nprof) (mod_lt_of_lt_mul' hk)
  simp only [Function.comp, moved]
  rw [Int.toNat_of_nonneg this]
  ring

theorem row_fp {npart nprof nbins : ℕ} (x : ℕ → ℕ → ℕ) {i : ℕ} (hi : i < npart) :
    ((fpbuf npart nprof nbins x).drop (i * nprof)).take nprof = tab nprof fun j => (x i j : Int) + (nbins * j : ℕ) := by
  apply List.ext_getElem?
  intro j
  rw [getElem?_tab, List.getElem?_take]
  by_cases hj : j < nprof
  · rw [if_pos hj, if_pos hj, List.getElem?_drop]
    unfold fpbuf flat
    have hlt : i * nprof + j < npart * nprof := by
      calc i * nprof + j < i * nprof + nprof := by omega
        _ = (i + 1) * nprof := by ring
        _ ≤ npart * nprof := Nat.mul_le_mul_right _ hi
    rw [getElem?_tab, if_pos hlt]
    have h1 : (i * nprof + j) / nprof = i := by
      rw [Nat.mul_comm, Nat.mul_add_div (by omega), Nat.div_eq_of_lt hj, Nat.add_zero]
    have h2 : (i * nprof + j) % nprof = j := by
      rw [Nat.mul_comm, Nat.mul_add_mod, Nat.mod_eq_of_lt hj]
    rw [h1, h2]
  · rw [if_neg hj, if_neg hj]

theorem backBunch_ok {npart nprof nbins : ℕ} {x : ℕ → ℕ → ℕ} {z : ℤ} (hx : ∀ i, i < npart → ∀ p, p < nprof → 0 ≤ (x i p : ℤ) + z)
    (hr : InRange npart nprof nbins (moved x z)) (m : ℕ → Bool) (w : ℕ → K) (f : ℕ → ℕ → K) :
    backBunch (tab npart w) (fpbuf npart nprof nbins x) z (flat nprof nbins f) (tab npart m) npart nprof
      = .ok (tab npart fun i => if m i then w i + backProj nprof (moved x z) f i else w i) := by
  unfold backBunch
  dsimp only
  set l := (List.range npart).filter m with hl
  have hmem : ∀ k, k < l.length → l.getD k 0 < npart := by
    intro k hk
    have h1 : l.getD k 0 ∈ l := by
      simp [List.getD, hk]
    exact List.mem_range.mp (List.mem_filter.mp h1).1
  have hsel : compress (tab npart m) (tab npart w) = tab l.length fun k => w (l.getD k 0) := by
    unfold tab
    rw [compress_map, ← hl]
    conv_lhs => rw [list_eq_tab l]
    unfold tab
    rw [List.map_map]; rfl
  have hrows : (compress (tab npart m) ((List.range npart).map fun i => ((fpbuf npart nprof nbins x).drop (i * nprof)).take nprof)).flatten.map
      (fun v => v + z) = fpbuf l.length nprof nbins fun k p => moved x z (l.getD k 0) p := by
    unfold tab
    rw [compress_map, ← hl]
    conv_lhs => rw [list_eq_tab l]
    have h1 : (tab l.length fun k => l.getD k 0).map (fun i => ((fpbuf npart nprof nbins x).drop (i * nprof)).take nprof)
        = tab l.length fun k => tab nprof fun j => (x (l.getD k 0) j : Int) + (nbins * j : ℕ) := by
      rw [show ∀ (g : ℕ → List ℤ) (e : ℕ → ℕ), (tab l.length e).map g = tab l.length fun k => g (e k) from
        fun g e => by unfold tab; rw [List.map_map]; rfl]
      apply tab_congr
      intro k hk
      exact row_fp x (hmem k hk)
    rw [h1, flatten_tab]
    rw [show (flat l.length nprof fun k j => (x (l.getD k 0) j : Int) + (nbins * j : ℕ))
      = fpbuf l.length nprof nbins (fun k p => x (l.getD k 0) p) from rfl]
    rw [fp_shift]
    · rfl
    · intro k hk p hp
      exact hx _ (hmem k hk) p hp
  rw [hsel, hrows, length_tab, backProject_ok, bind_ok]
  · simp only [pure_eq_ok]
    congr 1
    have h2 : (tab l.length fun k => w (l.getD k 0) + backProj nprof (fun k p => moved x z (l.getD k 0) p) f k)
        = l.map fun i => w i + backProj nprof (moved x z) f i := by
      conv_rhs => rw [list_eq_tab l]
      unfold tab
      rw [List.map_map]; rfl
    rw [h2, hl]
    exact scatter_map m _ w _
  · intro k hk p hp
    exact hr _ (hmem k hk) p hp

/-! ## compensation factors -/

theorem twisted_image {nc npart nprof nbins : ℕ} {x : ℕ → ℕ → ℕ} {ctr : ℕ → ℤ} (h : InImage nc npart nprof nbins x ctr) :
    InImage nc npart nprof nbins (twisted npart nprof x) ctr := by
  intro c hc i hi p hp
  have hlt : i * nprof + p < nprof * npart := by
    calc i * nprof + p < i * nprof + nprof := by omega
      _ = (i + 1) * nprof := by ring
      _ ≤ npart * nprof := Nat.mul_le_mul_right _ hi
      _ = nprof * npart := Nat.mul_comm _ _
  exact h c hc _ (mod_lt_of_lt_mul' hlt) _ (div_lt_of_lt_mul' hlt)

variable (S : Setup)

/-- compensation factors of the hybrid routines: counted on the coordinates in the wrong order -/
def recipH (K : Type) [Field K] (p b : ℕ) : K :=
  ((max 1 (maxAll S.nc S.npart S.nprof S.nbins (twisted S.npart S.nprof S.x) S.ctr) : ℕ) : K) /
    ((max 1 (countAll S.nc S.npart (twisted S.npart S.nprof S.x) S.ctr p b) : ℕ) : K)

theorem sup_max_one {n m : ℕ} (hn : 0 < n) (hm : 0 < m) (f : ℕ → ℕ → ℕ) :
    ((range n).sup fun p => (range m).sup fun b => max 1 (f p b)) = max 1 ((range n).sup fun p => (range m).sup fun b => f p b) := by
  apply le_antisymm
  · apply Finset.sup_le; intro p hp
    apply Finset.sup_le; intro b hb
    apply max_le_max le_rfl
    exact le_trans (le_sup (f := fun b => f p b) hb) (le_sup (f := fun p => (range m).sup fun b => f p b) hp)
  · apply max_le
    · refine le_trans ?_ (le_sup (f := fun p => (range m).sup fun b => max 1 (f p b)) (mem_range.mpr hn))
      exact le_trans (le_max_left 1 (f 0 0)) (le_sup (f := fun b => max 1 (f 0 b)) (mem_range.mpr hm))
    · apply Finset.sup_le; intro p hp
      apply Finset.sup_le; intro b hb
      refine le_trans ?_ (le_sup (f := fun p => (range m).sup fun b => max 1 (f p b)) hp)
      exact le_trans (le_max_right 1 (f p b)) (le_sup (f := fun b => max 1 (f p b)) hb)

theorem reciprocalMultiPy_ok (h : S.Ok) :
    reciprocalMultiPy (α := K) (xbuf S.npart S.nprof S.x) (tab S.nc S.ctr) S.nbins S.nprof S.npart
      = .ok (flat S.nprof S.nbins (recipH S K)) := by
  unfold reciprocalMultiPy
  have h1 : ((List.range (S.nprof * S.npart)).mapM fun k => rd (xbuf S.npart S.nprof S.x) (((k % S.npart) * S.nprof + k / S.npart : Nat) : Int))
      = .ok (xbuf S.npart S.nprof (twisted S.npart S.nprof S.x)) := by
    rw [mapM_ok (g := fun k => (S.x (k % S.npart) (k / S.npart) : ℤ))]
    · congr 1
      unfold xbuf flat tab
      rw [Nat.mul_comm]
      apply List.map_congr_left
      intro k _
      simp only [twisted]
      rw [Nat.div_add_mod']
    · intro k hk
      have hk : k < S.nprof * S.npart := by simpa using hk
      exact rd_flat _ (mod_lt_of_lt_mul' hk) (div_lt_of_lt_mul' hk) rfl
  have hz : (tab (S.nprof * S.nbins) fun _ => (0 : K)) = flat S.nprof S.nbins fun _ _ => (0 : K) := rfl
  rw [h1, bind_ok, length_tab, hz, countMulti_ok (twisted_image h.image), bind_ok]
  have hmap : (flat S.nprof S.nbins (fun p b => (countAll S.nc S.npart (twisted S.npart S.nprof S.x) S.ctr p b : K))).map
      (fun v => if v = 0 then 1 else v)
      = tab (S.nprof * S.nbins) (fun k =>
        ((max 1 (countAll S.nc S.npart (twisted S.npart S.nprof S.x) S.ctr (k / S.nbins) (k % S.nbins)) : ℕ) : K)) := by
    unfold flat tab
    rw [List.map_map]
    apply List.map_congr_left
    intro k _
    simp only [Function.comp]
    by_cases h : countAll S.nc S.npart (twisted S.npart S.nprof S.x) S.ctr (k / S.nbins) (k % S.nbins) = 0
    · simp [h]
    · rw [if_neg (by exact_mod_cast h), max_eq_right (by omega)]
  dsimp only
  rw [hmap, npMax_nat _ _ (Nat.mul_pos h.nprof h.nbins), bind_ok,
    sup_flat_range S.nprof S.nbins (fun p b => max 1 (countAll S.nc S.npart (twisted S.npart S.nprof S.x) S.ctr p b)),
    sup_max_one h.nprof h.nbins, divInto_ok]
  · congr 1
    unfold flat tab
    rw [List.map_map]
    rfl
  · intro a ha
    simp only [tab, List.mem_map] at ha
    obtain ⟨k, _, rfl⟩ := ha
    have : 0 < max 1 (countAll S.nc S.npart (twisted S.npart S.nprof S.x) S.ctr (k / S.nbins) (k % S.nbins)) := by omega
    exact_mod_cast this.ne'

/-! ## projection -/

theorem zip_tab {β γ : Type _} (n : ℕ) (f : ℕ → β) (g : ℕ → γ) : (tab n f).zip (tab n g) = tab n fun i => (f i, g i) := by
  unfold tab
  rw [List.zip_map']

theorem foldlM_tab {β γ : Type _} (step : β → γ → M β) (n : ℕ) (f : ℕ → γ) (acc : ℕ → β)
    (hs : ∀ i, i < n → step (acc i) (f i) = .ok (acc (i + 1))) : (tab n f).foldlM step (acc 0) = .ok (acc n) := by
  induction n with
  | zero => rfl
  | succ n ih =>
    rw [tab_succ, List.foldlM_append, ih (fun i hi => hs i (by omega)), bind_ok]
    simp only [List.foldlM_cons, List.foldlM_nil]
    rw [hs n (by omega)]; rfl

variable {S}

/-- normalising the projection of non-negative weights -/
theorem normalize_projAll (h : S.Ok) {w : ℕ → ℕ → K} (hw : ∀ c i, 0 ≤ w c i) :
    normalizeProfiles (flat S.nprof S.nbins (projAll S.nc S.npart S.x S.ctr w)) S.nprof S.nbins
      = if (∑ c ∈ range S.nc, ∑ i ∈ range S.npart, w c i) ≤ 0 then .error (.exc .waterfallReducedToZero)
        else .ok (flat S.nprof S.nbins (normRows S.nbins (projAll S.nc S.npart S.x S.ctr w))) := by
  by_cases hs : (∑ c ∈ range S.nc, ∑ i ∈ range S.npart, w c i) ≤ 0
  · rw [if_pos hs]
    apply normalizeProfiles_zero
    intro p b hp hb
    have h0 : rowSum S.nbins (projAll S.nc S.npart S.x S.ctr w) p = 0 := by
      rw [rowSum_projAll h w hp]
      exact le_antisymm hs (sum_nonneg fun c _ => sum_nonneg fun i _ => hw c i)
    unfold rowSum at h0
    exact (sum_eq_zero_iff_of_nonneg (fun b _ => projAll_nonneg hw p b)).mp h0 b (mem_range.mpr hb)
  · rw [if_neg hs]
    have hrow : ∀ p, p < S.nprof → rowSum S.nbins (projAll S.nc S.npart S.x S.ctr w) p ≠ 0 := by
      intro p hp
      rw [rowSum_projAll h w hp]
      exact (not_le.mp hs).ne'
    apply normalizeProfiles_ok _ _ hrow
    by_contra hc
    push Not at hc
    apply hrow 0 h.nprof
    exact sum_eq_zero fun b hb => hc 0 b h.nprof (mem_range.mp hb)

theorem shiftS (h : S.Ok) {c : ℕ} (hc : c < S.nc) :
    (fpbuf S.npart S.nprof S.nbins S.x).map (fun v => v + S.ctr c) = fpbuf S.npart S.nprof S.nbins (moved S.x (S.ctr c)) :=
  fp_shift fun i hi p hp => (h.image c hc i hi p hp).1

/-- the body of the projection loops -/
theorem project_step (h : S.Ok) (w : ℕ → ℕ → K) {c : ℕ} (hc : c < S.nc) :
    (do
      let r ← project (tab (S.nprof * S.nbins) fun _ => (0 : K)) ((fpbuf S.npart S.nprof S.nbins S.x).map fun v => v + S.ctr c)
        (tab S.npart (w c)) S.npart S.nprof
      zip2 (fun a b => a + b) (flat S.nprof S.nbins (projAll c S.npart S.x S.ctr w)) r)
      = .ok (flat S.nprof S.nbins (projAll (c + 1) S.npart S.x S.ctr w)) := by
  have hz : (tab (S.nprof * S.nbins) fun _ => (0 : K)) = flat S.nprof S.nbins fun _ _ => (0 : K) := rfl
  rw [shiftS h hc, hz, project_ok (inImage_range h.image hc), bind_ok, zip2_flat]
  congr 1
  apply flat_congr
  intro p b _ _
  unfold projAll
  rw [sum_range_succ, zero_add]

theorem projectBunches_ok (h : S.Ok) {w : ℕ → ℕ → K} (hw : ∀ c i, 0 ≤ w c i) :
    projectBunches (fpbuf S.npart S.nprof S.nbins S.x) (tab S.nc fun c => tab S.npart (w c)) (tab S.nc S.ctr) S.npart S.nprof S.nbins
      = if (∑ c ∈ range S.nc, ∑ i ∈ range S.npart, w c i) ≤ 0 then .error (.exc .waterfallReducedToZero)
        else .ok (flat S.nprof S.nbins (normRows S.nbins (projAll S.nc S.npart S.x S.ctr w))) := by
  unfold projectBunches
  have hz : (tab (S.nprof * S.nbins) fun _ => (0 : K)) = flat S.nprof S.nbins (projAll 0 S.npart S.x S.ctr w) := rfl
  rw [zip_tab]
  conv_lhs => arg 1; arg 2; rw [hz]
  rw [foldlM_tab _ S.nc _ (fun c => flat S.nprof S.nbins (projAll c S.npart S.x S.ctr w)) (fun c hc => project_step h w hc), bind_ok,
    normalize_projAll h hw]

/-! ## slices -/

theorem slc_flat {β : Type _} {n m c : ℕ} (hc : c < n) (f : ℕ → ℕ → β) : slc (flat n m f) c m = tab m (f c) := by
  unfold slc
  apply List.ext_getElem?
  intro j
  rw [getElem?_tab, List.getElem?_take]
  by_cases hj : j < m
  · rw [if_pos hj, if_pos hj, List.getElem?_drop]
    unfold flat
    have hlt : c * m + j < n * m := by
      calc c * m + j < c * m + m := by omega
        _ = (c + 1) * m := by ring
        _ ≤ n * m := Nat.mul_le_mul_right _ hc
    have h1 : (c * m + j) / m = c := by
      rw [Nat.mul_comm, Nat.mul_add_div (by omega), Nat.div_eq_of_lt hj, Nat.add_zero]
    have h2 : (c * m + j) % m = j := by
      rw [Nat.mul_comm, Nat.mul_add_mod, Nat.mod_eq_of_lt hj]
    rw [getElem?_tab, if_pos hlt, h1, h2]
  · rw [if_neg hj, if_neg hj]

theorem putSlc_flat {β : Type _} {n m c : ℕ} (hc : c < n) (f : ℕ → ℕ → β) (v : ℕ → β) :
    putSlc (flat n m f) (tab m v) c m = flat n m fun a i => if a = c then v i else f a i := by
  have hcm : c * m + m ≤ n * m := by
    calc c * m + m = (c + 1) * m := by ring
      _ ≤ n * m := Nat.mul_le_mul_right _ hc
  unfold putSlc flat
  apply List.ext_getElem?
  intro k
  have hk1 : ∀ k, k < c * m → k / m < c := fun k hk => by
    rw [Nat.div_lt_iff_lt_mul]; exact hk
    rcases Nat.eq_zero_or_pos m with rfl | h
    · simp at hk
    · exact h
  rw [List.append_assoc, List.getElem?_append, List.length_take, length_tab, Nat.min_eq_left (by omega)]
  split
  · next hk =>
    rw [List.getElem?_take, if_pos hk, getElem?_tab, getElem?_tab, if_pos (by omega), if_pos (by omega)]
    have := hk1 k hk
    dsimp only
    rw [if_neg (by omega)]
  · next hk =>
    rw [List.getElem?_append, length_tab]
    split
    · next hk2 =>
      have h1 : k / m = c := by
        rw [show k = m * c + (k - c * m) by rw [Nat.mul_comm m]; omega, Nat.mul_add_div (by omega), Nat.div_eq_of_lt hk2, Nat.add_zero]
      have h2 : k % m = k - c * m := by
        rw [show k = m * c + (k - c * m) by rw [Nat.mul_comm m]; omega, Nat.mul_add_mod, Nat.mod_eq_of_lt hk2]
        rw [Nat.mul_comm m]; omega
      rw [getElem?_tab, if_pos hk2, getElem?_tab, if_pos (by omega), h1, h2]
      dsimp only
      rw [if_pos rfl]
    · next hk2 =>
      rw [List.getElem?_drop, show (c + 1) * m + (k - c * m - m) = k by rw [Nat.add_mul, Nat.one_mul]; omega]
      rw [getElem?_tab, getElem?_tab]
      split
      · next hk3 =>
        have hm : 0 < m := by
          rcases Nat.eq_zero_or_pos m with rfl | h
          · simp at hk3
          · exact h
        have h1 : c + 1 ≤ k / m := by
          rw [Nat.le_div_iff_mul_le hm, Nat.add_mul, Nat.one_mul]; omega
        dsimp only
        rw [if_neg (by omega)]
      · rfl

/-! ## the sequence of weights -/

section seqH
variable (S : Setup) (wf : ℕ → ℕ → K)

/-- what particle `i` of bunch `c` collects: nothing when it touches the cuts -/
def backH (f : ℕ → ℕ → K) (c i : ℕ) : K := if Clear S c i then backProj S.nprof (moved S.x (S.ctr c)) f i else 0

/-- recreated waterfall from weights -/
def recH (w : ℕ → ℕ → K) : ℕ → ℕ → K := normRows S.nbins (projAll S.nc S.npart S.x S.ctr w)

/-- weights after `k` iterations -/
def WH : ℕ → ℕ → ℕ → K
  | 0 => fun c i => max (backH S wf c i) 0
  | k + 1 => fun c i => max (WH k c i + backH S (fun p b => (wf p b - recH S (WH k) p b) * recipH S K p b) c i) 0

/-- recorded at iteration `k` -/
def diffH (k : ℕ) (p b : ℕ) : K := wf p b - recH S (WH S wf k) p b

/-- the weights did not all vanish up to iteration `k` -/
def GoodH (k : ℕ) : Prop := ∀ m, m ≤ k → 0 < ∑ c ∈ range S.nc, ∑ i ∈ range S.npart, WH S wf m c i

/-- state before iteration `k` -/
def stH (sqrt : K → K) (niter k : ℕ) : HState K :=
  ⟨tab S.nc fun c => tab S.npart (WH S wf k c),
    match k with
    | 0 => tab (S.nprof * S.nbins) fun _ => 0
    | k + 1 => flat S.nprof S.nbins (recH S (WH S wf k)),
    tab (niter + 1) fun m => if m < k then sqrt (meanSquare S.nprof S.nbins (diffH S wf m)) else 0⟩

/-- result of a run -/
def outH (sqrt : K → K) (niter : ℕ) : HState K :=
  ⟨tab S.nc fun c => tab S.npart (WH S wf niter c), flat S.nprof S.nbins (recH S (WH S wf niter)),
    tab (niter + 1) fun m => sqrt (meanSquare S.nprof S.nbins (diffH S wf m))⟩

variable {S wf}

theorem WH_nonneg (k c i : ℕ) : 0 ≤ WH S wf k c i := by
  cases k with
  | zero => exact le_max_right _ _
  | succ k => exact le_max_right _ _

theorem WH_masked {c i : ℕ} (h : ¬ Clear S c i) (k : ℕ) : WH S wf k c i = 0 := by
  induction k with
  | zero => show max (backH S wf c i) 0 = 0; rw [backH, if_neg h, max_self]
  | succ k ih =>
    show max (WH S wf k c i + backH S _ c i) 0 = 0
    rw [ih, backH, if_neg h, add_zero, max_self]

theorem rowSum_recH (h : S.Ok) {k : ℕ} (hk : 0 < ∑ c ∈ range S.nc, ∑ i ∈ range S.npart, WH S wf k c i) {p : ℕ} (hp : p < S.nprof) :
    rowSum S.nbins (recH S (WH S wf k)) p = 1 := by
  unfold recH
  rw [rowSum_normRows]
  rw [rowSum_projAll h _ hp]
  exact hk.ne'

/-! ## one row of weights per bunch -/

theorem backBunchS (h : S.Ok) {c : ℕ} (hc : c < S.nc) (w : ℕ → K) (f : ℕ → ℕ → K) :
    backBunch (tab S.npart w) (fpbuf S.npart S.nprof S.nbins S.x) (S.ctr c) (flat S.nprof S.nbins f)
      (tab S.npart fun i => decide (Clear S c i)) S.npart S.nprof = .ok (tab S.npart fun i => w i + backH S f c i) := by
  rw [backBunch_ok (fun i hi p hp => (h.image c hc i hi p hp).1) (inImage_range h.image hc)]
  congr 1
  apply tab_congr
  intro i _
  unfold backH
  by_cases hs : Clear S c i <;> simp [hs]

theorem clip_rows (n m : ℕ) (w : ℕ → ℕ → K) :
    (tab n fun c => tab m (w c)).map npClip0 = tab n fun c => tab m fun i => max (w c i) 0 := by
  unfold tab
  rw [List.map_map]
  apply List.map_congr_left
  intro c _
  exact npClip0_tab m (w c)

theorem upd_discrH (v : ℕ → K) {niter k : ℕ} (hk : k ≤ niter) :
    upd (tab (niter + 1) fun m => if m < k then v m else 0) (k : Int) (v k)
      = .ok (tab (niter + 1) fun m => if m < k + 1 then v m else 0) := upd_discrM v 0 hk

theorem masksS (S : Setup) :
    (((tab S.nc S.ctr).zip (tab S.nc fun c => (S.cl c, S.cr c))).mapM fun q => maskPy (xbuf S.npart S.nprof S.x) q.1 q.2 S.npart S.nprof)
      = .ok (tab S.nc fun c => tab S.npart fun i => decide (Clear S c i)) := by
  rw [zip_tab]
  have : ∀ n, ((tab n fun c => (S.ctr c, (S.cl c, S.cr c))).mapM fun q => maskPy (xbuf S.npart S.nprof S.x) q.1 q.2 S.npart S.nprof)
      = .ok (tab n fun c => tab S.npart fun i => decide (Clear S c i)) := by
    intro n
    induction n with
    | zero => rfl
    | succ n ih =>
      rw [tab_succ, tab_succ, List.mapM_append, ih, bind_ok]
      simp only [List.mapM_cons, List.mapM_nil]
      rw [maskPy_ok]; rfl
  exact this S.nc

theorem mapM_bunch {β : Type} (F : β → M (List K)) (n : ℕ) (t : ℕ → β) (g : ℕ → List K) (h : ∀ c, c < n → F (t c) = .ok (g c)) :
    (tab n t).mapM F = .ok (tab n g) := by
  induction n with
  | zero => rfl
  | succ n ih =>
    rw [tab_succ, tab_succ, List.mapM_append, ih (fun c hc => h c (by omega)), bind_ok]
    simp only [List.mapM_cons, List.mapM_nil]
    rw [h n (by omega)]; rfl

theorem hybridMultiStep_ok (sqrt : K → K) (h : S.Ok) {niter k : ℕ} (hk : k ≤ niter) :
    hybridMultiStep sqrt (flat S.nprof S.nbins wf) (flat S.nprof S.nbins (recipH S K)) (fpbuf S.npart S.nprof S.nbins S.x)
      (tab S.nc fun c => tab S.npart fun i => decide (Clear S c i)) (tab S.nc S.ctr) S.nbins S.npart S.nprof k (stH S wf sqrt niter k)
      = if (∑ c ∈ range S.nc, ∑ i ∈ range S.npart, WH S wf k c i) ≤ 0 then .error (.exc .waterfallReducedToZero)
        else .ok (stH S wf sqrt niter (k + 1)) := by
  unfold hybridMultiStep
  have hw : (stH S wf sqrt niter k).weights = tab S.nc fun c => tab S.npart (WH S wf k c) := rfl
  rw [hw, projectBunches_ok h (WH_nonneg k)]
  by_cases hs : (∑ c ∈ range S.nc, ∑ i ∈ range S.npart, WH S wf k c i) ≤ 0
  · rw [if_pos hs, if_pos hs]; rfl
  · rw [if_neg hs, if_neg hs, bind_ok, zip2_flat, bind_ok, discrepancyPy_ok sqrt h.nprof h.nbins, bind_ok]
    have hd : (stH S wf sqrt niter k).discr = tab (niter + 1) fun m => if m < k then sqrt (meanSquare S.nprof S.nbins (diffH S wf m)) else 0 := rfl
    rw [hd]
    have hu := upd_discrH (fun m => sqrt (meanSquare S.nprof S.nbins (diffH S wf m))) hk
    rw [show (fun p q => wf p q - normRows S.nbins (projAll S.nc S.npart S.x S.ctr (WH S wf k)) p q) = diffH S wf k from rfl, hu, bind_ok,
      zip2_flat, bind_ok, zip_tab, zip_tab, mapM_bunch _ S.nc _
        (fun c => tab S.npart fun i => WH S wf k c i + backH S (fun p b => diffH S wf k p b * recipH S K p b) c i)
        (fun c hc => backBunchS h hc _ _), bind_ok, clip_rows]
    rfl

theorem hybridMulti_run (sqrt : K → K) (h : S.Ok) (niter : ℕ) :
    (GoodH S wf niter ∧
      runHybridMulti sqrt (xbuf S.npart S.nprof S.x) (flat S.nprof S.nbins wf) (tab S.nc S.ctr) (tab S.nc fun c => (S.cl c, S.cr c)) niter
        S.nbins S.npart S.nprof = .ok (outH S wf sqrt niter)) ∨
    (¬ GoodH S wf niter ∧
      runHybridMulti sqrt (xbuf S.npart S.nprof S.x) (flat S.nprof S.nbins wf) (tab S.nc S.ctr) (tab S.nc fun c => (S.cl c, S.cr c)) niter
        S.nbins S.npart S.nprof = .error (.exc .waterfallReducedToZero)) := by
  unfold runHybridMulti
  rw [masksS, bind_ok, reciprocalMultiPy_ok S h, bind_ok, createFlatPointsPy_ok, bind_ok, zip_tab,
    mapM_bunch _ S.nc _ (fun c => tab S.npart fun i => 0 + backH S wf c i) (fun c hc => backBunchS h hc _ _), bind_ok, clip_rows]
  have hst0 : (⟨tab S.nc fun c => tab S.npart fun i => max (0 + backH S wf c i) 0, tab (S.nprof * S.nbins) fun _ => 0,
      tab (niter + 1) fun _ => 0⟩ : HState K) = stH S wf sqrt niter 0 := by
    simp only [stH, zero_add]
    rfl
  rw [hst0]
  have loop : ∀ k, k ≤ niter →
      (forN k (hybridMultiStep sqrt (flat S.nprof S.nbins wf) (flat S.nprof S.nbins (recipH S K)) (fpbuf S.npart S.nprof S.nbins S.x)
        (tab S.nc fun c => tab S.npart fun i => decide (Clear S c i)) (tab S.nc S.ctr) S.nbins S.npart S.nprof) (stH S wf sqrt niter 0)
        = .ok (stH S wf sqrt niter k) ∧ ∀ m, m < k → 0 < ∑ c ∈ range S.nc, ∑ i ∈ range S.npart, WH S wf m c i) ∨
      (forN k (hybridMultiStep sqrt (flat S.nprof S.nbins wf) (flat S.nprof S.nbins (recipH S K)) (fpbuf S.npart S.nprof S.nbins S.x)
        (tab S.nc fun c => tab S.npart fun i => decide (Clear S c i)) (tab S.nc S.ctr) S.nbins S.npart S.nprof) (stH S wf sqrt niter 0)
        = .error (.exc .waterfallReducedToZero) ∧ ∃ m, m < k ∧ ¬ 0 < ∑ c ∈ range S.nc, ∑ i ∈ range S.npart, WH S wf m c i) := by
    intro k
    induction k with
    | zero => exact fun _ => Or.inl ⟨rfl, fun m hm => absurd hm (by omega)⟩
    | succ k ih =>
      intro hk
      rcases ih (by omega) with ⟨h1, h2⟩ | ⟨h1, m, h2, h3⟩
      · rw [forN_succ, h1, bind_ok, hybridMultiStep_ok sqrt h (by omega)]
        by_cases hs : (∑ c ∈ range S.nc, ∑ i ∈ range S.npart, WH S wf k c i) ≤ 0
        · right; rw [if_pos hs]; exact ⟨rfl, k, by omega, not_lt.mpr hs⟩
        · left; rw [if_neg hs]
          refine ⟨rfl, fun m hm => ?_⟩
          rcases Nat.lt_or_ge m k with h | h
          · exact h2 m h
          · have : m = k := by omega
            subst this; exact not_le.mp hs
      · right
        rw [forN_succ, h1]
        exact ⟨rfl, m, by omega, h3⟩
  rcases loop niter le_rfl with ⟨h1, h2⟩ | ⟨h1, m, h2, h3⟩
  · rw [h1, bind_ok]
    have hw : (stH S wf sqrt niter niter).weights = tab S.nc fun c => tab S.npart (WH S wf niter c) := rfl
    have hd : (stH S wf sqrt niter niter).discr
        = tab (niter + 1) fun m => if m < niter then sqrt (meanSquare S.nprof S.nbins (diffH S wf m)) else 0 := rfl
    rw [hw, projectBunches_ok h (WH_nonneg niter)]
    by_cases hs : (∑ c ∈ range S.nc, ∑ i ∈ range S.npart, WH S wf niter c i) ≤ 0
    · right
      rw [if_pos hs]
      exact ⟨fun hg => absurd (hg niter le_rfl) (not_lt.mpr hs), rfl⟩
    · left
      rw [if_neg hs]
      refine ⟨?_, ?_⟩
      · intro m hm
        rcases Nat.lt_or_ge m niter with h | h
        · exact h2 m h
        · have : m = niter := by omega
          subst this; exact not_le.mp hs
      · have hu := upd_discrH (fun m => sqrt (meanSquare S.nprof S.nbins (diffH S wf m))) (le_refl niter)
        rw [bind_ok, zip2_flat, bind_ok, discrepancyPy_ok sqrt h.nprof h.nbins, bind_ok, hd,
          show (fun p q => wf p q - normRows S.nbins (projAll S.nc S.npart S.x S.ctr (WH S wf niter)) p q) = diffH S wf niter from rfl, hu, bind_ok]
        unfold outH recH
        simp only [pure_eq_ok]
        congr 2
        apply tab_congr
        intro m hm
        rw [if_pos hm]
  · right
    rw [h1]
    exact ⟨fun hg => h3 (hg m (by omega)), rfl⟩

/-! ## the discrepancies of the bunches -/

theorem npSlice_tab {β : Type _} {n l r : ℕ} (hlr : l ≤ r) (hr : r ≤ n) (g : ℕ → β) :
    npSlice (tab n g) (l : Int) (r : Int) = tab (r - l) fun b => g (l + b) := by
  have h1 : sliceIdx n (l : Int) = l := by unfold sliceIdx; rw [if_neg (by omega)]; simp; omega
  have h2 : sliceIdx n (r : Int) = r := by unfold sliceIdx; rw [if_neg (by omega)]; simp; omega
  unfold npSlice
  rw [length_tab, h1, h2]
  dsimp only
  apply List.ext_getElem?
  intro k
  rw [List.getElem?_drop, List.getElem?_take, getElem?_tab, getElem?_tab]
  by_cases hk : k < r - l
  · rw [if_pos hk, if_pos (by omega), if_pos (by omega)]
  · rw [if_neg hk, if_neg (by omega)]

theorem discrepancyMultiPy_ok (sqrt : K → K) {nprof nbins : ℕ} (hp : 0 < nprof) (d : ℕ → ℕ → K) (cuts : List (ℤ × ℤ))
    (hc : ∀ c ∈ cuts, 0 ≤ c.1 ∧ c.1 < c.2 ∧ c.2 ≤ nbins) :
    discrepancyMultiPy sqrt (flat nprof nbins d) cuts nprof nbins
      = .ok (cuts.map fun c => sqrt (meanSquareCut nprof c.1.toNat c.2.toNat d)) := by
  unfold discrepancyMultiPy
  apply mapM_ok
  rintro ⟨l, r⟩ hm
  obtain ⟨hl, hlr, hr⟩ := hc _ hm
  dsimp only at hl hlr hr ⊢
  lift l to ℕ using hl
  lift r to ℕ using by omega
  have hlr : l < r := by exact_mod_cast hlr
  have hr : r ≤ nbins := by exact_mod_cast hr
  have hv : ((List.range nprof).map fun p => npSlice (slc (flat nprof nbins d) p nbins) (l : Int) (r : Int))
      = tab nprof fun p => tab (r - l) fun b => d p (l + b) := by
    unfold tab
    apply List.map_congr_left
    intro p hp
    rw [slc_flat (List.mem_range.mp hp)]
    exact npSlice_tab hlr.le hr _
  have hcast : ((((r : ℤ) - (l : ℤ)) * (nprof : ℤ) : ℤ) : K) = (((r - l) * nprof : ℕ) : K) := by
    rw [← Nat.cast_sub hlr.le, ← Nat.cast_mul, Int.cast_natCast]
  have hne : (((r - l) * nprof : ℕ) : K) ≠ 0 := by
    have : 0 < (r - l) * nprof := Nat.mul_pos (by omega) hp
    exact_mod_cast this.ne'
  rw [hv, hcast, fdiv_ok hne, bind_ok]
  simp only [pure_eq_ok, Int.toNat_natCast]
  congr 2
  unfold meanSquareCut
  rw [Nat.mul_comm nprof]
  congr 1
  unfold tab
  rw [List.map_flatten, List.sum_flatten, List.map_map, List.map_map]
  have h2 : ∀ (n : ℕ) (f : ℕ → K), ((List.range n).map f).sum = ∑ i ∈ range n, f i := by
    intro n f
    induction n with
    | zero => simp
    | succ n ih => rw [List.range_succ, List.map_append, List.sum_append, ih, Finset.sum_range_succ]; simp
  rw [h2]
  apply Finset.sum_congr rfl
  intro p _
  simp only [Function.comp]
  rw [List.map_map, h2, Finset.sum_Ico_eq_sum_range]
  apply Finset.sum_congr rfl
  intro b _
  simp [pow_two]

/-! ## one array for all weights -/

theorem projectFlat_ok (h : S.Ok) {w : ℕ → ℕ → K} (hw : ∀ c i, 0 ≤ w c i) :
    projectFlat (fpbuf S.npart S.nprof S.nbins S.x) (flat S.nc S.npart w) (tab S.nc S.ctr) S.npart S.nprof S.nbins
      = projectBunches (fpbuf S.npart S.nprof S.nbins S.x) (tab S.nc fun c => tab S.npart (w c)) (tab S.nc S.ctr) S.npart S.nprof S.nbins := by
  rw [projectBunches_ok h hw]
  unfold projectFlat
  rw [length_tab, forN_eq (g := fun c => flat S.nprof S.nbins (projAll c S.npart S.x S.ctr w)), bind_ok, normalize_projAll h hw]
  · rfl
  · intro c hc
    rw [rd_tab _ hc, bind_ok, slc_flat hc]
    exact project_step h w hc

theorem backFlat_ok (h : S.Ok) (w f : ℕ → ℕ → K) :
    backFlat (flat S.nc S.npart w) (fpbuf S.npart S.nprof S.nbins S.x) (flat S.nprof S.nbins f)
      (flat S.nc S.npart fun c i => decide (Clear S c i)) (tab S.nc S.ctr) S.npart S.nprof
      = .ok (flat S.nc S.npart fun c i => w c i + backH S f c i) := by
  unfold backFlat
  rw [length_tab, forN_eq (g := fun k => flat S.nc S.npart fun c i => if c < k then w c i + backH S f c i else w c i)]
  · congr 1; apply flat_congr; intro c i hc _; simp [hc]
  · apply flat_congr; intro c i _ _; simp
  · intro k hk
    rw [rd_tab _ hk, bind_ok, slc_flat hk, slc_flat hk, backBunchS h hk, bind_ok, putSlc_flat hk]
    simp only [pure_eq_ok]
    congr 1
    apply flat_congr
    intro c i _ _
    by_cases hck : c = k
    · subst hck; simp
    · have : (c < k + 1) = (c < k) := by apply propext; omega
      simp only [if_neg hck, this]

/-- state of the flat routine before iteration `k` -/
def stF (S : Setup) (wf : ℕ → ℕ → K) (sqrt : K → K) (niter k : ℕ) : FState K :=
  ⟨flat S.nc S.npart (WH S wf k), (stH S wf sqrt niter k).flatRec, (stH S wf sqrt niter k).discr,
    tab S.nc fun c => tab (niter + 1) fun m => if m < k then sqrt (meanSquareCut S.nprof (S.cl c).toNat (S.cr c).toNat (diffH S wf m)) else 0⟩

/-- result of the flat routine -/
def outF (S : Setup) (wf : ℕ → ℕ → K) (sqrt : K → K) (niter : ℕ) : FState K :=
  ⟨flat S.nc S.npart (WH S wf niter), flat S.nprof S.nbins (recH S (WH S wf niter)),
    tab (niter + 1) fun m => sqrt (meanSquare S.nprof S.nbins (diffH S wf m)),
    tab S.nc fun c => tab (niter + 1) fun m => sqrt (meanSquareCut S.nprof (S.cl c).toNat (S.cr c).toNat (diffH S wf m))⟩

section flatRun
theorem splitS (sqrt : K → K) (h : S.Ok) (hb : CutsIn S)
    (d : ℕ → ℕ → K) :
    discrepancyMultiPy sqrt (flat S.nprof S.nbins d) (tab S.nc fun c => (S.cl c, S.cr c)) S.nprof S.nbins
      = .ok (tab S.nc fun c => sqrt (meanSquareCut S.nprof (S.cl c).toNat (S.cr c).toNat d)) := by
  rw [discrepancyMultiPy_ok sqrt h.nprof]
  · unfold tab; rw [List.map_map]; rfl
  · intro q hq
    simp only [tab, List.mem_map, List.mem_range] at hq
    obtain ⟨c, hc, rfl⟩ := hq
    exact ⟨(hb c hc).1, h.cuts c hc, (hb c hc).2⟩

theorem setColumn_ok (v : ℕ → ℕ → K) {n niter k : ℕ} (hk : k ≤ niter) :
    setColumn (tab n fun c => tab (niter + 1) fun m => if m < k then v c m else 0) k (tab n fun c => v c k)
      = .ok (tab n fun c => tab (niter + 1) fun m => if m < k + 1 then v c m else 0) := by
  unfold setColumn
  rw [if_pos (by simp), zip_tab, mapM_bunch _ n _ (fun c => tab (niter + 1) fun m => if m < k + 1 then v c m else 0)]
  intro c _
  exact upd_discrH (v c) hk

theorem hybridFlatStep_ok (sqrt : K → K) (h : S.Ok) (hb : CutsIn S) {niter k : ℕ} (hk : k ≤ niter) :
    hybridFlatStep sqrt (flat S.nprof S.nbins wf) (flat S.nprof S.nbins (recipH S K)) (fpbuf S.npart S.nprof S.nbins S.x)
      (flat S.nc S.npart fun c i => decide (Clear S c i)) (tab S.nc S.ctr) (tab S.nc fun c => (S.cl c, S.cr c)) S.nbins S.npart S.nprof k
      (stF S wf sqrt niter k)
      = if (∑ c ∈ range S.nc, ∑ i ∈ range S.npart, WH S wf k c i) ≤ 0 then .error (.exc .waterfallReducedToZero)
        else .ok (stF S wf sqrt niter (k + 1)) := by
  unfold hybridFlatStep
  have hw : (stF S wf sqrt niter k).weights = flat S.nc S.npart (WH S wf k) := rfl
  rw [hw, projectFlat_ok h (WH_nonneg k), projectBunches_ok h (WH_nonneg k)]
  by_cases hs : (∑ c ∈ range S.nc, ∑ i ∈ range S.npart, WH S wf k c i) ≤ 0
  · rw [if_pos hs, if_pos hs]; rfl
  · rw [if_neg hs, if_neg hs, bind_ok, zip2_flat, bind_ok, discrepancyPy_ok sqrt h.nprof h.nbins, bind_ok]
    have hd : (stF S wf sqrt niter k).discr
        = tab (niter + 1) fun m => if m < k then sqrt (meanSquare S.nprof S.nbins (diffH S wf m)) else 0 := rfl
    have hsp : (stF S wf sqrt niter k).split
        = tab S.nc fun c => tab (niter + 1) fun m => if m < k then sqrt (meanSquareCut S.nprof (S.cl c).toNat (S.cr c).toNat (diffH S wf m)) else 0 := rfl
    rw [hd, hsp]
    have hu := upd_discrH (fun m => sqrt (meanSquare S.nprof S.nbins (diffH S wf m))) hk
    have hc := setColumn_ok (n := S.nc) (fun c m => sqrt (meanSquareCut S.nprof (S.cl c).toNat (S.cr c).toNat (diffH S wf m))) hk
    rw [show (fun p q => wf p q - normRows S.nbins (projAll S.nc S.npart S.x S.ctr (WH S wf k)) p q) = diffH S wf k from rfl, hu, bind_ok,
      splitS sqrt h hb, bind_ok, hc, bind_ok, zip2_flat, bind_ok, backFlat_ok h, bind_ok, npClip0_flat]
    rfl

theorem hybridFlat_run (sqrt : K → K) (h : S.Ok) (hb : CutsIn S) (niter : ℕ) :
    (GoodH S wf niter ∧
      runHybridFlat sqrt (xbuf S.npart S.nprof S.x) (flat S.nprof S.nbins wf) (tab S.nc S.ctr) (tab S.nc fun c => (S.cl c, S.cr c)) niter
        S.nbins S.npart S.nprof = .ok (outF S wf sqrt niter)) ∨
    (¬ GoodH S wf niter ∧
      runHybridFlat sqrt (xbuf S.npart S.nprof S.x) (flat S.nprof S.nbins wf) (tab S.nc S.ctr) (tab S.nc fun c => (S.cl c, S.cr c)) niter
        S.nbins S.npart S.nprof = .error (.exc .waterfallReducedToZero)) := by
  unfold runHybridFlat
  have hz : (tab (S.npart * S.nc) fun _ => (0 : K)) = flat S.nc S.npart fun _ _ => (0 : K) := by rw [Nat.mul_comm]; rfl
  rw [masksS, bind_ok]
  dsimp only
  rw [flatten_tab, reciprocalMultiPy_ok S h, bind_ok, createFlatPointsPy_ok, bind_ok, length_tab, hz, backFlat_ok h, bind_ok, npClip0_flat]
  have hst0 : (⟨flat S.nc S.npart fun c i => max (0 + backH S wf c i) 0, tab (S.nprof * S.nbins) fun _ => 0,
      tab (niter + 1) fun _ => 0, tab S.nc fun _ => tab (niter + 1) fun _ => 0⟩ : FState K) = stF S wf sqrt niter 0 := by
    simp only [stF, stH, zero_add]
    rfl
  rw [hst0]
  generalize hstep : hybridFlatStep sqrt (flat S.nprof S.nbins wf) (flat S.nprof S.nbins (recipH S K)) (fpbuf S.npart S.nprof S.nbins S.x)
      (flat S.nc S.npart fun c i => decide (Clear S c i)) (tab S.nc S.ctr) (tab S.nc fun c => (S.cl c, S.cr c)) S.nbins S.npart S.nprof = step
  have step_ok : ∀ k, k ≤ niter → step k (stF S wf sqrt niter k)
      = if (∑ c ∈ range S.nc, ∑ i ∈ range S.npart, WH S wf k c i) ≤ 0 then .error (.exc .waterfallReducedToZero)
        else .ok (stF S wf sqrt niter (k + 1)) := by
    intro k hk
    rw [← hstep]
    exact hybridFlatStep_ok sqrt h hb hk
  have loop : ∀ k, k ≤ niter →
      (forN k step (stF S wf sqrt niter 0)
        = .ok (stF S wf sqrt niter k) ∧ ∀ m, m < k → 0 < ∑ c ∈ range S.nc, ∑ i ∈ range S.npart, WH S wf m c i) ∨
      (forN k step (stF S wf sqrt niter 0)
        = .error (.exc .waterfallReducedToZero) ∧ ∃ m, m < k ∧ ¬ 0 < ∑ c ∈ range S.nc, ∑ i ∈ range S.npart, WH S wf m c i) := by
    intro k
    induction k with
    | zero => exact fun _ => Or.inl ⟨rfl, fun m hm => absurd hm (by omega)⟩
    | succ k ih =>
      intro hk
      rcases ih (by omega) with ⟨h1, h2⟩ | ⟨h1, m, h2, h3⟩
      · rw [forN_succ, h1, bind_ok, step_ok k (by omega)]
        by_cases hs : (∑ c ∈ range S.nc, ∑ i ∈ range S.npart, WH S wf k c i) ≤ 0
        · right; rw [if_pos hs]; exact ⟨rfl, k, by omega, not_lt.mpr hs⟩
        · left; rw [if_neg hs]
          refine ⟨rfl, fun m hm => ?_⟩
          rcases Nat.lt_or_ge m k with h | h
          · exact h2 m h
          · have : m = k := by omega
            subst this; exact not_le.mp hs
      · right
        rw [forN_succ, h1]
        exact ⟨rfl, m, by omega, h3⟩
  rcases loop niter le_rfl with ⟨h1, h2⟩ | ⟨h1, m, h2, h3⟩
  · rw [h1, bind_ok]
    have hw : (stF S wf sqrt niter niter).weights = flat S.nc S.npart (WH S wf niter) := rfl
    have hd : (stF S wf sqrt niter niter).discr
        = tab (niter + 1) fun m => if m < niter then sqrt (meanSquare S.nprof S.nbins (diffH S wf m)) else 0 := rfl
    have hsp : (stF S wf sqrt niter niter).split
        = tab S.nc fun c => tab (niter + 1) fun m => if m < niter then sqrt (meanSquareCut S.nprof (S.cl c).toNat (S.cr c).toNat (diffH S wf m)) else 0 := rfl
    rw [hw, projectFlat_ok h (WH_nonneg niter), projectBunches_ok h (WH_nonneg niter)]
    by_cases hs : (∑ c ∈ range S.nc, ∑ i ∈ range S.npart, WH S wf niter c i) ≤ 0
    · right
      rw [if_pos hs]
      exact ⟨fun hg => absurd (hg niter le_rfl) (not_lt.mpr hs), rfl⟩
    · left
      rw [if_neg hs]
      refine ⟨?_, ?_⟩
      · intro m hm
        rcases Nat.lt_or_ge m niter with h | h
        · exact h2 m h
        · have : m = niter := by omega
          subst this; exact not_le.mp hs
      · have hu := upd_discrH (fun m => sqrt (meanSquare S.nprof S.nbins (diffH S wf m))) (le_refl niter)
        have hc := setColumn_ok (n := S.nc) (fun c m => sqrt (meanSquareCut S.nprof (S.cl c).toNat (S.cr c).toNat (diffH S wf m))) (le_refl niter)
        rw [bind_ok, zip2_flat, bind_ok, discrepancyPy_ok sqrt h.nprof h.nbins, bind_ok, hd, hsp,
          show (fun p q => wf p q - normRows S.nbins (projAll S.nc S.npart S.x S.ctr (WH S wf niter)) p q) = diffH S wf niter from rfl, hu, bind_ok,
          splitS sqrt h hb, bind_ok, hc, bind_ok]
        unfold outF recH
        simp only [pure_eq_ok]
        congr 2
        · apply tab_congr
          intro m hm
          rw [if_pos hm]
        · apply tab_congr
          intro c _
          apply tab_congr
          intro m hm
          rw [if_pos hm]
  · right
    rw [h1]
    exact ⟨fun hg => h3 (hg m (by omega)), rfl⟩

end flatRun

end seqH

end Verif.Multi

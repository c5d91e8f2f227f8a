import Verif.Model.Multi
import Verif.Spec.Multi
import Verif.Lemmas.ReconRun

/-!
# The multi-bunch routines compute their specifications (helper lemmas)
-/

set_option linter.unusedSectionVars false

namespace Verif.Multi
open Finset Verif.Spec Verif.Recon

variable {K : Type} [Field K] [LinearOrder K] [IsStrictOrderedRing K]

section
variable {nc npart nprof nbins : ℕ} {x : ℕ → ℕ → ℕ} {ctr : ℕ → ℤ}

theorem inImage_range (h : InImage nc npart nprof nbins x ctr) {c : ℕ} (hc : c < nc) :
    InRange npart nprof nbins (moved x (ctr c)) := by
  intro i hi p hp
  have := h c hc i hi p hp
  unfold moved
  omega

theorem inImage_cast (h : InImage nc npart nprof nbins x ctr) {c i p : ℕ} (hc : c < nc) (hi : i < npart) (hp : p < nprof) :
    ((moved x (ctr c) i p : ℕ) : ℤ) = x i p + ctr c := by
  have := h c hc i hi p hp
  unfold moved
  omega

theorem rd_fp_ctr (h : InImage nc npart nprof nbins x ctr) {c i p : ℕ} (hc : c < nc) (hi : i < npart) (hp : p < nprof) :
    rd (fpbuf npart nprof nbins x) ((i * nprof + p : ℕ) : Int) = .ok ((((p * nbins + moved x (ctr c) i p : ℕ)) : ℤ) - ctr c) := by
  rw [rd_fp hi hp]
  congr 1
  have := inImage_cast h hc hi hp
  push_cast
  linarith

theorem projectMulti_ok (h : InImage nc npart nprof nbins x ctr) (w : ℕ → ℕ → K) (r : ℕ → ℕ → K) :
    projectMulti (flat nprof nbins r) (fpbuf npart nprof nbins x) (flat nc npart w) (tab nc ctr) npart nprof nc
      = .ok (flat nprof nbins fun p b => r p b + projAll nc npart x ctr w p b) := by
  unfold projectMulti
  rw [forN_eq (g := fun c => flat nprof nbins fun p b => r p b + projAll c npart x ctr w p b)]
  · apply flat_congr; intro p b _ _; simp [projAll]
  · intro c hc
    have hcong : ∀ (s : List K), forN npart (fun i rec => forN nprof (fun j rec => do
          let fp ← rd (fpbuf npart nprof nbins x) ((i * nprof + j : Nat) : Int)
          let ctr ← rd (tab nc ctr) (c : Int)
          let r ← rd rec (fp + ctr)
          let w ← rd (flat nc npart w) ((i + c * npart : Nat) : Int)
          upd rec (fp + ctr) (r + w)) rec) s
        = project s (fpbuf npart nprof nbins (moved x (ctr c))) (tab npart (w c)) npart nprof := by
      intro s
      unfold project
      apply forN_congr
      intro i s hi
      apply forN_congr
      intro j s hj
      rw [rd_fp_ctr h hc hi hj, bind_ok, rd_tab ctr hc, bind_ok, rd_fp hi hj, bind_ok, rd_tab (w c) hi,
        rd_flat w hc hi (by push_cast; ring), sub_add_cancel]
    rw [hcong, project_ok (inImage_range h hc)]
    congr 1; apply flat_congr; intro p b _ _
    rw [projAll, projAll, sum_range_succ, add_assoc]

theorem countParticles_add {x : ℕ → ℕ → ℕ} (hx : InRange npart nprof nbins x) (n : ℕ → ℕ → ℕ) :
    countParticlesInBin (flat nprof nbins fun p b => (n p b : K)) (xbuf npart nprof x) nprof npart nbins
      = .ok (flat nprof nbins (fun p b => ((n p b + count npart x p b : ℕ) : K))) := by
  unfold countParticlesInBin xbuf
  rw [forN_eq (g := fun i => flat nprof nbins (fun p b => ((n p b + count i x p b : ℕ) : K)))]
  · apply flat_congr; intro p b _ _; simp [count]
  · intro i hi
    rw [forN_eq (g := fun j => flat nprof nbins
      (fun p b => ((n p b + count i x p b : ℕ) : K) + if p < j ∧ x i p = b then 1 else 0))]
    · congr 1; apply flat_congr; intro p b hp _
      rw [count_succ]; simp [hp, add_assoc]
    · apply flat_congr; intro p b _ _; simp
    · intro j hj
      have hb := hx i hi j hj
      rw [rd_flat _ hi hj rfl, bind_ok, rd_flat _ hj hb (by push_cast; ring), bind_ok,
        upd_flat _ _ hj hb (by push_cast; ring)]
      congr 1; apply flat_congr; intro p b _ _
      unfold upd2
      by_cases h : p = j ∧ b = x i j
      · obtain ⟨rfl, rfl⟩ := h; simp
      · rw [if_neg h]
        dsimp only
        congr 1
        apply if_congr _ rfl rfl
        constructor
        · rintro ⟨h1, h2⟩; exact ⟨by omega, h2⟩
        · rintro ⟨h1, h2⟩
          refine ⟨?_, h2⟩
          by_contra hc
          exact h ⟨by omega, by rw [← h2]; congr 1; omega⟩

theorem countMulti_ok (h : InImage nc npart nprof nbins x ctr) :
    countMulti (flat nprof nbins fun _ _ => (0 : K)) (xbuf npart nprof x) (tab nc ctr) nprof npart nbins nc
      = .ok (flat nprof nbins fun p b => (countAll nc npart x ctr p b : K)) := by
  unfold countMulti
  rw [forN_eq (g := fun c => flat nprof nbins fun p b => (countAll c npart x ctr p b : K))]
  · apply flat_congr; intro p b _ _; simp [countAll]
  · intro c hc
    have hcong : ∀ (s : List K), forN npart (fun j r => forN nprof (fun i r => do
          let v ← rd (xbuf npart nprof x) ((j * nprof + i : Nat) : Int)
          let ctr ← rd (tab nc ctr) (c : Int)
          let n ← rd r (v + ctr + (i * nbins : Nat))
          upd r (v + ctr + (i * nbins : Nat)) (n + 1)) r) s
        = countParticlesInBin s (xbuf npart nprof (moved x (ctr c))) nprof npart nbins := by
      intro s
      unfold countParticlesInBin
      apply forN_congr
      intro i s hi
      apply forN_congr
      intro j s hj
      have hm := inImage_cast h hc hi hj
      unfold xbuf
      rw [rd_flat _ hi hj rfl, bind_ok, rd_tab ctr hc, bind_ok, rd_flat _ hi hj rfl, bind_ok, hm]
      rw [show ((x i j : ℤ) + ctr c + (j * nbins : ℕ)) = ((j * nbins : ℕ) : ℤ) + (x i j + ctr c) by ring]
    rw [hcong, countParticles_add (inImage_range h hc)]
    congr 1; apply flat_congr; intro p b _ _
    rw [countAll, countAll, sum_range_succ]

theorem reciprocalMulti_ok (h : InImage nc npart nprof nbins x ctr) :
    reciprocalMulti (flat nprof nbins fun _ _ => (0 : K)) (xbuf npart nprof x) (tab nc ctr) nbins nprof npart nc
      = .ok (flat nprof nbins (recipAll K nc npart nprof nbins x ctr)) := by
  unfold reciprocalMulti
  rw [countMulti_ok h, bind_ok]
  have hm : max1d (flat nprof nbins (fun p b => (countAll nc npart x ctr p b : K))) (nprof * nbins)
      = .ok (maxAll nc npart nprof nbins x ctr : K) := by
    unfold flat
    rw [max1d_nat (nprof * nbins) (fun k => countAll nc npart x ctr (k / nbins) (k % nbins)),
      sup_flat_range nprof nbins (countAll nc npart x ctr)]
    rfl
  have hz : zerosToOnes (flat nprof nbins (fun p b => (countAll nc npart x ctr p b : K))) (nprof * nbins)
      = .ok (flat nprof nbins (fun p b => ((max 1 (countAll nc npart x ctr p b) : ℕ) : K))) := by
    unfold zerosToOnes flat
    apply pointLoop_eq
    intro i hi g hg
    rw [rd_tab g hi, bind_ok, hg]
    by_cases h : countAll nc npart x ctr (i / nbins) (i % nbins) = 0
    · rw [if_pos (by simp [h]), upd_tab g _ hi]
      simp [h]
    · rw [if_neg (by dsimp only; exact_mod_cast h)]
      have : max 1 (countAll nc npart x ctr (i / nbins) (i % nbins)) = countAll nc npart x ctr (i / nbins) (i % nbins) := by
        omega
      simp only [pure_eq_ok, this]
      congr 1; apply tab_congr; intro k _
      by_cases hk : k = i
      · subst hk; simp [hg]
      · simp [hk]
  rw [hm, bind_ok, hz, bind_ok]
  unfold takeReciprocal
  apply gridLoop_eq
  intro i j hi hj g hg
  rw [rd_flat g hi hj rfl, bind_ok, hg, fdiv_ok, bind_ok, upd_flat g _ hi hj rfl]
  · rfl
  · have : max 1 (countAll nc npart x ctr i j) ≠ 0 := by omega
    exact_mod_cast this

theorem upd2_self {α : Type _} (g : ℕ → ℕ → α) (c i : ℕ) (v : α) (h : g c i = v) : upd2 g c i v = g := by
  funext a b
  unfold upd2
  split
  · next h' => obtain ⟨rfl, rfl⟩ := h'; exact h.symm
  · rfl

theorem upd2_upd2 {α : Type _} (g : ℕ → ℕ → α) (c i : ℕ) (u v : α) : upd2 (upd2 g c i u) c i v = upd2 g c i v := by
  funext a b
  unfold upd2
  split <;> rfl

theorem upd2_same {α : Type _} (g : ℕ → ℕ → α) (c i : ℕ) (v : α) : upd2 g c i v c i = v := by
  unfold upd2
  simp

theorem createMask_ok (x : ℕ → ℕ → ℕ) (ctr cl cr : ℕ → ℤ) :
    createMask (xbuf npart nprof x) (tab nc ctr) (tab nc cl) (tab nc cr) (flat nc npart fun _ _ => true) npart nprof nc
      = .ok (flat nc npart fun c i => decide (Inside nprof x ctr cl cr c i)) := by
  unfold createMask
  apply gridLoop_eq
  intro c i hc hi g hg
  rw [forN_eq (g := fun j => flat nc npart (upd2 g c i (decide (Inside j x ctr cl cr c i))))]
  · rw [upd2_self]
    simp [Inside, hg]
  · intro j hj
    unfold xbuf
    rw [rd_flat _ hi hj rfl, bind_ok, rd_tab ctr hc, bind_ok, rd_tab cl hc, bind_ok, rd_tab cr hc, bind_ok]
    have hstep : Inside (j + 1) x ctr cl cr c i ↔ Inside j x ctr cl cr c i ∧ cl c ≤ (x i j : ℤ) + ctr c ∧ (x i j : ℤ) + ctr c ≤ cr c := by
      unfold Inside
      constructor
      · intro h
        exact ⟨fun p hp => h p (by omega), h j (by omega)⟩
      · rintro ⟨h1, h2⟩ p hp
        rcases Nat.lt_succ_iff_lt_or_eq.mp hp with h | h
        · exact h1 p h
        · rw [h]; exact h2
    by_cases hb : (x i j : ℤ) + ctr c < cl c ∨ cr c < (x i j : ℤ) + ctr c
    · rw [if_pos hb, upd_flat _ _ hc hi (by push_cast; ring), upd2_upd2]
      have : ¬ Inside (j + 1) x ctr cl cr c i := by
        rw [hstep]
        rintro ⟨_, h2, h3⟩
        rcases hb with hb | hb <;> omega
      rw [decide_eq_false this]
    · rw [if_neg hb]
      have : Inside (j + 1) x ctr cl cr c i ↔ Inside j x ctr cl cr c i := by
        rw [hstep]
        push Not at hb
        constructor
        · rintro ⟨h1, _⟩; exact h1
        · intro h1; exact ⟨h1, hb.1, hb.2⟩
      simp only [this, pure_eq_ok]

theorem backProjectMulti_ok (h : InImage nc npart nprof nbins x ctr) (cl cr : ℕ → ℤ) (w f : ℕ → ℕ → K) :
    backProjectMulti (flat nc npart w) (fpbuf npart nprof nbins x) (flat nprof nbins f)
      (flat nc npart fun c i => decide (Inside nprof x ctr cl cr c i)) (tab nc ctr) npart nprof nc
      = .ok (flat nc npart fun c i => w c i + backAll nprof x ctr cl cr f c i) := by
  unfold backProjectMulti
  apply gridLoop_eq
  intro c i hc hi g hg
  by_cases hin : Inside nprof x ctr cl cr c i
  · rw [forN_eq (g := fun j => flat nc npart (upd2 g c i (w c i + ∑ p ∈ range j, f p (moved x (ctr c) i p))))]
    · simp [backAll, hin, backProj]
    · rw [upd2_self]; simp [hg]
    · intro j hj
      rw [rd_flat _ hc hi (by push_cast; ring), bind_ok, if_pos (by simpa using hin), rd_fp_ctr h hc hi hj, bind_ok, rd_tab ctr hc,
        bind_ok, sub_add_cancel, rd_flat f hj (inImage_range h hc i hi j hj) rfl, bind_ok, rd_flat _ hc hi (by push_cast; ring), bind_ok,
        upd_flat _ _ hc hi (by push_cast; ring), upd2_upd2, upd2_same, sum_range_succ, add_assoc]
  · rw [forN_eq (g := fun _ => flat nc npart g)]
    · rw [upd2_self]; simp [backAll, hin, hg]
    · rfl
    · intro j hj
      rw [rd_flat _ hc hi (by push_cast; ring), bind_ok, if_neg (by simpa using hin)]; rfl

end

/-! ## discrepancy per bunch -/

/-- the sum of squares as the code accumulates it for the bunches `0 … c` -/
def accSquares (nprof nbins : ℕ) (cl cr : ℕ → ℤ) (d : ℕ → ℕ → K) (n : ℕ) : K :=
  ∑ c ∈ range n, ∑ k ∈ range (nprof * nbins), if (k : ℤ) < cr c ∧ cl c < (k : ℤ) then d (k / nbins) (k % nbins) ^ 2 else 0

/-- what the code reports as mean square of bunch `c` -/
def splitMsq (nprof nbins : ℕ) (cl cr : ℕ → ℤ) (d : ℕ → ℕ → K) (c : ℕ) : K :=
  accSquares nprof nbins cl cr d (c + 1) / (((nprof : ℤ) * (cr c - cl c) : ℤ) : K)

theorem discrepancyMulti_ok (sqrt : K → K) {nprof nbins nc niter it : ℕ} (hit : it < niter + 1) (cl cr : ℕ → ℤ)
    (hcut : ∀ c, c < nc → ((nprof : ℤ) * (cr c - cl c)) ≠ 0) (d : ℕ → ℕ → K) (s : ℕ → ℕ → K) :
    discrepancyMulti sqrt (flat nprof nbins d) (flat (niter + 1) nc s) (tab nc cl) (tab nc cr) it nprof nbins nc
      = .ok (flat (niter + 1) nc fun k c => if k = it then sqrt (splitMsq nprof nbins cl cr d c) else s k c) := by
  unfold discrepancyMulti
  rw [forN_eq (g := fun c => (flat (niter + 1) nc (fun k b => if k = it ∧ b < c then sqrt (splitMsq nprof nbins cl cr d b) else s k b),
    accSquares nprof nbins cl cr d c))]
  · rw [bind_ok]
    simp only [pure_eq_ok]
    congr 1; apply flat_congr; intro k c _ hc
    simp [hc]
  · simp [accSquares]
  · intro c hc
    rw [rd_tab cl hc, bind_ok, rd_tab cr hc, bind_ok]
    have hs : forN (nprof * nbins) (splitAdd (flat nprof nbins d) (cl c) (cr c)) (accSquares nprof nbins cl cr d c)
        = .ok (accSquares nprof nbins cl cr d (c + 1)) := by
      rw [forN_eq (g := fun n => accSquares nprof nbins cl cr d c +
        ∑ k ∈ range n, if (k : ℤ) < cr c ∧ cl c < (k : ℤ) then d (k / nbins) (k % nbins) ^ 2 else 0)]
      · unfold accSquares; rw [sum_range_succ]
      · simp
      · intro k hk
        unfold splitAdd
        rw [sum_range_succ]
        split
        · unfold flat
          rw [rd_tab _ hk, bind_ok, pow_two, add_assoc]; rfl
        · rw [add_zero]; rfl
    simp only [hs, bind_ok]
    rw [fdiv_ok (by exact_mod_cast hcut c hc), bind_ok, upd_flat _ _ hit hc rfl, bind_ok]
    simp only [pure_eq_ok]
    congr 2
    apply flat_congr; intro k b _ _
    unfold upd2
    by_cases h1 : k = it ∧ b = c
    · obtain ⟨rfl, rfl⟩ := h1
      simp [splitMsq]
    · rw [if_neg h1]
      apply if_congr _ rfl rfl
      constructor
      · rintro ⟨h2, h3⟩; exact ⟨h2, by omega⟩
      · rintro ⟨h2, h3⟩
        refine ⟨h2, ?_⟩
        by_contra hc'
        exact h1 ⟨h2, by omega⟩

/-! ## prefixes -/

theorem sum_prefix {N n : ℕ} (h : n ≤ N) (w : ℕ → K) : sum (tab N w) n = .ok (∑ i ∈ range n, w i) := by
  unfold sum
  rw [forN_eq (g := fun i => ∑ k ∈ range i, w k)]
  · simp
  · intro i hi
    rw [rd_tab w (by omega), bind_ok, sum_range_succ]; rfl

theorem clip_prefix_nonneg {N n : ℕ} (h : n ≤ N) (w : ℕ → K) (hw : ∀ i, i < n → 0 ≤ w i) : clip (tab N w) n 0 = .ok (tab N w) := by
  unfold clip
  rw [forN_eq (g := fun _ => tab N w)]
  · rfl
  · intro i hi
    rw [rd_tab w (by omega), bind_ok, if_neg (not_lt.mpr (hw i hi))]; rfl

theorem sum_first {nc npart : ℕ} (hc : 0 < nc) (w : ℕ → ℕ → K) : sum (flat nc npart w) npart = .ok (∑ i ∈ range npart, w 0 i) := by
  unfold flat
  rw [sum_prefix (by nlinarith)]
  congr 1
  apply Finset.sum_congr rfl
  intro i hi
  have hi := mem_range.mp hi
  rw [Nat.div_eq_of_lt hi, Nat.mod_eq_of_lt hi]

end Verif.Multi

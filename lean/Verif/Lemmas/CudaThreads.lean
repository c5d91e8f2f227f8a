import Verif.Lemmas.Cuda

/-!
# CUDA kernels under every interleaving of their threads
-/

set_option linter.unusedSectionVars false

namespace Verif.Cuda
open Verif.Par Verif.Omp Verif.Track Verif.Spec

section general
variable {A : Type} {V : A → Type}

theorem seq_done (p : Prog A V) : p.seq .done = p := by
  induction p with
  | done => rfl
  | load a k ih => simp only [Prog.seq]; congr 1; funext v; exact ih v
  | store a v k ih => simp only [Prog.seq]; rw [ih]
  | atomic a f k ih => simp only [Prog.seq]; rw [ih]

theorem filter_range_eq {N t : Nat} (h : t < N) : ((List.range N).filter fun i => decide (id i = t)) = [t] := by
  induction N with
  | zero => omega
  | succ N ih =>
    rw [List.range_succ, List.filter_append]
    by_cases e : t = N
    · subst e
      rw [List.filter_eq_nil_iff.mpr]
      · simp
      · intro a ha; simp at ha ⊢; omega
    · rw [ih (by omega)]
      simp; omega

theorem tab_eq_parallelFor (N : Nat) (body : Nat → Prog A V) : tab N body = parallelFor N id N body := by
  unfold parallelFor
  apply tab_congr
  intro t ht
  rw [filter_range_eq ht]
  simp [Prog.seqs, seq_done]

end general

section
variable {α : Type}

theorem grid_eq (G B : Nat) (k : Nat → Thread α) : grid G B k = tab (G * B) k := by
  unfold grid
  apply tab_congr
  intro s _
  rw [Nat.mod_add_div]

/-- a kernel changing one array, the threads touching different elements of it -/
theorem grid_region {a : Arr} {m₀ : Memory α} {G B : Nat} {body : Nat → Thread α}
    {f : Nat → List α → M (List α)} {l l' : List α} (ix : Nat → Int → Prop)
    (hdis : ∀ i j k, i < G * B → j < G * B → i ≠ j → ix i k → ¬ ix j k)
    (hc : ∀ i, i < G * B → Conf m₀ (NotIn a) (InAt a (ix i)) (body i))
    (hs : ∀ i, i < G * B → Sim a m₀ (body i) (f i)) (hl : Stores (reals m₀ a) l) (hf : forN (G * B) f l = .ok l') :
    Always ⟨m₀, grid G B body⟩ (fun m => Stores (reals m a) l' ∧ OnlyArray a m₀ m) := by
  rw [grid_eq, tab_eq_parallelFor]
  exact region ix (fun i hi => hi) hdis hc hs hl hf

/-- `n` blocks taken as one thread each -/
theorem blocks_region {a : Arr} {m₀ : Memory α} {n : Nat} {body : Nat → Thread α}
    {f : Nat → List α → M (List α)} {l l' : List α}
    (hc : ∀ i, i < n → Conf m₀ (NotIn a) (InAt a (fun k => k = (i : Int))) (body i))
    (hs : ∀ i, i < n → Sim a m₀ (body i) (f i)) (hl : Stores (reals m₀ a) l) (hf : forN n f l = .ok l') :
    Always ⟨m₀, tab n body⟩ (fun m => Stores (reals m a) l' ∧ OnlyArray a m₀ m) := by
  rw [tab_eq_parallelFor]
  exact region (fun i k => k = i) (fun i hi => hi) (by rintro i j k _ _ hne rfl e; omega) hc hs hl hf

/-- the elements of `.real a` are changed by additions only -/
def Adds [Add α] (a : Arr) : ∀ x : Loc, (Val α x → Val α x) → Prop
  | .real b _, f => b = a ∧ ∃ w : α, f = fun r => r + w
  | .int _ _, _ => False
  | .mask _, _ => False

theorem adds_commute [AddCommSemigroup α] (a : Arr) : Par.Commute (V := Val α) (Adds a) := by
  intro x f g hf hg v
  cases x with
  | real b i =>
    obtain ⟨_, w, rfl⟩ := hf
    obtain ⟨_, w', rfl⟩ := hg
    exact add_right_comm _ _ _
  | int b i => exact hf.elim
  | mask i => exact hf.elim

/-- a kernel changing one array by atomic additions -/
theorem atomic_region [AddCommSemigroup α] {a : Arr} {m₀ : Memory α} {G B : Nat} {body : Nat → Thread α}
    {f : Nat → List α → M (List α)} {l l' : List α}
    (hc : ∀ i, i < G * B → AConf m₀ (NotIn a) (Adds a) (body i))
    (hs : ∀ i, i < G * B → Sim a m₀ (body i) (f i)) (hl : Stores (reals m₀ a) l) (hf : forN (G * B) f l = .ok l') :
    Always ⟨m₀, grid G B body⟩ (fun m => Stores (reals m a) l' ∧ OnlyArray a m₀ m) := by
  rw [grid_eq]
  have key := atomic_result (m₀ := m₀) (adds_commute a) (pool := tab (G * B) body) (ro := NotIn a) (by
    intro p hp
    simp only [tab, List.mem_map, List.mem_range] at hp
    obtain ⟨i, hi, rfl⟩ := hp
    exact hc i hi)
  refine ⟨key.terminates, key.progress, fun s' hr hfin => ?_⟩
  rw [key.result s' hr hfin]
  obtain ⟨h1, h2⟩ := sim_for hs m₀ l l' (only_refl a m₀) hl hf
  exact ⟨h2, h1⟩

/-- a thread with nothing to do -/
theorem sim_done {a : Arr} {m₀ : Memory α} : Sim a m₀ (.done : Thread α) (fun l => pure l) := by
  intro m l l' hm hl hu
  cases hu
  exact ⟨hm, hl⟩

variable [Add α] [Sub α] [Mul α] [Zero α] [One α] [NatCast α] [IntCast α]
  [LT α] [LE α] [DecidableLT α] [DecidableLE α] [DecidableEq α] [FDiv α]

theorem clip_kernel {B n : Nat} {m₀ : Memory α} {a : Arr} {l l' : List α} {c : α}
    (hl : Stores (reals m₀ a) l) (h : clip B l n c = .ok l') :
    Always ⟨m₀, grid (gridSize n B) B (clipThread a c n)⟩ (fun m => Stores (reals m a) l' ∧ OnlyArray a m₀ m) := by
  refine grid_region (fun i k => k = i) (by rintro i j k _ _ hne rfl e; omega) ?_ ?_ hl h
  · intro i _
    unfold clipThread
    split
    · refine conf_own rfl fun v => ?_
      split
      · exact conf_st rfl trivial
      · trivial
    · trivial
  · intro i _
    unfold clipThread
    by_cases hi : i < n
    · simp only [if_pos hi]
      intro m l l' hm hl hu
      simp only [Asrt.bind_ok_iff] at hu
      obtain ⟨v, hv, hu⟩ := hu
      rw [run_ld (hl _ _ hv)]
      split at hu
      · rename_i hlt; rw [if_pos hlt]; exact sim_store hm hl hu
      · rename_i hlt; rw [if_neg hlt]; cases hu; exact ⟨hm, hl⟩
    · simp only [if_neg hi]
      exact sim_done

theorem compensate_kernel {B nprof nbins : Nat} {m₀ : Memory α} {d d' rp : List α}
    (hd : Stores (reals m₀ .diff) d) (hr : Stores (reals m₀ .rparts) rp)
    (h : compensate B d rp nprof nbins = .ok d') :
    Always ⟨m₀, grid (gridSize (nprof * nbins) B) B (compensateThread nprof nbins)⟩
      (fun m => Stores (reals m .diff) d' ∧ OnlyArray .diff m₀ m) := by
  refine grid_region (fun i k => k = i) (by rintro i j k _ _ hne rfl e; omega) ?_ ?_ hd h
  · intro i _
    unfold compensateThread
    split
    · exact conf_own rfl fun _ => conf_ro (by decide) (conf_st rfl trivial)
    · trivial
  · intro i _
    unfold compensateThread
    by_cases hi : i < nprof * nbins
    · simp only [if_pos hi]
      intro m l l' hm hl hu
      simp only [Asrt.bind_ok_iff] at hu
      obtain ⟨v, hv, w, hw, hu⟩ := hu
      have e2 : m (.real .rparts (i : Int)) = w := by rw [only_real hm (by decide)]; exact hr _ _ hw
      rw [run_ld (hl _ _ hv), run_ld e2]
      exact sim_store hm hl hu
    · simp only [if_neg hi]
      exact sim_done

theorem difference_kernel {B : Nat} (hB : 0 < B) {m₀ : Memory α} {d' rc pf : List α} {empty : Nat → α}
    (hd : Stores (reals m₀ .diff) (tab rc.length empty)) (hr : Stores (reals m₀ .recon) rc)
    (hf : Stores (reals m₀ .profiles) pf) (h : findDifferenceProfile B empty rc pf = .ok d') :
    Always ⟨m₀, grid (gridSize rc.length B) B (differenceThread rc.length (threads rc.length B))⟩
      (fun m => Stores (reals m .diff) d' ∧ OnlyArray .diff m₀ m) := by
  have hT := lt_threads hB rc.length
  refine grid_region (fun i k => k = i) (by rintro i j k _ _ hne rfl e; omega) ?_ ?_ hd h
  · intro i _
    unfold differenceThread
    by_cases hi : i < rc.length
    · rw [strided_single hT.le hi (by omega)]
      simp only [List.map_cons, List.map_nil, Prog.seqs, if_pos hi, seq_done]
      exact conf_ro (by decide) (conf_ro (by decide) (conf_st rfl trivial))
    · rw [strided_nil (by omega)]
      trivial
  · intro i _
    unfold differenceThread
    by_cases hi : i < rc.length
    · rw [strided_single hT.le hi (by omega)]
      simp only [List.map_cons, List.map_nil, Prog.seqs, if_pos hi, seq_done, List.foldlM_cons, List.foldlM_nil]
      intro m l l' hm hl hu
      simp only [Asrt.bind_ok_iff] at hu
      obtain ⟨y, ⟨v, hv, w, hw, hu⟩, hy⟩ := hu
      cases hy
      have e1 : m (.real .profiles (i : Int)) = v := by rw [only_real hm (by decide)]; exact hf _ _ hv
      have e2 : m (.real .recon (i : Int)) = w := by rw [only_real hm (by decide)]; exact hr _ _ hw
      rw [run_ld e1, run_ld e2]
      exact sim_store hm hl hu
    · rw [strided_nil (by omega)]
      simp only [List.map_nil, Prog.seqs, List.foldlM_nil]
      exact sim_done

theorem run_st_done {m : Memory α} {a : Arr} {i : Int} {v : α} {k : Thread α} :
    (st a i v k).run m = k.run ((st a i v .done : Thread α).run m) := rfl

theorem run_quot {m : Memory α} {a b q : α} {k : α → Thread α} (h : FDiv.fdiv a b = .ok q) :
    (quot a b k).run m = (k q).run m := by unfold quot; rw [h]

theorem conf_quot {m₀ : Memory α} {ro own : Loc → Prop} {a b : α} {k : α → Thread α} (h : ∀ q, Conf m₀ ro own (k q)) :
    Conf m₀ ro own (quot a b k) := by
  unfold quot
  cases FDiv.fdiv a b with
  | ok q => exact h q
  | error _ => trivial

theorem reciprocal_kernel {B nprof nbins : Nat} {mx : α} {m₀ : Memory α} {r r' : List α}
    (hr : Stores (reals m₀ .rparts) r) (h : takeReciprocal B mx r nprof nbins = .ok r') :
    Always ⟨m₀, grid (gridSize (nprof * nbins) B) B (reciprocalThread mx nbins nprof)⟩
      (fun m => Stores (reals m .rparts) r' ∧ OnlyArray .rparts m₀ m) := by
  refine grid_region (fun i k => k = i) (by rintro i j k _ _ hne rfl e; omega) ?_ ?_ hr h
  · intro i _
    unfold reciprocalThread
    split
    · refine conf_own rfl fun v => ?_
      split
      · exact conf_st rfl (conf_own rfl fun _ => conf_quot fun _ => conf_st rfl trivial)
      · exact conf_own rfl fun _ => conf_quot fun _ => conf_st rfl trivial
    · trivial
  · intro i _
    unfold reciprocalThread
    by_cases hi : i < nprof * nbins
    · simp only [if_pos hi]
      intro m l l' hm hl hu
      rw [Asrt.bind_ok_iff] at hu
      obtain ⟨v, hv, hu⟩ := hu
      rw [run_ld (hl _ _ hv)]
      by_cases hz : v = 0
      · simp only [if_pos hz, Asrt.bind_ok_iff] at hu ⊢
        obtain ⟨l1, h1, w, hw, q, hq, hu⟩ := hu
        obtain ⟨hm1, hl1⟩ := sim_store hm hl h1
        rw [run_st_done, run_ld (hl1 _ _ hw), run_quot hq]
        exact sim_store hm1 hl1 hu
      · simp only [if_neg hz, pure_eq_ok, bind_ok] at hu ⊢
        simp only [Asrt.bind_ok_iff] at hu
        obtain ⟨w, hw, q, hq, hu⟩ := hu
        rw [run_ld (hl _ _ hw), run_quot hq]
        exact sim_store hm hl hu
    · simp only [if_neg hi]
      exact sim_done

/-! ### back_project -/

/-- what the model's block computes along the order `l` -/
def gatherM (fp : List Int) (pf : List α) (nprof b : Nat) (l : List Nat) (s : α) : M α :=
  l.foldlM (fun (s : α) (index : Nat) =>
    if index < nprof then do
      let q ← rd fp ((b * nprof + index : Nat) : Int)
      let v ← rd pf q
      pure (s + v)
    else pure (s + 0)) s

theorem run_gather {m₀ m : Memory α} {fp : List Int} {pf : List α} (hm : OnlyArray .weights m₀ m)
    (hp : Stores (ints m₀ .points) fp) (hf : Stores (reals m₀ .profiles) pf) {nprof b : Nat} {k : α → Thread α}
    {l : List Nat} {s t : α} (h : gatherM fp pf nprof b l s = .ok t) : (gather nprof b k l s).run m = (k t).run m := by
  induction l generalizing s with
  | nil => cases h; rfl
  | cons i l ih =>
    unfold gatherM at h
    rw [List.foldlM_cons] at h
    unfold gather
    by_cases hi : i < nprof
    · simp only [if_pos hi, Asrt.bind_ok_iff] at h ⊢
      obtain ⟨s', ⟨q, hq, v, hv, hs⟩, h⟩ := h
      cases hs
      have e1 : m (.int .points ((b * nprof + i : Nat) : Int)) = q := by rw [only_int hm]; exact hp _ _ hq
      have e2 : m (.real .profiles q) = v := by rw [only_real hm (by decide)]; exact hf _ _ hv
      rw [run_ldi e1, run_ld e2]
      exact ih h
    · simp only [if_neg hi] at h ⊢
      rw [pure_eq_ok, bind_ok] at h
      exact ih h

theorem conf_gather {m₀ : Memory α} {nprof b : Nat} {ix : Int → Prop} {k : α → Thread α}
    (hk : ∀ s, Conf m₀ (NotIn .weights) (InAt .weights ix) (k s)) (l : List Nat) (s : α) :
    Conf m₀ (NotIn .weights) (InAt .weights ix) (gather nprof b k l s) := by
  induction l generalizing s with
  | nil => exact hk s
  | cons i l ih =>
    unfold gather
    split
    · exact conf_roi (conf_ro (by decide) (ih _))
    · exact ih _

/-- the blocks of `back_project`, block `b` adding in the order `ls b` -/
theorem backProject_blocks {npart nprof : Nat} {m₀ : Memory α} {ws ws' pf : List α} {fp : List Int} (ls : Nat → List Nat)
    (hw : Stores (reals m₀ .weights) ws) (hp : Stores (ints m₀ .points) fp) (hf : Stores (reals m₀ .profiles) pf)
    (h : forN npart (fun b ws => do
      let aggregate ← gatherM fp pf nprof b (ls b) (0 : α)
      let w ← rd ws (b : Int)
      upd ws (b : Int) (w + aggregate)) ws = .ok ws') :
    Always ⟨m₀, tab npart fun b => backProjectBlock nprof (ls b) b⟩
      (fun m => Stores (reals m .weights) ws' ∧ OnlyArray .weights m₀ m) := by
  refine blocks_region ?_ ?_ hw h
  · intro i _
    refine conf_gather (ix := fun k => k = (i : Int)) (fun s => ?_) _ _
    exact conf_own rfl fun _ => conf_st rfl trivial
  · intro i _ m l l' hm hl hu
    simp only [Asrt.bind_ok_iff] at hu
    obtain ⟨agg, ha, w, hw, hu⟩ := hu
    unfold backProjectBlock
    rw [run_gather hm hp hf ha, run_ld (hl _ _ hw)]
    exact sim_store hm hl hu

/-! ### create_flat_points -/

theorem flatPoints_kernel {B npart nprof nbins : Nat} (hB : 0 < B) {m₀ : Memory α} :
    Always ⟨m₀, grid (gridSize (npart * nprof) B) B (flatPointsThread npart nprof nbins)⟩ (fun m =>
      (∀ k : Nat, k < npart * nprof → m (.int .points k) = m₀ (.int .points k) + (nbins * (k % nprof) : Nat)) ∧
      ∀ x, (∀ k : Nat, k < npart * nprof → x ≠ .int .points k) → m x = m₀ x) := by
  rw [grid_eq, tab_eq_parallelFor]
  have hT := lt_threads hB (npart * nprof)
  unfold threads at hT
  have hd : ∀ (i : Nat) (a : Loc), (∀ k, a ≠ .int .points k) → ¬ a = .int .points (i : Int) := fun i a h => h _
  have hdis : ∀ (i j : Nat) (a : Loc), i < gridSize (npart * nprof) B * B → j < gridSize (npart * nprof) B * B → i ≠ j →
      a = .int .points (i : Int) → ¬ a = .int .points (j : Int) := by
    rintro i j a _ _ hne rfl h
    simp at h; omega
  have hc : ∀ i, i < gridSize (npart * nprof) B * B → Conf m₀ (fun a => ∀ k, a ≠ .int .points k)
      (fun a => a = .int .points (i : Int)) (flatPointsThread npart nprof nbins i : Thread α) := by
    intro i _
    unfold flatPointsThread
    split
    · exact Or.inr ⟨rfl, fun _ => ⟨rfl, trivial⟩⟩
    · trivial
  have key := parallelFor_result (asg := id) (T := gridSize (npart * nprof) B * B) (fun i hi => hi) hd hdis hc
  obtain ⟨s1, s2⟩ := serialFor_result hd hdis hc
  refine ⟨key.terminates, key.progress, fun s' hr hf => ?_⟩
  rw [key.result s' hr hf]
  constructor
  · intro k hk
    rw [s1 k (by omega) _ rfl]
    unfold flatPointsThread
    rw [if_pos hk, run_ldi rfl, run_sti]
    simp [Prog.run]
  · intro x hx
    by_cases h : ∃ k : Nat, k < gridSize (npart * nprof) B * B ∧ x = .int .points k
    · obtain ⟨k, hk, rfl⟩ := h
      have hnk : ¬ k < npart * nprof := fun h => hx k h rfl
      rw [s1 k hk _ rfl]
      unfold flatPointsThread
      rw [if_neg hnk]
      rfl
    · apply s2
      intro i hi e
      exact h ⟨i, hi, e⟩

end

/-! ### Atomics (exact arithmetic) -/

section exact
variable {K : Type} [Field K] [LinearOrder K] [IsStrictOrderedRing K]

theorem sim_atomic {a : Arr} {m₀ m : Memory K} {l l' : List K} {i : Int} {r w : K} (hm : OnlyArray a m₀ m)
    (hl : Stores (reals m a) l) (hr : rd l i = .ok r) (h : upd l i (r + w) = .ok l') :
    OnlyArray a m₀ ((.atomic (.real a i) (fun r : K => r + w) .done : Thread K).run m) ∧
      Stores (reals ((.atomic (.real a i) (fun r : K => r + w) .done : Thread K).run m) a) l' := by
  have e : m (.real a i) = r := hl _ _ hr
  have : (.atomic (.real a i) (fun r : K => r + w) .done : Thread K).run m = (st a i (r + w) .done : Thread K).run m := by
    subst e; rfl
  rw [this]
  exact sim_store hm hl h

theorem project_kernel {B npart nprof : Nat} {m₀ : Memory K} {rc rc' ws : List K} {fp : List Int}
    (hr : Stores (reals m₀ .recon) rc) (hp : Stores (ints m₀ .points) fp) (hw : Stores (reals m₀ .weights) ws)
    (h : project B rc fp ws npart nprof = .ok rc') :
    Always ⟨m₀, grid (gridSize (npart * nprof) B) B (projectThread npart nprof)⟩
      (fun m => Stores (reals m .recon) rc' ∧ OnlyArray .recon m₀ m) := by
  refine atomic_region ?_ ?_ hr h
  · intro i _
    unfold projectThread
    split
    · exact ⟨fun j e => (by cases e), fun j e => (by cases e), fun h => h _ rfl, ⟨rfl, _, rfl⟩, trivial⟩
    · trivial
  · intro i _
    unfold projectThread
    by_cases hi : i < npart * nprof
    · simp only [if_pos hi]
      intro m l l' hm hl hu
      simp only [Asrt.bind_ok_iff] at hu
      obtain ⟨idx, hidx, r, hr, w, hw', hu⟩ := hu
      have e1 : m (.int .points (i : Int)) = idx := by rw [only_int hm]; exact hp _ _ hidx
      have e2 : m (.real .weights ((i / nprof : Nat) : Int)) = w := by rw [only_real hm (by decide)]; exact hw _ _ hw'
      rw [run_ldi e1, run_ld e2]
      exact sim_atomic hm hl hr hu
    · simp only [if_neg hi]
      exact sim_done

theorem count_kernel {B nprof npart nbins : Nat} {m₀ : Memory K} {r r' : List K} {xp : List Int}
    (hr : Stores (reals m₀ .rparts) r) (hx : Stores (ints m₀ .coords) xp)
    (h : countParticles B r xp nprof npart nbins = .ok r') :
    Always ⟨m₀, grid (gridSize (npart * nprof) B) B (countThread nprof npart nbins)⟩
      (fun m => Stores (reals m .rparts) r' ∧ OnlyArray .rparts m₀ m) := by
  refine atomic_region ?_ ?_ hr h
  · intro i _
    unfold countThread
    split
    · exact ⟨fun j e => (by cases e), fun h => h _ rfl, ⟨rfl, _, rfl⟩, trivial⟩
    · trivial
  · intro i _
    unfold countThread
    by_cases hi : i < npart * nprof
    · simp only [if_pos hi]
      intro m l l' hm hl hu
      simp only [Asrt.bind_ok_iff] at hu
      obtain ⟨bin, hbin, c, hc, hu⟩ := hu
      have e1 : m (.int .coords (i : Int)) = bin := by rw [only_int hm]; exact hx _ _ hbin
      rw [run_ldi e1]
      exact sim_atomic hm hl hc hu
    · simp only [if_neg hi]
      exact sim_done

open Finset in
/-- the blocks of `back_project` in exact arithmetic: any order of the additions inside a block -/
theorem backProject_anyorder {Q npart nprof nbins : ℕ} (hQ : 0 < Q) (hQ' : Q ≤ 512) {x : ℕ → ℕ → ℕ}
    (hx : InRange npart nprof nbins x) {m₀ : Memory K} {w : ℕ → K} {f : ℕ → ℕ → K} (ls : ℕ → List ℕ)
    (hls : ∀ b, (ls b).Perm (blockIndices Q nprof))
    (hw : Stores (reals m₀ .weights) (tab npart w)) (hp : Stores (ints m₀ .points) (fpbuf npart nprof nbins x))
    (hf : Stores (reals m₀ .profiles) (flat nprof nbins f)) :
    Always ⟨m₀, tab npart fun b => backProjectBlock nprof (ls b) b⟩
      (fun m => Stores (reals m .weights) (tab npart fun i => w i + ∑ p ∈ range nprof, f p (x i p)) ∧
        OnlyArray .weights m₀ m) := by
  refine backProject_blocks ls hw hp hf ?_
  apply pointLoop_eq
  intro b hb g hg
  have e : gatherM (fpbuf npart nprof nbins x) (flat nprof nbins f) nprof b (ls b) (0 : K)
      = .ok (∑ p ∈ range nprof, f p (x b p)) := by
    have := foldlM_gather (nprof := nprof) (fun k => do
      let q ← rd (fpbuf npart nprof nbins x) ((b * nprof + k : Nat) : Int)
      rd (flat nprof nbins f) q) (fun k => f k (x b k)) (by
        intro k hk
        rw [Recon.rd_fp hb hk, bind_ok, rd_flat _ hk (hx b hb k hk) rfl]) (ls b) 0
    simp only [bind_assoc] at this
    unfold gatherM
    rw [this, zero_add, (((hls b).filter _).trans (blockIndices_perm hQ hQ')).map _ |>.sum_eq, list_sum]
  rw [e, bind_ok, rd_tab _ hb, bind_ok, hg, upd_tab _ _ hb]

end exact
end Verif.Cuda

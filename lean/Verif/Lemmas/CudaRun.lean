import Verif.Model.CudaRun
import Verif.Lemmas.CudaThreads
import Verif.Lemmas.TrackingPy

/-!
# Runs on the device: launches with one outcome, sums in exact arithmetic
-/

set_option linter.unusedSectionVars false

namespace Verif.Cuda
open Verif.Par Verif.Omp Verif.Recon Verif.Track Verif.Spec

section nd
variable {A B : Type}

theorem det_ok_bind (a : A) (f : A → ND B) : (det (.ok a) >>= f) = f a := by
  funext r
  apply propext
  constructor
  · rintro (⟨b, h, h'⟩ | ⟨e, h, _⟩)
    · cases h; exact h'
    · cases h
  · intro h
    exact Or.inl ⟨a, rfl, h⟩

theorem det_error_bind (e : Fault) (f : A → ND B) : (det (.error e) >>= f) = det (.error e) := by
  funext r
  apply propext
  constructor
  · rintro (⟨b, h, _⟩ | ⟨e', h, h'⟩)
    · cases h
    · cases h; exact h'
  · intro h
    exact Or.inr ⟨e, rfl, h⟩

theorem pure_det (a : A) : (pure a : ND A) = det (.ok a) := rfl

theorem det_bind (x : M A) (f : A → ND B) (g : A → M B) (h : ∀ a, x = .ok a → f a = det (g a)) :
    (det x >>= f) = det (x >>= g) := by
  cases x with
  | error e => exact det_error_bind e f
  | ok a => rw [det_ok_bind, h a rfl]; rfl

theorem forND_det {σ : Type} (n : Nat) (f : Nat → σ → ND σ) (g : Nat → σ → M σ) (s : σ) (P : σ → Prop) (h0 : P s)
    (h : ∀ i s, P s → f i s = det (g i s)) (hp : ∀ i s s', P s → g i s = .ok s' → P s') :
    forND n f s = det (forN n g s) ∧ ∀ s', forN n g s = .ok s' → P s' := by
  induction n with
  | zero => exact ⟨rfl, fun s' hs => by cases hs; exact h0⟩
  | succ n ih =>
    rw [forN_succ]
    refine ⟨?_, fun s' hs => ?_⟩
    · show (forND n f s >>= f n) = _
      rw [ih.1]
      exact det_bind _ _ _ fun a ha => h n a (ih.2 a ha)
    · rw [Asrt.bind_ok_iff] at hs
      obtain ⟨a, h1, h2⟩ := hs
      exact hp n a s' (ih.2 a h1) h2

theorem mapND_det {ι : Type} (f : ι → ND B) (g : ι → M B) (l : List ι) (h : ∀ i, f i = det (g i)) :
    mapND f l = det (l.mapM g) := by
  induction l with
  | nil => rfl
  | cons i l ih =>
    unfold mapND
    rw [List.mapM_cons, h i]
    refine det_bind _ _ _ fun a _ => ?_
    rw [ih]
    exact det_bind _ _ _ fun b _ => rfl

end nd

/-- some interleaving comes to the end -/
theorem final_exists {A : Type} {V : A → Type} [DecidableEq A] (s : State A V) : ∃ s', Reach s s' ∧ Final s' := by
  have h := terminates s
  induction h with
  | intro s _ ih =>
    rcases progress s with hf | ⟨s', hs⟩
    · exact ⟨s, .refl, hf⟩
    · obtain ⟨t, h1, h2⟩ := ih s' hs
      exact ⟨t, .head hs h1, h2⟩

section
variable {α : Type}

theorem tab_of_stores {β : Type} {g : Int → β} {l : List β} (h : Stores g l) : (tab l.length fun j => g j) = l := by
  apply List.ext_getElem
  · simp [tab]
  · intro k h1 h2
    simp only [tab, List.getElem_map, List.getElem_range]
    apply h
    unfold rd
    rw [if_pos (by omega), Int.toNat_natCast, List.getElem?_eq_getElem h2]

/-- a launch that always leaves the same array has one outcome -/
theorem launch_det {m₀ : Memory α} {pool : List (Thread α)} {a : Omp.Arr} {n : Nat} {l : List α} {Q : Memory α → Prop}
    (h : Always ⟨m₀, pool⟩ (fun m => Stores (reals m a) l ∧ Q m)) (hn : n = l.length) : launch m₀ pool a n = det (.ok l) := by
  funext r
  apply propext
  constructor
  · rintro ⟨s, h1, h2, rfl⟩
    subst hn
    exact congrArg Except.ok (tab_of_stores (h.result s h1 h2).1)
  · rintro rfl
    obtain ⟨s, h1, h2⟩ := final_exists (⟨m₀, pool⟩ : State Loc (Val α))
    refine ⟨s, h1, h2, ?_⟩
    subst hn
    exact congrArg Except.ok (tab_of_stores (h.result s h1 h2).1).symm

end

section
variable {α : Type} [Add α] [Sub α] [Mul α] [Zero α] [One α] [NatCast α] [IntCast α]
  [LT α] [LE α] [DecidableLT α] [DecidableLE α] [DecidableEq α] [FDiv α]

theorem upd_length {β : Type} {l l' : List β} {i : Int} {v : β} (h : upd l i v = .ok l') : l'.length = l.length := by
  unfold upd at h
  split at h
  · cases h; simp
  · cases h

theorem clip_length {B : Nat} {l l' : List α} {n : Nat} {c : α} (h : clip B l n c = .ok l') : l'.length = l.length := by
  unfold clip at h
  refine forN_post (fun _ r => r.length = l.length) rfl ?_ h
  intro i a b _ ha hb
  split at hb
  · rw [Asrt.bind_ok_iff] at hb
    obtain ⟨v, _, hb⟩ := hb
    split at hb
    · rw [upd_length hb, ha]
    · cases hb; exact ha
  · cases hb; exact ha

theorem clipN_det {B : Nat} {l l' : List α} {n : Nat} {c : α} (h : clip B l n c = .ok l') : clipN B l n c = det (.ok l') :=
  launch_det (clip_kernel (stores_memOf _ _ _ _) h) (clip_length h).symm

theorem difference_length {B : Nat} {rc pf d : List α} {empty : Nat → α} (h : findDifferenceProfile B empty rc pf = .ok d) :
    d.length = rc.length := by
  unfold findDifferenceProfile at h
  have := forN_post (fun _ r => r.length = rc.length) (by simp [tab]) ?_ h
  · exact this
  · intro i a b _ ha hb
    generalize strided rc.length (threads rc.length B) rc.length i = L at hb
    induction L generalizing a with
    | nil => cases hb; exact ha
    | cons k L ih =>
      rw [List.foldlM_cons, Asrt.bind_ok_iff] at hb
      obtain ⟨a', h1, h2⟩ := hb
      refine ih a' ?_ h2
      simp only [Asrt.bind_ok_iff] at h1
      obtain ⟨_, _, _, _, h1⟩ := h1
      rw [upd_length h1, ha]

theorem differenceN_det {B : Nat} (hB : 0 < B) {rc pf d : List α} {empty : Nat → α}
    (h : findDifferenceProfile B empty rc pf = .ok d) : differenceN B empty rc pf = det (.ok d) :=
  launch_det (difference_kernel hB (stores_memOf _ _ _ .diff) (stores_memOf _ _ _ .recon) (stores_memOf _ _ _ .profiles) h)
    (difference_length h).symm

theorem compensate_length {B nprof nbins : Nat} {d d' r : List α} (h : compensate B d r nprof nbins = .ok d') :
    d'.length = d.length := by
  unfold compensate at h
  refine forN_post (fun _ r => r.length = d.length) rfl ?_ h
  intro i a b _ ha hb
  split at hb
  · simp only [Asrt.bind_ok_iff] at hb
    obtain ⟨_, _, _, _, hb⟩ := hb
    rw [upd_length hb, ha]
  · cases hb; exact ha

theorem compensateN_det {B nprof nbins : Nat} {d d' r : List α} (h : compensate B d r nprof nbins = .ok d') :
    compensateN B d r nprof nbins = det (.ok d') :=
  launch_det (compensate_kernel (stores_memOf _ _ _ .diff) (stores_memOf _ _ _ .rparts) h) (compensate_length h).symm

theorem reciprocal_length {B nprof nbins : Nat} {m : α} {r r' : List α} (h : takeReciprocal B m r nprof nbins = .ok r') :
    r'.length = r.length := by
  unfold takeReciprocal at h
  refine forN_post (fun _ x => x.length = r.length) rfl ?_ h
  intro i a b _ ha hb
  split at hb
  · rw [Asrt.bind_ok_iff] at hb
    obtain ⟨v, _, hb⟩ := hb
    split at hb
    · simp only [Asrt.bind_ok_iff] at hb
      obtain ⟨l1, h1, _, _, _, _, hb⟩ := hb
      rw [upd_length hb, upd_length h1, ha]
    · simp only [Asrt.bind_ok_iff] at hb
      obtain ⟨l1, h1, _, _, _, _, hb⟩ := hb
      cases h1
      rw [upd_length hb, ha]
  · cases hb; exact ha

theorem reciprocalN_det {B nprof nbins : Nat} {m : α} {r r' : List α} (h : takeReciprocal B m r nprof nbins = .ok r') :
    reciprocalN B m r nprof nbins = det (.ok r') :=
  launch_det (reciprocal_kernel (stores_memOf _ _ _ .rparts) h) (reciprocal_length h).symm

theorem count_length {B nprof npart nbins : Nat} {r r' : List α} {xp : List Int}
    (h : countParticles B r xp nprof npart nbins = .ok r') : r'.length = r.length := by
  unfold countParticles at h
  refine forN_post (fun _ x => x.length = r.length) rfl ?_ h
  intro i a b _ ha hb
  split at hb
  · simp only [Asrt.bind_ok_iff] at hb
    obtain ⟨_, _, _, _, hb⟩ := hb
    rw [upd_length hb, ha]
  · cases hb; exact ha

theorem project_length {B npart nprof : Nat} {r r' ws : List α} {fp : List Int}
    (h : project B r fp ws npart nprof = .ok r') : r'.length = r.length := by
  unfold project at h
  refine forN_post (fun _ x => x.length = r.length) rfl ?_ h
  intro i a b _ ha hb
  split at hb
  · simp only [Asrt.bind_ok_iff] at hb
    obtain ⟨_, _, _, _, _, _, hb⟩ := hb
    rw [upd_length hb, ha]
  · cases hb; exact ha

theorem flatPoints_char {B npart nprof nbins : Nat} (hB : 0 < B) {xp fp : List Int}
    (h : createFlatPoints B xp npart nprof nbins = .ok fp) :
    fp.length = xp.length ∧ ∀ k : Nat, fp.getD k 0 = if k < npart * nprof then xp.getD k 0 + (nbins * (k % nprof) : Nat) else xp.getD k 0 := by
  unfold createFlatPoints at h
  have := forN_post (fun i (f : List Int) => f.length = xp.length ∧ ∀ k : Nat, f.getD k 0 =
      if k < npart * nprof ∧ k < i then xp.getD k 0 + (nbins * (k % nprof) : Nat) else xp.getD k 0) (by simp) ?_ h
  · refine ⟨this.1, fun k => ?_⟩
    rw [this.2 k]
    have : npart * nprof ≤ threads (npart * nprof) B := gridSize_cover hB
    by_cases hk : k < npart * nprof
    · rw [if_pos ⟨hk, by omega⟩, if_pos hk]
    · rw [if_neg (fun h => hk h.1), if_neg hk]
  · intro i a b _ ha hb
    split at hb
    · rename_i hi
      rw [Asrt.bind_ok_iff] at hb
      obtain ⟨v, hv, hb⟩ := hb
      refine ⟨by rw [upd_length hb, ha.1], fun k => ?_⟩
      obtain ⟨_, hg⟩ := rd_some.mp hv
      rw [Int.toNat_natCast] at hg
      unfold upd at hb
      split at hb
      · rename_i hlt
        cases hb
        rw [Int.toNat_natCast] at hlt ⊢
        have hv' : v = xp.getD i 0 := by
          have := ha.2 i
          rw [if_neg (by omega), List.getD_eq_getElem?_getD, hg] at this
          exact this
        by_cases hk : k = i
        · subst hk
          rw [List.getD_eq_getElem?_getD, List.getElem?_set_self hlt.2, if_pos ⟨hi, by omega⟩, hv']
          rfl
        · rw [List.getD_eq_getElem?_getD, List.getElem?_set_ne (fun e => hk e.symm), ← List.getD_eq_getElem?_getD, ha.2 k]
          by_cases hc : k < npart * nprof ∧ k < i
          · rw [if_pos hc, if_pos ⟨hc.1, by omega⟩]
          · rw [if_neg hc, if_neg (fun h => hc ⟨h.1, by omega⟩)]
      · cases hb
    · rename_i hi
      cases hb
      refine ⟨ha.1, fun k => ?_⟩
      rw [ha.2 k]
      by_cases hc : k < npart * nprof ∧ k < i
      · rw [if_pos hc, if_pos ⟨hc.1, by omega⟩]
      · rw [if_neg hc, if_neg (fun h => hc ⟨h.1, by omega⟩)]

theorem flatPointsN_det {B npart nprof nbins : Nat} (hB : 0 < B) {xp fp : List Int}
    (h : createFlatPoints B xp npart nprof nbins = .ok fp) : createFlatPointsN (α := α) B xp npart nprof nbins = det (.ok fp) := by
  obtain ⟨hl, hc⟩ := flatPoints_char hB h
  have key : ∀ s, Reach ⟨memOf (fun _ => []) (fun | .points => xp | _ => []) [],
      grid (gridSize (npart * nprof) B) B (flatPointsThread npart nprof nbins)⟩ s → Final s →
      (tab xp.length fun j => ints (α := α) s.mem .points j) = fp := by
    intro s h1 h2
    obtain ⟨ha, hb⟩ := (flatPoints_kernel (α := α) (npart := npart) (nprof := nprof) (nbins := nbins) hB).result s h1 h2
    apply List.ext_getElem
    · simp [tab, hl]
    · intro k k1 k2
      have hx : k < xp.length := by omega
      simp only [tab, List.getElem_map, List.getElem_range]
      have e : fp[k] = fp.getD k 0 := by rw [List.getD_eq_getElem?_getD, List.getElem?_eq_getElem k2]; rfl
      have e0 : ∀ k : Nat, memOf (α := α) (fun _ => []) (fun | .points => xp | _ => []) [] (.int .points k) = xp.getD k 0 := by
        intro k
        show (if (0 : Int) ≤ k then xp.getD (Int.toNat k) 0 else 0) = _
        rw [if_pos (by omega), Int.toNat_natCast]
      rw [e, hc k]
      by_cases hk : k < npart * nprof
      · rw [if_pos hk, ← e0 k]
        exact ha k hk
      · rw [if_neg hk, ← e0 k]
        refine hb _ fun k' hk' e => ?_
        simp only [Loc.int.injEq, Nat.cast_inj, true_and] at e
        omega
  funext r
  apply propext
  constructor
  · rintro ⟨s, h1, h2, rfl⟩
    exact congrArg Except.ok (key s h1 h2)
  · rintro rfl
    obtain ⟨s, h1, h2⟩ := final_exists (⟨memOf (fun _ => []) (fun | .points => xp | _ => []) [],
      grid (gridSize (npart * nprof) B) B (flatPointsThread npart nprof nbins)⟩ : State Loc (Val α))
    exact ⟨s, h1, h2, congrArg Except.ok (key s h1 h2).symm⟩

/-- adding from the left is one of the ways to add -/
theorem sumTree_foldl {L : List α} {a : α} (h : SumTree L a) (l : List α) : SumTree (L ++ l) (l.foldl (· + ·) a) := by
  induction l generalizing L a with
  | nil => simpa using h
  | cons x l ih =>
    have := ih (SumTree.node h (SumTree.leaf x) (List.Perm.refl (L ++ [x])))
    simpa using this

theorem cpSum_foldl (l : List α) : cpSum l (.ok (l.foldl (· + ·) 0)) :=
  ⟨_, rfl, Or.inr (sumTree_foldl (SumTree.leaf 0) l)⟩

/-- the values a block collects -/
def collectM (fp : List Int) (pf : List α) (nprof b : Nat) (l : List Nat) : M (List α) :=
  l.mapM fun (index : Nat) =>
    if index < nprof then do
      let q ← rd fp ((b * nprof + index : Nat) : Int)
      rd pf q
    else pure 0

theorem gatherM_eq (fp : List Int) (pf : List α) (nprof b : Nat) (l : List Nat) (s : α) :
    gatherM fp pf nprof b l s = (collectM fp pf nprof b l >>= fun vs => .ok (vs.foldl (· + ·) s)) := by
  induction l generalizing s with
  | nil => rfl
  | cons i l ih =>
    unfold gatherM collectM at *
    rw [List.foldlM_cons, List.mapM_cons]
    by_cases hi : i < nprof
    · simp only [if_pos hi, bind_assoc]
      cases rd fp ((b * nprof + i : Nat) : Int) with
      | error e => rfl
      | ok q =>
        rw [bind_ok, bind_ok]
        cases rd pf q with
        | error e => rfl
        | ok v =>
          rw [bind_ok, bind_ok, pure_eq_ok, bind_ok, ih]
          exact bind_congr fun vs => rfl
    · simp only [if_neg hi]
      rw [pure_eq_ok, bind_ok, ih, pure_eq_ok, bind_ok, bind_assoc]
      exact bind_congr fun vs => rfl

theorem run_collect {m₀ m : Memory α} {fp : List Int} {pf : List α} (hm : OnlyArray .weights m₀ m)
    (hp : Stores (ints m₀ .points) fp) (hf : Stores (reals m₀ .profiles) pf) {nprof b : Nat} {k : List α → Thread α}
    {l : List Nat} {vs ws : List α} (h : collectM fp pf nprof b l = .ok vs) :
    (collect nprof b k l ws).run m = (k (ws ++ vs)).run m := by
  induction l generalizing ws vs with
  | nil => cases h; rw [List.reverse_nil, List.append_nil]; rfl
  | cons i l ih =>
    unfold collectM at h
    rw [List.mapM_cons] at h
    simp only [Asrt.bind_ok_iff] at h
    obtain ⟨v, hv, vs', hvs, h⟩ := h
    cases h
    unfold collect
    by_cases hi : i < nprof
    · simp only [if_pos hi, Asrt.bind_ok_iff] at hv ⊢
      obtain ⟨q, hq, hv⟩ := hv
      have e1 : m (.int .points ((b * nprof + i : Nat) : Int)) = q := by rw [only_int hm]; exact hp _ _ hq
      have e2 : m (.real .profiles q) = v := by rw [only_real hm (by decide)]; exact hf _ _ hv
      rw [run_ldi e1, run_ld e2, ih hvs, List.append_assoc, List.singleton_append]
    · simp only [if_neg hi] at hv ⊢
      cases hv
      rw [ih hvs, List.append_assoc, List.singleton_append]

theorem conf_collect {m₀ : Memory α} {nprof b : Nat} {ix : Int → Prop} {k : List α → Thread α}
    (hk : ∀ s, Conf m₀ (NotIn .weights) (InAt .weights ix) (k s)) (l : List Nat) (s : List α) :
    Conf m₀ (NotIn .weights) (InAt .weights ix) (collect nprof b k l s) := by
  induction l generalizing s with
  | nil => exact hk s
  | cons i l ih =>
    unfold collect
    split
    · exact conf_roi (conf_ro (by decide) (ih _))
    · exact ih _

/-- the blocks of `back_project`, block `b` adding with `sum b` -/
theorem reduce_blocks {R npart nprof : Nat} {m₀ : Memory α} {ws ws' pf : List α} {fp : List Int} (sum : Nat → List α → α)
    (hw : Stores (reals m₀ .weights) ws) (hp : Stores (ints m₀ .points) fp) (hf : Stores (reals m₀ .profiles) pf)
    (h : forN npart (fun b ws => do
      let vs ← collectM fp pf nprof b (blockIndices R nprof)
      let w ← rd ws (b : Int)
      upd ws (b : Int) (w + sum b vs)) ws = .ok ws') :
    Always ⟨m₀, tab npart fun b => reduceBlock R nprof (sum b) b⟩
      (fun m => Stores (reals m .weights) ws' ∧ OnlyArray .weights m₀ m) := by
  refine blocks_region ?_ ?_ hw h
  · intro i _
    refine conf_collect (ix := fun k => k = (i : Int)) (fun s => ?_) _ _
    exact conf_own rfl fun _ => conf_st rfl trivial
  · intro i _ m l l' hm hl hu
    simp only [Asrt.bind_ok_iff] at hu
    obtain ⟨agg, ha, w, hw, hu⟩ := hu
    unfold reduceBlock
    rw [run_collect hm hp hf ha, run_ld (hl _ _ hw)]
    exact sim_store hm hl hu

theorem backProject_collect (R : Nat) (w : List α) (fp : List Int) (f : List α) (npart nprof : Nat) :
    backProject R w fp f npart nprof = forN npart (fun b ws => do
      let vs ← collectM fp f nprof b (blockIndices R nprof)
      let w ← rd ws (b : Int)
      upd ws (b : Int) (w + vs.foldl (· + ·) 0)) w := by
  unfold backProject
  congr 1
  funext b ws
  show (gatherM fp f nprof b (blockIndices R nprof) 0 >>= _) = _
  rw [gatherM_eq, bind_assoc]
  exact bind_congr fun vs => rfl

theorem sums_length {npart : ℕ} {w w' : List α} {g : ℕ → M (List α)} {sum : ℕ → List α → α} (h : forN npart (fun b ws => do
      let vs ← g b
      let w ← rd ws (b : Int)
      upd ws (b : Int) (w + sum b vs)) w = .ok w') : w'.length = w.length := by
  refine forN_post (fun _ a => a.length = w.length) rfl ?_ h
  intro i a b _ ha hb
  simp only [Asrt.bind_ok_iff] at hb
  obtain ⟨_, _, _, _, hb⟩ := hb
  rw [upd_length hb, ha]

/-- the sum of a row, read and added -/
theorem rowSum_eq (g : Nat → M α) (n : Nat) :
    forN n (fun j (s : α) => do
      let v ← g j
      pure (s + v)) 0 = ((List.range n).mapM g >>= fun row => .ok (row.foldl (· + ·) 0)) := by
  induction n with
  | zero => rfl
  | succ n ih =>
    rw [forN_succ, ih, List.range_succ, List.mapM_append, bind_assoc, bind_assoc]
    cases (List.range n).mapM g with
    | error e => rfl
    | ok row =>
      simp only [bind_ok, List.mapM_cons, List.mapM_nil]
      cases g n with
      | error e => rfl
      | ok v => simp

end

section exact
variable {K : Type} [Field K] [LinearOrder K] [IsStrictOrderedRing K]

theorem sumTree_sum {l : List K} {v : K} (h : SumTree l v) : v = l.sum := by
  induction h with
  | leaf x => simp
  | node _ _ hp ih1 ih2 => rw [ih1, ih2, hp.sum_eq, List.sum_append]

theorem foldl_sum (l : List K) (a : K) : l.foldl (· + ·) a = a + l.sum := by
  induction l generalizing a with
  | nil => simp
  | cons x l ih => rw [List.foldl_cons, ih, List.sum_cons, add_assoc]

theorem cpSum_det (l : List K) : cpSum l = det (.ok (l.foldl (· + ·) 0)) := by
  funext r
  apply propext
  constructor
  · rintro ⟨v, rfl, h | h⟩
    · exact congrArg Except.ok (by rw [sumTree_sum h, foldl_sum, zero_add])
    · exact congrArg Except.ok (by rw [sumTree_sum h, foldl_sum, List.sum_cons])
  · rintro rfl
    exact cpSum_foldl l

theorem normalizeN_det (r : List K) (nprof nbins : Nat) : normalizeN r nprof nbins = det (normalize r nprof nbins) := by
  unfold normalizeN normalize
  rw [mapND_det _ (fun (p : Nat) => forN nbins (fun j (s : K) => do
      let v ← rd r ((p * nbins + j : Nat) : Int)
      pure (s + v)) 0)]
  · refine det_bind _ _ _ fun sums _ => ?_
    refine det_bind _ _ _ fun rec _ => ?_
    rw [cpSum_det, det_ok_bind]
  · intro p
    rw [rowSum_eq]
    refine det_bind _ _ _ fun row _ => ?_
    rw [cpSum_det]

theorem foldl_squares (l : List K) (a : K) : (l.map fun d => d * d).foldl (· + ·) a = l.foldl (fun s d => s + d * d) a := by
  rw [List.foldl_map]

theorem discrepancyN_det (sqrt : K → K) (d : List K) (nprof nbins : Nat) :
    discrepancyN sqrt d nprof nbins = det (discrepancy sqrt d nprof nbins) := by
  unfold discrepancyN discrepancy
  rw [cpSum_det, det_ok_bind, foldl_squares]
  exact det_bind _ _ _ fun _ _ => rfl

theorem checkWeightsN_det (l : List K) : checkWeightsN l = det (checkWeights l) := by
  unfold checkWeightsN checkWeights
  rw [cpSum_det, det_ok_bind]

theorem projectN_det {B npart nprof : Nat} {r r' ws : List K} {fp : List Int}
    (h : project B r fp ws npart nprof = .ok r') : projectN B r fp ws npart nprof = det (.ok r') :=
  launch_det (project_kernel (stores_memOf _ _ _ .recon) (storesInt_memOf _ _ _ .points) (stores_memOf _ _ _ .weights) h)
    (project_length h).symm

theorem sum_det {vs : List K} {v : K} (h : SumTree vs v ∨ SumTree (0 :: vs) v) : v = vs.foldl (· + ·) 0 := by
  have : cpSum vs (.ok v) := ⟨v, rfl, h⟩
  rw [cpSum_det] at this
  exact Except.ok.inj this

theorem backProjectN_det {R npart nprof : Nat} {w w' f : List K} {fp : List Int}
    (h : backProject R w fp f npart nprof = .ok w') : backProjectN R w fp f npart nprof = det (.ok w') := by
  rw [backProject_collect] at h
  have key : ∀ sum : ℕ → List K → K, (∀ b vs, SumTree vs (sum b vs) ∨ SumTree (0 :: vs) (sum b vs)) →
      launch (memOf (fun | .weights => w | .profiles => f | _ => []) (fun | .points => fp | _ => []) [])
        (tab npart fun b => reduceBlock R nprof (sum b) b) .weights w.length = det (.ok w') := by
    intro sum hs
    have e : sum = fun _ vs => vs.foldl (· + ·) 0 := by
      funext b vs
      exact sum_det (hs b vs)
    subst e
    exact launch_det (reduce_blocks _ (stores_memOf _ _ _ .weights) (storesInt_memOf _ _ _ .points)
      (stores_memOf _ _ _ .profiles) h) (sums_length h).symm
  funext r
  apply propext
  constructor
  · rintro ⟨sum, hs, h⟩
    rwa [← key sum hs]
  · intro h
    have hs : ∀ (b : ℕ) (vs : List K), SumTree vs (vs.foldl (· + ·) 0) ∨ SumTree (0 :: vs) (vs.foldl (· + ·) 0) :=
      fun _ vs => Or.inr (sumTree_foldl (SumTree.leaf 0) vs)
    exact ⟨fun _ vs => vs.foldl (· + ·) 0, hs, (congrFun (key _ hs) r).mpr h⟩

theorem countN_det {B nprof npart nbins : Nat} {r r' : List K} {xp : List Int}
    (h : countParticles B r xp nprof npart nbins = .ok r') : countN B r xp nprof npart nbins = det (.ok r') :=
  launch_det (count_kernel (stores_memOf _ _ _ .rparts) (storesInt_memOf _ _ _ .coords) h) (count_length h).symm

section run
variable {B Q npart nprof nbins : ℕ} {x : ℕ → ℕ → ℕ}

theorem as_tab {β : Type} [Zero β] {l : List β} {n : ℕ} (h : l.length = n) : ∃ g : ℕ → β, l = tab n g := by
  subst h
  refine ⟨fun k => l.getD k 0, ?_⟩
  apply List.ext_getElem
  · simp [tab]
  · intro k h1 h2
    simp only [tab, List.getElem_map, List.getElem_range, List.getD_eq_getElem?_getD, List.getElem?_eq_getElem h1]
    rfl

theorem as_flat {β : Type} [Zero β] {l : List β} {n m : ℕ} (h : l.length = n * m) : ∃ g : ℕ → ℕ → β, l = flat n m g := by
  obtain ⟨g, rfl⟩ := as_tab h
  refine ⟨fun p b => g (p * m + b), ?_⟩
  unfold flat
  apply tab_congr
  intro k _
  show g k = g (k / m * m + k % m)
  rw [Nat.mul_comm, Nat.div_add_mod]

theorem projectN_run (hB : 0 < B) (hx : InRange npart nprof nbins x) {r w : List K} (hr : r.length = nprof * nbins)
    (hw : w.length = npart) :
    projectN B r (fpbuf npart nprof nbins x) w npart nprof = det (project B r (fpbuf npart nprof nbins x) w npart nprof) := by
  obtain ⟨r, rfl⟩ := as_flat hr
  obtain ⟨w, rfl⟩ := as_tab hw
  have := (project_eq hB (flat nprof nbins r) (fpbuf npart nprof nbins x) (tab npart w) npart nprof).trans (project_ok hx w r)
  rw [projectN_det this, this]

theorem clipN_run (hB : 0 < B) {w : List K} (hw : w.length = npart) (c : K) :
    clipN B w npart c = det (clip B w npart c) := by
  obtain ⟨w, rfl⟩ := as_tab hw
  have := (clip_eq hB (tab npart w) npart c).trans (clip_ok npart w c)
  rw [clipN_det this, this]

theorem differenceN_run (hB : 0 < B) (empty : ℕ → K) {r f : List K} (hr : r.length = nprof * nbins)
    (hf : f.length = nprof * nbins) : differenceN B empty r f = det (findDifferenceProfile B empty r f) := by
  obtain ⟨r, rfl⟩ := as_flat hr
  obtain ⟨f, rfl⟩ := as_flat hf
  have := difference_ok (nprof := nprof) (nbins := nbins) hB empty r f
  rw [differenceN_det hB this, this]

theorem compensateN_run (hB : 0 < B) {d r : List K} (hd : d.length = nprof * nbins) (hr : r.length = nprof * nbins) :
    compensateN B d r nprof nbins = det (compensate B d r nprof nbins) := by
  obtain ⟨d, rfl⟩ := as_flat hd
  obtain ⟨r, rfl⟩ := as_flat hr
  have := (compensate_eq hB (flat nprof nbins d) (flat nprof nbins r) nprof nbins).trans (compensate_ok nprof nbins d r)
  rw [compensateN_det this, this]

theorem backProjectN_run (hQ : 0 < Q) (hQ' : Q ≤ 512) (hx : InRange npart nprof nbins x) {w f : List K} (hw : w.length = npart)
    (hf : f.length = nprof * nbins) :
    backProjectN Q w (fpbuf npart nprof nbins x) f npart nprof = det (backProject Q w (fpbuf npart nprof nbins x) f npart nprof) := by
  obtain ⟨w, rfl⟩ := as_tab hw
  obtain ⟨f, rfl⟩ := as_flat hf
  have h := Cuda.backProject_ok hQ hQ' hx (w := w) (f := f)
  rw [backProjectN_det h, h]

theorem backProject_length {R : ℕ} {w w' f : List K} {fp : List Int} (h : backProject R w fp f npart nprof = .ok w') :
    w'.length = w.length := by
  unfold backProject at h
  refine forN_post (fun _ a => a.length = w.length) rfl ?_ h
  intro i a b _ ha hb
  simp only [Asrt.bind_ok_iff] at hb
  obtain ⟨_, _, _, _, hb⟩ := hb
  rw [upd_length hb, ha]

theorem normalize_length {r r' : List K} (h : normalize r nprof nbins = .ok r') : r'.length = r.length := by
  unfold normalize at h
  simp only [Asrt.bind_ok_iff] at h
  obtain ⟨sums, _, r1, h1, h2⟩ := h
  split at h2
  · cases h2
  · cases h2
    refine forN_post (fun _ a => a.length = r.length) rfl ?_ h1
    intro i a b _ ha hb
    simp only [Asrt.bind_ok_iff] at hb
    obtain ⟨_, _, _, _, _, _, hb⟩ := hb
    rw [upd_length hb, ha]

theorem iterationN_det (hB : 0 < B) (hQ : 0 < Q) (hQ' : Q ≤ 512) (sqrt : K → K) (empty : ℕ → K)
    (hx : InRange npart nprof nbins x) {wf rp : List K} (hf : wf.length = nprof * nbins) (hr : rp.length = nprof * nbins) (k : ℕ)
    {st : RState K} (h : st.weights.length = npart ∧ st.flatRec.length = nprof * nbins) :
    iterationN B Q sqrt empty (fpbuf npart nprof nbins x) wf rp nbins npart nprof k st
      = det (iteration B Q sqrt empty (fpbuf npart nprof nbins x) wf rp nbins npart nprof k st) := by
  unfold iterationN iteration
  rw [projectN_run hB hx h.2 h.1]
  refine det_bind _ _ _ fun r1 h1 => ?_
  rw [normalizeN_det]
  refine det_bind _ _ _ fun r2 h2 => ?_
  have l2 : r2.length = nprof * nbins := by rw [normalize_length h2, project_length h1, h.2]
  rw [differenceN_run hB empty l2 hf]
  refine det_bind _ _ _ fun d h3 => ?_
  rw [discrepancyN_det]
  refine det_bind _ _ _ fun v _ => ?_
  refine det_bind _ _ _ fun ds _ => ?_
  have l3 : d.length = nprof * nbins := by rw [difference_length h3, l2]
  rw [compensateN_run hB l3 hr]
  refine det_bind _ _ _ fun d' h4 => ?_
  rw [backProjectN_run hQ hQ' hx h.1 (by rw [compensate_length h4, l3])]
  refine det_bind _ _ _ fun w h5 => ?_
  rw [clipN_run hB (by rw [backProject_length h5, h.1])]
  refine det_bind _ _ _ fun w' _ => ?_
  rw [checkWeightsN_det]
  exact det_bind _ _ _ fun _ _ => rfl

theorem iteration_lengths (sqrt : K → K) (empty : ℕ → K) {wf rp : List K} {fp : List Int} {k : ℕ}
    {st st' : RState K} (h : st.weights.length = npart ∧ st.flatRec.length = nprof * nbins)
    (hs : iteration B Q sqrt empty fp wf rp nbins npart nprof k st = .ok st') :
    st'.weights.length = npart ∧ st'.flatRec.length = nprof * nbins := by
  unfold iteration at hs
  simp only [Asrt.bind_ok_iff] at hs
  obtain ⟨r1, h1, r2, h2, d, _, v, _, ds, _, d', _, w, h3, w', h4, _, _, hs⟩ := hs
  cases hs
  exact ⟨by rw [clip_length h4, backProject_length h3, h.1], by rw [normalize_length h2, project_length h1, h.2]⟩

/-- the only outcome of `reconstruct_cuda` in exact arithmetic -/
theorem reconstructN_det (hB : 0 < B) (hQ : 0 < Q) (hQ' : Q ≤ 512) (sqrt : K → K) (empty : ℕ → K) (hp : 0 < nprof) (hb : 0 < nbins)
    (hx : InRange npart nprof nbins x) {wf : List K} (hf : wf.length = nprof * nbins) (niter : ℕ) :
    reconstructN B Q sqrt empty (xbuf npart nprof x) wf niter nbins npart nprof
      = det (reconstruct B Q sqrt empty (xbuf npart nprof x) wf niter nbins npart nprof).2 := by
  unfold reconstructN reconstruct
  have hz : (tab (nprof * nbins) fun _ => (0 : K)) = flat nprof nbins fun _ _ => (0 : K) := rfl
  have h1 : reciprocalParticlesN B (tab (nprof * nbins) fun _ => (0 : K)) (xbuf npart nprof x) nbins nprof npart
      = det (reciprocalParticles B (tab (nprof * nbins) fun _ => (0 : K)) (xbuf npart nprof x) nbins nprof npart) := by
    unfold reciprocalParticlesN reciprocalParticles
    have hc := (countParticles_eq hB (flat nprof nbins fun _ _ => (0 : K)) (xbuf npart nprof x) nprof npart nbins).trans
      (countParticles_ok hx)
    rw [hz, countN_det hc, hc]
    refine det_bind _ _ _ fun r hr => ?_
    cases hr
    refine det_bind _ _ _ fun m _ => ?_
    have := takeReciprocal_ok hB m (nprof := nprof) (nbins := nbins) fun k => (count npart x (k / nbins) (k % nbins) : K)
    exact (reciprocalN_det this).trans (congrArg det this.symm)
  rw [h1]
  refine det_bind _ _ _ fun rp hrp => ?_
  have lrp : rp.length = nprof * nbins := by
    rw [hz, Cuda.reciprocal_ok hB hp hb hx] at hrp
    cases hrp
    simp
  have hfp := (createFlatPoints_eq hB (xbuf npart nprof x) npart nprof nbins).trans (createFlatPoints_ok npart nprof nbins x)
  rw [flatPointsN_det (α := K) hB hfp, hfp]
  refine det_bind _ _ _ fun fp e => ?_
  cases e
  rw [backProjectN_run hQ hQ' hx (by simp [tab]) hf]
  refine det_bind _ _ _ fun w h5 => ?_
  have lw : w.length = npart := by rw [backProject_length h5]; simp [tab]
  rw [clipN_run hB lw]
  refine det_bind _ _ _ fun w' h6 => ?_
  rw [checkWeightsN_det]
  refine det_bind _ _ _ fun _ _ => ?_
  obtain ⟨hd, hi⟩ := forND_det niter _ (iteration B Q sqrt empty (fpbuf npart nprof nbins x) wf rp nbins npart nprof)
    ⟨w', tab (nprof * nbins) fun _ => 0, tab (niter + 1) fun _ => 0⟩
    (fun st => st.weights.length = npart ∧ st.flatRec.length = nprof * nbins) ⟨by rw [clip_length h6, lw], by simp [tab]⟩
    (fun k st h => iterationN_det hB hQ hQ' sqrt empty hx hf lrp k h) (fun k st st' h hs => iteration_lengths sqrt empty h hs)
  rw [hd]
  refine det_bind _ _ _ fun st hst => ?_
  obtain ⟨l1, l2⟩ := hi st hst
  rw [projectN_run hB hx l2 l1]
  refine det_bind _ _ _ fun r1 h7 => ?_
  rw [normalizeN_det]
  refine det_bind _ _ _ fun r2 h8 => ?_
  rw [differenceN_run hB empty (by rw [normalize_length h8, project_length h7, l2]) hf]
  refine det_bind _ _ _ fun d _ => ?_
  rw [discrepancyN_det]
  refine det_bind _ _ _ fun v _ => ?_
  exact det_bind _ _ _ fun ds _ => rfl

end run

end exact
end Verif.Cuda

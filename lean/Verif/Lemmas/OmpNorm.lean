import Verif.Lemmas.Omp
import Verif.Lemmas.Recon
import Mathlib.Algebra.BigOperators.Group.Finset.Basic
import Mathlib.Algebra.BigOperators.Ring.Finset

/-!
# The reduction of `normalize`
-/

set_option linter.unusedSectionVars false

namespace Verif.Omp
open Verif.Par Verif.Spec Verif.Recon Finset

variable {K : Type} [Field K] [LinearOrder K] [IsStrictOrderedRing K]

theorem rowSum_run {nbins i : ℕ} (k : K → Thread K) (m : Memory K) (n : ℕ) (hn : n ≤ nbins) (s : K) :
    (Omp.rowSum nbins i k n s).run m
      = (k (s + ∑ j ∈ range n, reals m .recon ((i * nbins + (nbins - n + j) : ℕ) : ℤ))).run m := by
  induction n generalizing s with
  | zero => simp [Omp.rowSum]
  | succ n ih =>
    have e : ∀ j, nbins - (n + 1) + (j + 1) = nbins - n + j := by intro j; omega
    show (Omp.rowSum nbins i k n (s + reals m .recon ((i * nbins + (nbins - (n + 1)) : ℕ) : ℤ))).run m = _
    rw [ih (by omega), Finset.sum_range_succ']
    simp only [e, Nat.add_zero]
    congr 2
    ring

/-- the division loop of one row -/
theorem divLoop_run {nbins i : ℕ} {s : K} (hs : s ≠ 0) (m : Memory K) (n : ℕ) (hn : n ≤ nbins) :
    (∀ j, j < n → (Prog.for' n fun j => ld .recon ((i * nbins + j : ℕ) : ℤ) fun v => quot v s fun q =>
      st .recon ((i * nbins + j : ℕ) : ℤ) q .done : Thread K).run m (.real .recon ((i * nbins + j : ℕ) : ℤ))
        = m (.real .recon ((i * nbins + j : ℕ) : ℤ)) / s) ∧
    ∀ x, (∀ j, j < n → x ≠ .real .recon ((i * nbins + j : ℕ) : ℤ)) →
      (Prog.for' n fun j => ld .recon ((i * nbins + j : ℕ) : ℤ) fun v => quot v s fun q =>
      st .recon ((i * nbins + j : ℕ) : ℤ) q .done : Thread K).run m x = m x := by
  induction n with
  | zero => exact ⟨fun j h => by omega, fun _ _ => rfl⟩
  | succ n ih =>
    obtain ⟨ih1, ih2⟩ := ih (by omega)
    rw [Prog.run_for_succ]
    generalize hm1 : (Prog.for' n fun j => ld .recon ((i * nbins + j : ℕ) : ℤ) fun v => quot v s fun q =>
      st .recon ((i * nbins + j : ℕ) : ℤ) q .done : Thread K).run m = m1 at ih1 ih2
    have hn1 : m1 (.real .recon ((i * nbins + n : ℕ) : ℤ)) = m (.real .recon ((i * nbins + n : ℕ) : ℤ)) := by
      apply ih2
      intro j hj e
      simp at e; omega
    rw [run_ld hn1]
    simp only [quot, fdiv_ok hs]
    rw [run_st]
    constructor
    · intro j hj
      show (Function.update m1 _ _ : Memory K) _ = _
      by_cases e : j = n
      · subst e; simp
      · rw [Function.update_of_ne (by simp; omega)]
        exact ih1 j (by omega)
    · intro x hx
      show (Function.update m1 _ _ : Memory K) _ = _
      rw [Function.update_of_ne (hx n (by omega))]
      exact ih2 x fun j hj => hx j (by omega)

/-- footprint of one row -/
theorem conf_row (m₀ : Memory K) (nbins t i : ℕ) :
    Conf m₀ (fun _ => False) (fun x => x = .real (.waterfall t) 0 ∨
      ∃ j, j < nbins ∧ x = .real .recon ((i * nbins + j : ℕ) : ℤ)) (normalizeRow nbins t i : Thread K) := by
  have key : ∀ (k : K → Thread K) n, n ≤ nbins → ∀ s, (∀ s, Conf m₀ (fun _ => False) (fun x => x = .real (.waterfall t) 0 ∨
      ∃ j, j < nbins ∧ x = .real .recon ((i * nbins + j : ℕ) : ℤ)) (k s)) →
      Conf m₀ (fun _ => False) (fun x => x = .real (.waterfall t) 0 ∨
      ∃ j, j < nbins ∧ x = .real .recon ((i * nbins + j : ℕ) : ℤ)) (Omp.rowSum nbins i k n s) := by
    intro k n hn s hk
    induction n generalizing s with
    | zero => exact hk s
    | succ n ih =>
      exact Or.inr ⟨Or.inr ⟨nbins - (n + 1), by omega, rfl⟩, fun v => ih (by omega) _⟩
  apply key _ _ le_rfl
  intro s
  apply conf_seq
  · apply conf_for
    intro j hj
    refine Or.inr ⟨Or.inr ⟨j, hj, rfl⟩, fun v => ?_⟩
    show Conf m₀ _ _ (quot v s _)
    unfold quot
    split
    · exact ⟨Or.inr ⟨j, hj, rfl⟩, trivial⟩
    · trivial
  · exact Or.inr ⟨Or.inl rfl, fun v => ⟨Or.inl rfl, trivial⟩⟩

/-- one row done by thread `t` -/
theorem normalizeRow_run {nbins t i : ℕ} {r : ℕ → K} {m : Memory K}
    (hr : ∀ j, j < nbins → m (.real .recon ((i * nbins + j : ℕ) : ℤ)) = r j) (hs : ∑ j ∈ range nbins, r j ≠ 0) :
    (∀ j, j < nbins → (normalizeRow nbins t i).run m (.real .recon ((i * nbins + j : ℕ) : ℤ))
      = r j / ∑ j ∈ range nbins, r j) ∧
    (normalizeRow nbins t i).run m (.real (.waterfall t) 0) = m (.real (.waterfall t) 0) + ∑ j ∈ range nbins, r j ∧
    ∀ x, x ≠ .real (.waterfall t) 0 → (∀ j, j < nbins → x ≠ .real .recon ((i * nbins + j : ℕ) : ℤ)) →
      (normalizeRow nbins t i).run m x = m x := by
  have hsum : (0 : K) + ∑ j ∈ range nbins, reals m .recon ((i * nbins + (nbins - nbins + j) : ℕ) : ℤ)
      = ∑ j ∈ range nbins, r j := by
    rw [zero_add]
    apply sum_congr rfl
    intro j hj
    simp only [Nat.sub_self, Nat.zero_add]
    exact hr j (mem_range.mp hj)
  unfold normalizeRow
  rw [rowSum_run _ _ _ le_rfl, hsum, Prog.run_seq]
  obtain ⟨d1, d2⟩ := divLoop_run (i := i) hs m nbins le_rfl
  generalize (Prog.for' nbins fun j => ld .recon ((i * nbins + j : ℕ) : ℤ) fun v =>
    quot v (∑ j ∈ range nbins, r j) fun q => st .recon ((i * nbins + j : ℕ) : ℤ) q .done : Thread K).run m = m1 at d1 d2
  have hw : m1 (.real (.waterfall t) 0) = m (.real (.waterfall t) 0) := d2 _ fun j _ => by simp
  rw [run_ld hw, run_st]
  refine ⟨fun j hj => ?_, ?_, fun x hx hx' => ?_⟩
  · show (Function.update m1 _ _ : Memory K) _ = _
    rw [Function.update_of_ne (by simp), d1 j hj, hr j hj]
  · show (Function.update m1 _ _ : Memory K) _ = _
    simp
  · show (Function.update m1 _ _ : Memory K) _ = _
    rw [Function.update_of_ne hx, d2 x hx']

theorem rows_run {nbins t : ℕ} {r : ℕ → ℕ → K} (L : List ℕ) (hL : L.Nodup)
    (hs : ∀ i ∈ L, Spec.rowSum nbins r i ≠ 0) {m : Memory K}
    (hr : ∀ i ∈ L, ∀ j, j < nbins → m (.real .recon ((i * nbins + j : ℕ) : ℤ)) = r i j) :
    (∀ i ∈ L, ∀ j, j < nbins → (Prog.seqs (L.map fun i => normalizeRow nbins t i)).run m
      (.real .recon ((i * nbins + j : ℕ) : ℤ)) = normRows nbins r i j) ∧
    (Prog.seqs (L.map fun i => normalizeRow nbins t i)).run m (.real (.waterfall t) 0)
      = m (.real (.waterfall t) 0) + (L.map (Spec.rowSum nbins r)).sum := by
  induction L generalizing m with
  | nil => exact ⟨fun i h => by simp at h, by simp [Prog.run_seqs_nil]⟩
  | cons i L ih =>
    obtain ⟨hnot, hL'⟩ := List.nodup_cons.mp hL
    obtain ⟨n1, n2, n3⟩ := normalizeRow_run (t := t) (r := r i) (hr i (by simp)) (hs i (by simp))
    rw [List.map_cons, Prog.run_seqs_cons]
    generalize (normalizeRow nbins t i : Thread K).run m = m1 at n1 n2 n3
    have hr1 : ∀ k ∈ L, ∀ j, j < nbins → m1 (.real .recon ((k * nbins + j : ℕ) : ℤ)) = r k j := by
      intro k hk j hj
      rw [n3 _ (by simp) (fun j' hj' e => ?_)]
      · exact hr k (by simp [hk]) j hj
      · simp only [Loc.real.injEq, true_and] at e
        exact hnot (row_disjoint hj hj' e ▸ hk)
    obtain ⟨i1, i2⟩ := ih hL' (fun k hk => hs k (by simp [hk])) hr1
    constructor
    · intro k hk j hj
      rcases List.mem_cons.mp hk with rfl | hk
      · have hout : (Prog.seqs (L.map fun i => normalizeRow nbins t i)).run m1 (.real .recon ((k * nbins + j : ℕ) : ℤ))
            = m1 (.real .recon ((k * nbins + j : ℕ) : ℤ)) := by
          refine run_outside (m₀ := m1) (ro := fun _ => False) (own := fun x => x = .real (.waterfall t) 0 ∨
            ∃ i ∈ L, ∃ j, j < nbins ∧ x = .real .recon ((i * nbins + j : ℕ) : ℤ)) ?_ (fun _ h => h.elim) (fun _ _ => rfl) ?_
          · apply conf_seqs
            intro p hp
            obtain ⟨q, hq, rfl⟩ := List.mem_map.mp hp
            exact conf_mono (conf_row m1 nbins t q) fun x hx => by
              rcases hx with rfl | ⟨j, hj, rfl⟩
              · exact Or.inl rfl
              · exact Or.inr ⟨q, hq, j, hj, rfl⟩
          · rintro (e | ⟨q, hq, j', hj', e⟩)
            · simp at e
            · simp only [Loc.real.injEq, true_and] at e
              exact hnot (row_disjoint hj hj' e ▸ hq)
        rw [hout, n1 j hj]; rfl
      · exact i1 k hk j hj
    · rw [i2, n2, List.map_cons, List.sum_cons, add_assoc]
      rfl

/-- the pool of `normalize`: rows divided by their sums, and the combined `sum_waterfall` is the total -/
theorem normalize_pool {T nprof nbins : ℕ} {asg : ℕ → ℕ} (hasg : Assigned T asg nprof) {r : ℕ → ℕ → K} {m₀ : Memory K}
    (hr : ∀ i j, i < nprof → j < nbins → m₀ (.real .recon ((i * nbins + j : ℕ) : ℤ)) = r i j)
    (hs : ∀ i, i < nprof → Spec.rowSum nbins r i ≠ 0) :
    Always ⟨m₀, normalizePool T asg nprof nbins⟩ (fun m =>
      (∀ i j, i < nprof → j < nbins → m (.real .recon ((i * nbins + j : ℕ) : ℤ)) = normRows nbins r i j) ∧
      ∀ order : List ℕ, order.Perm (List.range T) → reduced m order = ∑ i ∈ range nprof, Spec.rowSum nbins r i) := by
  apply always_of_result
  intro s' hreach hf
  have hget : ∀ t p, (normalizePool T asg nprof nbins : List (Thread K))[t]? = some p → t < T ∧ p =
      st (.waterfall t) 0 0 (Prog.seqs (((List.range nprof).filter fun i => asg i = t).map fun i => normalizeRow nbins t i)) := by
    intro t p h
    unfold normalizePool at h
    rw [getElem?_tab] at h
    split at h
    · rename_i h'; exact ⟨h', by cases h; rfl⟩
    · cases h
  obtain ⟨k1, _⟩ := pool_result (m₀ := m₀) (ro := fun _ => False) (own := fun t x => x = .real (.waterfall t) 0 ∨
      ∃ i, i < nprof ∧ asg i = t ∧ ∃ j, j < nbins ∧ x = .real .recon ((i * nbins + j : ℕ) : ℤ))
    (pool₀ := normalizePool T asg nprof nbins) (fun _ _ h => h.elim)
    (by
      rintro t u x _ _ hne (rfl | ⟨i, hi, rfl, j, hj, rfl⟩) (h | ⟨i', hi', h, j', hj', h'⟩)
      · simp at h; exact hne h
      · simp at h'
      · simp at h
      · simp only [Loc.real.injEq, true_and] at h'
        exact hne (by rw [← h, row_disjoint hj hj' h']))
    (by
      intro t p h
      obtain ⟨_, rfl⟩ := hget t p h
      refine ⟨Or.inl rfl, conf_seqs ?_⟩
      intro q hq
      obtain ⟨i, hi, rfl⟩ := List.mem_map.mp hq
      have hi' := List.mem_filter.mp hi
      refine conf_mono (conf_row m₀ nbins t i) fun x hx => ?_
      rcases hx with rfl | ⟨j, hj, rfl⟩
      · exact Or.inl rfl
      · exact Or.inr ⟨i, by simpa using hi'.1, by simpa using hi'.2, j, hj, rfl⟩)
    hreach hf
  have hth : ∀ t, t < T → (∀ i, i < nprof → asg i = t → ∀ j, j < nbins →
      s'.mem (.real .recon ((i * nbins + j : ℕ) : ℤ)) = normRows nbins r i j) ∧
      s'.mem (.real (.waterfall t) 0) = ∑ i ∈ (range nprof).filter (fun i => asg i = t), Spec.rowSum nbins r i := by
    intro t ht
    have hp : (normalizePool T asg nprof nbins : List (Thread K))[t]? = some (st (.waterfall t) 0 0
        (Prog.seqs (((List.range nprof).filter fun i => asg i = t).map fun i => normalizeRow nbins t i))) := by
      unfold normalizePool
      rw [getElem?_tab, if_pos ht]
    have hmem : ∀ i, i ∈ (List.range nprof).filter (fun i => asg i = t) ↔ i < nprof ∧ asg i = t := by
      intro i; simp
    obtain ⟨r1, r2⟩ := rows_run (t := t) (r := r) ((List.range nprof).filter fun i => asg i = t)
      (List.nodup_range.filter _) (fun i hi => hs i ((hmem i).mp hi).1)
      (m := (Function.update m₀ (.real (.waterfall t) 0) (0 : K) : Memory K))
      (fun i hi j hj => by
        rw [Function.update_of_ne (by simp)]
        exact hr i j ((hmem i).mp hi).1 hj)
    constructor
    · intro i hi hit j hj
      rw [k1 t _ hp _ (Or.inr ⟨i, hi, hit, j, hj, rfl⟩), run_st]
      exact r1 i ((hmem i).mpr ⟨hi, hit⟩) j hj
    · rw [k1 t _ hp _ (Or.inl rfl), run_st, r2, Function.update_self, zero_add]
      rw [← List.sum_toFinset _ (List.nodup_range.filter _)]
      apply sum_congr _ (fun _ _ => rfl)
      ext i; simp
  constructor
  · intro i j hi hj
    exact (hth (asg i) (hasg i hi)).1 i hi rfl j hj
  · intro order hperm
    have e1 : reduced s'.mem order = (order.map fun t => s'.mem (.real (.waterfall t) 0)).sum := by
      unfold reduced
      have : ∀ (l : List ℕ) (s : K), l.foldl (fun s t => s + reals s'.mem (.waterfall t) 0) s
          = s + (l.map fun t => s'.mem (.real (.waterfall t) 0)).sum := by
        intro l
        induction l with
        | nil => intro s; simp
        | cons t l ih => intro s; rw [List.foldl_cons, ih, List.map_cons, List.sum_cons, add_assoc]
      rw [this, zero_add]
    rw [e1, (hperm.map _).sum_eq]
    have e2 : ((List.range T).map fun t => s'.mem (.real (.waterfall t) 0)).sum
        = ∑ t ∈ range T, ∑ i ∈ (range nprof).filter (fun i => asg i = t), Spec.rowSum nbins r i := by
      rw [← List.sum_toFinset _ List.nodup_range]
      apply sum_congr
      · ext i; simp
      · intro t ht
        exact (hth t (by simpa using ht)).2
    rw [e2]
    apply sum_fiberwise_of_maps_to
    intro i hi
    exact mem_range.mpr (hasg i (mem_range.mp hi))

end Verif.Omp

import Verif.Spec.Rnd
import Verif.Lemmas.ParShuffle
import Verif.Lemmas.CudaThreads
import Verif.Lemmas.TrackingPy
import Mathlib.Tactic.Positivity
import Mathlib.Tactic.Linarith

/-!
# Sums in any order, with rounding
-/

namespace Verif.Rounded
open Verif.Par Verif.Omp Verif.Cuda Verif.Track Verif.Spec

theorem fold_err {w : World} {u : ℝ} (hw : w.Accurate u) (h0 : 0 ≤ u) (l : List ℝ) (v : ℝ) :
    |l.foldl (fun a b => w.rnd (a + b)) v - (v + l.sum)| ≤ ((1 + u) ^ l.length - 1) * (|v| + (l.map abs).sum) := by
  induction l generalizing v with
  | nil => simp
  | cons x l ih =>
    have h1 := hw.rnd (v + x)
    have h2 := ih (w.rnd (v + x))
    have hA : 0 ≤ (l.map abs).sum := List.sum_nonneg (by simp)
    have hvx : |v + x| ≤ |v| + |x| := abs_add_le v x
    have h3 : |w.rnd (v + x)| ≤ (1 + u) * (|v| + |x|) := by
      have : |w.rnd (v + x)| ≤ |w.rnd (v + x) - (v + x)| + |v + x| := by
        have := abs_add_le (w.rnd (v + x) - (v + x)) (v + x)
        simpa using this
      nlinarith [mul_le_mul_of_nonneg_left hvx h0]
    have hp : 1 ≤ (1 + u) ^ l.length := one_le_pow₀ (by linarith)
    simp only [List.foldl_cons, List.sum_cons, List.map_cons, List.length_cons]
    set F := l.foldl (fun a b => w.rnd (a + b)) (w.rnd (v + x)) with hF
    have h4 : |F - (v + (x + l.sum))| ≤ |F - (w.rnd (v + x) + l.sum)| + |w.rnd (v + x) - (v + x)| := by
      have := abs_add_le (F - (w.rnd (v + x) + l.sum)) (w.rnd (v + x) - (v + x))
      rwa [show F - (w.rnd (v + x) + l.sum) + (w.rnd (v + x) - (v + x)) = F - (v + (x + l.sum)) by ring] at this
    have h5 : ((1 + u) ^ l.length - 1) * (|w.rnd (v + x)| + (l.map abs).sum)
        ≤ ((1 + u) ^ l.length - 1) * ((1 + u) * (|v| + |x|) + (l.map abs).sum) :=
      mul_le_mul_of_nonneg_left (by linarith) (by linarith)
    have h6 : u * |v + x| ≤ u * (|v| + |x|) := mul_le_mul_of_nonneg_left hvx h0
    have h7 : (1 + u) ^ l.length * (l.map abs).sum ≤ (1 + u) ^ (l.length + 1) * (l.map abs).sum := by
      rw [pow_succ]
      nlinarith [mul_nonneg (mul_nonneg (by linarith : (0 : ℝ) ≤ (1 + u) ^ l.length) h0) hA]
    have h8 : (1 + u) ^ (l.length + 1) = (1 + u) ^ l.length * (1 + u) := pow_succ _ _
    have : u * (|v| + |x|) + ((1 + u) ^ l.length - 1) * ((1 + u) * (|v| + |x|) + (l.map abs).sum)
        ≤ ((1 + u) ^ (l.length + 1) - 1) * (|v| + (|x| + (l.map abs).sum)) := by
      rw [h8] at h7 ⊢
      generalize (1 + u) ^ l.length = P at h7
      generalize (l.map abs).sum = S at h7
      linarith
    linarith

/-- one addition of `g t` to the cell `cell t` per number `t` of `l`, seen from one cell -/
theorem applyAll_adds {α : Type} {a : Omp.Arr} (add : α → ℕ → α) (cell : ℕ → ℤ) (l : List ℕ) (m : Memory α) (j : ℤ) :
    applyAll (l.map fun t => (⟨.real a (cell t), fun r : α => add r t⟩ : Upd Loc (Val α))) m (.real a j)
      = (l.filter fun t => decide (cell t = j)).foldl add (m (.real a j)) := by
  induction l generalizing m with
  | nil => rfl
  | cons t l ih =>
    show applyAll (l.map _) (Function.update m (.real a (cell t)) (add (m (.real a (cell t))) t)) (.real a j) = _
    rw [ih]
    by_cases h : cell t = j
    · subst h
      rw [Function.update_self, List.filter_cons_of_pos (by simp)]
      rfl
    · rw [Function.update_of_ne (by simpa using Ne.symm h), List.filter_cons_of_neg (by simpa using h)]

theorem applyAll_other {α : Type} {a : Omp.Arr} (add : α → ℕ → α) (cell : ℕ → ℤ) (l : List ℕ) (m : Memory α) {x : Loc}
    (hx : ∀ i, x ≠ .real a i) :
    applyAll (l.map fun t => (⟨.real a (cell t), fun r : α => add r t⟩ : Upd Loc (Val α))) m x = m x := by
  refine applyAll_ro (ro := fun y => ∀ i, y ≠ .real a i) ?_ m x hx
  intro u hu
  obtain ⟨t, _, rfl⟩ := List.mem_map.mp hu
  intro h
  exact h _ rfl

/-- threads that add once to a cell: the cells at the end, under every interleaving -/
theorem adds_result {α : Type} {a : Omp.Arr} {m₀ : Memory α} {N G B : ℕ} (hN : N ≤ G * B) (add : α → ℕ → α) (cell : ℕ → ℤ)
    {body : ℕ → Thread α} (hc : ∀ t, AConf m₀ (fun x => ∀ i, x ≠ .real a i) (fun _ _ => True) (body t))
    (ht : ∀ t, t < N → trace m₀ (body t) = [⟨.real a (cell t), fun r : α => add r t⟩])
    (ht' : ∀ t, N ≤ t → trace m₀ (body t) = []) :
    Always ⟨m₀, grid G B body⟩ (fun m => ∃ order : List ℕ, order.Perm (List.range N) ∧
      (∀ j, m (.real a j) = (order.filter fun t => decide (cell t = j)).foldl add (m₀ (.real a j))) ∧ Spec.OnlyArray a m₀ m) := by
  rw [grid_eq]
  have key := shuffle_result (m₀ := m₀) (ro := fun x => ∀ i, x ≠ .real a i) (pool := tab (G * B) body) (by
    intro p hp
    unfold tab at hp
    obtain ⟨t, _, rfl⟩ := List.mem_map.mp hp
    exact hc t)
  refine ⟨key.terminates, key.progress, fun s hr hf => ?_⟩
  obtain ⟨L, hL, hm⟩ := key.result s hr hf
  have e : (tab (G * B) body).flatMap (trace m₀)
      = (List.range N).map fun t => (⟨.real a (cell t), fun r : α => add r t⟩ : Upd Loc (Val α)) := by
    obtain ⟨d, hd⟩ := Nat.exists_eq_add_of_le hN
    unfold tab
    rw [List.flatMap_map, hd, List.range_add, List.flatMap_append]
    have z : ((List.range d).map (N + ·)).flatMap (fun t => trace m₀ (body t)) = [] := by
      rw [List.flatMap_eq_nil_iff]
      intro t ht0
      obtain ⟨k, _, rfl⟩ := List.mem_map.mp ht0
      exact ht' _ (Nat.le_add_right N k)
    rw [z, List.append_nil, List.map_eq_flatMap]
    apply List.flatMap_congr
    intro t htt
    exact ht t (List.mem_range.mp htt)
  rw [e] at hL
  obtain ⟨order, ho, rfl⟩ := perm_of_map hL
  exact ⟨order, ho, fun j => by rw [hm, applyAll_adds], fun x hx => by rw [hm, applyAll_other add cell order m₀ hx]⟩

theorem sum_adders (N : ℕ) (cell : ℕ → ℤ) (j : ℤ) (g : ℕ → ℝ) :
    ∑ t ∈ adders N cell j, g t = (((List.range N).filter fun t => decide (cell t = j)).map g).sum := rfl

theorem card_adders (N : ℕ) (cell : ℕ → ℤ) (j : ℤ) :
    (adders N cell j).card = ((List.range N).filter fun t => decide (cell t = j)).length := rfl

theorem addedUp_of_order {w : World} {u : ℝ} (hw : w.Accurate u) (h0 : 0 ≤ u) {N : ℕ} {cell : ℕ → ℤ} {j : ℤ} {g : ℕ → ℝ}
    {order : List ℕ} (ho : order.Perm (List.range N)) (v : ℝ) :
    AddedUp u (adders N cell j).card v (adders N cell j) g
      ((order.filter fun t => decide (cell t = j)).foldl (fun a t => w.rnd (a + g t)) v) := by
  have hp := ho.filter (fun t => decide (cell t = j))
  have := fold_err hw h0 ((order.filter fun t => decide (cell t = j)).map g) v
  rw [List.foldl_map, List.length_map, List.map_map] at this
  unfold AddedUp
  rw [sum_adders, sum_adders, card_adders, ← hp.length_eq, ← (hp.map g).sum_eq, ← (hp.map fun t => |g t|).sum_eq]
  exact this

theorem project_added {w : World} {u : ℝ} (hw : w.Accurate u) (h0 : 0 ≤ u) {npart nprof B : ℕ} (hB : 0 < B)
    (m₀ : Memory (Rn w)) :
    Always ⟨m₀, grid (gridSize (npart * nprof) B) B (projectThread npart nprof)⟩ (fun m =>
      (∀ j, AddedUp u (adders (npart * nprof) (fun t => ints m₀ .points t) j).card (reals m₀ .recon j)
        (adders (npart * nprof) (fun t => ints m₀ .points t) j) (fun t => reals m₀ .weights (t / nprof : ℕ))
        (reals m .recon j)) ∧ OnlyArray .recon m₀ m) := by
  have key := adds_result (m₀ := m₀) (a := .recon) (N := npart * nprof) (G := gridSize (npart * nprof) B) (B := B)
    (gridSize_cover hB) (fun (r : Rn w) t => r + reals m₀ .weights (t / nprof : ℕ)) (fun t => ints m₀ .points t)
    (body := projectThread npart nprof) (by
      intro t
      unfold projectThread
      split
      · exact ⟨fun j e => (by cases e), fun j e => (by cases e), fun h => h _ rfl, trivial, trivial⟩
      · trivial) (by
      intro t ht
      unfold projectThread
      rw [if_pos ht]
      rfl) (by
      intro t ht
      unfold projectThread
      rw [if_neg (by omega)]
      rfl)
  refine ⟨key.terminates, key.progress, fun s hr hf => ?_⟩
  obtain ⟨order, ho, hj, hx⟩ := key.result s hr hf
  refine ⟨fun j => ?_, hx⟩
  show AddedUp _ _ _ _ _ (s.mem (.real .recon j))
  rw [hj j]
  exact addedUp_of_order hw h0 ho _

/-- counting in rounded arithmetic is exact as long as the counts are represented -/
theorem count_fold {w : World} {u : ℝ} (hw : w.Accurate u) (h0 : 0 ≤ u) (l : List ℕ) {b : ℕ} (hb : ((b + l.length : ℕ) : ℝ) * u ≤ 1) :
    l.foldl (fun (a : ℝ) (_ : ℕ) => w.rnd (a + 1)) (b : ℝ) = ((b + l.length : ℕ) : ℝ) := by
  induction l generalizing b with
  | nil => simp
  | cons x l ih =>
    rw [List.foldl_cons, List.length_cons] at *
    have e : ((b : ℝ) + 1) = ((b + 1 : ℕ) : ℝ) := by push_cast; ring
    have hle : ((b + 1 : ℕ) : ℝ) * u ≤ 1 := by
      refine le_trans (mul_le_mul_of_nonneg_right ?_ h0) hb
      exact_mod_cast (by omega : b + 1 ≤ b + (l.length + 1))
    rw [e, hw.exact _ hle, ih (by rwa [show b + 1 + l.length = b + (l.length + 1) by omega])]
    rw [show b + 1 + l.length = b + (l.length + 1) by omega]

/-- where thread `t` of `count_particles_in_bin` adds -/
def countCell (nprof nbins : ℕ) (coords : ℤ → ℤ) (t : ℕ) : ℤ := (t % nprof * nbins : ℕ) + coords t

theorem count_added {w : World} {u : ℝ} (hw : w.Accurate u) (h0 : 0 ≤ u) {npart nprof nbins B : ℕ} (hB : 0 < B)
    (hu : ((npart * nprof : ℕ) : ℝ) * u ≤ 1) (m₀ : Memory (Rn w)) :
    Always ⟨m₀, grid (gridSize (npart * nprof) B) B (countThread nprof npart nbins)⟩ (fun m =>
      (∀ j, reals m₀ .rparts j = 0 →
        reals m .rparts j = (((adders (npart * nprof) (countCell nprof nbins (ints m₀ .coords)) j).card : ℕ) : ℝ)) ∧
      OnlyArray .rparts m₀ m) := by
  have key := adds_result (m₀ := m₀) (a := .rparts) (N := npart * nprof) (G := gridSize (npart * nprof) B) (B := B)
    (gridSize_cover hB) (fun (r : Rn w) _ => r + 1) (countCell nprof nbins (ints m₀ .coords))
    (body := countThread nprof npart nbins) (by
      intro t
      unfold countThread
      split
      · exact ⟨fun j e => (by cases e), fun h => h _ rfl, trivial, trivial⟩
      · trivial) (by
      intro t ht
      unfold countThread
      rw [if_pos ht]
      rfl) (by
      intro t ht
      unfold countThread
      rw [if_neg (by omega)]
      rfl)
  refine ⟨key.terminates, key.progress, fun s hr hf => ?_⟩
  obtain ⟨order, ho, hj, hx⟩ := key.result s hr hf
  refine ⟨fun j h => ?_, hx⟩
  refine (hj j).trans ?_
  have hl : ((order.filter fun t => decide (countCell nprof nbins (ints m₀ .coords) t = j)).length)
      = (adders (npart * nprof) (countCell nprof nbins (ints m₀ .coords)) j).card := (ho.filter _).length_eq
  have hle : (adders (npart * nprof) (countCell nprof nbins (ints m₀ .coords)) j).card ≤ npart * nprof := by
    refine (Finset.card_filter_le _ _).trans ?_
    simp
  have := count_fold hw h0 (b := 0) (order.filter fun t => decide (countCell nprof nbins (ints m₀ .coords) t = j)) (by
    rw [Nat.zero_add, hl]
    exact le_trans (mul_le_mul_of_nonneg_right (by exact_mod_cast hle) h0) hu)
  rw [Nat.zero_add, hl, Nat.cast_zero] at this
  refine Eq.trans ?_ this
  exact congrArg (fun v : ℝ => (order.filter fun t => decide (countCell nprof nbins (ints m₀ .coords) t = j)).foldl
    (fun (a : ℝ) (_ : ℕ) => w.rnd (a + 1)) v) h

end Verif.Rounded

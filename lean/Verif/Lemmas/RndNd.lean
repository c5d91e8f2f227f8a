import Verif.Lemmas.Rnd
import Verif.Lemmas.RndGpu
import Verif.Lemmas.CudaRun

/-!
# Runs with several outcomes in rounded arithmetic and the run in exact arithmetic
-/

namespace Verif.Rounded
open Filter Topology Verif.Cuda Verif.Par Verif.Omp Verif.Track Verif.Spec

/-- exact arithmetic is a floating point unit -/
noncomputable def ideal : World := ⟨id, Real.sin, Real.sqrt⟩

theorem ideal_accurate {u : ℝ} (hu : 0 ≤ u) : ideal.Accurate u where
  rnd x := by simp [ideal]; positivity
  exact n _ := rfl
  sin x _ := by simp [ideal, hu]
  sqrt x _ := by simp [ideal]; positivity

instance : arith.NeBot := arith_basis.neBot_iff.mpr fun {_} hu => ⟨ideal, ideal_accurate (le_of_lt hu)⟩

/-- if the exact computation succeeds, then from some accuracy on the rounded ones have outcomes, and all of them are successes with
related results -/
def NDRel {A B : Type} (R : (World → A) → B → Prop) (x : World → ND A) (y : M B) : Prop :=
  ∀ y', y = .ok y' → (∀ᶠ w in arith, ∃ r, x w r) ∧
    ∀ r : World → M A, (∀ᶠ w in arith, x w (r w)) → ∃ x', (∀ᶠ w in arith, r w = .ok (x' w)) ∧ R x' y'

section nd
variable {A B C D : Type} {R : (World → A) → B → Prop} {S : (World → C) → D → Prop}

/-- the relation only depends on accurate units -/
def Local (R : (World → A) → B → Prop) : Prop := ∀ x x' : World → A, (∀ᶠ w in arith, x w = x' w) → ∀ y, R x y → R x' y

theorem NDRel.det {x : World → M A} {y : M B} (h : MRel R x y) : NDRel R (fun w => Cuda.det (x w)) y := by
  intro y' hy
  obtain ⟨x', h1, h2⟩ := h y' hy
  refine ⟨Eventually.of_forall fun w => ⟨x w, rfl⟩, fun r hr => ⟨x', ?_, h2⟩⟩
  filter_upwards [h1, hr] with w e1 e2
  exact e2.trans e1

/-- launches with one outcome -/
theorem NDRel.of_det {x : World → ND A} {m : World → M A} {y : M B} (h : MRel R m y)
    (hd : ∀ w a, m w = .ok a → x w = Cuda.det (.ok a)) : NDRel R x y := by
  intro y' hy
  obtain ⟨x', h1, h2⟩ := h y' hy
  refine ⟨?_, fun r hr => ⟨x', ?_, h2⟩⟩
  · filter_upwards [h1] with w e1
    exact ⟨.ok (x' w), by rw [hd w _ e1]; rfl⟩
  · filter_upwards [h1, hr] with w e1 e2
    rw [hd w _ e1] at e2
    exact e2

theorem NDRel.congr {x x' : World → ND A} {y : M B} (h : NDRel R x y) (he : ∀ᶠ w in arith, x' w = x w) : NDRel R x' y := by
  intro y' hy
  obtain ⟨h1, h2⟩ := h y' hy
  refine ⟨?_, fun r hr => h2 r ?_⟩
  · filter_upwards [h1, he] with w a b
    rw [b]; exact a
  · filter_upwards [hr, he] with w a b
    rw [b] at a; exact a

theorem NDRel.bind {x : World → ND A} {y : M B} {f : World → A → ND C} {g : B → M D} (h : NDRel R x y)
    (hf : ∀ x' y', R x' y' → NDRel S (fun w => f w (x' w)) (g y')) : NDRel S (fun w => x w >>= f w) (y >>= g) := by
  intro d hd
  cases hy : y with
  | error e => rw [hy] at hd; cases hd
  | ok y' =>
    rw [hy, bind_ok] at hd
    obtain ⟨h1, h2⟩ := h y' hy
    constructor
    · obtain ⟨o, ho⟩ := h1.choice
      obtain ⟨x', e1, hx⟩ := h2 o ho
      filter_upwards [ho, e1, (hf x' y' hx d hd).1] with w a b c
      obtain ⟨r, hr⟩ := c
      exact ⟨r, Or.inl ⟨x' w, b ▸ a, hr⟩⟩
    · intro r hr
      have : ∀ᶠ w in arith, ∃ o : M A, x w o ∧ ((∃ a, o = .ok a ∧ f w a (r w)) ∨ ∃ e, o = .error e) := by
        filter_upwards [hr] with w hw
        rcases hw with ⟨a, h1, h2⟩ | ⟨e, h1, _⟩
        · exact ⟨_, h1, Or.inl ⟨a, rfl, h2⟩⟩
        · exact ⟨_, h1, Or.inr ⟨e, rfl⟩⟩
      obtain ⟨o, ho⟩ := this.choice
      obtain ⟨x', e1, hx⟩ := h2 o (ho.mono fun w hw => hw.1)
      refine (hf x' y' hx d hd).2 r ?_
      filter_upwards [ho, e1] with w a b
      rcases a.2 with ⟨v, hv, hf⟩ | ⟨e, he⟩
      · rw [b] at hv
        cases hv
        exact hf
      · rw [b] at he; cases he

theorem NDRel.forND {n : ℕ} {f : World → ℕ → A → ND A} {g : ℕ → B → M B} {s : World → A} {t : B} (h0 : R s t)
    (hs : ∀ i, i < n → ∀ x y, R x y → NDRel R (fun w => f w i (x w)) (g i y)) :
    NDRel R (fun w => Cuda.forND n (f w) (s w)) (forN n g t) := by
  induction n with
  | zero => exact NDRel.det (MRel.pure h0)
  | succ n ih =>
    simp only [forN_succ]
    exact NDRel.bind (ih fun i hi => hs i (by omega)) (hs n (by omega))

end nd

theorem local_T : Local TRel := fun _ _ h _ hx => Tendsto.congr' h hx

theorem local_L : Local LRel := by
  intro x x' h y hx
  refine ⟨?_, fun k => ?_⟩
  · filter_upwards [h, hx.1] with w a b
    rw [← a, b]
  · refine Tendsto.congr' ?_ (hx.2 k)
    filter_upwards [h] with w a
    rw [a]

theorem local_S : Local SRel := by
  intro x x' h y hx
  exact ⟨local_L _ _ (h.mono fun w e => by rw [e]) _ hx.1, local_L _ _ (h.mono fun w e => by rw [e]) _ hx.2.1,
    local_L _ _ (h.mono fun w e => by rw [e]) _ hx.2.2⟩

/-! ## sums -/

theorem sum_getD {l : List ℝ} {n : ℕ} (h : l.length = n) : l.sum = ∑ k ∈ Finset.range n, l.getD k 0 := by
  subst h
  induction l with
  | nil => simp
  | cons a l ih =>
    rw [List.length_cons, Finset.sum_range_succ', List.sum_cons, ih, add_comm]
    simp

theorem LRel.total {X : World → List ℝ} {Y : List ℝ} (h : LRel X Y) : TRel (fun w => (X w).sum) Y.sum := by
  rw [sum_getD (l := Y) rfl]
  refine Tendsto.congr' (f₁ := fun w => ∑ k ∈ Finset.range Y.length, (X w).getD k 0) ?_ (tendsto_finsetSum _ fun k _ => h.2 k)
  filter_upwards [h.1] with w hw
  rw [sum_getD hw]

theorem getD_map {f : ℝ → ℝ} (h0 : f 0 = 0) (l : List ℝ) (k : ℕ) : (l.map f).getD k 0 = f (l.getD k 0) := by
  rw [List.getD_eq_getElem?_getD, List.getD_eq_getElem?_getD, List.getElem?_map]
  cases l[k]? <;> simp [h0]

theorem LRel.abs {X : World → List ℝ} {Y : List ℝ} (h : LRel X Y) : LRel (fun w => (X w).map (fun v => |v|)) (Y.map (fun v => |v|)) := by
  refine ⟨by simpa using h.1, fun k => ?_⟩
  simp only [getD_map (f := fun v => |v|) abs_zero]
  exact Tendsto.abs (h.2 k)

/-- numbers whose error is a bounded number of roundings of something bounded -/
theorem TRel.of_bound {v S A : World → ℝ} {S' A' : ℝ} (N : ℕ) (hS : TRel S S') (hA : TRel A A')
    (hb : ∀ᶠ w in arith, ∀ u, 0 ≤ u → w.Accurate u → |v w - S w| ≤ ((1 + u) ^ N - 1) * A w) : TRel v S' := by
  have he : Tendsto (fun w => v w - S w) arith (𝓝 0) := by
    rw [Metric.tendsto_nhds]
    intro ε hε
    have hpos : 0 < |A'| + 2 := by positivity
    have hc : Tendsto (fun u : ℝ => (1 + u) ^ N - 1) (𝓝 0) (𝓝 ((1 + 0) ^ N - 1)) := by
      apply Continuous.tendsto
      fun_prop
    have hc' : ∀ᶠ u : ℝ in 𝓝 0, |(1 + u) ^ N - 1| < ε / (|A'| + 2) := by
      have := (Metric.tendsto_nhds.mp hc) _ (div_pos hε hpos)
      simpa [Real.dist_eq] using this
    obtain ⟨δ, hδ, hball⟩ := Metric.eventually_nhds_iff.mp hc'
    have hu := hball (show dist (δ / 2) 0 < δ by rw [Real.dist_eq, sub_zero, abs_of_pos (half_pos hδ)]; linarith)
    have hAb : ∀ᶠ w in arith, |A w - A'| < 1 := by
      have := (Metric.tendsto_nhds.mp hA) 1 one_pos
      simpa [Real.dist_eq] using this
    filter_upwards [hb, hAb, accurate_mem (half_pos hδ)] with w h1 h2 h3
    rw [Real.dist_eq, sub_zero]
    have h4 := h1 _ (half_pos hδ).le h3
    have h5 : A w ≤ |A'| + 1 := by
      have := (abs_lt.mp h2).2
      have := le_abs_self A'
      linarith
    have h6 : 0 ≤ (1 + δ / 2) ^ N - 1 := by
      have : 1 ≤ (1 + δ / 2) ^ N := one_le_pow₀ (by linarith)
      linarith
    calc |v w - S w| ≤ ((1 + δ / 2) ^ N - 1) * A w := h4
      _ ≤ ((1 + δ / 2) ^ N - 1) * (|A'| + 1) := mul_le_mul_of_nonneg_left h5 h6
      _ ≤ ε / (|A'| + 2) * (|A'| + 1) := by
        refine mul_le_mul_of_nonneg_right ?_ (by positivity)
        rw [abs_of_nonneg h6] at hu
        exact hu.le
      _ < ε := by
        rw [div_mul_eq_mul_div, div_lt_iff₀ hpos]
        nlinarith [abs_nonneg A']
  have := Tendsto.add he (show Tendsto S arith (𝓝 S') from hS)
  simpa [TRel] using this

theorem pow_mono {u : ℝ} (h0 : 0 ≤ u) {a b : ℕ} (h : a ≤ b) : (1 + u) ^ a ≤ (1 + u) ^ b :=
  pow_le_pow_right₀ (by linarith) h

/-- one more rounded addition -/
theorem add_err {w : World} {u : ℝ} (hw : w.Accurate u) (h0 : 0 ≤ u) {a b S T X Y : ℝ} {n : ℕ} (hS : |S| ≤ X) (hT : |T| ≤ Y)
    (ha : |a - S| ≤ ((1 + u) ^ n - 1) * X) (hb : |b - T| ≤ ((1 + u) ^ n - 1) * Y) :
    |w.rnd (a + b) - (S + T)| ≤ ((1 + u) ^ (n + 1) - 1) * (X + Y) := by
  have h1 := hw.rnd (a + b)
  have h2 : |a + b - (S + T)| ≤ ((1 + u) ^ n - 1) * (X + Y) := by
    have := abs_add_le (a - S) (b - T)
    rw [show a - S + (b - T) = a + b - (S + T) by ring] at this
    linarith
  have h3 : |a + b| ≤ (1 + u) ^ n * (X + Y) := by
    have h4 := abs_add_le (a + b - (S + T)) (S + T)
    rw [sub_add_cancel] at h4
    have := abs_add_le S T
    linarith
  have h5 : |w.rnd (a + b) - (S + T)| ≤ |w.rnd (a + b) - (a + b)| + |a + b - (S + T)| := by
    have := abs_add_le (w.rnd (a + b) - (a + b)) (a + b - (S + T))
    rwa [show w.rnd (a + b) - (a + b) + (a + b - (S + T)) = w.rnd (a + b) - (S + T) by ring] at this
  have h6 : u * |a + b| ≤ u * ((1 + u) ^ n * (X + Y)) := mul_le_mul_of_nonneg_left h3 h0
  rw [pow_succ]
  linarith

theorem sumTree_length {α : Type} [Add α] {l : List α} {v : α} (h : SumTree l v) : 0 < l.length := by
  induction h with
  | leaf x => simp
  | node _ _ hp _ _ => rw [hp.length_eq, List.length_append]; omega

theorem abs_sum_le (l : List ℝ) : |l.sum| ≤ (l.map fun v => |v|).sum := by
  induction l with
  | nil => simp
  | cons a l ih =>
    rw [List.sum_cons, List.map_cons, List.sum_cons]
    exact (abs_add_le _ _).trans (by linarith)

theorem sumAbs_nonneg (l : List ℝ) : 0 ≤ (l.map fun v => |v|).sum := (abs_nonneg _).trans (abs_sum_le l)

/-- the error of a sum of `n + 1` numbers -/
def SumErr (u : ℝ) (n : ℕ) (l : List ℝ) (v : ℝ) : Prop := |v - l.sum| ≤ ((1 + u) ^ n - 1) * (l.map fun v => |v|).sum

theorem sumErr_leaf (u x : ℝ) : SumErr u 0 [x] x := by simp [SumErr]

/-- a sum in any order and with any bracketing -/
theorem tree_err {w : World} {u : ℝ} (hw : w.Accurate u) (h0 : 0 ≤ u) {l : List ℝ} {v : ℝ} (h : SumTree (α := Rn w) l v) :
    |v - l.sum| ≤ ((1 + u) ^ l.length - 1) * (l.map fun v => |v|).sum := by
  have key : ∀ {l : List (Rn w)} {v : Rn w}, SumTree l v → SumErr u (l.length - 1) l v := by
    intro l v h
    induction h with
    | leaf x =>
      exact sumErr_leaf u x
    | @node l l' L a b h1 h2 hp ih1 ih2 =>
      have hl := sumTree_length h1
      have hl' := sumTree_length h2
      have e1 : L.length - 1 = (L.length - 2) + 1 := by rw [hp.length_eq, List.length_append]; omega
      have m1 : l.length - 1 ≤ L.length - 2 := by rw [hp.length_eq, List.length_append]; omega
      have m2 : l'.length - 1 ≤ L.length - 2 := by rw [hp.length_eq, List.length_append]; omega
      have s1 : List.sum (α := ℝ) L = List.sum (α := ℝ) l + List.sum (α := ℝ) l' := by
        rw [List.Perm.sum_eq (M := ℝ) hp]; exact List.sum_append
      have s2 : (List.map (fun v : ℝ => |v|) L).sum = (List.map (fun v : ℝ => |v|) l).sum + (List.map (fun v : ℝ => |v|) l').sum := by
        rw [List.Perm.sum_eq (M := ℝ) (List.Perm.map (fun v : ℝ => |v|) hp)]
        exact (congrArg List.sum List.map_append).trans List.sum_append
      unfold SumErr at ih1 ih2 ⊢
      rw [s1, s2, e1]
      refine add_err hw h0 (abs_sum_le l) (abs_sum_le l') (ih1.trans ?_) (ih2.trans ?_)
      · exact mul_le_mul_of_nonneg_right (by linarith [pow_mono h0 m1]) (sumAbs_nonneg l)
      · exact mul_le_mul_of_nonneg_right (by linarith [pow_mono h0 m2]) (sumAbs_nonneg l')
  refine (key h).trans (mul_le_mul_of_nonneg_right ?_ (sumAbs_nonneg l))
  exact sub_le_sub_right (pow_mono h0 (Nat.sub_le _ 1)) 1

theorem foldl_add_real (l : List ℝ) (a : ℝ) : l.foldl (· + ·) a = a + l.sum := by
  induction l generalizing a with
  | nil => simp
  | cons x l ih => rw [List.foldl_cons, ih, List.sum_cons, add_assoc]

theorem rel_cpSum {X : World → List ℝ} {Y : List ℝ} (h : LRel X Y) :
    NDRel TRel (fun w => (cpSum (α := Rn w) (X w) : ND (Rn w))) (.ok (Y.foldl (· + ·) 0)) := by
  intro y hy
  cases hy
  refine ⟨Eventually.of_forall fun w => ⟨_, cpSum_foldl (α := Rn w) (X w)⟩, fun r hr => ?_⟩
  obtain ⟨v, hv⟩ := hr.choice
  refine ⟨v, hv.mono fun w hw => hw.1, ?_⟩
  rw [foldl_add_real, zero_add]
  refine TRel.of_bound (Y.length + 1) h.total h.abs.total ?_
  filter_upwards [hv, h.1] with w hw hl u h0 ha
  have hle : (1 + u) ^ Y.length - 1 ≤ (1 + u) ^ (Y.length + 1) - 1 := sub_le_sub_right (pow_mono h0 (Nat.le_succ Y.length)) 1
  rcases hw.2 with ht | ht
  · have := tree_err ha h0 ht
    rw [hl] at this
    exact this.trans (mul_le_mul_of_nonneg_right hle (sumAbs_nonneg _))
  · have := tree_err (l := (0 : ℝ) :: X w) ha h0 ht
    simpa [hl] using this

/-! ## kernels -/

theorem rel_clipN {B n : ℕ} (hB : 0 < B) {F : World → List ℝ} {F' : List ℝ} (hF : LRel F F') :
    NDRel LRel (fun w => (clipN (α := Rn w) B (F w) n 0 : ND (List (Rn w)))) (Cuda.clip B F' n 0) := by
  refine NDRel.of_det (m := fun w => (Cuda.clip (α := Rn w) B (F w) n 0 : M (List (Rn w)))) ?_ fun w a h => clipN_det (α := Rn w) h
  rw [clip_eq hB]
  exact (rel_clip hF n).congr (Eventually.of_forall fun w => clip_eq (α := Rn w) hB _ _ _)

theorem rel_compensateN {B nprof nbins : ℕ} (hB : 0 < B) {D P : World → List ℝ} {D' P' : List ℝ} (hD : LRel D D') (hP : LRel P P') :
    NDRel LRel (fun w => (compensateN (α := Rn w) B (D w) (P w) nprof nbins : ND (List (Rn w))))
      (Cuda.compensate B D' P' nprof nbins) := by
  refine NDRel.of_det (m := fun w => (Cuda.compensate (α := Rn w) B (D w) (P w) nprof nbins : M (List (Rn w)))) ?_
    fun w a h => compensateN_det (α := Rn w) h
  rw [compensate_eq hB]
  exact (rel_compensate hD hP nprof nbins).congr (Eventually.of_forall fun w => compensate_eq (α := Rn w) hB _ _ _ _)

theorem LRel.tabOf (f : World → ℕ → ℝ) {n : ℕ} {g : ℕ → ℝ} (h : ∀ k, k < n → TRel (fun w => f w k) (g k)) :
    LRel (fun w => tab n (f w)) (tab n g) := by
  have e : ∀ (f : ℕ → ℝ) k, (tab n f).getD k 0 = if k < n then f k else 0 := by
    intro f k
    unfold tab
    rw [List.getD_eq_getElem?_getD, List.getElem?_map]
    by_cases hk : k < n
    · rw [List.getElem?_range hk, if_pos hk]; rfl
    · rw [List.getElem?_eq_none (by simpa using hk), if_neg hk]; rfl
  refine ⟨Eventually.of_forall fun w => by simp [tab], fun k => ?_⟩
  simp only [e]
  by_cases hk : k < n
  · simp only [if_pos hk]; exact h k hk
  · simp only [if_neg hk]; exact TRel.const 0

theorem tabLen {β : Type} (n : ℕ) (f : ℕ → β) : (tab n f).length = n := by simp [tab]

/-- the fresh array is overwritten, whatever it contains -/
theorem difference_any {α : Type} [Sub α] {r f d d' D : List α} {n : ℕ} (hd : d.length = n) (hd' : d'.length = n)
    (h : Recon.findDifferenceProfile d r f n = .ok D) : Recon.findDifferenceProfile d' r f n = .ok D := by
  have key : ∀ i, i ≤ n → ∀ a, forN i (fun i d => do
      let p ← rd f (i : Int)
      let r ← rd r (i : Int)
      upd d (i : Int) (p - r)) d = .ok a → ∃ a', forN i (fun i d => do
      let p ← rd f (i : Int)
      let r ← rd r (i : Int)
      upd d (i : Int) (p - r)) d' = .ok a' ∧ a.length = n ∧ a'.length = n ∧ ∀ k, k < i → a[k]? = a'[k]? := by
    intro i
    induction i with
    | zero =>
      intro _ a ha
      cases ha
      exact ⟨d', rfl, hd, hd', fun k hk => by omega⟩
    | succ i ih =>
      intro hi a ha
      rw [forN_succ, Asrt.bind_ok_iff] at ha
      obtain ⟨b, hb, ha⟩ := ha
      obtain ⟨b', hb', l1, l2, he⟩ := ih (by omega) b hb
      simp only [Asrt.bind_ok_iff] at ha
      obtain ⟨p, hp, q, hq, ha⟩ := ha
      unfold upd at ha
      rw [Int.toNat_natCast, if_pos ⟨by omega, by omega⟩] at ha
      cases ha
      refine ⟨b'.set i (p - q), ?_, by simpa using l1, by simpa using l2, fun k hk => ?_⟩
      · rw [forN_succ, hb', bind_ok, hp, bind_ok, hq, bind_ok]
        unfold upd
        rw [Int.toNat_natCast, if_pos ⟨by omega, by omega⟩]
      · by_cases hki : k = i
        · subst hki
          rw [List.getElem?_set_self (by omega), List.getElem?_set_self (by omega)]
        · rw [List.getElem?_set_ne (by omega), List.getElem?_set_ne (by omega)]
          exact he k (by omega)
  obtain ⟨a', h1, h2, h3, h4⟩ := key n le_rfl D h
  refine h1.trans (congrArg Except.ok ?_)
  apply List.ext_getElem?
  intro k
  by_cases hk : k < n
  · exact (h4 k hk).symm
  · rw [List.getElem?_eq_none (by omega), List.getElem?_eq_none (by omega)]

theorem rel_differenceN {B : ℕ} (hB : 0 < B) {F P : World → List ℝ} {F' P' : List ℝ} (hF : LRel F F') (hP : LRel P P')
    (E : World → ℕ → ℝ) (e : ℕ → ℝ) :
    NDRel LRel (fun w => (differenceN (α := Rn w) B (E w) (F w) (P w) : ND (List (Rn w))))
      (Cuda.findDifferenceProfile B e F' P') := by
  intro y hy
  rw [difference_eq hB] at hy
  have hy' := difference_any (d' := tab F'.length fun _ => (0 : ℝ)) (by simp [tab]) (by simp [tab]) hy
  obtain ⟨x', h1, h2⟩ := rel_findDifference (D := fun _ => tab F'.length fun _ => (0 : ℝ)) (LRel.const _) hF hP F'.length y hy'
  have key : ∀ᶠ w in arith, (differenceN (α := Rn w) B (E w) (F w) (P w) : ND (List (Rn w))) = Cuda.det (.ok (x' w)) := by
    filter_upwards [h1, hF.1] with w e1 e2
    have e3 : Recon.findDifferenceProfile (α := Rn w) (tab (F w).length (E w)) (F w) (P w) (F w).length = .ok (x' w) := by
      refine difference_any (α := Rn w) (d := tab F'.length fun _ => (0 : ℝ)) ((tabLen _ _).trans e2.symm) (tabLen _ _) ?_
      rw [e2]
      exact e1
    exact differenceN_det (α := Rn w) hB ((difference_eq (α := Rn w) hB _ _ _).trans e3)
  refine ⟨?_, fun r hr => ⟨x', ?_, h2⟩⟩
  · filter_upwards [key] with w e
    exact ⟨.ok (x' w), by rw [e]; rfl⟩
  · filter_upwards [key, hr] with w e1 e2
    have e3 := e1 ▸ e2
    exact e3

/-! project -/

/-- the cell thread `t` adds to -/
def pointOf (fp : List Int) (t : ℕ) : ℤ := fp.getD t 0

/-- the effect of `project` in exact arithmetic -/
theorem project_char {B npart nprof : ℕ} (hB : 0 < B) {F W G : List ℝ} {fp : List Int}
    (h : Cuda.project B F fp W npart nprof = .ok G) : G.length = F.length ∧ ∀ k : ℕ, k < F.length →
      G.getD k 0 = F.getD k 0 + ∑ t ∈ adders (npart * nprof) (pointOf fp) k, W.getD (t / nprof) 0 := by
  refine ⟨project_length h, ?_⟩
  unfold Cuda.project at h
  rw [forN_guard (lt_threads hB _).le (fun tid rec => do
      let idx ← rd fp (tid : Int)
      let r ← rd rec idx
      let w ← rd W ((tid / nprof : Nat) : Int)
      upd rec idx (r + w))] at h
  unfold adders
  have := forN_post (fun i (l : List ℝ) => l.length = F.length ∧ ∀ k : ℕ, k < F.length →
      l.getD k 0 = F.getD k 0 + ∑ t ∈ Finset.range i with pointOf fp t = (k : ℤ), W.getD (t / nprof) 0) (by simp) ?_ h
  · exact this.2
  · intro i a b _ ha hb
    simp only [Asrt.bind_ok_iff] at hb
    obtain ⟨idx, h1, r, h2, v, h3, hb⟩ := hb
    refine ⟨by rw [upd_length hb, ha.1], fun k hk => ?_⟩
    obtain ⟨_, g1⟩ := rd_ok h1
    obtain ⟨z2, g2⟩ := rd_ok h2
    obtain ⟨_, g3⟩ := rd_ok h3
    rw [Int.toNat_natCast] at g1 g3
    have p1 : pointOf fp i = idx := by unfold pointOf; rw [List.getD_eq_getElem?_getD, g1]; rfl
    have p2 : a.getD idx.toNat 0 = r := by rw [List.getD_eq_getElem?_getD, g2]; rfl
    have p3 : W.getD (i / nprof) 0 = v := by rw [List.getD_eq_getElem?_getD, g3]; rfl
    rw [Finset.sum_filter, Finset.sum_range_succ, ← Finset.sum_filter, p1, p3]
    unfold upd at hb
    split at hb
    · rename_i hlt
      cases hb
      by_cases hki : idx = (k : ℤ)
      · subst hki
        rw [if_pos rfl, List.getD_eq_getElem?_getD, Int.toNat_natCast, List.getElem?_set_self (by omega), ← p2,
          Int.toNat_natCast, ha.2 k hk, add_assoc]
        rfl
      · rw [if_neg hki, add_zero, List.getD_eq_getElem?_getD, List.getElem?_set_ne (by omega), ← List.getD_eq_getElem?_getD,
          ha.2 k hk]
    · cases hb

theorem rel_projectN {B npart nprof : ℕ} (hB : 0 < B) {F W : World → List ℝ} {F' W' : List ℝ} (hF : LRel F F') (hW : LRel W W')
    (fp : List Int) :
    NDRel LRel (fun w => (projectN (α := Rn w) B (F w) fp (W w) npart nprof : ND (List (Rn w))))
      (Cuda.project B F' fp W' npart nprof) := by
  intro G hG
  obtain ⟨hl, hc⟩ := project_char hB hG
  constructor
  · refine Eventually.of_forall fun w => ?_
    obtain ⟨s, h1, h2⟩ := final_exists (⟨memOf (α := Rn w) (fun | .recon => F w | .weights => W w | _ => [])
      (fun | .points => fp | _ => []) [], grid (gridSize (npart * nprof) B) B (projectThread npart nprof)⟩ : State Loc (Val (Rn w)))
    exact ⟨_, s, h1, h2, rfl⟩
  · intro r hr
    have : ∀ᶠ w in arith, ∃ v : ℕ → ℝ, r w = .ok (tab (F w).length v) ∧ ∀ u, 0 ≤ u → w.Accurate u → ∀ k : ℕ,
        AddedUp u (adders (npart * nprof) (pointOf fp) k).card ((F w).getD k 0) (adders (npart * nprof) (pointOf fp) k)
          (fun t => (W w).getD (t / nprof) 0) (v k) := by
      filter_upwards [hr] with w hw
      obtain ⟨s, h1, h2, h3⟩ := hw
      refine ⟨fun j => reals s.mem .recon j, h3, fun u h0 ha k => ?_⟩
      exact ((project_added ha h0 hB _).result s h1 h2).1 k
    obtain ⟨v, hv⟩ := this.choice
    refine ⟨fun w => tab (F w).length (v w), hv.mono fun w h => h.1, ?_⟩
    obtain ⟨g, rfl⟩ := as_tab (l := G) (n := F'.length) hl
    refine local_L (fun w => tab F'.length (v w)) _ (hF.1.mono fun w e => by rw [e]) _ (LRel.tabOf v fun k hk => ?_)
    have e : g k = F'.getD k 0 + ∑ t ∈ adders (npart * nprof) (pointOf fp) k, W'.getD (t / nprof) 0 := by
      rw [← hc k hk, List.getD_eq_getElem?_getD]
      unfold tab
      rw [List.getElem?_map, List.getElem?_range hk]
      rfl
    rw [e]
    refine TRel.of_bound (adders (npart * nprof) (pointOf fp) k).card
      (S := fun w => (F w).getD k 0 + ∑ t ∈ adders (npart * nprof) (pointOf fp) k, (W w).getD (t / nprof) 0)
      (A := fun w => |(F w).getD k 0| + ∑ t ∈ adders (npart * nprof) (pointOf fp) k, |(W w).getD (t / nprof) 0|)
      (A' := |F'.getD k 0| + ∑ t ∈ adders (npart * nprof) (pointOf fp) k, |W'.getD (t / nprof) 0|) ?_ ?_ ?_
    · exact Tendsto.add (hF.2 k) (tendsto_finsetSum _ fun t _ => hW.2 _)
    · exact Tendsto.add (Tendsto.abs (hF.2 k)) (tendsto_finsetSum _ fun t _ => Tendsto.abs (hW.2 _))
    · filter_upwards [hv] with w h u h0 ha
      exact h.2 u h0 ha k

/-! counts -/

/-- equal from some accuracy on -/
def ERel {A : Type} (x : World → A) (y : A) : Prop := ∀ᶠ w in arith, x w = y

theorem count_char {B npart nprof nbins : ℕ} (hB : 0 < B) {F G : List ℝ} {xp : List Int}
    (h : Cuda.countParticles B F xp nprof npart nbins = .ok G) : G.length = F.length ∧ ∀ k : ℕ, k < F.length →
      G.getD k 0 = F.getD k 0 + ((adders (npart * nprof) (countCell nprof nbins fun t => xp.getD t.toNat 0) k).card : ℕ) := by
  refine ⟨count_length h, ?_⟩
  unfold Cuda.countParticles at h
  rw [forN_guard (lt_threads hB _).le (fun tid r => do
      let bin ← rd xp (tid : Int)
      let c ← rd r ((tid % nprof * nbins : Nat) + bin)
      upd r ((tid % nprof * nbins : Nat) + bin) (c + 1))] at h
  unfold adders
  have := forN_post (fun i (l : List ℝ) => l.length = F.length ∧ ∀ k : ℕ, k < F.length →
      l.getD k 0 = F.getD k 0 + (((Finset.range i).filter fun t =>
        countCell nprof nbins (fun t => xp.getD t.toNat 0) t = (k : ℤ)).card : ℕ)) (by simp) ?_ h
  · exact this.2
  · intro i a b _ ha hb
    simp only [Asrt.bind_ok_iff] at hb
    obtain ⟨idx, h1, r, h2, hb⟩ := hb
    refine ⟨by rw [upd_length hb, ha.1], fun k hk => ?_⟩
    obtain ⟨_, g1⟩ := rd_ok h1
    obtain ⟨z2, g2⟩ := rd_ok h2
    rw [Int.toNat_natCast] at g1
    have p1 : countCell nprof nbins (fun t => xp.getD t.toNat 0) i = (i % nprof * nbins : ℕ) + idx := by
      unfold countCell
      show _ + xp.getD (i : ℤ).toNat 0 = _
      rw [Int.toNat_natCast, List.getD_eq_getElem?_getD, g1]; rfl
    rw [Finset.range_add_one, Finset.filter_insert, p1]
    generalize hc : ((i % nprof * nbins : ℕ) : ℤ) + idx = c at hb g2 z2
    have p2 : a.getD c.toNat 0 = r := by rw [List.getD_eq_getElem?_getD, g2]; rfl
    unfold upd at hb
    split at hb
    · rename_i hlt
      cases hb
      by_cases hki : c = (k : ℤ)
      · subst hki
        rw [if_pos rfl, Finset.card_insert_of_notMem (by simp), List.getD_eq_getElem?_getD, Int.toNat_natCast,
          List.getElem?_set_self (by omega), ← p2, Int.toNat_natCast, ha.2 k hk]
        push_cast
        rw [← add_assoc]
        rfl
      · rw [if_neg hki, List.getD_eq_getElem?_getD, List.getElem?_set_ne (by omega), ← List.getD_eq_getElem?_getD, ha.2 k hk]
    · cases hb

theorem rel_countN {B npart nprof nbins n : ℕ} (hB : 0 < B) (xp : List Int) :
    NDRel ERel (fun w => (countN (α := Rn w) B (tab n fun _ => 0) xp nprof npart nbins : ND (List (Rn w))))
      (Cuda.countParticles (α := ℝ) B (tab n fun _ => 0) xp nprof npart nbins) := by
  intro G hG
  obtain ⟨hl, hc⟩ := count_char hB hG
  rw [tabLen] at hl hc
  constructor
  · refine Eventually.of_forall fun w => ?_
    obtain ⟨s, h1, h2⟩ := final_exists (⟨memOf (α := Rn w) (fun | .rparts => tab n fun _ => 0 | _ => [])
      (fun | .coords => xp | _ => []) [], grid (gridSize (npart * nprof) B) B (countThread nprof npart nbins)⟩ :
      State Loc (Val (Rn w)))
    exact ⟨_, s, h1, h2, rfl⟩
  · intro r hr
    refine ⟨fun _ => G, ?_, Eventually.of_forall fun _ => rfl⟩
    have hpos : (0 : ℝ) < 1 / ((npart * nprof : ℕ) + 1) := by positivity
    filter_upwards [hr, accurate_mem hpos] with w hw ha
    obtain ⟨s, h1, h2, h3⟩ := hw
    rw [h3, tabLen]
    refine congrArg Except.ok ?_
    obtain ⟨g, rfl⟩ := as_tab hl
    refine tab_congr fun k hk => ?_
    have hz : ∀ (β : Type) [Zero β], (tab n fun _ => (0 : β)).getD k 0 = 0 := by
      intro β _
      rw [List.getD_eq_getElem?_getD]
      unfold tab
      rw [List.getElem?_map, List.getElem?_range hk]
      rfl
    have hz' := hz ℝ
    refine (((count_added ha hpos.le hB (by
      rw [mul_one_div, div_le_one (by positivity)]; linarith) _).result s h1 h2).1 k ?_).trans ?_
    · exact hz (Rn w)
    · have e := hc k hk
      rw [hz', zero_add] at e
      refine e.symm.trans ?_
      rw [List.getD_eq_getElem?_getD]
      unfold tab
      rw [List.getElem?_map, List.getElem?_range hk]
      rfl

theorem rel_forNi {A B : Type} {n : ℕ} {R : ℕ → (World → A) → B → Prop} {f : World → ℕ → A → M A} {g : ℕ → B → M B}
    {s : World → A} {t : B} (h0 : R 0 s t)
    (hs : ∀ i, i < n → ∀ x y, R i x y → MRel (R (i + 1)) (fun w => f w i (x w)) (g i y)) :
    MRel (R n) (fun w => forN n (f w) (s w)) (forN n g t) := by
  induction n with
  | zero => exact MRel.pure h0
  | succ n ih =>
    simp only [forN_succ]
    exact MRel.bind (ih fun i hi => hs i (by omega)) (hs n (by omega))

theorem MRel.mono {A B : Type} {R S : (World → A) → B → Prop} {x : World → M A} {y : M B} (h : MRel R x y)
    (hRS : ∀ x y, R x y → S x y) : MRel S x y := by
  intro y' hy
  obtain ⟨x', h1, h2⟩ := h y' hy
  exact ⟨x', h1, hRS _ _ h2⟩

/-- one thread of `calculate_reciprocal` -/
def recipStep {α : Type} [Zero α] [One α] [DecidableEq α] [FDiv α] (m : α) (i : ℕ) (r : List α) : M (List α) := do
  let v ← rd r (i : Int)
  let r ← if v = 0 then upd r (i : Int) 1 else pure r
  let v ← rd r (i : Int)
  let q ← FDiv.fdiv m v
  upd r (i : Int) q

theorem recipStep_eq {α : Type} [Zero α] [One α] [DecidableEq α] [FDiv α] (m : α) (i : ℕ) (r : List α) :
    recipStep m i r = (rd r (i : Int) >>= fun v => FDiv.fdiv m (if v = 0 then 1 else v) >>= fun q => upd r (i : Int) q) := by
  unfold recipStep
  cases hv : rd r (i : Int) with
  | error e => rfl
  | ok v =>
    rw [bind_ok, bind_ok]
    by_cases hz : v = 0
    · obtain ⟨_, h2⟩ := rd_ok hv
      rw [Int.toNat_natCast] at h2
      have hlt : i < r.length := (List.getElem?_eq_some_iff.mp h2).1
      have e1 : ∀ (q : α), upd r (i : Int) q = .ok (r.set i q) := by
        intro q
        unfold upd
        rw [if_pos ⟨by omega, by omega⟩, Int.toNat_natCast]
      have e2 : rd (r.set i 1) (i : Int) = .ok 1 := by
        unfold rd
        rw [if_pos (by omega), Int.toNat_natCast, List.getElem?_set_self hlt]
      have e3 : ∀ (q : α), upd (r.set i 1) (i : Int) q = .ok (r.set i q) := by
        intro q
        unfold upd
        rw [if_pos ⟨by omega, by simpa using hlt⟩, Int.toNat_natCast, List.set_set]
      rw [if_pos hz, if_pos hz, e1, bind_ok]
      show (rd (r.set i 1) (i : Int) >>= fun v => FDiv.fdiv m v >>= fun q => upd (r.set i 1) (i : Int) q) = _
      rw [e2, bind_ok]
      refine bind_congr fun q => ?_
      rw [e3, e1]
    · rw [if_neg hz, if_neg hz, pure_eq_ok, bind_ok]
      show (rd r (i : Int) >>= fun v => FDiv.fdiv m v >>= fun q => upd r (i : Int) q) = _
      rw [hv, bind_ok]

theorem upd_ok {β : Type} {L L' : List β} {i : Int} {v : β} (h : upd L i v = .ok L') : 0 ≤ i ∧ L' = L.set i.toNat v := by
  unfold upd at h
  split at h
  · rename_i hi
    exact ⟨hi.1, (Except.ok.inj h).symm⟩
  · cases h

theorem rel_recipStep {m : World → ℝ} {m' : ℝ} (hm : TRel m m') {X : World → List ℝ} {Y : List ℝ} (h : LRel X Y) (i : ℕ)
    (he : ∀ᶠ w in arith, (X w)[i]? = Y[i]?) :
    MRel (fun X' Y' => LRel X' Y' ∧ ∀ k, i < k → (∀ᶠ w in arith, (X w)[k]? = Y[k]?) → ∀ᶠ w in arith, (X' w)[k]? = Y'[k]?)
      (fun w => (recipStep (α := Rn w) (m w) i (X w) : M (List (Rn w)))) (recipStep m' i Y) := by
  have key : MRel LRel (fun w => (recipStep (α := Rn w) (m w) i (X w) : M (List (Rn w)))) (recipStep m' i Y) := by
    rw [recipStep_eq]
    refine MRel.congr (x := fun w => rd Y (i : Int) >>= fun v : ℝ =>
      (FDiv.fdiv (α := Rn w) (m w) (if v = 0 then (1 : ℝ) else v) : M (Rn w)) >>= fun q => upd (X w) (i : Int) q) ?_ ?_
    · refine MRel.const fun v _ => ?_
      exact MRel.bind (hm.fdiv (TRel.const _)) fun q q' hq => h.upd _ hq
    · filter_upwards [he] with w e
      refine (recipStep_eq (α := Rn w) (m w) i (X w)).trans ?_
      have : (rd (X w) (i : Int) : M ℝ) = rd Y (i : Int) := by
        unfold rd
        rw [if_pos (by omega), if_pos (by omega), Int.toNat_natCast, e]
      exact congrArg (fun c : M ℝ => c >>= fun v : ℝ =>
        (FDiv.fdiv (α := Rn w) (m w) (if v = 0 then (1 : ℝ) else v) : M (Rn w)) >>= fun q => upd (X w) (i : Int) q) this
  have frame : ∀ {α : Type} [Zero α] [One α] [DecidableEq α] [FDiv α] (m : α) (r r' : List α), recipStep m i r = .ok r' →
      ∀ k, i < k → r'[k]? = r[k]? := by
    intro α _ _ _ _ m r r' h k hk
    rw [recipStep_eq] at h
    simp only [Asrt.bind_ok_iff] at h
    obtain ⟨_, _, q, _, h⟩ := h
    obtain ⟨_, rfl⟩ := upd_ok h
    rw [List.getElem?_set_ne (by omega)]
  intro Y' hY'
  obtain ⟨X', h1, h2⟩ := key Y' hY'
  refine ⟨X', h1, h2, fun k hk hk' => ?_⟩
  filter_upwards [h1, hk'] with w e1 e2
  rw [frame m' Y Y' hY' k hk, ← e2]
  exact frame (α := Rn w) _ _ _ e1 k hk

theorem takeReciprocal_eq {α : Type} [Add α] [Sub α] [Mul α] [Zero α] [One α] [NatCast α] [IntCast α] [LT α] [LE α] [DecidableLT α]
    [DecidableLE α] [DecidableEq α] [FDiv α] {B : ℕ} (hB : 0 < B) (m : α) (r : List α) (nprof nbins : ℕ) :
    Cuda.takeReciprocal B m r nprof nbins = forN (nprof * nbins) (recipStep m) r :=
  forN_guard (lt_threads hB _).le (recipStep m) r

theorem rel_takeReciprocalN {B nprof nbins : ℕ} (hB : 0 < B) {m : World → ℝ} {m' : ℝ} (hm : TRel m m') {R : World → List ℝ}
    {R' : List ℝ} (hR : ERel R R') :
    MRel LRel (fun w => (Cuda.takeReciprocal (α := Rn w) B (m w) (R w) nprof nbins : M (List (Rn w))))
      (Cuda.takeReciprocal B m' R' nprof nbins) := by
  rw [takeReciprocal_eq hB]
  refine MRel.congr ?_ (Eventually.of_forall fun w => takeReciprocal_eq (α := Rn w) hB (m w) (R w) nprof nbins)
  refine MRel.mono (R := fun X Y => LRel X Y ∧ ∀ k, nprof * nbins ≤ k → ∀ᶠ w in arith, (X w)[k]? = Y[k]?) ?_ fun x y h => h.1
  refine rel_forNi (R := fun i X Y => LRel X Y ∧ ∀ k, i ≤ k → ∀ᶠ w in arith, (X w)[k]? = Y[k]?) ?_ ?_
  · refine ⟨local_L (fun _ => R') R (hR.mono fun w e => e.symm) _ (LRel.const R'), fun k _ => hR.mono fun w e => by rw [e]⟩
  · intro i _ X Y h
    refine MRel.mono (rel_recipStep hm h.1 i (h.2 i le_rfl)) fun X' Y' h' => ⟨h'.1, fun k hk => ?_⟩
    exact h'.2 k hk (h.2 k (by omega))

theorem rel_reciprocalParticlesN {B npart nprof nbins : ℕ} (hB : 0 < B) (xp : List Int) :
    NDRel LRel (fun w => (reciprocalParticlesN (α := Rn w) B (tab (nprof * nbins) fun _ => 0) xp nbins nprof npart :
        ND (List (Rn w))))
      (Cuda.reciprocalParticles (α := ℝ) B (tab (nprof * nbins) fun _ => 0) xp nbins nprof npart) := by
  unfold reciprocalParticlesN Cuda.reciprocalParticles
  refine NDRel.bind (rel_countN hB xp) fun r r' hr => ?_
  refine NDRel.bind (R := TRel) (x := fun w => Cuda.det (Tomo.npMax (α := Rn w) (r w))) (NDRel.det ?_) fun m m' hm => ?_
  · refine MRel.congr (x := fun _ => Tomo.npMax r') ?_ (hr.mono fun w e => congrArg (Tomo.npMax (α := ℝ)) e)
    intro y hy
    exact ⟨fun _ => y, Eventually.of_forall fun _ => hy, TRel.const y⟩
  · refine NDRel.of_det (m := fun w => (Cuda.takeReciprocal (α := Rn w) B (m w) (r w) nprof nbins : M (List (Rn w)))) ?_
      fun w a h => reciprocalN_det (α := Rn w) h
    exact rel_takeReciprocalN hB hm hr

/-! back projection -/

theorem LRel.cons {x : World → ℝ} {y : ℝ} {X : World → List ℝ} {Y : List ℝ} (h : TRel x y) (hX : LRel X Y) :
    LRel (fun w => x w :: X w) (y :: Y) := by
  refine ⟨hX.1.mono fun w e => by simp [e], fun k => ?_⟩
  cases k with
  | zero => exact h
  | succ k => exact hX.2 k

theorem rel_mapM {ι : Type} {f : World → ι → M ℝ} {g : ι → M ℝ} (l : List ι)
    (h : ∀ i ∈ l, MRel TRel (fun w => f w i) (g i)) : MRel LRel (fun w => l.mapM (f w)) (l.mapM g) := by
  induction l with
  | nil => exact MRel.pure (LRel.const [])
  | cons i l ih =>
    simp only [List.mapM_cons]
    refine MRel.bind (h i List.mem_cons_self) fun v v' hv => ?_
    refine MRel.bind (ih fun j hj => h j (List.mem_cons_of_mem _ hj)) fun vs vs' hvs => ?_
    exact MRel.pure (LRel.cons hv hvs)

theorem rel_mapND {ι : Type} {f : World → ι → ND ℝ} {g : ι → M ℝ} (l : List ι)
    (h : ∀ i ∈ l, NDRel TRel (fun w => f w i) (g i)) : NDRel LRel (fun w => mapND (f w) l) (l.mapM g) := by
  induction l with
  | nil => exact NDRel.det (MRel.pure (LRel.const []))
  | cons i l ih =>
    simp only [List.mapM_cons]
    refine NDRel.bind (h i List.mem_cons_self) fun v v' hv => ?_
    refine NDRel.bind (ih fun j hj => h j (List.mem_cons_of_mem _ hj)) fun vs vs' hvs => ?_
    exact NDRel.det (MRel.pure (LRel.cons hv hvs))

theorem rel_collectM {P : World → List ℝ} {P' : List ℝ} (hP : LRel P P') (fp : List Int) (nprof b : ℕ) (l : List ℕ) :
    MRel LRel (fun w => (collectM (α := Rn w) fp (P w) nprof b l : M (List (Rn w)))) (collectM fp P' nprof b l) := by
  unfold collectM
  refine rel_mapM (f := fun w (index : ℕ) => if index < nprof then do
      let q ← rd fp ((b * nprof + index : Nat) : Int)
      rd (P w) q
    else (pure (0 : ℝ) : M ℝ)) l fun i _ => ?_
  by_cases hi : i < nprof
  · simp only [if_pos hi]
    exact MRel.const fun q _ => hP.rd q
  · simp only [if_neg hi]
    exact MRel.pure (TRel.const 0)

/-- the blocks of `back_project`, block `b` adding with `sum b` -/
def backWith {α : Type} [Add α] [Zero α] (R : ℕ) (sum : ℕ → List α → α) (fp : List Int) (pf : List α) (npart nprof : ℕ) (ws : List α) :
    M (List α) :=
  forN npart (fun b ws => do
    let vs ← (blockIndices R nprof).mapM fun (index : Nat) =>
      if index < nprof then do
        let q ← rd fp ((b * nprof + index : Nat) : Int)
        rd pf q
      else pure 0
    let w ← rd ws (b : Int)
    upd ws (b : Int) (w + sum b vs)) ws

theorem backWith_length {α : Type} [Add α] [Zero α] {R : ℕ} {sum : ℕ → List α → α} {fp : List Int} {pf : List α}
    {npart nprof : ℕ} {ws ws' : List α} (h : backWith R sum fp pf npart nprof ws = .ok ws') : ws'.length = ws.length := by
  refine forN_post (fun _ a => a.length = ws.length) rfl ?_ h
  intro i a b _ ha hb
  simp only [Asrt.bind_ok_iff] at hb
  obtain ⟨_, _, _, _, hb⟩ := hb
  rw [upd_length hb, ha]

theorem reduce_launch {α : Type} [Add α] [Sub α] [Mul α] [Zero α] [One α] [NatCast α] [IntCast α] [LT α] [LE α] [DecidableLT α]
    [DecidableLE α] [DecidableEq α] [FDiv α] {R : ℕ} {sum : ℕ → List α → α} {fp : List Int} {pf : List α}
    {npart nprof : ℕ} {ws ws' : List α} (h : backWith R sum fp pf npart nprof ws = .ok ws') :
    launch (memOf (fun | .weights => ws | .profiles => pf | _ => []) (fun | .points => fp | _ => []) [])
      (tab npart fun b => reduceBlock R nprof (sum b) b) .weights ws.length = Cuda.det (.ok ws') :=
  launch_det (reduce_blocks sum (stores_memOf _ _ _ .weights) (storesInt_memOf _ _ _ .points) (stores_memOf _ _ _ .profiles) h)
    (backWith_length h).symm

theorem rel_backProjectN {R npart nprof : ℕ} {W P : World → List ℝ} {W' P' : List ℝ} (hW : LRel W W') (hP : LRel P P')
    (fp : List Int) :
    NDRel LRel (fun w => (backProjectN (α := Rn w) R (W w) fp (P w) npart nprof : ND (List (Rn w))))
      (Cuda.backProject R W' fp P' npart nprof) := by
  intro G hG
  constructor
  · refine Eventually.of_forall fun w => ?_
    obtain ⟨s, h1, h2⟩ := final_exists (⟨memOf (α := Rn w) (fun | .weights => W w | .profiles => P w | _ => [])
      (fun | .points => fp | _ => []) [], tab npart fun b => reduceBlock R nprof (fun vs => vs.foldl (· + ·) 0) b⟩ :
      State Loc (Val (Rn w)))
    exact ⟨_, fun _ vs => vs.foldl (· + ·) 0, fun _ vs => Or.inr (sumTree_foldl (SumTree.leaf 0) vs), s, h1, h2, rfl⟩
  · intro r hr
    have hr' : ∀ᶠ w in arith, ∃ sum : ℕ → List ℝ → ℝ,
        (∀ b vs, SumTree (α := Rn w) vs (sum b vs) ∨ SumTree (α := Rn w) ((0 : ℝ) :: vs) (sum b vs)) ∧
        launch (α := Rn w) (memOf (fun | .weights => W w | .profiles => P w | _ => []) (fun | .points => fp | _ => []) [])
          (tab npart fun b => reduceBlock (α := Rn w) R nprof (sum b) b) .weights (W w).length (r w) := hr
    obtain ⟨sum, hs⟩ := hr'.choice
    rw [backProject_collect] at hG
    have key : MRel LRel (fun w => (backWith (α := Rn w) R (sum w) fp (P w) npart nprof (W w) : M (List (Rn w))))
        (backWith R (fun _ vs => vs.foldl (· + ·) 0) fp P' npart nprof W') := by
      unfold backWith
      refine MRel.forN hW fun b _ X Y hXY => ?_
      refine MRel.bind (rel_collectM hP fp nprof b _) fun vs vs' hvs => ?_
      refine MRel.bind (hXY.rd _) fun v v' hv => ?_
      refine hXY.upd _ (hv.add ?_)
      obtain ⟨x', h1, h2⟩ := (rel_cpSum hvs _ rfl).2 (fun w => .ok (sum w b (vs w))) (hs.mono fun w h => ⟨_, rfl, h.1 b (vs w)⟩)
      exact local_T _ _ (h1.mono fun w e => (Except.ok.inj e).symm) _ h2
    obtain ⟨x', h1, h2⟩ := key G hG
    refine ⟨x', ?_, h2⟩
    filter_upwards [h1, hs] with w e1 e2
    have := reduce_launch (α := Rn w) e1
    have h3 := e2.2
    have h4 := this ▸ h3
    exact h4

/-! normalisation and tests -/

theorem rel_normalizeN {nprof nbins : ℕ} {F : World → List ℝ} {F' : List ℝ} (hF : LRel F F') :
    NDRel LRel (fun w => (normalizeN (α := Rn w) (F w) nprof nbins : ND (List (Rn w)))) (Cuda.normalize F' nprof nbins) := by
  unfold normalizeN Cuda.normalize
  refine NDRel.bind (R := LRel) (rel_mapND _ fun p _ => ?_) fun sums sums' hs => ?_
  · rw [rowSum_eq]
    refine NDRel.bind (R := LRel) (NDRel.det (rel_mapM _ fun j _ => hF.rd _)) fun row row' hrow => ?_
    exact rel_cpSum hrow
  · refine NDRel.bind (R := LRel) (NDRel.det ?_) fun G G' hG => ?_
    · refine MRel.forN hF fun k _ X Y hXY => ?_
      refine MRel.bind (hXY.rd _) fun v v' hv => ?_
      refine MRel.bind (hs.rd _) fun s s' hs' => ?_
      exact MRel.bind (hv.fdiv hs') fun q q' hq => hXY.upd _ hq
    · have := NDRel.bind (S := LRel) (rel_cpSum hs) (f := fun w (t : Rn w) => Cuda.det (if t ≤ 0 then .error (.exc .recZero) else pure (G w)))
        (g := fun t => if t ≤ 0 then .error (.exc .recZero) else pure G') fun t t' ht => NDRel.det (MRel.ite (fun hq => ?_) (MRel.pure hG))
      · exact this
      · exact (ht.pos (not_le.mp hq)).mono fun w hw => not_le.mpr hw

theorem rel_checkWeightsN {F : World → List ℝ} {F' : List ℝ} (hF : LRel F F') :
    NDRel (fun _ _ => True) (fun w => (checkWeightsN (α := Rn w) (F w) : ND Unit)) (Cuda.checkWeights F') := by
  unfold checkWeightsN Cuda.checkWeights
  have := NDRel.bind (S := fun (_ : World → Unit) (_ : Unit) => True) (rel_cpSum hF)
    (f := fun w (t : Rn w) => Cuda.det (if t ≤ 0 then .error (.exc .allZero) else .ok ()))
    (g := fun t => if t ≤ 0 then .error (.exc .allZero) else .ok ()) fun t t' ht =>
      NDRel.det (MRel.ite (fun hq => ?_) (MRel.pure (x := fun _ => ()) trivial))
  · exact this
  · exact (ht.pos (not_le.mp hq)).mono fun w hw => not_le.mpr hw

theorem tree_nonneg {w : World} {u : ℝ} (ha : w.Accurate u) (hu : u ≤ 1) {l : List (Rn w)} {v : Rn w} (h : SumTree l v)
    (hl : ∀ x ∈ l, (0 : ℝ) ≤ x) : (0 : ℝ) ≤ v := by
  induction h with
  | leaf x => exact hl x List.mem_cons_self
  | node _ _ hp ih1 ih2 =>
    refine rnd_nonneg ha hu (add_nonneg (ih1 fun x hx => hl x ?_) (ih2 fun x hx => hl x ?_))
    · exact hp.mem_iff.mpr (List.mem_append_left _ hx)
    · exact hp.mem_iff.mpr (List.mem_append_right _ hx)

theorem rel_squares {D : World → List ℝ} {D' : List ℝ} (hD : LRel D D') :
    LRel (fun w => ((D w).map fun d => w.rnd (d * d))) (D'.map fun d => d * d) := by
  refine ⟨hD.1.mono fun w e => by simp [e], fun k => ?_⟩
  by_cases hk : k < D'.length
  · have e2 : (D'.map fun d => d * d).getD k 0 = D'.getD k 0 * D'.getD k 0 := by
      simp [List.getD_eq_getElem?_getD, hk]
    rw [e2]
    refine local_T (fun w => w.rnd ((D w).getD k 0 * (D w).getD k 0)) _ ?_ _ (TRel.mul (hD.2 k) (hD.2 k))
    filter_upwards [hD.1] with w e
    have hk' : k < (D w).length := by omega
    simp [List.getD_eq_getElem?_getD, hk']
  · refine local_T (fun _ => 0) _ ?_ _ ?_
    · filter_upwards [hD.1] with w e
      have hk' : ¬ k < (D w).length := by omega
      simp [List.getD_eq_getElem?_getD, hk']
    · have : (D'.map fun d => d * d).getD k 0 = 0 := by simp [List.getD_eq_getElem?_getD, hk]
      rw [this]; exact TRel.const 0

theorem rel_sumSquares {D : World → List ℝ} {D' : List ℝ} (hD : LRel D D') :
    NDRel NRel (fun w => (cpSum (α := Rn w) ((D w).map fun d => w.rnd (d * d)) : ND (Rn w)))
      (.ok ((D'.map fun d => d * d).foldl (· + ·) 0)) := by
  intro y hy
  obtain ⟨h1, h2⟩ := rel_cpSum (rel_squares hD) y hy
  refine ⟨h1, fun r hr => ?_⟩
  obtain ⟨x', e1, e2⟩ := h2 r hr
  refine ⟨x', e1, e2, ?_⟩
  filter_upwards [hr, e1, accurate_mem one_pos] with w hw e hacc
  have hsq : ∀ x ∈ (D w).map fun d => w.rnd (d * d), (0 : ℝ) ≤ x := by
    intro x hx
    rw [List.mem_map] at hx
    obtain ⟨d, _, rfl⟩ := hx
    exact rnd_nonneg hacc le_rfl (mul_self_nonneg d)
  obtain ⟨v, hv, ht⟩ := hw
  have ev : v = x' w := Except.ok.inj (hv.symm.trans e)
  rw [← ev]
  rcases ht with ht | ht
  · exact tree_nonneg hacc le_rfl ht hsq
  · refine tree_nonneg hacc le_rfl ht fun x hx => ?_
    rcases List.mem_cons.mp hx with h | h
    · rw [h]; exact le_refl (0 : ℝ)
    · exact hsq x h

theorem rel_discrepancyN {D : World → List ℝ} {D' : List ℝ} (hD : LRel D D') (nprof nbins : ℕ) :
    NDRel TRel (fun w => (discrepancyN (α := Rn w) w.sqrt (D w) nprof nbins : ND (Rn w)))
      (Cuda.discrepancy Real.sqrt D' nprof nbins) := by
  have e : Cuda.discrepancy Real.sqrt D' nprof nbins = (Except.ok ((D'.map fun d => d * d).foldl (· + ·) 0) : M ℝ) >>= fun s =>
      FDiv.fdiv s ((nprof * nbins : ℕ) : ℝ) >>= fun q => pure (Real.sqrt q) := by
    rw [bind_ok, foldl_squares]
    rfl
  rw [e]
  unfold discrepancyN
  refine NDRel.bind (R := NRel) (rel_sumSquares hD) fun x y hxy => ?_
  refine NDRel.bind (R := NRel) (x := fun w => Cuda.det (FDiv.fdiv (α := Rn w) (x w) ((nprof * nbins : ℕ) : Rn w) : M (Rn w)))
    (f := fun w q => (pure (w.sqrt q) : ND ℝ)) (NDRel.det ?_) fun q q' hq => ?_
  · intro q hq
    obtain ⟨q', h1, h2⟩ := (hxy.1.fdiv (TRel.natCast (nprof * nbins))) q hq
    refine ⟨q', h1, h2, ?_⟩
    filter_upwards [h1, hxy.2, accurate_mem one_pos] with w e1 e2 hw
    have e3 : (if w.rnd ((nprof * nbins : ℕ) : ℝ) = 0 then (.error .nonFinite : M ℝ) else
        .ok (w.rnd (x w / w.rnd ((nprof * nbins : ℕ) : ℝ)))) = .ok (q' w) := e1
    split at e3
    · cases e3
    · rw [← Except.ok.inj e3]
      exact rnd_nonneg hw le_rfl (div_nonneg e2 (rnd_nonneg hw le_rfl (Nat.cast_nonneg _)))
  · exact NDRel.det (MRel.pure (hq.1.sqrt hq.2))

/-! ## the run -/

theorem rel_iterationN {B R : ℕ} (hB : 0 < B) {F P : World → List ℝ} {F' P' : List ℝ} (hF : LRel F F') (hP : LRel P P')
    (E : World → ℕ → ℝ) (e : ℕ → ℝ) (fp : List Int) (nbins npart nprof k : ℕ) {X : World → Recon.RState ℝ} {Y : Recon.RState ℝ}
    (h : SRel X Y) :
    NDRel SRel (fun w => (iterationN (α := Rn w) B R w.sqrt (E w) fp (F w) (P w) nbins npart nprof k (X w) :
        ND (Recon.RState (Rn w))))
      (Cuda.iteration B R Real.sqrt e fp F' P' nbins npart nprof k Y) := by
  obtain ⟨h1, h2, h3⟩ := h
  unfold iterationN Cuda.iteration
  refine NDRel.bind (rel_projectN hB h2 h1 fp) fun a a' ha => ?_
  refine NDRel.bind (rel_normalizeN ha) fun b b' hb => ?_
  refine NDRel.bind (rel_differenceN hB hb hF E e) fun c c' hc => ?_
  refine NDRel.bind (rel_discrepancyN hc nprof nbins) fun d d' hd => ?_
  refine NDRel.bind (NDRel.det (h3.upd _ hd)) fun g g' hg => ?_
  refine NDRel.bind (rel_compensateN hB hc hP) fun i i' hi => ?_
  refine NDRel.bind (rel_backProjectN h1 hi fp) fun j j' hj => ?_
  refine NDRel.bind (rel_clipN hB hj) fun l l' hl => ?_
  refine NDRel.bind (rel_checkWeightsN hl) fun _ _ _ => ?_
  exact NDRel.det (MRel.pure ⟨hl, hb, hg⟩)

theorem rel_reconstructN {B R : ℕ} (hB : 0 < B) {F : World → List ℝ} {F' : List ℝ} (hF : LRel F F')
    (E : World → ℕ → ℝ) (e : ℕ → ℝ) (xp : List Int) (niter nbins npart nprof : ℕ) :
    NDRel SRel (fun w => (reconstructN (α := Rn w) B R w.sqrt (E w) xp (F w) niter nbins npart nprof :
        ND (Recon.RState (Rn w))))
      (Cuda.reconstruct B R Real.sqrt e xp F' niter nbins npart nprof).2 := by
  unfold reconstructN Cuda.reconstruct
  refine NDRel.bind (rel_reciprocalParticlesN hB xp) fun P P' hP => ?_
  refine NDRel.bind (R := ERel) (A := List Int) ?_ fun fp fp' hfp => ?_
  · intro fp hfp
    refine ⟨Eventually.of_forall fun w => ⟨.ok fp, cast (congrFun (flatPointsN_det (α := Rn w) hB hfp) (.ok fp)).symm rfl⟩, fun r hr => ?_⟩
    refine ⟨fun _ => fp, ?_, Eventually.of_forall fun _ => rfl⟩
    filter_upwards [hr] with w hw
    exact cast (congrFun (flatPointsN_det (α := Rn w) hB hfp) (r w)) hw
  · refine NDRel.congr (x := fun w => (do
      let w' ← backProjectN (α := Rn w) R (tab npart fun _ => (0 : Rn w)) fp' (F w) npart nprof
      let w' ← clipN (α := Rn w) B w' npart 0
      checkWeightsN (α := Rn w) w'
      let st ← Cuda.forND niter (iterationN (α := Rn w) B R w.sqrt (E w) fp' (F w) (P w) nbins npart nprof)
        (⟨w', tab (nprof * nbins) fun _ => (0 : Rn w), tab (niter + 1) fun _ => (0 : Rn w)⟩ : Recon.RState (Rn w))
      let rec ← projectN (α := Rn w) B st.flatRec fp' st.weights npart nprof
      let rec ← normalizeN (α := Rn w) rec nprof nbins
      let diff ← differenceN (α := Rn w) B (E w) rec (F w)
      let d ← discrepancyN (α := Rn w) w.sqrt diff nprof nbins
      let discr ← Cuda.det (upd st.discr (niter : Int) d)
      pure (⟨st.weights, rec, discr⟩ : Recon.RState (Rn w)) : ND (Recon.RState (Rn w)))) ?_ (hfp.mono fun w e => by rw [e])
    refine NDRel.bind (rel_backProjectN (LRel.zeros npart) hF fp') fun a a' ha => ?_
    refine NDRel.bind (rel_clipN hB ha) fun b b' hb => ?_
    refine NDRel.bind (rel_checkWeightsN hb) fun _ _ _ => ?_
    refine NDRel.bind (R := SRel) (NDRel.forND ⟨hb, LRel.zeros _, LRel.zeros _⟩
      fun k _ x y hxy => rel_iterationN hB hF hP E e fp' nbins npart nprof k hxy) fun st st' hst => ?_
    obtain ⟨h1, h2, h3⟩ := hst
    refine NDRel.bind (rel_projectN hB h2 h1 fp') fun a a' ha => ?_
    refine NDRel.bind (rel_normalizeN ha) fun b b' hb => ?_
    refine NDRel.bind (rel_differenceN hB hb hF E e) fun c c' hc => ?_
    refine NDRel.bind (rel_discrepancyN hc nprof nbins) fun d d' hd => ?_
    refine NDRel.bind (NDRel.det (h3.upd _ hd)) fun g g' hg => ?_
    exact NDRel.det (MRel.pure ⟨h1, hb, hg⟩)

end Verif.Rounded

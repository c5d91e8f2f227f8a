import Verif.Lemmas.Programs

/-! # Interpolated programs, the arrays per turn and the phases -/

set_option linter.unusedSectionVars false

namespace Verif.Prog
open Spec Mch
variable {K : Type} [Field K] [LinearOrder K] [IsStrictOrderedRing K]

theorem tab_cons {α : Type _} (n : ℕ) (f : ℕ → α) : tab (n + 1) f = f 0 :: tab n fun i => f (i + 1) := by
  unfold tab; rw [List.range_succ_eq_map]; simp

/-! ## `np.interp` -/

theorem interpGo_low {m : ℕ} (τ μ : ℕ → K) (hm : ∀ k, k < m → τ k < τ (k + 1)) {x : K} (hx : x ≤ τ 0) :
    interpGo x (τ 0) (μ 0) (tab m fun i => (τ (i + 1), μ (i + 1))) = μ 0 := by
  cases m with
  | zero => rfl
  | succ m =>
    rw [tab_cons, interpGo, if_pos (lt_of_le_of_lt hx (hm 0 (by omega))), if_pos hx]

theorem interpGo_high {m : ℕ} (τ μ : ℕ → K) (hm : ∀ k, k < m → τ k < τ (k + 1)) {x : K} (hx : τ m ≤ x) :
    interpGo x (τ 0) (μ 0) (tab m fun i => (τ (i + 1), μ (i + 1))) = μ m := by
  induction m generalizing τ μ with
  | zero => rfl
  | succ m ih =>
    have hle : ∀ k, k ≤ m → τ (m + 1 - k) ≤ τ (m + 1) := by
      intro k hk
      induction k with
      | zero => exact le_refl _
      | succ k ih' =>
        have := hm (m + 1 - (k + 1)) (by omega)
        rw [show m + 1 - (k + 1) + 1 = m + 1 - k by omega] at this
        exact le_trans this.le (ih' (by omega))
    have h1 : τ 1 ≤ x := by
      have := hle m (le_refl _)
      rw [show m + 1 - m = 1 by omega] at this
      exact le_trans this hx
    rw [tab_cons, interpGo, if_neg (not_lt.2 h1)]
    exact ih (fun i => τ (i + 1)) (fun i => μ (i + 1)) (fun k hk => hm (k + 1) (by omega)) hx

theorem interpGo_line {m : ℕ} (τ μ : ℕ → K) (hm : ∀ k, k < m → τ k < τ (k + 1)) {k : ℕ} (hk : k < m) {x : K}
    (h1 : τ k ≤ x) (h2 : x ≤ τ (k + 1)) : interpGo x (τ 0) (μ 0) (tab m fun i => (τ (i + 1), μ (i + 1)))
      = μ k + (μ (k + 1) - μ k) * (x - τ k) / (τ (k + 1) - τ k) := by
  induction m generalizing τ μ k with
  | zero => omega
  | succ m ih =>
    have hd : τ (k + 1) - τ k ≠ 0 := (sub_pos.2 (hm k hk)).ne'
    rw [tab_cons, interpGo]
    cases k with
    | zero =>
      rcases eq_or_lt_of_le h2 with h | h
      · rw [if_neg (by rw [h]; exact lt_irrefl _)]
        have := interpGo_low (fun i => τ (i + 1)) (fun i => μ (i + 1)) (m := m) (fun k hk => hm (k + 1) (by omega)) h.le
        refine Eq.trans this ?_
        rw [h, mul_div_assoc, div_self hd]; ring
      · rw [if_pos h]
        rcases eq_or_lt_of_le h1 with h' | h'
        · rw [if_pos h'.ge, ← h']; simp
        · rw [if_neg (not_le.2 h')]; field_simp; ring
    | succ k =>
      have hmono : ∀ l, l ≤ k → τ 1 ≤ τ (l + 1) := by
        intro l hl
        induction l with
        | zero => exact le_refl _
        | succ l ih' => exact le_trans (ih' (by omega)) (hm (l + 1) (by omega)).le
      rw [if_neg (not_lt.2 (le_trans (hmono k (le_refl _)) h1))]
      exact ih (fun i => τ (i + 1)) (fun i => μ (i + 1)) (fun k hk => hm (k + 1) (by omega)) (by omega) h1 h2

theorem zip_tab {α β : Type _} (n : ℕ) (f : ℕ → α) (g : ℕ → β) : (tab n f).zip (tab n g) = tab n fun i => (f i, g i) := by
  unfold tab; rw [List.zip_map']

theorem zipWith_tab {α β γ : Type _} (n : ℕ) (h : α → β → γ) (f : ℕ → α) (g : ℕ → β) :
    List.zipWith h (tab n f) (tab n g) = tab n fun i => h (f i) (g i) := by
  unfold tab; rw [List.zipWith_map_left, List.zipWith_map_right]; simp [List.zipWith_self]

/-- `np.interp` of a program with at least one point and increasing times -/
theorem npInterp_ok {n : ℕ} (hn : 0 < n) (τ μ : ℕ → K) (hm : ∀ k, k + 1 < n → τ k < τ (k + 1)) :
    ∃ P, Follows n τ μ P ∧ (∀ t, t ≤ τ 0 → P t = μ 0) ∧ (∀ t, τ (n - 1) ≤ t → P t = μ (n - 1)) ∧
      ∀ M (x : ℕ → K), npInterp (tab n τ) (tab n μ) (tab M x) = .ok (tab M fun i => P (x i)) := by
  obtain ⟨m, rfl⟩ : ∃ m, n = m + 1 := ⟨n - 1, by omega⟩
  refine ⟨fun x => interpGo x (τ 0) (μ 0) (tab m fun i => (τ (i + 1), μ (i + 1))), ?_, ?_, ?_, ?_⟩
  · intro k hk t h1 h2
    exact interpGo_line τ μ (fun k hk => hm k (by omega)) (by omega) h1 h2
  · intro t h; exact interpGo_low τ μ (fun k hk => hm k (by omega)) h
  · intro t h; exact interpGo_high τ μ (fun k hk => hm k (by omega)) h
  · intro M x
    unfold npInterp
    rw [if_neg (by simp), zip_tab, tab_cons]
    dsimp only
    rw [map_tab]

/-! ## Arrays per turn -/

theorem npDiff_tab (m : ℕ) (f : ℕ → K) : npDiff (tab (m + 1) f) = tab m fun i => f (i + 1) - f i := by
  induction m generalizing f with
  | zero => rfl
  | succ m ih =>
    rw [tab_cons (m + 1) f, tab_cons m (fun i => f (i + 1)), npDiff]
    have := ih (fun i => f (i + 1))
    rw [tab_cons m (fun i => f (i + 1))] at this
    rw [this, tab_cons m (fun i => f (i + 1) - f i)]

theorem cumsum_tab (acc : K) (m : ℕ) (f : ℕ → K) :
    Post.cumsum acc (tab m f) = tab m fun i => acc + ∑ l ∈ Finset.range (i + 1), f l := by
  induction m generalizing acc f with
  | zero => rfl
  | succ m ih =>
    rw [tab_cons, Post.cumsum, ih, tab_cons m (fun i => acc + ∑ l ∈ Finset.range (i + 1), f l)]
    congr 1
    · simp
    · apply tab_congr
      intro i _
      rw [Finset.sum_range_succ' f (i + 1)]; ring

/-- the value of `np.gradient` at point `i` of `m` -/
def gradVal (m : ℕ) (f x : ℕ → K) (i : ℕ) : K :=
  if i = 0 then (f 1 - f 0) / (x 1 - x 0)
  else if i = m - 1 then (f (m - 1) - f (m - 2)) / (x (m - 1) - x (m - 2))
  else -(x (i + 1) - x i) / ((x i - x (i - 1)) * ((x i - x (i - 1)) + (x (i + 1) - x i))) * f (i - 1)
    + ((x (i + 1) - x i) - (x i - x (i - 1))) / ((x i - x (i - 1)) * (x (i + 1) - x i)) * f i
    + (x i - x (i - 1)) / ((x (i + 1) - x i) * ((x i - x (i - 1)) + (x (i + 1) - x i))) * f (i + 1)

theorem gradEdge_ok {m i : ℕ} (f x : ℕ → K) (hi : i + 1 < m) (hx : x i < x (i + 1)) :
    gradEdge (tab m f) (tab m x) i = .ok ((f (i + 1) - f i) / (x (i + 1) - x i)) := by
  unfold gradEdge
  rw [rd_tab _ (by omega), bind_ok, rd_tab _ hi, bind_ok, rd_tab _ (by omega), bind_ok, rd_tab _ hi, bind_ok,
    fdiv_ok (sub_pos.2 hx).ne']

theorem gradInner_ok {m i : ℕ} (f x : ℕ → K) (hi : i + 2 < m) (hx : x i < x (i + 1)) (hx' : x (i + 1) < x (i + 2)) :
    gradInner (tab m f) (tab m x) i = .ok (gradVal m f x (i + 1)) := by
  have h1 := sub_pos.2 hx
  have h2 := sub_pos.2 hx'
  unfold gradInner
  rw [rd_tab _ (by omega), bind_ok, rd_tab _ (by omega), bind_ok, rd_tab _ hi, bind_ok, rd_tab _ (by omega), bind_ok,
    rd_tab _ (by omega), bind_ok, rd_tab _ hi, bind_ok, fdiv_ok (mul_pos h1 (add_pos h1 h2)).ne', bind_ok,
    fdiv_ok (mul_pos h1 h2).ne', bind_ok, fdiv_ok (mul_pos h2 (add_pos h1 h2)).ne', bind_ok]
  unfold gradVal
  rw [if_neg (by omega), if_neg (by omega)]
  rfl

theorem npGradient_ok {m : ℕ} (hm : 2 ≤ m) (f x : ℕ → K) (hx : ∀ i, i + 1 < m → x i < x (i + 1)) :
    npGradient (tab m f) (tab m x) = .ok (tab m (gradVal m f x)) := by
  obtain ⟨q, rfl⟩ : ∃ q, m = q + 2 := ⟨m - 2, by omega⟩
  unfold npGradient
  rw [if_neg (by simp), gradEdge_ok f x (by omega) (hx 0 (by omega)), bind_ok]
  simp only [length_tab, Nat.add_sub_cancel]
  rw [mapM_ok (g := fun i => gradVal (q + 2) f x (i + 1))]
  · rw [bind_ok, gradEdge_ok f x (by omega) (hx q (by omega)), bind_ok]
    have e0 : gradVal (q + 2) f x 0 = (f (0 + 1) - f 0) / (x (0 + 1) - x 0) := by
      unfold gradVal; rw [if_pos rfl]
    have e1 : gradVal (q + 2) f x (q + 1) = (f (q + 1) - f q) / (x (q + 1) - x q) := by
      unfold gradVal
      rw [if_neg (by omega), if_pos (by omega), show q + 2 - 1 = q + 1 by omega, show q + 2 - 2 = q by omega]
    rw [← e0, ← e1, tab_cons (q + 1), ← tab_snoc (n := q) (fun i => gradVal (q + 2) f x (i + 1)) rfl]
    rfl
  · intro i hi
    have := List.mem_range.1 hi
    exact gradInner_ok f x (by omega) (hx i (by omega)) (hx (i + 1) (by omega))

/-- `np.gradient` is exact for a straight line -/
theorem gradVal_line {m : ℕ} (hm : 2 ≤ m) (x : ℕ → K) (hx : ∀ i, i + 1 < m → x i < x (i + 1)) (b s : K) {i : ℕ} (hi : i < m) :
    gradVal m (fun j => b + s * x j) x i = s := by
  unfold gradVal
  split
  · have := sub_pos.2 (hx 0 (by omega))
    have hne : x 1 - x 0 ≠ 0 := this.ne'
    field_simp; ring
  · split
    · have := sub_pos.2 (hx (m - 2) (by omega))
      rw [show m - 2 + 1 = m - 1 by omega] at this
      have hne := this.ne'
      field_simp; ring
    · have h1 := sub_pos.2 (hx (i - 1) (by omega))
      rw [show i - 1 + 1 = i by omega] at h1
      have h2 := sub_pos.2 (hx i (by omega))
      have e1 := h1.ne'
      have e2 := h2.ne'
      have e3 := (add_pos h1 h2).ne'
      generalize hp : x i - x (i - 1) = p at *
      generalize hq : x (i + 1) - x i = q at *
      have hxi : x i = x (i - 1) + p := by rw [← hp]; ring
      have hxi' : x (i + 1) = x (i - 1) + p + q := by rw [← hq, hxi]; ring
      dsimp only
      rw [hxi', hxi]
      field_simp; ring

/-- hypotheses on the machine and its numbers under which every momentum is usable -/
structure Sound (L : MathLib K) (a : PArgs K) : Prop where
  circ : 0 < circumference L a
  light : 0 < L.c
  sqrt : ∀ x, 0 < x → 0 < L.sqrt x
  gamma : a.transGamma ≠ 0
  rho : a.bendingRad * a.q ≠ 0

theorem pmBeta_ok {L : MathLib K} {a : PArgs K} {p : K} (hp : 0 < p) :
    pmBeta L p a.eRest = .ok (L.sqrt (1 / (1 + (a.eRest / p) ^ 2))) := by
  unfold pmBeta
  rw [fdiv_ok hp.ne', bind_ok, fdiv_ok (by positivity), bind_ok]
  rfl

theorem beta_pos {L : MathLib K} {a : PArgs K} (hS : Sound L a) (p : K) : 0 < L.sqrt (1 / (1 + (a.eRest / p) ^ 2)) :=
  hS.sqrt _ (by positivity)

theorem period_ok {L : MathLib K} {a : PArgs K} (hS : Sound L a) {p : K} (hp : 0 < p) :
    period L a p = .ok (revPeriod L.sqrt (circumference L a) L.c a.eRest p) := by
  unfold period
  rw [pmBeta_ok hp, bind_ok, fdiv_ok (mul_pos (beta_pos hS p) hS.light).ne']
  rfl

theorem period_pos {L : MathLib K} {a : PArgs K} (hS : Sound L a) (p : K) :
    0 < revPeriod L.sqrt (circumference L a) L.c a.eRest p :=
  div_pos hS.circ (mul_pos (beta_pos hS p) hS.light)

theorem given_of {L : MathLib K} {a : PArgs K} {n : ℕ} {τ μ : ℕ → K} {P : K → K} (hS : Sound L a)
    (h1 : a.momTime = tab n τ) (h2 : a.momVal = tab n μ) (h3 : 0 < n) (h4 : ∀ k, k + 1 < n → τ k < τ (k + 1))
    (h5 : ∀ k, k < n → 0 < μ k) (h6 : Follows n τ μ P) :
    Given L a n τ μ (revPeriod L.sqrt (circumference L a) L.c a.eRest) P :=
  ⟨h1, h2, h3, h4, h5, h6, fun _ hp => period_ok hS hp, fun p _ => period_pos hS p⟩

/-- time of the turns as `values_at_turns` sums it up -/
def sumTime (T : K → K) (p : ℕ → K) (i0 j : ℕ) : K :=
  ∑ l ∈ Finset.range (j + 1), T (p l) - ∑ l ∈ Finset.range (i0 + 1), T (p l)

/-- the arrays computed from positive momenta -/
theorem turnArrays_ok {L : MathLib K} {a : PArgs K} (hS : Sound L a) {m i0 : ℕ} (hm : 2 ≤ m) (p : ℕ → K)
    (hp : ∀ j, j < m → 0 < p j) (hi : a.machineRefFrame * a.dturns = (i0 : ℕ)) (hi0 : i0 < m) (v1 v2 : List K) (ratio : K) :
    turnArrays L a (tab m p) v1 v2 ratio = .ok
      { momentum := tab m p,
        e0 := tab m fun j => L.sqrt (p j ^ 2 + a.eRest ^ 2),
        beta0 := tab m fun j => L.sqrt (1 / (1 + (a.eRest / p j) ^ 2)),
        deltaE0 := tab (m - 1) fun j => L.sqrt (p (j + 1) ^ 2 + a.eRest ^ 2) - L.sqrt (p j ^ 2 + a.eRest ^ 2),
        eta0 := tab m fun j => 1 - L.sqrt (1 / (1 + (a.eRest / p j) ^ 2)) ^ 2 - 1 / a.transGamma ^ 2,
        driftCoef := tab m fun j => 2 * L.pi * a.hNum * (1 - L.sqrt (1 / (1 + (a.eRest / p j) ^ 2)) ^ 2 - 1 / a.transGamma ^ 2)
          / (L.sqrt (p j ^ 2 + a.eRest ^ 2) * L.sqrt (1 / (1 + (a.eRest / p j) ^ 2)) ^ 2),
        omegaRev0 := tab m fun j => 2 * L.pi * (1 / revPeriod L.sqrt (circumference L a) L.c a.eRest (p j)),
        timeAtTurn := tab m (sumTime (revPeriod L.sqrt (circumference L a) L.c a.eRest) p i0),
        bdot := tab m (gradVal m (fun j => p j / (a.bendingRad * a.q) / L.c)
          (sumTime (revPeriod L.sqrt (circumference L a) L.c a.eRest) p i0)),
        vrf1AtTurn := v1, vrf2AtTurn := v2, hRatio := ratio, phi12 := none, phi0 := v1.map fun _ => 0 } := by
  have hE : ∀ j, j < m → 0 < L.sqrt (p j ^ 2 + a.eRest ^ 2) := fun j hj => hS.sqrt _ (by
    have := hp j hj; positivity)
  unfold turnArrays
  dsimp only
  rw [mapM_tab (g := fun q => L.sqrt (1 / (1 + (a.eRest / q) ^ 2))) m p (fun j hj => pmBeta_ok (hp j hj)), bind_ok,
    mapM_tab (g := fun q => revPeriod L.sqrt (circumference L a) L.c a.eRest q) m p (fun j hj => period_ok hS (hp j hj)), bind_ok,
    mapM_tab (f := fun t : K => FDiv.fdiv 1 t) (g := fun t => 1 / t) m _ (fun j _ => fdiv_ok (period_pos hS (p j)).ne'), bind_ok, cumsum_tab, hi,
    npGet_tab _ hi0, bind_ok, fdiv_ok (pow_ne_zero 2 hS.gamma), bind_ok, map_tab, map_tab, map_tab, zip_tab, zip_tab,
    mapM_tab (f := fun x : K × K × K => FDiv.fdiv (2 * L.pi * a.hNum * x.1) (x.2.1 * x.2.2 ^ 2))
      (g := fun x : K × K × K => 2 * L.pi * a.hNum * x.1 / (x.2.1 * x.2.2 ^ 2)) m _ (fun j hj => fdiv_ok (by
      exact (mul_pos (hE j hj) (pow_pos (beta_pos hS (p j)) 2)).ne')), bind_ok,
    mapM_tab (g := fun q => q / (a.bendingRad * a.q) / L.c) m p (fun j _ => by
      unfold pmBfield
      rw [fdiv_ok hS.rho, bind_ok, fdiv_ok hS.light.ne']), bind_ok]
  have htime : (tab m fun i => (0 + ∑ l ∈ Finset.range (i + 1), revPeriod L.sqrt (circumference L a) L.c a.eRest (p l))
      - (0 + ∑ l ∈ Finset.range (i0 + 1), revPeriod L.sqrt (circumference L a) L.c a.eRest (p l)))
      = tab m (sumTime (revPeriod L.sqrt (circumference L a) L.c a.eRest) p i0) := by
    apply tab_congr
    intro j _
    unfold sumTime; ring
  rw [htime, npGradient_ok hm _ _ (by
    intro j hj
    unfold sumTime
    rw [Finset.sum_range_succ _ (j + 1)]
    have := period_pos hS (p (j + 1))
    linarith), bind_ok, map_tab]
  obtain ⟨q, rfl⟩ : ∃ q, m = q + 1 := ⟨m - 1, by omega⟩
  have hd := npDiff_tab q fun j => pmEnergy L (p j) a.eRest
  rw [hd]
  rfl

theorem sumTime_ref (T : K → K) (p : ℕ → K) (i0 : ℕ) : sumTime T p i0 i0 = 0 := by unfold sumTime; ring

theorem sumTime_succ (T : K → K) (p : ℕ → K) (i0 j : ℕ) : sumTime T p i0 (j + 1) - sumTime T p i0 j = T (p (j + 1)) := by
  unfold sumTime
  rw [Finset.sum_range_succ _ (j + 1)]; ring

/-! ## Synchronous phases -/

theorem rd_ok_get {α : Type _} {l : List α} {z : Int} {v : α} (h : rd l z = .ok v) : 0 ≤ z ∧ l[z.toNat]? = some v := by
  unfold rd at h
  split at h
  · rename_i h0
    refine ⟨h0, ?_⟩
    split at h
    · rename_i w hw; cases h; exact hw
    · cases h
  · cases h

theorem upd_ok_get {α : Type _} {l l' : List α} {z : Int} {v : α} (h : upd l z v = .ok l') :
    0 ≤ z ∧ z.toNat < l.length ∧ l' = l.set z.toNat v := by
  unfold upd at h
  split at h
  · rename_i h0; cases h; exact ⟨h0.1, h0.2, rfl⟩
  · cases h

/-- every phase found comes from a search at its own turn, started at the phase of the neighbouring turn on the side of the
reference turn; there the search starts at `phaseStart` -/
theorem findSynchronousPhase_ok {L : MathLib K} {a : PArgs K} {ratio : K} {e0 v1 v2 bdot p r : List K} {i0 : ℕ}
    (hi : a.machineRefFrame * a.dturns = (i0 : ℕ))
    (h : findSynchronousPhase L a ratio e0 v1 v2 bdot (.turns p) = .ok r) :
    r.length = v1.length ∧ ∃ start, phaseStart L a e0 v1 bdot = .ok start ∧
      ∀ j, j < v1.length → ∃ x0 v, r[j]? = some v ∧ phaseAt L a ratio v1 v2 bdot p (j : ℕ) x0 = .ok v ∧
        (j = i0 → x0 = start) ∧ (i0 < j → r[j - 1]? = some x0) ∧ (j < i0 → r[j + 1]? = some x0) := by
  unfold findSynchronousPhase at h
  dsimp only at h
  rw [hi] at h
  rw [Asrt.bind_ok_iff] at h
  obtain ⟨start, hstart, h⟩ := h
  rw [Asrt.bind_ok_iff] at h
  obtain ⟨ph, hph, h⟩ := h
  rw [Asrt.bind_ok_iff] at h
  obtain ⟨l0, hl0, h⟩ := h
  rw [Asrt.bind_ok_iff] at h
  obtain ⟨l1, hl1, h⟩ := h
  obtain ⟨_, hlt, rfl⟩ := upd_ok_get hl0
  rw [List.length_map] at hlt
  have hlt' : i0 < v1.length := by omega
  have hup := forN_post (fun k l => l.length = v1.length ∧ ∀ j, i0 ≤ j → j ≤ i0 + k →
      ∃ x0 v, l[j]? = some v ∧ phaseAt L a ratio v1 v2 bdot p (j : ℕ) x0 = .ok v ∧
        (j = i0 → x0 = start) ∧ (i0 < j → l[j - 1]? = some x0)) ⟨by simp, by
        intro j h1 h2
        have : j = i0 := by omega
        subst this
        exact ⟨start, ph, by simp [hlt'], hph, fun _ => rfl, fun h => absurd h (by omega)⟩⟩ (by
      rintro k l l' hk ⟨hlen, hl⟩ hb
      rw [Asrt.bind_ok_iff] at hb
      obtain ⟨x0, hx0, hb⟩ := hb
      rw [Asrt.bind_ok_iff] at hb
      obtain ⟨w, hw, hb⟩ := hb
      obtain ⟨_, hz, rfl⟩ := upd_ok_get hb
      have hidx : ((i0 : Int) + 1 + (k : ℕ)).toNat = i0 + 1 + k := by omega
      rw [hidx] at hz ⊢
      have hx0' := (rd_ok_get hx0).2
      rw [show ((i0 : Int) + (k : ℕ)).toNat = i0 + k by omega] at hx0'
      refine ⟨by simp [hlen], ?_⟩
      intro j h1 h2
      by_cases hj : j = i0 + 1 + k
      · subst hj
        refine ⟨x0, w, by simp [hz], ?_, fun h => absurd h (by omega), fun _ => ?_⟩
        · rw [← hw]; push_cast; rfl
        · rw [List.getElem?_set_ne (by omega), show i0 + 1 + k - 1 = i0 + k by omega]; exact hx0'
      · obtain ⟨y0, v, h3, h4, h5, h6⟩ := hl j h1 (by omega)
        exact ⟨y0, v, by rw [List.getElem?_set_ne (by omega)]; exact h3, h4, h5,
          fun hlt => by rw [List.getElem?_set_ne (by omega)]; exact h6 hlt⟩) hl1
  obtain ⟨hlen1, hup⟩ := hup
  have hN : (((v1.length : Int) - ((i0 : Int) + 1)).toNat : ℕ) + i0 + 1 = v1.length := by omega
  have hdown := forN_post (fun k l => l.length = v1.length ∧ ∀ j, i0 - k ≤ j → j < v1.length →
      ∃ x0 v, l[j]? = some v ∧ phaseAt L a ratio v1 v2 bdot p (j : ℕ) x0 = .ok v ∧
        (j = i0 → x0 = start) ∧ (i0 < j → l[j - 1]? = some x0) ∧ (j < i0 → l[j + 1]? = some x0)) ⟨hlen1, by
        intro j h1 h2
        obtain ⟨x0, v, g1, g2, g3, g4⟩ := hup j (by omega) (by omega)
        exact ⟨x0, v, g1, g2, g3, g4, fun h => absurd h (by omega)⟩⟩ (by
      rintro k l l' hk ⟨hlen, hl⟩ hb
      rw [Asrt.bind_ok_iff] at hb
      obtain ⟨x0, hx0, hb⟩ := hb
      rw [Asrt.bind_ok_iff] at hb
      obtain ⟨w, hw, hb⟩ := hb
      obtain ⟨_, hz, rfl⟩ := upd_ok_get hb
      have hidx : ((i0 : Int) - 1 - (k : ℕ)).toNat = i0 - 1 - k := by omega
      rw [hidx] at hz ⊢
      have hk' : k < i0 := by omega
      have hx0' := (rd_ok_get hx0).2
      rw [show ((i0 : Int) - (k : ℕ)).toNat = i0 - k by omega] at hx0'
      refine ⟨by simp [hlen], ?_⟩
      intro j h1 h2
      by_cases hj : j = i0 - 1 - k
      · subst hj
        refine ⟨x0, w, by simp [hz], ?_, fun h => absurd h (by omega), fun h => absurd h (by omega), fun _ => ?_⟩
        · rw [← hw]; congr 1; omega
        · rw [List.getElem?_set_ne (by omega), show i0 - 1 - k + 1 = i0 - k by omega]; exact hx0'
      · obtain ⟨y0, v, h3, h4, h5, h6, h7⟩ := hl j (by omega) h2
        exact ⟨y0, v, by rw [List.getElem?_set_ne (by omega)]; exact h3, h4, h5,
          fun hlt => by rw [List.getElem?_set_ne (by omega)]; exact h6 hlt,
          fun hlt => by rw [List.getElem?_set_ne (by omega)]; exact h7 hlt⟩) h
  exact ⟨hdown.1, start, hstart, fun j hj => hdown.2 j (by omega) hj⟩

/-! ## The whole computation -/

/-- the outcome for two harmonics and a phase program -/
theorem values_program {L : MathLib K} {a : PArgs K} (hS : Sound L a) {fuel m i0 : ℕ} {t p : ℕ → K}
    (h : interpolateMomentum L a fuel = .ok (tab m t, tab m p)) (hm : 2 ≤ m) (hp : ∀ j, j < m → 0 < p j)
    (hi : a.machineRefFrame * a.dturns = (i0 : ℕ)) (hi0 : i0 < m) {V1 V2 Q1 Q2 : K → K} {h0 h1 : K} {τp q1 q2 : List K}
    (hv1 : npInterp a.voltTime a.volt1 (tab m t) = .ok (tab m fun j => V1 (t j)))
    (hv2 : npInterp a.voltTime a.volt2 (tab m t) = .ok (tab m fun j => V2 (t j)))
    (hh : a.harmonics = [h0, h1]) (hh0 : h0 ≠ 0) (hh1 : h1 ≠ 0) (hph : a.phase = .program τp q1 q2)
    (hq1 : npInterp τp q1 (tab m t) = .ok (tab m fun j => Q1 (t j)))
    (hq2 : npInterp τp q2 (tab m t) = .ok (tab m fun j => Q2 (t j))) :
    ∃ o, turnArrays L a (tab m p) (tab m fun j => V1 (t j)) (tab m fun j => V2 (t j)) (h1 / h0) = .ok o ∧
      valuesAtTurns L a fuel = (do
        let ph ← findSynchronousPhase L a (h1 / h0) o.e0 (tab m fun j => V1 (t j)) (tab m fun j => V2 (t j)) o.bdot
          (.turns (tab m fun j => (Q1 (t j) - Q2 (t j) + L.pi) / (h1 / h0)))
        pure { o with phi12 := some (tab m fun j => (Q1 (t j) - Q2 (t j) + L.pi) / (h1 / h0)), phi0 := ph }) := by
  refine ⟨_, turnArrays_ok hS hm p hp hi hi0 _ _ _, ?_⟩
  unfold valuesAtTurns
  rw [h, bind_ok]
  dsimp only
  rw [hv1, bind_ok]
  have hc : checkArray a = .ok () := by unfold checkArray; rw [hph]
  have hs : secondHarmonic a (tab m t) (tab m fun j => V1 (t j)) = .ok (tab m fun j => V2 (t j), h1 / h0) := by
    unfold secondHarmonic
    rw [hh]
    dsimp only
    rw [if_neg hh0, hv2, bind_ok]
    rfl
  have hd : phaseDifference L a (h1 / h0) (tab m t)
      = .ok (.turns (tab m fun j => (Q1 (t j) - Q2 (t j) + L.pi) / (h1 / h0))) := by
    unfold phaseDifference
    rw [hph]
    dsimp only
    rw [hq1, bind_ok, hh, if_pos (by rfl), hq2, bind_ok, zipWith_tab,
      mapM_tab (f := fun v : K => FDiv.fdiv v (h1 / h0)) (g := fun v => v / (h1 / h0)) m _
        (fun j _ => fdiv_ok (div_ne_zero hh1 hh0)), bind_ok]
    rfl
  rw [hc, bind_ok, hs, bind_ok]
  dsimp only
  rw [turnArrays_ok hS hm p hp hi hi0, bind_ok, hd, bind_ok]

/-- the second voltage for one harmonic is zero -/
theorem second_single {a : PArgs K} {h0 : K} (hh : a.harmonics = [h0]) (m : ℕ) (t : List K) (v : ℕ → K) :
    secondHarmonic a t (tab m v) = .ok (tab m fun _ => 0, 1) := by
  unfold secondHarmonic
  rw [hh]
  dsimp only
  rw [map_tab]

/-- no successful computation with a number or an array for the phase difference -/
theorem values_number {L : MathLib K} {a : PArgs K} {v : K} (hph : a.phase = .number v) (fuel : ℕ) (o : POut K) :
    valuesAtTurns L a fuel ≠ .ok o := by
  intro h
  unfold valuesAtTurns at h
  rw [Asrt.bind_ok_iff] at h
  obtain ⟨⟨t, p⟩, _, h⟩ := h
  dsimp only at h
  rw [Asrt.bind_ok_iff] at h
  obtain ⟨v1, _, h⟩ := h
  rw [Asrt.bind_ok_iff] at h
  obtain ⟨_, _, h⟩ := h
  rw [Asrt.bind_ok_iff] at h
  obtain ⟨⟨v2, r⟩, _, h⟩ := h
  dsimp only at h
  rw [Asrt.bind_ok_iff] at h
  obtain ⟨o', _, h⟩ := h
  have hd : phaseDifference L a r t = .ok (.number v) := by unfold phaseDifference; rw [hph]
  rw [hd, bind_ok] at h
  dsimp only at h
  rw [Asrt.bind_ok_iff] at h
  obtain ⟨ph, h1, _⟩ := h
  unfold findSynchronousPhase at h1
  dsimp only at h1
  rw [Asrt.bind_ok_iff] at h1
  obtain ⟨_, _, h1⟩ := h1
  cases h1

theorem values_array {L : MathLib K} {a : PArgs K} {v : List K} (hph : a.phase = .array v) (fuel : ℕ) (o : POut K) :
    valuesAtTurns L a fuel ≠ .ok o := by
  intro h
  unfold valuesAtTurns at h
  rw [Asrt.bind_ok_iff] at h
  obtain ⟨⟨t, p⟩, _, h⟩ := h
  dsimp only at h
  rw [Asrt.bind_ok_iff] at h
  obtain ⟨v1, _, h⟩ := h
  rw [Asrt.bind_ok_iff] at h
  obtain ⟨_, h1, _⟩ := h
  unfold checkArray at h1
  rw [hph] at h1
  cases h1

end Verif.Prog

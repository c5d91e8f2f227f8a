import Verif.Core.Rnd
import Verif.Model.Tomography

/-!
# Runs in rounded arithmetic and the run in exact arithmetic

`arith` is the filter of ever more accurate floating point units.  The relations below compare a family of values, one per
unit, with the exact value: the family tends to it.  The lemmas lift this through reads, writes, loops and the operations.
-/

namespace Verif.Rounded
open Filter Topology

/-- ever more accurate floating point units -/
def arith : Filter World := ⨅ u : ℝ, ⨅ (_ : 0 < u), 𝓟 {w | w.Accurate u}

theorem arith_basis : arith.HasBasis (fun u : ℝ => 0 < u) (fun u => {w | w.Accurate u}) := by
  apply Filter.hasBasis_biInf_principal'
  · intro u hu v hv
    exact ⟨min u v, lt_min hu hv, fun w hw => hw.mono (min_le_left _ _), fun w hw => hw.mono (min_le_right _ _)⟩
  · exact ⟨1, one_pos⟩

theorem accurate_mem {u : ℝ} (hu : 0 < u) : ∀ᶠ w in arith, w.Accurate u := arith_basis.mem_of_mem hu

/-- computed numbers tend to the exact one -/
def TRel (x : World → ℝ) (y : ℝ) : Prop := Tendsto x arith (𝓝 y)

/-- computed arrays have the right length and their elements tend to the exact ones -/
def LRel (X : World → List ℝ) (Y : List ℝ) : Prop :=
  (∀ᶠ w in arith, (X w).length = Y.length) ∧ ∀ k, TRel (fun w => (X w).getD k 0) (Y.getD k 0)

/-- if the exact computation succeeds, the rounded ones do from some accuracy on, with related results -/
def MRel {A B : Type} (R : (World → A) → B → Prop) (x : World → M A) (y : M B) : Prop :=
  ∀ y', y = .ok y' → ∃ x', (∀ᶠ w in arith, x w = .ok (x' w)) ∧ R x' y'

section monad
variable {A B C D : Type} {R : (World → A) → B → Prop} {S : (World → C) → D → Prop}

theorem MRel.pure {x : World → A} {y : B} (h : R x y) : MRel R (fun w => (Pure.pure (x w) : M A)) (Pure.pure y) := by
  intro y' hy
  cases hy
  exact ⟨x, Eventually.of_forall fun _ => rfl, h⟩

theorem MRel.bind {x : World → M A} {y : M B} {f : World → A → M C} {g : B → M D} (h : MRel R x y)
    (hf : ∀ x' y', R x' y' → MRel S (fun w => f w (x' w)) (g y')) : MRel S (fun w => x w >>= f w) (y >>= g) := by
  intro d hd
  cases hy : y with
  | error e => rw [hy] at hd; cases hd
  | ok y' =>
    rw [hy, bind_ok] at hd
    obtain ⟨x', h1, h2⟩ := h y' hy
    obtain ⟨x'', h3, h4⟩ := hf x' y' h2 d hd
    exact ⟨x'', by filter_upwards [h1, h3] with w e1 e2; rw [e1, bind_ok, e2], h4⟩

/-- a common first step -/
theorem MRel.const {x : M A} {f : World → A → M C} {g : A → M D}
    (hf : ∀ a, x = .ok a → MRel S (fun w => f w a) (g a)) : MRel S (fun w => x >>= f w) (x >>= g) := by
  cases x with
  | error e => intro d hd; cases hd
  | ok a => exact hf a rfl

theorem MRel.forN {n : ℕ} {f : World → ℕ → A → M A} {g : ℕ → B → M B} {s : World → A} {t : B} (h0 : R s t)
    (hs : ∀ i, i < n → ∀ x y, R x y → MRel R (fun w => f w i (x w)) (g i y)) :
    MRel R (fun w => Verif.forN n (f w) (s w)) (Verif.forN n g t) := by
  induction n with
  | zero => exact MRel.pure h0
  | succ n ih =>
    simp only [forN_succ]
    exact MRel.bind (ih fun i hi => hs i (by omega)) (hs n (by omega))

theorem MRel.error {x : World → M A} {e : Fault} : MRel R x (.error e) := by
  intro y hy; cases hy

/-- a test that keeps its outcome when it is passed in the exact run -/
theorem MRel.ite {p : World → Prop} {q : Prop} [∀ w, Decidable (p w)] [Decidable q] {e : Fault} {x : World → M A} {y : M B}
    (hp : ¬ q → ∀ᶠ w in arith, ¬ p w) (h : MRel R x y) :
    MRel R (fun w => if p w then .error e else x w) (if q then .error e else y) := by
  intro y' hy
  by_cases hq : q
  · rw [if_pos hq] at hy; cases hy
  · rw [if_neg hq] at hy
    obtain ⟨x', h1, h2⟩ := h y' hy
    exact ⟨x', by filter_upwards [hp hq, h1] with w e1 e2; rw [if_neg e1, e2], h2⟩

theorem MRel.congr {x x' : World → M A} {y : M B} (h : MRel R x y) (he : ∀ᶠ w in arith, x' w = x w) : MRel R x' y := by
  intro y' hy
  obtain ⟨z, h1, h2⟩ := h y' hy
  exact ⟨z, by filter_upwards [h1, he] with w e1 e2; rw [e2, e1], h2⟩

end monad

/-! ## numbers -/

theorem TRel.const (y : ℝ) : TRel (fun _ => y) y := tendsto_const_nhds

theorem TRel.rnd {x : World → ℝ} {y : ℝ} (h : TRel x y) : TRel (fun w => w.rnd (x w)) y := by
  have he : Tendsto (fun w : World => w.rnd (x w) - x w) arith (𝓝 0) := by
    rw [Metric.tendsto_nhds]
    intro ε hε
    have hb : ∀ᶠ w in arith, |x w - y| < 1 := by
      have := (Metric.tendsto_nhds.mp h) 1 one_pos
      simpa [Real.dist_eq] using this
    have hpos : 0 < |y| + 2 := by positivity
    filter_upwards [hb, accurate_mem (div_pos hε hpos)] with w h1 h2
    rw [Real.dist_eq, sub_zero]
    have hx : |x w| ≤ |y| + 1 := by
      have := abs_sub_abs_le_abs_sub (x w) y
      linarith
    calc |w.rnd (x w) - x w| ≤ ε / (|y| + 2) * |x w| := h2.rnd _
      _ ≤ ε / (|y| + 2) * (|y| + 1) := mul_le_mul_of_nonneg_left hx (div_pos hε hpos).le
      _ < ε := by
        rw [div_mul_eq_mul_div, div_lt_iff₀ hpos]
        nlinarith
  have := Tendsto.add (show Tendsto x arith (𝓝 y) from h) he
  simpa [TRel] using this

theorem TRel.add {x x' : World → ℝ} {y y' : ℝ} (h : TRel x y) (h' : TRel x' y') :
    TRel (fun w => (HAdd.hAdd (α := Rn w) (β := Rn w) (γ := Rn w) (x w) (x' w) : Rn w)) (y + y') :=
  TRel.rnd (x := fun w => x w + x' w) (Tendsto.add h h')

theorem TRel.sub {x x' : World → ℝ} {y y' : ℝ} (h : TRel x y) (h' : TRel x' y') :
    TRel (fun w => (HSub.hSub (α := Rn w) (β := Rn w) (γ := Rn w) (x w) (x' w) : Rn w)) (y - y') :=
  TRel.rnd (x := fun w => x w - x' w) (Tendsto.sub h h')

theorem TRel.mul {x x' : World → ℝ} {y y' : ℝ} (h : TRel x y) (h' : TRel x' y') :
    TRel (fun w => (HMul.hMul (α := Rn w) (β := Rn w) (γ := Rn w) (x w) (x' w) : Rn w)) (y * y') :=
  TRel.rnd (x := fun w => x w * x' w) (Tendsto.mul h h')

theorem TRel.ne {x : World → ℝ} {y c : ℝ} (h : TRel x y) (hy : y ≠ c) : ∀ᶠ w in arith, x w ≠ c :=
  Tendsto.eventually_ne h hy

theorem TRel.pos {x : World → ℝ} {y : ℝ} (h : TRel x y) (hy : 0 < y) : ∀ᶠ w in arith, 0 < x w :=
  Tendsto.eventually_const_lt hy h

theorem TRel.fdiv {x x' : World → ℝ} {y y' : ℝ} (h : TRel x y) (h' : TRel x' y') :
    MRel TRel (fun w => (FDiv.fdiv (α := Rn w) (x w) (x' w) : M (Rn w))) (FDiv.fdiv y y') := by
  intro z hz
  by_cases hy : y' = 0
  · simp [FDiv.fdiv, hy] at hz
  · simp only [FDiv.fdiv, if_neg hy, Except.ok.injEq] at hz
    subst hz
    refine ⟨fun w => w.rnd (x w / x' w), ?_, TRel.rnd (Tendsto.div h h' hy)⟩
    filter_upwards [h'.ne hy] with w hw
    exact if_neg hw

theorem TRel.natCast (n : ℕ) : TRel (fun w => ((n : Rn w) : Rn w)) (n : ℝ) := TRel.rnd (TRel.const _)

theorem TRel.sqrt {x : World → ℝ} {y : ℝ} (h : TRel x y) (hx : ∀ᶠ w in arith, 0 ≤ x w) :
    TRel (fun w => w.sqrt (x w)) (Real.sqrt y) := by
  have hs : Tendsto (fun w => Real.sqrt (x w)) arith (𝓝 (Real.sqrt y)) :=
    (Real.continuous_sqrt.tendsto y).comp h
  have he : Tendsto (fun w : World => w.sqrt (x w) - Real.sqrt (x w)) arith (𝓝 0) := by
    rw [Metric.tendsto_nhds]
    intro ε hε
    have hb : ∀ᶠ w in arith, |Real.sqrt (x w) - Real.sqrt y| < 1 := by
      have := (Metric.tendsto_nhds.mp hs) 1 one_pos
      simpa [Real.dist_eq] using this
    have h0 := Real.sqrt_nonneg y
    have hpos : 0 < Real.sqrt y + 2 := by positivity
    filter_upwards [hb, hx, accurate_mem (div_pos hε hpos)] with w h1 h2 h3
    rw [Real.dist_eq, sub_zero]
    have hle : Real.sqrt (x w) ≤ Real.sqrt y + 1 := by
      have := (abs_lt.mp h1).2
      linarith
    calc |w.sqrt (x w) - Real.sqrt (x w)| ≤ ε / (Real.sqrt y + 2) * Real.sqrt (x w) := h3.sqrt _ h2
      _ ≤ ε / (Real.sqrt y + 2) * (Real.sqrt y + 1) := mul_le_mul_of_nonneg_left hle (div_pos hε hpos).le
      _ < ε := by
        rw [div_mul_eq_mul_div, div_lt_iff₀ hpos]
        nlinarith
  have := Tendsto.add hs he
  simpa [TRel] using this

theorem TRel.sin {x : World → ℝ} {y : ℝ} (h : TRel x y) : TRel (fun w => w.sin (x w)) (Real.sin y) := by
  have hs : Tendsto (fun w => Real.sin (x w)) arith (𝓝 (Real.sin y)) :=
    (Real.continuous_sin.tendsto y).comp h
  have he : Tendsto (fun w : World => w.sin (x w) - Real.sin (x w)) arith (𝓝 0) := by
    rw [Metric.tendsto_nhds]
    intro ε hε
    have hb : ∀ᶠ w in arith, |x w - y| < 1 := by
      have := (Metric.tendsto_nhds.mp h) 1 one_pos
      simpa [Real.dist_eq] using this
    have hpos : 0 < |y| + 1 := by positivity
    have hu : 0 < min (ε / 2) (1 / (|y| + 1)) := lt_min (half_pos hε) (div_pos one_pos hpos)
    filter_upwards [hb, accurate_mem hu] with w h1 h2
    rw [Real.dist_eq, sub_zero]
    have hx : |x w| ≤ |y| + 1 := by
      have := abs_sub_abs_le_abs_sub (x w) y
      linarith
    have hr : |x w| * min (ε / 2) (1 / (|y| + 1)) ≤ 1 := by
      calc |x w| * min (ε / 2) (1 / (|y| + 1)) ≤ (|y| + 1) * (1 / (|y| + 1)) :=
            mul_le_mul hx (min_le_right _ _) hu.le hpos.le
        _ = 1 := by field_simp
    calc |w.sin (x w) - Real.sin (x w)| ≤ min (ε / 2) (1 / (|y| + 1)) := h2.sin _ hr
      _ ≤ ε / 2 := min_le_left _ _
      _ < ε := by linarith
  have := Tendsto.add hs he
  simpa [TRel] using this

/-! ## arrays -/

theorem LRel.const (L : List ℝ) : LRel (fun _ => L) L :=
  ⟨Eventually.of_forall fun _ => rfl, fun _ => TRel.const _⟩

theorem rd_ok {β : Type} {L : List β} {i : Int} {v : β} (h : rd L i = .ok v) : 0 ≤ i ∧ L[i.toNat]? = some v := by
  unfold rd at h
  split at h
  · rename_i h0
    cases hg : L[i.toNat]? with
    | none => rw [hg] at h; cases h
    | some w => rw [hg] at h; cases h; exact ⟨h0, rfl⟩
  · cases h

theorem LRel.rd {X : World → List ℝ} {Y : List ℝ} (h : LRel X Y) (i : Int) :
    MRel TRel (fun w => Verif.rd (X w) i) (Verif.rd Y i) := by
  intro y hy
  obtain ⟨h0, hg⟩ := rd_ok hy
  have hlt : i.toNat < Y.length := (List.getElem?_eq_some_iff.mp hg).1
  refine ⟨fun w => (X w).getD i.toNat 0, ?_, ?_⟩
  · filter_upwards [h.1] with w hw
    unfold Verif.rd
    rw [if_pos h0, List.getD_eq_getElem?_getD, List.getElem?_eq_getElem (by omega)]
    rfl
  · have : Y.getD i.toNat 0 = y := by rw [List.getD_eq_getElem?_getD, hg]; rfl
    rw [← this]
    exact h.2 _

theorem LRel.upd {X : World → List ℝ} {Y : List ℝ} (h : LRel X Y) (i : Int) {x : World → ℝ} {y : ℝ} (hx : TRel x y) :
    MRel LRel (fun w => Verif.upd (X w) i (x w)) (Verif.upd Y i y) := by
  intro Y' hY
  unfold Verif.upd at hY
  split at hY
  · rename_i hi
    cases hY
    refine ⟨fun w => (X w).set i.toNat (x w), ?_, ?_, ?_⟩
    · filter_upwards [h.1] with w hw
      unfold Verif.upd
      rw [if_pos ⟨hi.1, by omega⟩]
    · filter_upwards [h.1] with w hw
      simpa using hw
    · intro k
      by_cases hk : k = i.toNat
      · subst hk
        have e : (Y.set i.toNat y).getD i.toNat 0 = y := by
          rw [List.getD_eq_getElem?_getD, List.getElem?_set_self hi.2]; rfl
        rw [e]
        refine Tendsto.congr' ?_ hx
        filter_upwards [h.1] with w hw
        rw [List.getD_eq_getElem?_getD, List.getElem?_set_self (by omega)]; rfl
      · have e : ∀ (L : List ℝ) v, (L.set i.toNat v).getD k 0 = L.getD k 0 := by
          intro L v
          rw [List.getD_eq_getElem?_getD, List.getElem?_set_ne (fun h => hk h.symm), ← List.getD_eq_getElem?_getD]
        simp only [e]
        exact h.2 k
  · cases hY

/-- all elements at once -/
theorem LRel.close {X : World → List ℝ} {Y : List ℝ} (h : LRel X Y) {ε : ℝ} (hε : 0 < ε) :
    ∀ᶠ w in arith, (X w).length = Y.length ∧ ∀ k, k < Y.length → |(X w).getD k 0 - Y.getD k 0| < ε := by
  have : ∀ᶠ w in arith, ∀ k ∈ Finset.range Y.length, |(X w).getD k 0 - Y.getD k 0| < ε := by
    rw [Filter.eventually_all_finset]
    intro k _
    have := (Metric.tendsto_nhds.mp (h.2 k)) ε hε
    simpa [Real.dist_eq] using this
  filter_upwards [h.1, this] with w h1 h2
  exact ⟨h1, fun k hk => h2 k (Finset.mem_range.mpr hk)⟩

/-! ## the routines of the reconstruction -/

theorem rd_const {S : (World → List ℝ) → List ℝ → Prop} (L : List Int) (i : Int) {f : World → Int → M (List ℝ)}
    {g : Int → M (List ℝ)} (hf : ∀ a, MRel S (fun w => f w a) (g a)) :
    MRel S (fun w => Verif.rd L i >>= f w) (Verif.rd L i >>= g) := MRel.const fun a _ => hf a

theorem rel_backProject {W P : World → List ℝ} {W' P' : List ℝ} (hW : LRel W W') (hP : LRel P P') (fp : List Int)
    (npart nprof : ℕ) :
    MRel LRel (fun w => (Recon.backProject (α := Rn w) (W w) fp (P w) npart nprof : M (List (Rn w))))
      (Recon.backProject W' fp P' npart nprof) := by
  unfold Recon.backProject
  refine MRel.forN hW fun i _ X Y hXY => ?_
  refine MRel.forN hXY fun j _ X Y hXY => ?_
  refine rd_const fp _ fun a => ?_
  refine MRel.bind (hP.rd a) fun v v' hv => ?_
  refine MRel.bind (hXY.rd _) fun u u' hu => ?_
  exact hXY.upd _ (hu.add hv)

theorem rel_project {F W : World → List ℝ} {F' W' : List ℝ} (hF : LRel F F') (hW : LRel W W') (fp : List Int)
    (npart nprof : ℕ) :
    MRel LRel (fun w => (Recon.project (α := Rn w) (F w) fp (W w) npart nprof : M (List (Rn w))))
      (Recon.project F' fp W' npart nprof) := by
  unfold Recon.project
  refine MRel.forN hF fun i _ X Y hXY => ?_
  refine MRel.forN hXY fun j _ X Y hXY => ?_
  refine rd_const fp _ fun a => ?_
  refine MRel.bind (hXY.rd a) fun v v' hv => ?_
  refine MRel.bind (hW.rd _) fun u u' hu => ?_
  exact hXY.upd _ (hv.add hu)

/-- pairs -/
def PRel (X : World → List ℝ × ℝ) (Y : List ℝ × ℝ) : Prop := LRel (fun w => (X w).1) Y.1 ∧ TRel (fun w => (X w).2) Y.2

theorem rel_normalize {F : World → List ℝ} {F' : List ℝ} (hF : LRel F F') (nprof nbins : ℕ) :
    MRel LRel (fun w => (Recon.normalize (α := Rn w) (F w) nprof nbins : M (List (Rn w))))
      (Recon.normalize F' nprof nbins) := by
  unfold Recon.normalize
  refine MRel.bind (R := PRel) (MRel.forN (R := PRel) ⟨hF, TRel.const 0⟩ fun i _ X Y hXY => ?_) fun x y hxy => ?_
  · refine MRel.bind (R := TRel) (MRel.forN (TRel.const 0) fun j _ s s' hs => ?_) fun s s' hs => ?_
    · exact MRel.bind (hXY.1.rd _) fun v v' hv => MRel.pure (hs.add hv)
    · refine MRel.bind (R := LRel) (MRel.forN hXY.1 fun j _ A B hAB => ?_) fun A B hAB => ?_
      · refine MRel.bind (hAB.rd _) fun v v' hv => ?_
        exact MRel.bind (hv.fdiv hs) fun q q' hq => hAB.upd _ hq
      · exact MRel.pure (R := PRel) (x := fun w => (A w, _)) ⟨hAB, hXY.2.add hs⟩
  · refine MRel.ite (p := fun w => (x w).2 ≤ 0) (q := y.2 ≤ 0) (fun hq => ?_) (MRel.pure hxy.1)
    filter_upwards [hxy.2.pos (not_le.mp hq)] with w hw
    exact not_le.mpr hw

theorem clip_step (a : List ℝ) (i : Int) (c : ℝ) :
    (Verif.rd a i >>= fun v => if v < c then Verif.upd a i c else pure a)
      = (Verif.rd a i >>= fun v => Verif.upd a i (max v c)) := by
  cases h : Verif.rd a i with
  | error e => rfl
  | ok v =>
    simp only [bind_ok]
    by_cases hv : v < c
    · rw [if_pos hv, max_eq_right hv.le]
    · rw [if_neg hv, max_eq_left (not_lt.mp hv)]
      obtain ⟨h0, hg⟩ := rd_ok h
      have hlt := (List.getElem?_eq_some_iff.mp hg)
      unfold Verif.upd
      rw [if_pos ⟨h0, hlt.1⟩, ← hlt.2, List.set_getElem_self]
      rfl

theorem rel_clip {F : World → List ℝ} {F' : List ℝ} (hF : LRel F F') (n : ℕ) :
    MRel LRel (fun w => (Recon.clip (α := Rn w) (F w) n 0 : M (List (Rn w)))) (Recon.clip F' n 0) := by
  unfold Recon.clip
  refine MRel.forN hF fun i _ X Y hXY => ?_
  have e : ∀ w, (Verif.rd (X w) (i : Int) >>= fun v : Rn w => if v < 0 then Verif.upd (X w) (i : Int) (0 : Rn w) else pure (X w))
      = (Verif.rd (X w) (i : Int) >>= fun v => Verif.upd (X w) (i : Int) (max v (0 : ℝ))) := fun w => clip_step (X w) i 0
  rw [clip_step]
  refine MRel.congr (x := fun w => Verif.rd (X w) (i : Int) >>= fun v => Verif.upd (X w) (i : Int) (max v (0 : ℝ))) ?_
    (Eventually.of_forall e)
  exact MRel.bind (hXY.rd _) fun v v' hv => hXY.upd _ (Tendsto.max hv (TRel.const 0))

theorem rel_findDifference {D F P : World → List ℝ} {D' F' P' : List ℝ} (hD : LRel D D') (hF : LRel F F') (hP : LRel P P')
    (n : ℕ) :
    MRel LRel (fun w => (Recon.findDifferenceProfile (α := Rn w) (D w) (F w) (P w) n : M (List (Rn w))))
      (Recon.findDifferenceProfile D' F' P' n) := by
  unfold Recon.findDifferenceProfile
  refine MRel.forN hD fun i _ X Y hXY => ?_
  refine MRel.bind (hP.rd _) fun v v' hv => ?_
  refine MRel.bind (hF.rd _) fun u u' hu => ?_
  exact hXY.upd _ (hv.sub hu)

theorem rel_compensate {D P : World → List ℝ} {D' P' : List ℝ} (hD : LRel D D') (hP : LRel P P') (nprof nbins : ℕ) :
    MRel LRel (fun w => (Recon.compensate (α := Rn w) (D w) (P w) nprof nbins : M (List (Rn w))))
      (Recon.compensate D' P' nprof nbins) := by
  unfold Recon.compensate
  refine MRel.forN hD fun i _ X Y hXY => ?_
  refine MRel.forN hXY fun j _ X Y hXY => ?_
  refine MRel.bind (hXY.rd _) fun v v' hv => ?_
  refine MRel.bind (hP.rd _) fun u u' hu => ?_
  exact hXY.upd _ (hv.mul hu)

theorem rel_sum {F : World → List ℝ} {F' : List ℝ} (hF : LRel F F') (n : ℕ) :
    MRel TRel (fun w => (Recon.sum (α := Rn w) (F w) n : M (Rn w))) (Recon.sum F' n) := by
  unfold Recon.sum
  refine MRel.forN (TRel.const 0) fun i _ x y hxy => ?_
  exact MRel.bind (hF.rd _) fun v v' hv => MRel.pure (hxy.add hv)

/-- rounding keeps the sign -/
theorem rnd_nonneg {w : World} {u x : ℝ} (h : w.Accurate u) (hu : u ≤ 1) (hx : 0 ≤ x) : 0 ≤ w.rnd x := by
  have := (abs_le.mp (h.rnd x)).1
  rw [abs_of_nonneg hx] at this
  nlinarith

/-- numbers that are not negative -/
def NRel (x : World → ℝ) (y : ℝ) : Prop := TRel x y ∧ ∀ᶠ w in arith, 0 ≤ x w

theorem rel_discrepancy {D : World → List ℝ} {D' : List ℝ} (hD : LRel D D') (nprof nbins : ℕ) :
    MRel TRel (fun w => (Recon.discrepancy (α := Rn w) w.sqrt (D w) nprof nbins : M (Rn w)))
      (Recon.discrepancy Real.sqrt D' nprof nbins) := by
  unfold Recon.discrepancy
  refine MRel.bind (R := NRel) (MRel.forN (R := NRel) ⟨TRel.const 0, Eventually.of_forall fun _ => le_refl (0 : ℝ)⟩
    fun i _ x y hxy => ?_) fun x y hxy => ?_
  · refine MRel.bind (hD.rd _) fun v v' hv => MRel.pure (R := NRel) ⟨hxy.1.add (hv.mul hv), ?_⟩
    filter_upwards [hxy.2, accurate_mem one_pos] with w h0 hw
    exact rnd_nonneg hw le_rfl (add_nonneg h0 (rnd_nonneg hw le_rfl (mul_self_nonneg _)))
  · refine MRel.bind (S := TRel) (f := fun w q => (pure (w.sqrt q) : M ℝ)) (g := fun q => pure (Real.sqrt q))
      (R := NRel) (x := fun w => (FDiv.fdiv (α := Rn w) (x w) ((nprof * nbins : ℕ) : Rn w) : M (Rn w)))
      (y := FDiv.fdiv y ((nprof * nbins : ℕ) : ℝ)) ?_ ?_
    · intro q hq
      obtain ⟨q', h1, h2⟩ := (hxy.1.fdiv (TRel.natCast (nprof * nbins))) q hq
      refine ⟨q', h1, h2, ?_⟩
      filter_upwards [h1, hxy.2, accurate_mem one_pos] with w e1 e2 hw
      have e3 : (if w.rnd ((nprof * nbins : ℕ) : ℝ) = 0 then (.error .nonFinite : M ℝ) else
          .ok (w.rnd (x w / w.rnd ((nprof * nbins : ℕ) : ℝ)))) = .ok (q' w) := e1
      split at e3
      · cases e3
      · rw [← Except.ok.inj e3]
        exact rnd_nonneg hw le_rfl (div_nonneg e2 (rnd_nonneg hw le_rfl (Nat.cast_nonneg _)))
    · intro q q' hq
      exact MRel.pure (hq.1.sqrt hq.2)

/-! counts are exact -/

theorem forN_congr_inv {σ : Type} {n : ℕ} {f g : ℕ → σ → M σ} {s : σ} (P : ℕ → σ → Prop) (h0 : P 0 s)
    (he : ∀ i s, i < n → P i s → f i s = g i s) (hp : ∀ i s s', i < n → P i s → g i s = .ok s' → P (i + 1) s') :
    Verif.forN n f s = Verif.forN n g s := by
  induction n with
  | zero => rfl
  | succ n ih =>
    rw [forN_succ, forN_succ, ih (fun i s hi => he i s (by omega)) (fun i s s' hi => hp i s s' (by omega))]
    cases h : Verif.forN n g s with
    | error e => rfl
    | ok t =>
      simp only [bind_ok]
      refine he n t (by omega) ?_
      exact forN_post P h0 (fun i a b hi => hp i a b (by omega)) h

/-- all elements are integers up to `b` -/
def Counts (b : ℕ) (l : List ℝ) : Prop := ∀ v ∈ l, ∃ k : ℕ, v = k ∧ k ≤ b

theorem Counts.mono {b c : ℕ} {l : List ℝ} (h : Counts b l) (hbc : b ≤ c) : Counts c l := fun v hv => by
  obtain ⟨k, h1, h2⟩ := h v hv
  exact ⟨k, h1, h2.trans hbc⟩

theorem count_step {l l' : List ℝ} {b : ℕ} (h : Counts b l) (i : Int)
    (hl : (Verif.rd l i >>= fun c => Verif.upd l i (c + 1)) = .ok l') : Counts (b + 1) l' := by
  cases hr : Verif.rd l i with
  | error e => rw [hr] at hl; cases hl
  | ok c =>
    rw [hr, bind_ok] at hl
    obtain ⟨h0, hg⟩ := rd_ok hr
    unfold Verif.upd at hl
    split at hl
    · cases hl
      intro v hv
      rcases List.mem_or_eq_of_mem_set hv with hv | hv
      · exact (h.mono (by omega)) v hv
      · obtain ⟨k, h1, h2⟩ := h c (List.mem_of_getElem? hg)
        exact ⟨k + 1, by rw [hv, h1]; push_cast; ring, by omega⟩
    · cases hl

theorem count_step_rnd {w : World} {u : ℝ} (hw : w.Accurate u) {l : List ℝ} {b : ℕ} (h : Counts b l)
    (hu : 0 ≤ u) (hb : ((b + 1 : ℕ) : ℝ) * u ≤ 1) (i : Int) :
    (Verif.rd l i >>= fun c => Verif.upd l i (w.rnd (c + 1))) = (Verif.rd l i >>= fun c => Verif.upd l i (c + 1)) := by
  cases hr : Verif.rd l i with
  | error e => rfl
  | ok c =>
    obtain ⟨h0, hg⟩ := rd_ok hr
    obtain ⟨k, h1, h2⟩ := h c (List.mem_of_getElem? hg)
    simp only [bind_ok]
    congr 1
    have : c + 1 = ((k + 1 : ℕ) : ℝ) := by rw [h1]; push_cast; ring
    rw [this]
    apply hw.exact
    refine le_trans (mul_le_mul_of_nonneg_right ?_ hu) hb
    exact_mod_cast (by omega : k + 1 ≤ b + 1)

theorem count_exact {w : World} {u : ℝ} (hw : w.Accurate u) (hu : 0 ≤ u) {nprof npart : ℕ}
    (hb : ((npart * nprof : ℕ) : ℝ) * u ≤ 1) (nbins : ℕ) (xp : List Int) {l : List ℝ} (hl : Counts 0 l) :
    (Recon.countParticlesInBin (α := Rn w) l xp nprof npart nbins : M (List (Rn w)))
      = Recon.countParticlesInBin l xp nprof npart nbins := by
  unfold Recon.countParticlesInBin
  have inner : ∀ i s s' (j : ℕ), i < npart → j < nprof → Counts (i * nprof + j) s →
      (Verif.rd xp ((i * nprof + j : ℕ) : Int) >>= fun bin => Verif.rd s ((j * nbins : ℕ) + bin) >>= fun c =>
        Verif.upd s ((j * nbins : ℕ) + bin) (c + 1)) = .ok s' → Counts (i * nprof + (j + 1)) s' := by
    intro i s s' j hi hj hs h
    cases hx : Verif.rd xp ((i * nprof + j : ℕ) : Int) with
    | error e => rw [hx] at h; cases h
    | ok bin =>
      rw [hx, bind_ok] at h
      exact count_step hs _ h
  refine forN_congr_inv (σ := List ℝ) (fun i s => Counts (i * nprof) s) (by simpa using hl) ?_ ?_
  · intro i s hi hs
    refine forN_congr_inv (σ := List ℝ) (fun j s => Counts (i * nprof + j) s) (by simpa using hs) ?_
      (fun j s s' hj => inner i s s' j hi hj)
    intro j s hj hs
    cases hx : Verif.rd xp ((i * nprof + j : ℕ) : Int) with
    | error e => rfl
    | ok bin =>
      refine count_step_rnd hw hs hu (le_trans (mul_le_mul_of_nonneg_right ?_ hu) hb) _
      have h1 : i * nprof + j + 1 ≤ npart * nprof := by
        calc i * nprof + j + 1 ≤ i * nprof + nprof := by omega
          _ = (i + 1) * nprof := by ring
          _ ≤ npart * nprof := Nat.mul_le_mul_right _ (by omega)
      exact_mod_cast h1
  · intro i s s' hi hs h
    have := forN_post (fun j s => Counts (i * nprof + j) s) (by simpa using hs)
      (fun j a b hj ha hab => inner i a b j hi hj ha hab) h
    have e : (i + 1) * nprof = i * nprof + nprof := by ring
    rw [e]; exact this

theorem rel_takeReciprocal {m : World → ℝ} {m' : ℝ} (hm : TRel m m') {R : World → List ℝ} {R' : List ℝ} (hR : LRel R R')
    (nprof nbins : ℕ) :
    MRel LRel (fun w => (Recon.takeReciprocal (α := Rn w) (m w) (R w) nprof nbins : M (List (Rn w))))
      (Recon.takeReciprocal m' R' nprof nbins) := by
  unfold Recon.takeReciprocal
  refine MRel.forN hR fun i _ X Y hXY => ?_
  refine MRel.forN hXY fun j _ X Y hXY => ?_
  refine MRel.bind (hXY.rd _) fun v v' hv => ?_
  exact MRel.bind (hm.fdiv hv) fun q q' hq => hXY.upd _ hq

theorem rel_reciprocal (xp : List Int) (nbins nprof npart : ℕ) :
    MRel LRel (fun w => (Recon.reciprocalParticles (α := Rn w) (tab (nprof * nbins) fun _ => 0) xp nbins nprof npart :
        M (List (Rn w))))
      (Recon.reciprocalParticles (α := ℝ) (tab (nprof * nbins) fun _ => 0) xp nbins nprof npart) := by
  have hc : ∀ᶠ w in arith, (Recon.reciprocalParticles (α := Rn w) (tab (nprof * nbins) fun _ => 0) xp nbins nprof npart :
      M (List (Rn w))) = (Recon.countParticlesInBin (α := ℝ) (tab (nprof * nbins) fun _ => 0) xp nprof npart nbins >>=
        fun r => Recon.max1d (α := ℝ) r (nprof * nbins) >>= fun m => Recon.zerosToOnes (α := ℝ) r (nprof * nbins) >>= fun r =>
          (Recon.takeReciprocal (α := Rn w) m r nprof nbins : M (List (Rn w)))) := by
    have hpos : (0 : ℝ) < 1 / ((npart * nprof : ℕ) + 1) := by positivity
    filter_upwards [accurate_mem hpos] with w hw
    have h0 : Counts 0 (tab (nprof * nbins) fun _ => (0 : ℝ)) := by
      intro v hv
      simp only [tab, List.mem_map] at hv
      obtain ⟨_, _, rfl⟩ := hv
      exact ⟨0, by simp, le_rfl⟩
    have := count_exact hw hpos.le (nprof := nprof) (npart := npart) (by
      rw [mul_one_div, div_le_one (by positivity)]; linarith) nbins xp h0
    exact congrArg (fun c : M (List ℝ) => c >>= fun r => Recon.max1d (α := ℝ) r (nprof * nbins) >>= fun m =>
      Recon.zerosToOnes (α := ℝ) r (nprof * nbins) >>= fun r =>
        (Recon.takeReciprocal (α := Rn w) m r nprof nbins : M (List (Rn w)))) this
  refine MRel.congr ?_ hc
  unfold Recon.reciprocalParticles
  refine MRel.const fun r _ => MRel.const fun m _ => MRel.const fun r' _ => ?_
  exact rel_takeReciprocal (TRel.const m) (LRel.const r') nprof nbins

/-! ## the run -/

theorem rel_firstStep {W F : World → List ℝ} {W' F' : List ℝ} (hW : LRel W W') (hF : LRel F F') (fp : List Int)
    (npart nprof : ℕ) :
    MRel LRel (fun w => (Recon.firstStep (α := Rn w) (W w) fp (F w) npart nprof : M (List (Rn w))))
      (Recon.firstStep W' fp F' npart nprof) := by
  unfold Recon.firstStep
  refine MRel.bind (rel_backProject hW hF fp npart nprof) fun a a' ha => ?_
  refine MRel.bind (rel_clip ha npart) fun b b' hb => ?_
  refine MRel.bind (rel_sum hb npart) fun t t' ht => ?_
  refine MRel.ite (fun hq => ?_) (MRel.pure hb)
  exact (ht.pos (not_le.mp hq)).mono fun w hw => not_le.mpr hw

/-- the arrays of the caller -/
def SRel (X : World → Recon.RState ℝ) (Y : Recon.RState ℝ) : Prop :=
  LRel (fun w => (X w).weights) Y.weights ∧ LRel (fun w => (X w).flatRec) Y.flatRec ∧ LRel (fun w => (X w).discr) Y.discr

theorem LRel.zeros (n : ℕ) : LRel (fun w => (tab n fun _ => (0 : Rn w) : List (Rn w))) (tab n fun _ => 0) :=
  LRel.const (tab n fun _ => (0 : ℝ))

theorem rel_iterBody {F R : World → List ℝ} {F' R' : List ℝ} (hF : LRel F F') (hR : LRel R R') (fp : List Int)
    (nbins npart nprof k : ℕ) {X : World → Recon.RState ℝ} {Y : Recon.RState ℝ} (h : SRel X Y) :
    MRel SRel (fun w => (Recon.iterBody (α := Rn w) w.sqrt fp (F w) (R w) nbins npart nprof k (X w) : M (Recon.RState (Rn w))))
      (Recon.iterBody Real.sqrt fp F' R' nbins npart nprof k Y) := by
  obtain ⟨h1, h2, h3⟩ := h
  unfold Recon.iterBody
  refine MRel.bind (rel_project h2 h1 fp npart nprof) fun a a' ha => ?_
  refine MRel.bind (rel_normalize ha nprof nbins) fun b b' hb => ?_
  refine MRel.bind (rel_findDifference (LRel.zeros _) hb hF _) fun c c' hc => ?_
  refine MRel.bind (rel_discrepancy hc nprof nbins) fun d d' hd => ?_
  refine MRel.bind (h3.upd _ hd) fun e e' he => ?_
  refine MRel.bind (rel_compensate hc hR nprof nbins) fun f f' hf => ?_
  refine MRel.bind (rel_backProject h1 hf fp npart nprof) fun g g' hg => ?_
  refine MRel.bind (rel_clip hg npart) fun i i' hi => ?_
  refine MRel.bind (rel_sum hi npart) fun t t' ht => ?_
  refine MRel.ite (fun hq => ?_) (MRel.pure ⟨hi, hb, he⟩)
  exact (ht.pos (not_le.mp hq)).mono fun w hw => not_le.mpr hw

theorem rel_finalStep {F : World → List ℝ} {F' : List ℝ} (hF : LRel F F') (fp : List Int)
    (nbins npart nprof k : ℕ) {X : World → Recon.RState ℝ} {Y : Recon.RState ℝ} (h : SRel X Y) :
    MRel SRel (fun w => (Recon.finalStep (α := Rn w) w.sqrt fp (F w) nbins npart nprof k (X w) : M (Recon.RState (Rn w))))
      (Recon.finalStep Real.sqrt fp F' nbins npart nprof k Y) := by
  obtain ⟨h1, h2, h3⟩ := h
  unfold Recon.finalStep
  refine MRel.bind (rel_project h2 h1 fp npart nprof) fun a a' ha => ?_
  refine MRel.bind (rel_normalize ha nprof nbins) fun b b' hb => ?_
  refine MRel.bind (rel_findDifference (LRel.zeros _) hb hF _) fun c c' hc => ?_
  refine MRel.bind (rel_discrepancy hc nprof nbins) fun d d' hd => ?_
  refine MRel.bind (h3.upd _ hd) fun e e' he => ?_
  exact MRel.pure ⟨h1, hb, he⟩

section plain
variable {α : Type} [Add α] [Sub α] [Mul α] [Zero α] [One α] [NatCast α] [LT α] [LE α] [DecidableLT α] [DecidableLE α]
  [DecidableEq α] [FDiv α]

theorem iterLoop_result (body : ℕ → Recon.RState α → M (Recon.RState α)) (niter k : ℕ) (st : Recon.RState α) :
    (Recon.iterLoop body niter k st).2 = Verif.forN k body st := by
  induction k with
  | zero => rfl
  | succ k ih =>
    rw [forN_succ, ← ih, Recon.iterLoop]
    rcases h : Recon.iterLoop body niter k st with ⟨log, e | st'⟩
    · rfl
    · simp only [bind_ok]
      cases body k st' <;> rfl

theorem reconstructOn_result (sqrt : α → α) (st : Recon.RState α) (xp : List Int) (wf : List α) (niter nbins npart nprof : ℕ) :
    (Recon.reconstructOn sqrt st xp wf niter nbins npart nprof).2
      = (Recon.reciprocalParticles (tab (nprof * nbins) fun _ => (0 : α)) xp nbins nprof npart >>= fun r =>
          Recon.createFlatPoints xp npart nprof nbins >>= fun fp =>
          Recon.firstStep st.weights fp wf npart nprof >>= fun w =>
          Verif.forN niter (Recon.iterBody sqrt fp wf r nbins npart nprof) { st with weights := w } >>= fun st' =>
          Recon.finalStep sqrt fp wf nbins npart nprof niter st') := by
  unfold Recon.reconstructOn Recon.prepare
  cases h1 : Recon.reciprocalParticles (tab (nprof * nbins) fun _ => (0 : α)) xp nbins nprof npart with
  | error e => rfl
  | ok r =>
    simp only [bind_ok]
    cases h2 : Recon.createFlatPoints xp npart nprof nbins with
    | error e => rfl
    | ok fp =>
      simp only [bind_ok, pure_eq_ok]
      cases h3 : Recon.firstStep st.weights fp wf npart nprof with
      | error e => rfl
      | ok w =>
        simp only [bind_ok]
        rw [← iterLoop_result _ niter niter]
        rcases h4 : Recon.iterLoop (Recon.iterBody sqrt fp wf r nbins npart nprof) niter niter { st with weights := w } with
          ⟨log, e | st'⟩
        · rfl
        · simp only [bind_ok]
          cases Recon.finalStep sqrt fp wf nbins npart nprof niter st' <;> rfl

end plain

theorem rel_reconstructOn {F : World → List ℝ} {F' : List ℝ} (hF : LRel F F') (xp : List Int)
    (niter nbins npart nprof : ℕ) {X : World → Recon.RState ℝ} {Y : Recon.RState ℝ} (h : SRel X Y) :
    MRel SRel (fun w => ((Recon.reconstructOn (α := Rn w) w.sqrt (X w) xp (F w) niter nbins npart nprof).2 :
        M (Recon.RState (Rn w))))
      (Recon.reconstructOn Real.sqrt Y xp F' niter nbins npart nprof).2 := by
  rw [reconstructOn_result]
  refine MRel.congr ?_ (Eventually.of_forall fun w =>
    reconstructOn_result (α := Rn w) w.sqrt (X w) xp (F w) niter nbins npart nprof)
  refine MRel.bind (rel_reciprocal xp nbins nprof npart) fun r r' hr => ?_
  refine MRel.const fun fp _ => ?_
  refine MRel.bind (rel_firstStep h.1 hF fp npart nprof) fun a a' ha => ?_
  refine MRel.bind (R := SRel) (MRel.forN ⟨ha, h.2⟩ fun i _ X Y hXY => rel_iterBody hF hr fp nbins npart nprof i hXY) fun s s' hs => ?_
  exact rel_finalStep hF fp nbins npart nprof niter hs

end Verif.Rounded

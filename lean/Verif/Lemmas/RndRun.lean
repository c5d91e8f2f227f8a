import Verif.Lemmas.RndTrack
import Verif.Spec.Rnd

/-!
# A whole run in rounded arithmetic
-/

namespace Verif.Rounded
open Filter Topology

/-! ## lists, element by element -/

/-- the lists have, from some accuracy on, the length of the exact one, and related elements -/
def GRel {A B : Type} (R : (World → A) → B → Prop) : (World → List A) → List B → Prop
  | X, [] => ∀ᶠ w in arith, X w = []
  | X, y :: ys => ∃ x xs, (∀ᶠ w in arith, X w = x w :: xs w) ∧ R x y ∧ GRel R xs ys

section
variable {A B C D : Type} {R : (World → A) → B → Prop} {S : (World → C) → D → Prop}

theorem GRel.congr {X X' : World → List A} {Y : List B} (h : GRel R X Y) (he : ∀ᶠ w in arith, X' w = X w) : GRel R X' Y := by
  cases Y with
  | nil =>
    have h : ∀ᶠ w in arith, X w = [] := h
    show ∀ᶠ w in arith, X' w = []
    filter_upwards [h, he] with w h1 h2
    rw [h2, h1]
  | cons y ys =>
    obtain ⟨x, xs, h1, h2, h3⟩ := h
    exact ⟨x, xs, by filter_upwards [h1, he] with w e1 e2; rw [e2, e1], h2, h3⟩

theorem mapM_cons_M {A B : Type} (f : A → M B) (a : A) (l : List A) :
    (a :: l).mapM f = (f a >>= fun b => l.mapM f >>= fun bs => pure (b :: bs)) := List.mapM_cons

theorem GRel.mapM {X : World → List A} {Y : List B} (h : GRel R X Y) {f : World → A → M C} {g : B → M D}
    (hf : ∀ x y, R x y → MRel S (fun w => f w (x w)) (g y)) :
    MRel (GRel S) (fun w => (X w).mapM (f w)) (Y.mapM g) := by
  induction Y generalizing X with
  | nil =>
    have h : ∀ᶠ w in arith, X w = [] := h
    refine MRel.congr (x := fun _ => pure []) (MRel.pure (R := GRel S) (Eventually.of_forall fun _ => rfl)) ?_
    filter_upwards [h] with w hw
    rw [hw]; rfl
  | cons y ys ih =>
    obtain ⟨x, xs, h1, h2, h3⟩ := h
    rw [mapM_cons_M]
    refine MRel.congr (x := fun w => f w (x w) >>= fun b => (xs w).mapM (f w) >>= fun bs => pure (b :: bs)) ?_ ?_
    · refine MRel.bind (hf x y h2) fun b b' hb => ?_
      refine MRel.bind (ih h3) fun bs bs' hbs => ?_
      exact MRel.pure (R := GRel S) ⟨b, bs, Eventually.of_forall fun _ => rfl, hb, hbs⟩
    · filter_upwards [h1] with w hw
      rw [hw, mapM_cons_M]

/-- with the positions -/
theorem GRel.zipIdx {X : World → List A} {Y : List B} (h : GRel R X Y) (n : ℕ) :
    GRel (fun (p : World → A × ℕ) (q : B × ℕ) => R (fun w => (p w).1) q.1 ∧ ∀ w, (p w).2 = q.2)
      (fun w => (X w).zipIdx n) (Y.zipIdx n) := by
  induction Y generalizing X n with
  | nil =>
    have h : ∀ᶠ w in arith, X w = [] := h
    exact h.mono fun w hw => by show (X w).zipIdx n = []; rw [hw]; rfl
  | cons y ys ih =>
    obtain ⟨x, xs, h1, h2, h3⟩ := h
    exact ⟨fun w => (x w, n), fun w => (xs w).zipIdx (n + 1), h1.mono fun w hw => by show (X w).zipIdx n = _; rw [hw]; rfl, ⟨h2, fun _ => rfl⟩, ih h3 (n + 1)⟩

/-- a test of the elements that has, from some accuracy on, the exact outcome -/
theorem GRel.map_eq {X : World → List A} {Y : List B} {E : Type} {f : A → E} {g : B → E} (h : GRel R X Y)
    (hf : ∀ x y, y ∈ Y → R x y → ∀ᶠ w in arith, f (x w) = g y) : ∀ᶠ w in arith, (X w).map f = Y.map g := by
  induction Y generalizing X with
  | nil =>
    have h : ∀ᶠ w in arith, X w = [] := h
    exact h.mono fun w hw => by rw [hw]; rfl
  | cons y ys ih =>
    obtain ⟨x, xs, h1, h2, h3⟩ := h
    filter_upwards [h1, hf x y (by simp) h2, ih h3 fun x y hy => hf x y (by simp [hy])] with w e1 e2 e3
    rw [e1, List.map_cons, e2, e3, List.map_cons]

end

theorem GRel.mono_rel {A B : Type} {R R' : (World → A) → B → Prop} {X : World → List A} {Y : List B} (h : GRel R X Y)
    (hR : ∀ x y, R x y → R' x y) : GRel R' X Y := by
  induction Y generalizing X with
  | nil => exact h
  | cons y ys ih =>
    obtain ⟨x, xs, h1, h2, h3⟩ := h
    exact ⟨x, xs, h1, hR _ _ h2, ih h3⟩

/-! ## arrays of numbers -/

theorem LRel.tail {X : World → List ℝ} {y : ℝ} {ys : List ℝ} (h : LRel X (y :: ys)) : LRel (fun w => (X w).tail) ys := by
  refine ⟨h.1.mono fun w hw => by simp [hw], fun k => ?_⟩
  have := h.2 (k + 1)
  simpa [List.getD_eq_getElem?_getD] using this

theorem LRel.toG {X : World → List ℝ} {Y : List ℝ} (h : LRel X Y) : GRel TRel X Y := by
  induction Y generalizing X with
  | nil => exact h.1.mono fun w hw => List.length_eq_zero_iff.mp hw
  | cons y ys ih =>
    refine ⟨fun w => (X w).getD 0 0, fun w => (X w).tail, ?_, ?_, ih h.tail⟩
    · filter_upwards [h.1] with w hw
      cases hX : X w with
      | nil => rw [hX] at hw; simp at hw
      | cons a l => simp
    · have := h.2 0
      simpa using this

theorem GRel.toL {X : World → List ℝ} {Y : List ℝ} (h : GRel TRel X Y) : LRel X Y := by
  induction Y generalizing X with
  | nil =>
    have h : ∀ᶠ w in arith, X w = [] := h
    refine ⟨h.mono fun w hw => by rw [hw], fun k => ?_⟩
    refine Tendsto.congr' ?_ (TRel.const 0)
    filter_upwards [h] with w hw
    rw [hw]; simp
  | cons y ys ih =>
    obtain ⟨x, xs, h1, h2, h3⟩ := h
    have h3 := ih h3
    refine ⟨?_, fun k => ?_⟩
    · filter_upwards [h1, h3.1] with w e1 e2
      rw [e1, List.length_cons, e2, List.length_cons]
    · cases k with
      | zero =>
        refine Tendsto.congr' ?_ (show Tendsto x arith (𝓝 y) from h2)
        filter_upwards [h1] with w e1
        rw [e1]; simp
      | succ k =>
        have h4 : Tendsto (fun w => (xs w).getD k 0) arith (𝓝 (ys.getD k 0)) := h3.2 k
        show Tendsto _ arith (𝓝 ((y :: ys).getD (k + 1) 0))
        rw [List.getD_cons_succ]
        refine Tendsto.congr' ?_ h4
        filter_upwards [h1] with w e1
        rw [e1, List.getD_cons_succ]

theorem LLRel.toG {X : World → List (List ℝ)} {Y : List (List ℝ)} (h : LLRel X Y) : GRel LRel X Y := by
  induction Y generalizing X with
  | nil => exact h.1.mono fun w hw => List.length_eq_zero_iff.mp hw
  | cons y ys ih =>
    refine ⟨fun w => (X w).getD 0 [], fun w => (X w).tail, ?_, ?_, ih ⟨?_, fun k => ?_⟩⟩
    · filter_upwards [h.1] with w hw
      cases hX : X w with
      | nil => rw [hX] at hw; simp at hw
      | cons a l => simp
    · have := h.2 0
      simpa using this
    · exact h.1.mono fun w hw => by simp [hw]
    · have := h.2 (k + 1)
      simpa [List.getD_eq_getElem?_getD] using this

theorem LRel.npGet {X : World → List ℝ} {Y : List ℝ} (h : LRel X Y) (i : Int) :
    MRel TRel (fun w => Verif.npGet (X w) i) (Verif.npGet Y i) := by
  intro y hy
  unfold Verif.npGet at hy
  dsimp only at hy
  obtain ⟨k, hk⟩ : ∃ k, k = if i < 0 then i + (Y.length : Int) else i := ⟨_, rfl⟩
  rw [← hk] at hy
  by_cases h0 : 0 ≤ k
  · rw [if_pos h0] at hy
    cases hv : Y[k.toNat]? with
    | none => rw [hv] at hy; cases hy
    | some v =>
      rw [hv] at hy
      cases hy
      refine ⟨fun w => (X w).getD k.toNat 0, ?_, ?_⟩
      · filter_upwards [h.1] with w hw
        have hlt : k.toNat < (X w).length := by
          rw [hw]; exact (List.getElem?_eq_some_iff.mp hv).1
        unfold Verif.npGet
        dsimp only
        rw [hw, ← hk, if_pos h0, List.getElem?_eq_getElem hlt, List.getD_eq_getElem?_getD, List.getElem?_eq_getElem hlt]
        rfl
      · have := h.2 k.toNat
        rwa [show Y.getD k.toNat 0 = y by rw [List.getD_eq_getElem?_getD, hv]; rfl] at this
  · rw [if_neg h0] at hy; cases hy

/-! ## conversion to coordinates -/

/-- the attributes of the machine used for the conversion -/
structure AreaRel (m : World → Psi.Area ℝ) (m' : Psi.Area ℝ) : Prop where
  phi0 : LRel (fun w => (m w).phi0) m'.phi0
  omegaRev0 : LRel (fun w => (m w).omegaRev0) m'.omegaRev0
  hNum : TRel (fun w => (m w).hNum) m'.hNum
  dtbin : TRel (fun w => (m w).dtbin) m'.dtbin
  synchPartY : TRel (fun w => (m w).synchPartY) m'.synchPartY
  dturns : ∀ w, (m w).dturns = m'.dturns
  nbins : ∀ w, (m w).nbins = m'.nbins

/-- two-dimensional arrays -/
def ARel (X : World → Arr2 ℝ) (Y : Arr2 ℝ) : Prop := (∀ w, (X w).cols = Y.cols) ∧ GRel (GRel TRel) (fun w => (X w).rows) Y.rows

theorem GRel.length {A B : Type} {R : (World → A) → B → Prop} {X : World → List A} {Y : List B} (h : GRel R X Y) :
    ∀ᶠ w in arith, (X w).length = Y.length := by
  have := h.map_eq (f := fun _ => ()) (g := fun _ => ()) fun _ _ _ _ => Eventually.of_forall fun _ => rfl
  filter_upwards [this] with w hw
  have := congrArg List.length hw
  simpa using this

/-- the two arrays of coordinates -/
def CRel (X : World → Arr2 ℝ × Arr2 ℝ) (Y : Arr2 ℝ × Arr2 ℝ) : Prop := ARel (fun w => (X w).1) Y.1 ∧ ARel (fun w => (X w).2) Y.2

theorem rel_physicalToCoords {m : World → Psi.Area ℝ} {m' : Psi.Area ℝ} (hm : AreaRel m m') {xo dE : World → ℝ} {xo' dE' : ℝ}
    (hx : TRel xo xo') (hE : TRel dE dE') {P Q : World → Arr2 ℝ} {P' Q' : Arr2 ℝ} (hP : ARel P P') (hQ : ARel Q Q') :
    MRel CRel
      (fun w => (Part.physicalToCoords (K := Rn w) (m w) (xo w) (dE w) (P w) (Q w) : M (Arr2 (Rn w) × Arr2 (Rn w))))
      (Part.physicalToCoords m' xo' dE' P' Q') := by
  unfold Part.physicalToCoords
  refine MRel.ite (fun hq => ?_) ?_
  · filter_upwards [hP.2.length, hQ.2.length] with w h1 h2
    intro hc
    apply hq
    rcases hc with hc | hc
    · exact Or.inl fun he => hc (h1.trans (he.trans h2.symm))
    · exact Or.inr fun he => hc ((hP.1 w).trans (he.trans (hQ.1 w).symm))
  · simp only [hm.dturns]
    refine MRel.bind (R := GRel (GRel TRel)) ?_ fun X Y hXY => ?_
    · refine (hP.2.zipIdx 0).mapM fun p q hpq => ?_
      obtain ⟨h1, h2⟩ := hpq
      simp only [h2]
      refine MRel.bind (hm.phi0.npGet _) fun a a' ha => ?_
      refine MRel.bind (hm.omegaRev0.npGet _) fun b b' hb => ?_
      refine h1.mapM fun v v' hv => ?_
      refine MRel.bind ((hv.add ha).fdiv ((hm.hNum.mul hb).mul hm.dtbin)) fun c c' hc => ?_
      exact MRel.pure (hc.sub hx)
    · refine MRel.bind (R := GRel (GRel TRel)) ?_ fun X2 Y2 hXY2 => ?_
      · refine hQ.2.mapM fun p q hpq => hpq.mapM fun v v' hv => ?_
        exact MRel.bind (hv.fdiv hE) fun c c' hc => MRel.pure (hc.add hm.synchPartY)
      · exact MRel.pure ⟨⟨hP.1, hXY⟩, ⟨hQ.1, hXY2⟩⟩

/-! ## bins -/

theorem filterMap_mask_map {A B : Type} (f : A → B) (mask : List Bool) (row : List A) :
    ((row.map f).zip mask).filterMap (fun p => if p.2 then some p.1 else none)
      = ((row.zip mask).filterMap fun p => if p.2 then some p.1 else none).map f := by
  induction row generalizing mask with
  | nil => rfl
  | cons a l ih =>
    cases mask with
    | nil => rfl
    | cons b bs =>
      cases b <;> simp [ih bs]

theorem maskRow_map {A B : Type} (f : A → B) (mask : List Bool) (row : List A) :
    maskRow mask (row.map f) = (maskRow mask row >>= fun r => pure (r.map f)) := by
  unfold maskRow
  rw [List.length_map]
  split
  · rw [filterMap_mask_map]; rfl
  · rfl

theorem mapM_maskRow_map {A B : Type} (f : A → B) (mask : List Bool) (rows : List (List A)) :
    (rows.map fun r => r.map f).mapM (maskRow mask) = (rows.mapM (maskRow mask) >>= fun rs => pure (rs.map fun r => r.map f)) := by
  induction rows with
  | nil => rfl
  | cons r rs ih =>
    rw [List.map_cons, mapM_cons_M, mapM_cons_M, ih, maskRow_map]
    cases maskRow mask r with
    | error e => rfl
    | ok a =>
      simp only [bind_ok, pure_eq_ok]
      cases rs.mapM (maskRow mask) <;> rfl

theorem maskCols_map {A B : Type} (f : A → B) (mask : List Bool) (a : Arr2 A) :
    (a.map f).maskCols mask = (a.maskCols mask >>= fun b => pure (b.map f)) := by
  unfold Arr2.maskCols Arr2.map
  dsimp only
  split
  · rw [mapM_maskRow_map]
    cases a.rows.mapM (maskRow mask) <;> rfl
  · rfl

/-- `ready` sees of the coordinates only which are outside and their integer parts -/
def readyD (bad : Arr2 Bool) (x y : Arr2 Int) : M (Arr2 Int × Arr2 Int) := do
  let invalid := Part.argwhere bad.rows
  let (x, y) ← (if invalid.length > 0 then do
      let inv := Part.npUnique x.cols (invalid.map Prod.snd)
      let mask := (List.range x.cols).map fun j => !inv.contains j
      let x ← x.maskCols mask
      let y ← y.maskCols mask
      pure (x, y)
    else pure (x, y))
  if x.size = 0 then .error (.exc .invalidParticle) else do
    let x ← x.transpose
    let y ← y.transpose
    pure (x, y)

theorem size_map {A B : Type} (f : A → B) (a : Arr2 A) : (a.map f).size = a.size := by
  simp [Arr2.size, Arr2.map]

theorem ready_eq (x y : Arr2 ℝ) (nbins : ℕ) :
    Run.ready x y nbins = readyD (x.map fun v => decide ((nbins : ℝ) ≤ v) || decide (v < 0)) (x.map Psi.trunc) (y.map Psi.trunc) := by
  unfold Run.ready readyD Part.filterLost
  dsimp only
  split
  · rw [maskCols_map, maskCols_map]
    show (_ >>= _ : M _) = _
    have hc : (x.map (Psi.trunc (K := ℝ))).cols = x.cols := rfl
    rw [hc]
    generalize (List.map _ (List.range x.cols)) = mask
    cases x.maskCols mask with
    | error e => rfl
    | ok a =>
      simp only [bind_ok, pure_eq_ok]
      cases y.maskCols mask with
      | error e => rfl
      | ok b =>
        simp only [bind_ok, size_map]
        split <;> rfl
  · simp only [bind_ok, pure_eq_ok, size_map]
    split <;> rfl

theorem rel_ready {X Y : World → Arr2 ℝ} {X' Y' : Arr2 ℝ} (hX : ARel X X') (hY : ARel Y Y') (nbins : ℕ)
    (hx : ∀ r ∈ X'.rows, ∀ v ∈ r, ∀ z : ℤ, v ≠ z) (hy : ∀ r ∈ Y'.rows, ∀ v ∈ r, ∀ z : ℤ, v ≠ z) :
    ∀ᶠ w in arith, Run.ready (X w) (Y w) nbins = Run.ready X' Y' nbins := by
  have map_ev : ∀ {E : Type} (f : ℝ → E) (Z : World → Arr2 ℝ) (Z' : Arr2 ℝ), ARel Z Z' →
      (∀ r ∈ Z'.rows, ∀ v ∈ r, ∀ᶠ t in 𝓝 v, f t = f v) → ∀ᶠ w in arith, (Z w).map f = Z'.map f := by
    intro E f Z Z' hZ hf
    have h1 := hZ.2.map_eq (f := fun r => r.map f) (g := fun r => r.map f) fun x y hy hxy =>
      hxy.map_eq fun a b hb hab => Tendsto.eventually hab (hf y hy b hb)
    filter_upwards [h1] with w hw
    unfold Arr2.map
    rw [hw, hZ.1 w]
  have trunc_const : ∀ v : ℝ, (∀ z : ℤ, v ≠ z) → ∀ᶠ t in 𝓝 v, Psi.trunc t = Psi.trunc v := by
    intro v hv
    have h0 : v ≠ 0 := by have := hv 0; simpa using this
    rcases lt_or_gt_of_ne h0 with hneg | hpos
    · have h1 : (⌈v⌉ : ℝ) - 1 < v := by have := Int.ceil_lt_add_one v; linarith
      have h2 : v < (⌈v⌉ : ℝ) := lt_of_le_of_ne (Int.le_ceil v) (hv _)
      filter_upwards [lt_mem_nhds h1, gt_mem_nhds h2, gt_mem_nhds hneg] with t a b c
      unfold Psi.trunc
      rw [if_neg (not_le.mpr c), if_neg (not_le.mpr hneg)]
      exact Int.ceil_eq_iff.mpr ⟨a, b.le⟩
    · have h1 : (⌊v⌋ : ℝ) < v := lt_of_le_of_ne (Int.floor_le v) (Ne.symm (hv _))
      filter_upwards [lt_mem_nhds h1, gt_mem_nhds (Int.lt_floor_add_one v), lt_mem_nhds hpos] with t a b c
      unfold Psi.trunc
      rw [if_pos (le_of_lt c), if_pos hpos.le]
      exact Int.floor_eq_iff.mpr ⟨a.le, b⟩
  have bad_const : ∀ v : ℝ, (∀ z : ℤ, v ≠ z) →
      ∀ᶠ t in 𝓝 v, (decide ((nbins : ℝ) ≤ t) || decide (t < 0)) = (decide ((nbins : ℝ) ≤ v) || decide (v < 0)) := by
    intro v hv
    have h0 : v ≠ 0 := by have := hv 0; simpa using this
    have hn : v ≠ (nbins : ℝ) := by have := hv nbins; simpa using this
    have e1 : ∀ᶠ t in 𝓝 v, ((nbins : ℝ) ≤ t ↔ (nbins : ℝ) ≤ v) := by
      rcases lt_or_gt_of_ne hn with h | h
      · filter_upwards [gt_mem_nhds h] with t ht
        exact ⟨fun h' => absurd ht (not_lt.mpr h'), fun h' => absurd h (not_lt.mpr h')⟩
      · filter_upwards [lt_mem_nhds h] with t ht
        exact ⟨fun _ => h.le, fun _ => le_of_lt ht⟩
    have e2 : ∀ᶠ t in 𝓝 v, (t < 0 ↔ v < 0) := by
      rcases lt_or_gt_of_ne h0 with h | h
      · filter_upwards [gt_mem_nhds h] with t ht
        exact ⟨fun _ => h, fun _ => ht⟩
      · filter_upwards [lt_mem_nhds h] with t ht
        exact ⟨fun h' => absurd ht (not_lt.mpr h'.le), fun h' => absurd h (not_lt.mpr h'.le)⟩
    filter_upwards [e1, e2] with t a b
    rw [decide_eq_decide.mpr a, decide_eq_decide.mpr b]
  have hb := map_ev (fun v => decide ((nbins : ℝ) ≤ v) || decide (v < 0)) X X' hX fun r hr v hv => bad_const v (hx r hr v hv)
  have htx := map_ev Psi.trunc X X' hX fun r hr v hv => trunc_const v (hx r hr v hv)
  have hty := map_ev Psi.trunc Y Y' hY fun r hr v hv => trunc_const v (hy r hr v hv)
  filter_upwards [hb, htx, hty] with w a b c
  rw [ready_eq, ready_eq, a, b, c]

/-! ## the waterfall -/

theorem LRel.mapf {X : World → List ℝ} {Y : List ℝ} (h : LRel X Y) {f : ℝ → ℝ} (hf : Continuous f) (h0 : f 0 = 0) :
    LRel (fun w => (X w).map f) (Y.map f) := by
  have e : ∀ (l : List ℝ) k, (l.map f).getD k 0 = f (l.getD k 0) := fun l k => by
    simp only [List.getD_eq_getElem?_getD, List.getElem?_map]
    cases l[k]? with
    | none => simp [h0]
    | some v => rfl
  refine ⟨h.1.mono fun w hw => by simpa using hw, fun k => ?_⟩
  simp only [e]
  exact (hf.tendsto _).comp (h.2 k)

theorem clip_max (l : List ℝ) : Tomo.npClip0 l = l.map fun v => max v 0 := by
  unfold Tomo.npClip0
  refine List.map_congr_left fun v _ => ?_
  by_cases hv : v < 0
  · rw [if_pos hv, max_eq_right hv.le]
  · rw [if_neg hv, max_eq_left (not_lt.mp hv)]

theorem rel_npClip0 {X : World → List ℝ} {Y : List ℝ} (h : LRel X Y) :
    LRel (fun w => (Tomo.npClip0 (α := Rn w) (X w) : List (Rn w))) (Tomo.npClip0 Y) := by
  rw [clip_max]
  have : LRel (fun w => (X w).map fun v => max v 0) (Y.map fun v => max v 0) :=
    h.mapf (continuous_id.max continuous_const) (by simp)
  have e : (fun w => (Tomo.npClip0 (α := Rn w) (X w) : List (Rn w))) = (fun w => (X w).map fun v => max v 0) :=
    funext fun w => clip_max (X w)
  rw [e]; exact this

theorem LRel.snoc {X : World → List ℝ} {Y : List ℝ} (h : LRel X Y) {x : World → ℝ} {y : ℝ} (hx : TRel x y) :
    LRel (fun w => X w ++ [x w]) (Y ++ [y]) := by
  refine ⟨h.1.mono fun w hw => by simp [hw], fun k => ?_⟩
  rcases lt_trichotomy k Y.length with hk | hk | hk
  · have : (Y ++ [y]).getD k 0 = Y.getD k 0 := by
      simp only [List.getD_eq_getElem?_getD, List.getElem?_append_left hk]
    rw [this]
    refine Tendsto.congr' ?_ (h.2 k)
    filter_upwards [h.1] with w hw
    simp only [List.getD_eq_getElem?_getD, List.getElem?_append_left (show k < (X w).length by omega)]
  · have : (Y ++ [y]).getD k 0 = y := by simp [List.getD_eq_getElem?_getD, hk]
    rw [this]
    refine Tendsto.congr' ?_ hx
    filter_upwards [h.1] with w hw
    simp [List.getD_eq_getElem?_getD, hk, ← hw]
  · have : (Y ++ [y]).getD k 0 = 0 := by
      rw [List.getD_eq_getElem?_getD, List.getElem?_eq_none (by simp; omega)]; rfl
    rw [this]
    refine Tendsto.congr' ?_ (TRel.const 0)
    filter_upwards [h.1] with w hw
    rw [List.getD_eq_getElem?_getD, List.getElem?_eq_none (by simp; omega)]; rfl

theorem rel_rowSums {X : World → List ℝ} {Y : List ℝ} (h : LRel X Y) (nprof nbins : ℕ) :
    MRel LRel (fun w => (Tomo.rowSums (α := Rn w) (X w) nprof nbins : M (List (Rn w)))) (Tomo.rowSums Y nprof nbins) := by
  unfold Tomo.rowSums
  refine MRel.forN (LRel.const []) fun i _ A B hAB => ?_
  refine MRel.bind (R := TRel) (MRel.forN (TRel.const 0) fun j _ s t hst => ?_) fun s t hst => MRel.pure (hAB.snoc hst)
  exact MRel.bind (h.rd _) fun v v' hv => MRel.pure (hst.add hv)

theorem rel_normalizeProfiles {X : World → List ℝ} {Y : List ℝ} (h : LRel X Y) (nprof nbins : ℕ) :
    MRel LRel (fun w => (Tomo.normalizeProfiles (α := Rn w) (X w) nprof nbins : M (List (Rn w))))
      (Tomo.normalizeProfiles Y nprof nbins) := by
  unfold Tomo.normalizeProfiles
  by_cases hany : (Y.any fun v => v ≠ 0) = true
  · rw [if_pos hany]
    have hev : ∀ᶠ w in arith, ((X w).any fun v => decide (v ≠ (0 : ℝ))) = true := by
      obtain ⟨v, hv, hv0⟩ := List.any_eq_true.mp hany
      obtain ⟨k, hk, rfl⟩ := List.getElem_of_mem hv
      have hne : Y.getD k 0 ≠ 0 := by
        rw [List.getD_eq_getElem?_getD, List.getElem?_eq_getElem hk]
        simpa using hv0
      filter_upwards [(h.2 k).ne hne, h.1] with w e1 e2
      rw [List.any_eq_true]
      refine ⟨(X w)[k]'(by omega), List.getElem_mem _, ?_⟩
      rw [List.getD_eq_getElem?_getD, List.getElem?_eq_getElem (by omega)] at e1
      simpa using e1
    refine MRel.congr (x := fun w => (do
      let sums ← Tomo.rowSums (α := Rn w) (X w) nprof nbins
      Verif.forN nprof (fun i (W : List (Rn w)) =>
        Verif.forN nbins (fun j (W : List (Rn w)) => do
          let v ← Verif.rd W ((i * nbins + j : Nat) : Int)
          let s ← Verif.rd sums (i : Int)
          let q ← FDiv.fdiv v s
          Verif.upd W ((i * nbins + j : Nat) : Int) q) W) (X w) : M (List (Rn w)))) ?_ ?_
    · refine MRel.bind (rel_rowSums h nprof nbins) fun S S' hS => ?_
      refine MRel.forN h fun i _ A B hAB => MRel.forN hAB fun j _ A B hAB => ?_
      refine MRel.bind (hAB.rd _) fun v v' hv => ?_
      refine MRel.bind (hS.rd _) fun s s' hs => ?_
      exact MRel.bind (hv.fdiv hs) fun q q' hq => hAB.upd _ hq
    · filter_upwards [hev] with w hw
      exact if_pos hw
  · rw [if_neg hany]
    exact MRel.error

theorem rel_initWaterfall {X : World → List ℝ} {Y : List ℝ} (h : LRel X Y) (nprof nbins : ℕ) :
    MRel LRel (fun w => (Tomo.initWaterfall (α := Rn w) (X w) nprof nbins : M (List (Rn w))))
      (Tomo.initWaterfall Y nprof nbins) := rel_normalizeProfiles (rel_npClip0 h) nprof nbins

/-! ## the run -/

/-- the `Tomography` object after a run -/
def ORel (X : World → Run.TomoOut ℝ) (Y : Run.TomoOut ℝ) : Prop :=
  LRel (fun w => (X w).waterfall) Y.waterfall ∧ SRel (fun w => (X w).st) Y.st

theorem rel_reconstruct {F : World → List ℝ} {F' : List ℝ} (hF : LRel F F') (xp : List Int) (niter nbins npart nprof : ℕ) :
    MRel SRel (fun w => ((Recon.reconstruct (α := Rn w) w.sqrt xp (F w) niter nbins npart nprof).2 : M (Recon.RState (Rn w))))
      (Recon.reconstruct Real.sqrt xp F' niter nbins npart nprof).2 :=
  rel_reconstructOn hF xp niter nbins npart nprof
    (X := fun w => ⟨(tab npart fun _ => (0 : Rn w) : List (Rn w)), (tab (nprof * nbins) fun _ => (0 : Rn w) : List (Rn w)),
      (tab (niter + 1) fun _ => (0 : Rn w) : List (Rn w))⟩)
    ⟨LRel.zeros _, LRel.zeros _, LRel.zeros _⟩

theorem rel_tomogram {W : World → Arr2 ℝ} {W' : Arr2 ℝ} (hW : LRel (fun w => (W w).flatten) W'.flatten)
    (hc : ∀ w, (W w).cols = W'.cols) (hr : ∀ w, (W w).rows.length = W'.rows.length) (x y : Arr2 Int) (niter : ℕ) :
    MRel ORel (fun w => (Run.tomogram (K := Rn w) w.sqrt (W w) x y niter : M (Run.TomoOut (Rn w))))
      (Run.tomogram Real.sqrt W' x y niter) := by
  have e : ∀ w, (Run.tomogram (K := Rn w) w.sqrt (W w) x y niter : M (Run.TomoOut (Rn w))) = (do
      let F ← (Tomo.initWaterfall (α := Rn w) (W w).flatten W'.rows.length W'.cols : M (List (Rn w)))
      match Tomo.coordInit W'.rows.length W'.cols (Run.pyArray x) (Run.pyArray y) with
      | .error e => .error (.exc e)
      | .ok t =>
        match t.xp, t.nparts with
        | some (_, xs), some n => do
          let st ← (Recon.reconstruct (α := Rn w) w.sqrt xs F niter W'.cols n W'.rows.length).2
          pure ⟨F, st⟩
        | _, _ => .error (.exc .coordinateError)) := fun w => by
    have h1 : Arr2.cols (α := Rn w) (W w) = W'.cols := hc w
    have h2 : List.length (α := List (Rn w)) (Arr2.rows (α := Rn w) (W w)) = W'.rows.length := hr w
    unfold Run.tomogram
    rw [h1, h2]
    rfl
  refine MRel.congr ?_ (Eventually.of_forall e)
  unfold Run.tomogram
  refine MRel.bind (rel_initWaterfall hW _ _) fun F F' hF => ?_
  cases Tomo.coordInit W'.rows.length W'.cols (Run.pyArray x) (Run.pyArray y) with
  | error e => exact MRel.error
  | ok t =>
    dsimp only
    cases t.xp with
    | none => exact MRel.error
    | some p =>
      cases t.nparts with
      | none => exact MRel.error
      | some n =>
        refine MRel.bind (rel_reconstruct hF p.2 niter _ n _) fun s s' hs => ?_
        exact MRel.pure ⟨hF, hs⟩

theorem rnd_zero {w : World} {u : ℝ} (h : w.Accurate u) : w.rnd 0 = 0 := by
  have := h.rnd 0
  simpa using this

theorem LRel.round (L : List ℝ) : LRel (fun w => roundAll w L) L := by
  refine ⟨Eventually.of_forall fun w => by simp [roundAll], fun k => ?_⟩
  refine Tendsto.congr' ?_ (TRel.rnd (TRel.const (L.getD k 0)))
  filter_upwards [accurate_mem one_pos] with w hw
  unfold roundAll
  rw [List.getD_eq_getElem?_getD, List.getD_eq_getElem?_getD, List.getElem?_map]
  cases L[k]? with
  | none => exact rnd_zero hw
  | some v => rfl

theorem MachRel.round (m : Track.Mach ℝ) : MachRel (fun w => roundMach w m) m :=
  ⟨LRel.round _, LRel.round _, LRel.round _, LRel.round _, LRel.round _, LRel.round _, TRel.rnd (TRel.const _)⟩

theorem AreaRel.round (a : Psi.Area ℝ) : AreaRel (fun w => roundArea w a) a :=
  ⟨LRel.round _, LRel.round _, TRel.rnd (TRel.const _), TRel.rnd (TRel.const _), TRel.rnd (TRel.const _), fun _ => rfl, fun _ => rfl⟩

theorem flatten_roundArr (w : World) (a : Arr2 ℝ) : (roundArr w a).flatten = roundAll w a.flatten := by
  unfold roundArr Arr2.flatten roundAll
  rw [List.map_flatten]

theorem rel_userCoords (tm : Track.Mach ℝ) (a : Psi.Area ℝ) (xo dE : ℝ) (nprofiles recprof deltaturn : Int) (dphi denergy : List ℝ) :
    MRel CRel (fun w => (Run.userCoords (K := Rn w) w.sin (roundMach w tm) (roundArea w a) (w.rnd xo) (w.rnd dE) nprofiles recprof
        deltaturn (roundAll w dphi) (roundAll w denergy) : M (Arr2 (Rn w) × Arr2 (Rn w))))
      (Run.userCoords Real.sin tm a xo dE nprofiles recprof deltaturn dphi denergy) := by
  unfold Run.userCoords
  refine MRel.bind (rel_trackArray (MachRel.round tm) nprofiles a.dturns recprof deltaturn (LRel.round denergy) (LRel.round dphi)
    fun w => by simp [roundAll]) fun X Y hXY => ?_
  refine rel_physicalToCoords (AreaRel.round a) (TRel.rnd (TRel.const xo)) (TRel.rnd (TRel.const dE))
    (P := fun w => ⟨(roundAll w dphi).length, (X w).1⟩) (Q := fun w => ⟨(roundAll w dphi).length, (X w).2⟩)
    (P' := ⟨dphi.length, Y.1⟩) (Q' := ⟨dphi.length, Y.2⟩) ⟨fun w => by simp [roundAll], ?_⟩ ⟨fun w => by simp [roundAll], ?_⟩
  · exact GRel.mono_rel (LLRel.toG hXY.1) fun x y h => h.toG
  · exact GRel.mono_rel (LLRel.toG hXY.2) fun x y h => h.toG

/-- the bins are the same, the reconstruction is near -/
def RunRel (X : World → (Arr2 Int × Arr2 Int) × Run.TomoOut ℝ) (Y : (Arr2 Int × Arr2 Int) × Run.TomoOut ℝ) : Prop :=
  (∀ w, (X w).1 = Y.1) ∧ ORel (fun w => (X w).2) Y.2

theorem rel_fromDistribution (tm : Track.Mach ℝ) (a : Psi.Area ℝ) (xo dE : ℝ) (nprofiles recprof deltaturn : Int)
    (dphi denergy : List ℝ) (wf : Arr2 ℝ) (niter : ℕ)
    (hoff : ∀ x y, Run.userCoords Real.sin tm a xo dE nprofiles recprof deltaturn dphi denergy = .ok (x, y) → OffGrid x ∧ OffGrid y) :
    MRel RunRel (fun w => (Run.fromDistribution (K := Rn w) w.sin w.sqrt (Run.ready (K := ℝ)) (roundMach w tm) (roundArea w a)
        (w.rnd xo) (w.rnd dE) nprofiles recprof deltaturn (roundAll w dphi) (roundAll w denergy) (roundArr w wf) niter :
          M ((Arr2 Int × Arr2 Int) × Run.TomoOut (Rn w))))
      (Run.fromDistribution Real.sin Real.sqrt Run.ready tm a xo dE nprofiles recprof deltaturn dphi denergy wf niter) := by
  unfold Run.fromDistribution
  intro z hz
  cases hu : Run.userCoords Real.sin tm a xo dE nprofiles recprof deltaturn dphi denergy with
  | error e => rw [hu] at hz; cases hz
  | ok xy =>
    obtain ⟨x, y⟩ := xy
    obtain ⟨ox, oy⟩ := hoff x y hu
    obtain ⟨X, h1, h2, h3⟩ := rel_userCoords tm a xo dE nprofiles recprof deltaturn dphi denergy (x, y) hu
    have hready := rel_ready h2 h3 a.nbins ox oy
    rw [hu, bind_ok] at hz
    have key : MRel RunRel (fun w => Run.ready x y a.nbins >>= fun b => Run.tomogram (K := Rn w) w.sqrt (roundArr w wf) b.1 b.2 niter >>=
        fun o => pure ((b.1, b.2), o)) (Run.ready x y a.nbins >>= fun b => Run.tomogram Real.sqrt wf b.1 b.2 niter >>=
        fun o => pure ((b.1, b.2), o)) := by
      refine MRel.const fun b _ => ?_
      refine MRel.bind (rel_tomogram (W := fun w => roundArr w wf) ?_ (fun _ => rfl) (fun w => by simp [roundArr]) b.1 b.2 niter)
        fun o o' ho => MRel.pure ⟨fun _ => rfl, ho⟩
      simp only [flatten_roundArr]
      exact LRel.round _
    obtain ⟨z', k1, k2⟩ := key z hz
    refine ⟨z', ?_, k2⟩
    filter_upwards [h1, hready, k1] with w e1 e2 e3
    have e1' : (Run.userCoords (K := Rn w) w.sin (roundMach w tm) (roundArea w a) (w.rnd xo) (w.rnd dE) nprofiles recprof
        deltaturn (roundAll w dphi) (roundAll w denergy) : M (Arr2 (Rn w) × Arr2 (Rn w))) = .ok (X w) := e1
    rw [e1']
    refine Eq.trans ?_ e3
    exact congrArg (fun r : M (Arr2 Int × Arr2 Int) => r >>= fun b =>
      Run.tomogram (K := Rn w) w.sqrt (roundArr w wf) b.1 b.2 niter >>= fun o => pure ((b.1, b.2), o)) e2

end Verif.Rounded

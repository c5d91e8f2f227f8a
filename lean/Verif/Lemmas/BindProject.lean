import Verif.Model.BindProject
import Verif.Spec.BindProject
import Verif.Lemmas.Bind

/-!
# Lemmas about loops on the caller's arrays
-/

namespace Verif.Bind
open Verif.Spec

section
variable {α : Type _}

theorem refill_flatten {rows : List (List α)} {l : List α} (h : l.length = rows.flatten.length) : (refill rows l).flatten = l := by
  induction rows generalizing l with
  | nil => simpa [refill] using (List.length_eq_zero_iff.mp (by simpa using h)).symm
  | cons r rs ih =>
    rw [List.flatten_cons, List.length_append] at h
    rw [refill, List.flatten_cons, ih (by rw [List.length_drop]; omega), List.take_append_drop]

theorem refill_lengths {rows : List (List α)} {l : List α} (h : l.length = rows.flatten.length) :
    (refill rows l).map List.length = rows.map List.length := by
  induction rows generalizing l with
  | nil => rfl
  | cons r rs ih =>
    rw [List.flatten_cons, List.length_append] at h
    rw [refill, List.map_cons, List.map_cons, ih (by rw [List.length_drop]; omega), List.length_take]
    congr 1
    omega

theorem refill_congr {rows rows' : List (List α)} (h : rows.map List.length = rows'.map List.length) (l : List α) :
    refill rows l = refill rows' l := by
  induction rows generalizing rows' l with
  | nil =>
    cases rows' with
    | nil => rfl
    | cons _ _ => simp at h
  | cons r rs ih =>
    cases rows' with
    | nil => simp at h
    | cons r' rs' =>
      rw [List.map_cons, List.map_cons, List.cons.injEq] at h
      rw [refill, refill, h.1, ih h.2]

theorem refill_self (rows : List (List α)) : refill rows rows.flatten = rows := by
  induction rows with
  | nil => rfl
  | cons r rs ih => simp [refill, ih]

/-- the memory with other values in array `a` -/
def put (h : Heap α) (a : Int) (A : NdArr α) (l : List α) : Heap α := h.set a.toNat { A with rows := refill A.rows l }

variable {h : Heap α} {a : Int} {A : NdArr α}

theorem put_self (ha : rd h a = .ok A) : put h a A A.rows.flatten = h := by
  obtain ⟨h0, h1⟩ := rd_lt ha
  unfold put
  rw [refill_self]
  unfold rd at ha
  rw [if_pos h0] at ha
  apply List.ext_getElem?
  intro k
  by_cases hk : k = a.toNat
  · subst hk
    rw [List.getElem?_set_self (by omega)]
    revert ha
    cases h[a.toNat]? with
    | none => simp
    | some v => intro ha; cases ha; rfl
  · rw [List.getElem?_set_ne (by omega)]

theorem rd_put (ha : rd h a = .ok A) (l : List α) : rd (put h a A l) a = .ok { A with rows := refill A.rows l } := by
  obtain ⟨h0, h1⟩ := rd_lt ha
  unfold rd put
  rw [if_pos h0, List.getElem?_set_self (by omega)]

theorem rd_put_ne {b : Int} (ha : rd h a = .ok A) (hb : b ≠ a) (l : List α) : rd (put h a A l) b = rd h b := by
  obtain ⟨h0, h1⟩ := rd_lt ha
  unfold rd put
  by_cases hb0 : 0 ≤ b
  · rw [if_pos hb0, if_pos hb0, List.getElem?_set_ne (by omega)]
  · rw [if_neg hb0, if_neg hb0]

theorem getAt_put (ha : rd h a = .ok A) {l : List α} (hl : l.length = A.rows.flatten.length) (i : Int) :
    getAt (put h a A l) a i = rd l i := by
  unfold getAt
  rw [rd_put ha, bind_ok]
  dsimp only
  rw [refill_flatten hl]

theorem getAt_put_ne (ha : rd h a = .ok A) {b : Int} {B : NdArr α} (hb : rd h b = .ok B) (hne : b ≠ a) (l : List α) (i : Int) :
    getAt (put h a A l) b i = rd B.rows.flatten i := by
  unfold getAt
  rw [rd_put_ne ha hne, hb, bind_ok]

theorem setAt_put (ha : rd h a = .ok A) {l : List α} (hl : l.length = A.rows.flatten.length) (i : Int) (v : α) :
    setAt (put h a A l) a i v = (upd l i v).map (put h a A) := by
  obtain ⟨h0, h1⟩ := rd_lt ha
  unfold setAt
  rw [rd_put ha, bind_ok]
  dsimp only
  rw [refill_flatten hl]
  cases hu : upd l i v with
  | error e => rfl
  | ok l' =>
    rw [bind_ok, refill_congr (refill_lengths hl)]
    unfold upd put
    rw [if_pos ⟨h0, by rw [List.length_set]; omega⟩, List.set_set]
    rfl

theorem rd_map {β : Type _} (f : α → β) (l : List α) (i : Int) : rd (l.map f) i = (rd l i).map f := by
  unfold rd
  by_cases h0 : 0 ≤ i
  · rw [if_pos h0, if_pos h0, List.getElem?_map]
    cases l[i.toNat]? <;> rfl
  · rw [if_neg h0, if_neg h0]; rfl

/-- A loop on the image of a state does what the loop on the state does. -/
theorem forN_image {σ τ : Type _} {n : ℕ} {f : ℕ → σ → M σ} {g : ℕ → τ → M τ} (φ : σ → τ) (P : σ → Prop)
    (hstep : ∀ i s, P s → g i (φ s) = (f i s).map φ ∧ ∀ t, f i s = .ok t → P t) {s : σ} (hs : P s) :
    forN n g (φ s) = (forN n f s).map φ ∧ ∀ t, forN n f s = .ok t → P t := by
  induction n with
  | zero => exact ⟨rfl, fun t ht => by cases ht; exact hs⟩
  | succ n ih =>
    rw [forN_succ, forN_succ, ih.1]
    cases hf : forN n f s with
    | error e => exact ⟨rfl, fun t ht => by cases ht⟩
    | ok t => exact hstep n t (ih.2 t hf)

theorem forN_from {σ τ : Type _} {n : ℕ} {f : ℕ → σ → M σ} {g : ℕ → τ → M τ} (φ : σ → τ) (P : σ → Prop)
    (hstep : ∀ i s, P s → g i (φ s) = (f i s).map φ ∧ ∀ t, f i s = .ok t → P t) {s : σ} (hs : P s) {s' : τ} (he : φ s = s') :
    forN n g s' = (forN n f s).map φ ∧ ∀ t, forN n f s = .ok t → P t := by
  rw [← he]
  exact forN_image φ P hstep hs

theorem upd_len {l l' : List α} {i : Int} {v : α} (h : upd l i v = .ok l') : l'.length = l.length := by
  unfold upd at h
  split at h
  · cases h; simp
  · cases h

end

section loops
variable {α : Type} [Add α]
variable {h : Heap α} {a b c : Int} {A B C : NdArr α} (toInt : α → Int)

theorem backProjectMem_eq (ha : rd h a = .ok A) (hb : rd h b = .ok B) (hc : rd h c = .ok C) (hba : b ≠ a) (hca : c ≠ a)
    (n p : ℕ) :
    backProjectMem toInt a b c n p h =
        (Recon.backProject A.rows.flatten (B.rows.flatten.map toInt) C.rows.flatten n p).map (put h a A) ∧
      ∀ v, Recon.backProject A.rows.flatten (B.rows.flatten.map toInt) C.rows.flatten n p = .ok v →
        v.length = A.rows.flatten.length := by
  unfold backProjectMem Recon.backProject
  refine forN_from (put h a A) (fun l => l.length = A.rows.flatten.length) ?_ rfl (put_self ha)
  intro i l hl
  refine forN_image (put h a A) (fun l => l.length = A.rows.flatten.length) ?_ hl
  intro j l hl
  rw [getAt_put_ne ha hb hba, rd_map]
  cases rd B.rows.flatten ((i * p + j : ℕ) : Int) with
  | error e => exact ⟨rfl, fun t ht => by cases ht⟩
  | ok q =>
    simp only [bind_ok, Except.map]
    rw [getAt_put_ne ha hc hca]
    cases rd C.rows.flatten (toInt q) with
    | error e => exact ⟨rfl, fun t ht => by cases ht⟩
    | ok v =>
      simp only [bind_ok]
      rw [getAt_put ha hl]
      cases rd l (i : Int) with
      | error e => exact ⟨rfl, fun t ht => by cases ht⟩
      | ok x =>
        simp only [bind_ok]
        exact ⟨setAt_put ha hl _ _, fun t ht => (upd_len ht).trans hl⟩

theorem projectMem_eq (ha : rd h a = .ok A) (hb : rd h b = .ok B) (hc : rd h c = .ok C) (hba : b ≠ a) (hca : c ≠ a)
    (n p : ℕ) :
    projectMem toInt a b c n p h =
        (Recon.project A.rows.flatten (B.rows.flatten.map toInt) C.rows.flatten n p).map (put h a A) ∧
      ∀ v, Recon.project A.rows.flatten (B.rows.flatten.map toInt) C.rows.flatten n p = .ok v →
        v.length = A.rows.flatten.length := by
  unfold projectMem Recon.project
  refine forN_from (put h a A) (fun l => l.length = A.rows.flatten.length) ?_ rfl (put_self ha)
  intro i l hl
  refine forN_image (put h a A) (fun l => l.length = A.rows.flatten.length) ?_ hl
  intro j l hl
  rw [getAt_put_ne ha hb hba, rd_map]
  cases rd B.rows.flatten ((i * p + j : ℕ) : Int) with
  | error e => exact ⟨rfl, fun t ht => by cases ht⟩
  | ok q =>
    simp only [bind_ok, Except.map]
    rw [getAt_put ha hl]
    cases rd l (toInt q) with
    | error e => exact ⟨rfl, fun t ht => by cases ht⟩
    | ok x =>
      simp only [bind_ok]
      rw [getAt_put_ne ha hc hca]
      cases rd C.rows.flatten (i : Int) with
      | error e => exact ⟨rfl, fun t ht => by cases ht⟩
      | ok v =>
        simp only [bind_ok]
        exact ⟨setAt_put ha hl _ _, fun t ht => (upd_len ht).trans hl⟩

theorem countMem_eq [One α] (ha : rd h a = .ok A) (hb : rd h b = .ok B) (hba : b ≠ a) (n p k : ℕ) :
    countMem toInt a b p n k h =
        (Recon.countParticlesInBin A.rows.flatten (B.rows.flatten.map toInt) p n k).map (put h a A) ∧
      ∀ v, Recon.countParticlesInBin A.rows.flatten (B.rows.flatten.map toInt) p n k = .ok v →
        v.length = A.rows.flatten.length := by
  unfold countMem Recon.countParticlesInBin
  refine forN_from (put h a A) (fun l => l.length = A.rows.flatten.length) ?_ rfl (put_self ha)
  intro i l hl
  refine forN_image (put h a A) (fun l => l.length = A.rows.flatten.length) ?_ hl
  intro j l hl
  rw [getAt_put_ne ha hb hba, rd_map]
  cases rd B.rows.flatten ((i * p + j : ℕ) : Int) with
  | error e => exact ⟨rfl, fun t ht => by cases ht⟩
  | ok q =>
    simp only [bind_ok, Except.map]
    rw [getAt_put ha hl]
    cases rd l ((j * k : ℕ) + toInt q) with
    | error e => exact ⟨rfl, fun t ht => by cases ht⟩
    | ok x =>
      simp only [bind_ok]
      exact ⟨setAt_put ha hl _ _, fun t ht => (upd_len ht).trans hl⟩

end loops

section calls
variable {α : Type} (E : Env α)

/-- an array argument, conversions allowed -/
theorem load_as (d : DType) {h : Heap α} {a : Int} {A : NdArr α} (ha : rd h a = .ok A) :
    ∃ ext a' A', load E true h (.arr d) (.num (.arr a)) = some (h ++ ext, .ref a') ∧ rd (h ++ ext) a' = .ok A' ∧
      A'.rows.flatten = valuesAs E d A ∧ A'.rows.map List.length = A.rows.map List.length ∧ A'.dtype = d ∧ A'.order = .c ∧
      (((A.dtype = d ∧ A.order = .c) ∧ a' = a) ∨
        (¬ (A.dtype = d ∧ A.order = .c) ∧ (h.length : Int) ≤ a' ∧ a' < (h ++ ext).length)) := by
  by_cases hf : A.dtype = d ∧ A.order = .c
  · exact ⟨[], a, A, by simp [load, loadArr, ha, hf], by simpa using ha, by simp [valuesAs, hf], rfl, hf.1, hf.2, .inl ⟨hf, rfl⟩⟩
  · refine ⟨[convertArr E d A], h.length, convertArr E d A, by simp [load, loadArr, ha, hf], ?_, ?_, ?_, rfl, rfl,
      .inr ⟨hf, le_refl _, by simp⟩⟩
    · simpa [rd] using rd_right h [convertArr E d A] 0
    · simp [valuesAs, hf, convertArr, List.map_flatten]
    · simp [convertArr, Function.comp_def]

end calls

end Verif.Bind

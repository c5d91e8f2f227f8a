import Verif.Core.Buf

/-!
# Two-dimensional arrays and numpy indexing

`Arr2` is a numpy array of two dimensions: its rows and its second dimension.
-/

namespace Verif

/-- a numpy array of shape `(rows.length, cols)` -/
structure Arr2 (α : Type _) where
  cols : Nat
  rows : List (List α)
  deriving DecidableEq, Repr

/-- the array with `n` rows, `m` columns and elements `f i j` -/
def arr {α : Type _} (n m : Nat) (f : Nat → Nat → α) : Arr2 α := ⟨m, tab n fun i => tab m (f i)⟩

/-- `ndarray.size` -/
def Arr2.size {α : Type _} (a : Arr2 α) : Nat := a.rows.length * a.cols

/-- elementwise map -/
def Arr2.map {α β : Type _} (f : α → β) (a : Arr2 α) : Arr2 β := ⟨a.cols, a.rows.map fun r => r.map f⟩

/-- `ndarray.T` -/
def Arr2.transpose {α : Type _} (a : Arr2 α) : M (Arr2 α) := do
  let rows ← (List.range a.cols).mapM fun (j : Nat) => a.rows.mapM fun r => rd r (j : Int)
  pure ⟨a.rows.length, rows⟩

/-- C-order elements -/
def Arr2.flatten {α : Type _} (a : Arr2 α) : List α := a.rows.flatten

/-- a boolean mask applied to a one-dimensional array, `row[mask]` -/
def maskRow {α : Type _} (mask : List Bool) (row : List α) : M (List α) :=
  if mask.length = row.length then .ok ((row.zip mask).filterMap fun p => if p.2 then some p.1 else none)
  else .error (.exc .indexError)

/-- `a[:, mask]` -/
def Arr2.maskCols {α : Type _} (mask : List Bool) (a : Arr2 α) : M (Arr2 α) :=
  if mask.length = a.cols then do
    let rows ← a.rows.mapM (maskRow mask)
    pure ⟨(mask.filter id).length, rows⟩
  else .error (.exc .indexError)

/-- `a[i]` of a one-dimensional numpy array: negative indices count from the end. -/
def npGet {α : Type _} (l : List α) (i : Int) : M α :=
  let k := if i < 0 then i + l.length else i
  if 0 ≤ k then
    match l[k.toNat]? with
    | some v => .ok v
    | none => .error (.exc .indexError)
  else .error (.exc .indexError)

/-- a slice bound, clamped to the array as python does -/
def sliceIdx (n : Nat) (i : Int) : Nat := if i < 0 then (i + n).toNat else min i.toNat n

/-- `l[lo:hi]` -/
def npSlice {α : Type _} (l : List α) (lo hi : Int) : List α :=
  let a := sliceIdx l.length lo
  let b := sliceIdx l.length hi
  (l.take b).drop a

/-- `l[lo:hi] = v` -/
def npSetSlice {α : Type _} (l : List α) (lo hi : Int) (v : α) : List α :=
  let a := sliceIdx l.length lo
  let b := sliceIdx l.length hi
  l.mapIdx fun i x => if a ≤ i ∧ i < b then v else x

section lemmas
variable {α β : Type _}

@[simp] theorem arr_cols (n m : Nat) (f : Nat → Nat → α) : (arr n m f).cols = m := rfl
@[simp] theorem arr_rows (n m : Nat) (f : Nat → Nat → α) : (arr n m f).rows = tab n fun i => tab m (f i) := rfl
@[simp] theorem arr_size (n m : Nat) (f : Nat → Nat → α) : (arr n m f).size = n * m := by simp [Arr2.size]

theorem mapM_ok {γ : Type _} {f : γ → M β} {g : γ → β} (l : List γ) (h : ∀ x ∈ l, f x = .ok (g x)) :
    l.mapM f = .ok (l.map g) := by
  induction l with
  | nil => rfl
  | cons a l ih =>
    rw [List.mapM_cons, h a (by simp), bind_ok, ih (fun x hx => h x (by simp [hx])), bind_ok]; rfl

theorem mapM_tab {γ : Type _} {f : γ → M β} {g : γ → β} (n : Nat) (t : Nat → γ) (h : ∀ i, i < n → f (t i) = .ok (g (t i))) :
    (tab n t).mapM f = .ok (tab n fun i => g (t i)) := by
  rw [mapM_ok (g := g)]
  · unfold tab; rw [List.map_map]; rfl
  · intro x hx
    unfold tab at hx
    obtain ⟨i, hi, rfl⟩ := List.mem_map.mp hx
    exact h i (List.mem_range.mp hi)

theorem map_arr (f : α → β) (n m : Nat) (g : Nat → Nat → α) : (arr n m g).map f = arr n m fun i j => f (g i j) := by
  unfold Arr2.map arr tab; simp

theorem transpose_arr (n m : Nat) (f : Nat → Nat → α) : (arr n m f).transpose = .ok (arr m n fun j i => f i j) := by
  unfold Arr2.transpose
  rw [arr_cols, arr_rows, mapM_ok (g := fun j => tab n fun i => f i j)]
  · rw [bind_ok, length_tab]; rfl
  · intro j hj
    have hj' := List.mem_range.mp hj
    unfold tab
    rw [mapM_ok (g := fun r => r.getD j (f 0 j))]
    · rw [List.map_map]
      congr 1
      apply List.map_congr_left
      intro i _
      simp [hj']
    · intro r hr
      obtain ⟨i, _, rfl⟩ := List.mem_map.mp hr
      simp [rd, hj']

theorem maskRow_tab (m : Nat) (P : Nat → Bool) (f : Nat → α) :
    maskRow ((List.range m).map P) (tab m f) = .ok (((List.range m).filter P).map f) := by
  unfold maskRow
  rw [if_pos (by simp)]
  unfold tab
  rw [List.zip_map', List.filterMap_map]
  congr 1
  generalize List.range m = l
  induction l with
  | nil => rfl
  | cons a l ih =>
    rw [List.filterMap_cons, ih]
    by_cases h : P a = true <;> simp [h]

theorem maskCols_arr (n m : Nat) (P : Nat → Bool) (f : Nat → Nat → α) :
    (arr n m f).maskCols ((List.range m).map P)
      = .ok ⟨((List.range m).filter P).length, tab n fun i => ((List.range m).filter P).map (f i)⟩ := by
  unfold Arr2.maskCols
  rw [if_pos (by simp)]
  rw [arr_rows]
  have : (tab n fun i => tab m (f i)).mapM (maskRow ((List.range m).map P))
      = .ok (tab n fun i => ((List.range m).filter P).map (f i)) := by
    unfold tab
    rw [List.mapM_map, mapM_ok (g := fun i => ((List.range m).filter P).map (f i))]
    intro i _
    exact maskRow_tab m P (f i)
  rw [this, bind_ok, List.filter_map]
  simp

/-- a list of length `m` mapped over is the table of its elements -/
theorem map_eq_tab (l : List Nat) (f : Nat → α) : l.map f = tab l.length fun k => f (l.getD k 0) := by
  apply List.ext_getElem?
  intro k
  rw [List.getElem?_map, getElem?_tab]
  by_cases h : k < l.length
  · simp [h]
  · simp [h]

theorem npGet_tab {n i : Nat} (f : Nat → α) (h : i < n) : npGet (tab n f) (i : Int) = .ok (f i) := by
  have h0 : ¬ (i : Int) < 0 := by omega
  simp [npGet, h0, some_tab _ h]

end lemmas
end Verif

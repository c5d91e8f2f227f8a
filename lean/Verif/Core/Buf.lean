import Mathlib.Algebra.BigOperators.Intervals
import Mathlib.Algebra.Order.Field.Basic
import Mathlib.Tactic.Linarith
import Mathlib.Tactic.Ring

/-!
# Checked buffers and loops

The vocabulary every model file uses.  A C array or a flat numpy array is a `List`; reads and writes
are checked and fail with `Fault.oob`; exceptions of the code are values (`Fault.exc`); a
floating-point division by zero is the value `Fault.nonFinite`.
-/

namespace Verif

/-- Exceptions raised by the code (python exception classes of `exceptions.py` and the C++
`std::runtime_error`s, told apart by their message). -/
inductive Exn
  /-- reconstruct.cpp:396,418 "All of phase space got reduced to zeroes" -/
  | allZero
  /-- reconstruct.cpp:104 "Phase space reduced to zeroes!" -/
  | recZero
  /-- data_treatment.cpp:30 std::out_of_range -/
  | outOfRange
  | waterfallReducedToZero | coordinateImportError | coordinateError | xpOutOfImageWidth
  | invalidParticle | valueError | indexError | negativeIndexError | typeError | attributeError
  | zeroDivisionError | inputError | machineParameterError | rawDataImportError | rebinningError
  | spaceChargeParameterError | arrayLengthError | arrayElementsNotEqual | unequalArrayShapes
  | filteredProfilesError | waterfallError | profileChargeNotCalculated | energyBinningError
  | energyLimitsError | phaseLimitsError | mapCreationError | trackingError
  | selfFieldTrackingError | phaseSpaceReducedToZeroes | argumentError | overMaxIterations
  | assertionError | invalidProfileError | runtimeError | unboundLocalError | fileNotFoundError
  deriving DecidableEq, Repr

/-- Everything that can go wrong in a modelled function. -/
inductive Fault
  /-- access outside a buffer (undefined behaviour in C++, IndexError in numpy) -/
  | oob
  /-- floating-point division by zero: IEEE yields inf or NaN -/
  | nonFinite
  /-- a `while` loop used up the iteration budget written in the model -/
  | diverges
  /-- signed integer overflow (undefined behaviour in C++); only `Model/Int32.lean` can fail with it -/
  | overflow
  /-- an exception of the code -/
  | exc (e : Exn)
  deriving DecidableEq, Repr

abbrev M (α : Type _) := Except Fault α

/-- Checked read `a[i]`. -/
def rd {α : Type _} (l : List α) (i : Int) : M α :=
  if 0 ≤ i then
    match l[i.toNat]? with
    | some v => .ok v
    | none => .error .oob
  else .error .oob

/-- Checked write `a[i] = v`. -/
def upd {α : Type _} (l : List α) (i : Int) (v : α) : M (List α) :=
  if 0 ≤ i ∧ i.toNat < l.length then .ok (l.set i.toNat v) else .error .oob

/-- `for (int i = 0; i < n; i++) body` -/
def forN {σ : Type _} : Nat → (Nat → σ → M σ) → σ → M σ
  | 0, _, s => .ok s
  | n + 1, f, s =>
    match forN n f s with
    | .error e => .error e
    | .ok s' => f n s'

/-- `while (cond) body`, with an explicit bound on the number of iterations: running over the bound is the visible
value `Fault.diverges`, so a theorem that the result is `ok` includes termination. -/
def whileN {σ : Type _} : Nat → (σ → Bool) → (σ → M σ) → σ → M σ
  | 0, cond, _, s => if cond s then .error .diverges else .ok s
  | n + 1, cond, body, s =>
    if cond s then
      match body s with
      | .error e => .error e
      | .ok s' => whileN n cond body s'
    else .ok s

/-- The buffer holding `g 0, …, g (n-1)`. -/
def tab {α : Type _} (n : Nat) (g : Nat → α) : List α := (List.range n).map g

/-- Row-major flattening of an `n × m` array. -/
def flat {α : Type _} (n m : Nat) (f : Nat → Nat → α) : List α :=
  tab (n * m) (fun k => f (k / m) (k % m))

/-- Division whose zero-divisor case is visible. -/
class FDiv (α : Type _) where
  fdiv : α → α → M α

instance instFDivField {K : Type _} [DivisionRing K] [DecidableEq K] : FDiv K where
  fdiv a b := if b = 0 then .error .nonFinite else .ok (a / b)

/-! ## Lemmas -/

section lemmas
variable {α σ : Type _}

@[simp] theorem bind_ok (a : α) (f : α → M σ) : (Except.ok a >>= f) = f a := rfl
@[simp] theorem bind_error (e : Fault) (f : α → M σ) :
    ((Except.error e : M α) >>= f) = .error e := rfl
@[simp] theorem pure_eq_ok (a : α) : (pure a : M α) = .ok a := rfl

theorem forN_zero (f : Nat → σ → M σ) (s : σ) : forN 0 f s = .ok s := rfl

theorem forN_succ (n : Nat) (f : Nat → σ → M σ) (s : σ) :
    forN (n + 1) f s = forN n f s >>= f n := by
  simp only [forN]; cases forN n f s <;> rfl

/-- Loop rule: an invariant stated as an equation. -/
theorem forN_eq {n : Nat} {f : Nat → σ → M σ} {s : σ} (g : Nat → σ) (h0 : s = g 0)
    (hs : ∀ i, i < n → f i (g i) = .ok (g (i + 1))) : forN n f s = .ok (g n) := by
  induction n with
  | zero => simp [forN, h0]
  | succ n ih =>
    rw [forN_succ, ih (fun i hi => hs i (by omega)), bind_ok, hs n (by omega)]

/-- Loop rule: the invariant as a predicate. -/
theorem forN_inv {n : Nat} {f : Nat → σ → M σ} {s : σ} (P : Nat → σ → Prop) (h0 : P 0 s)
    (hs : ∀ i s, i < n → P i s → ∃ s', f i s = .ok s' ∧ P (i + 1) s') :
    ∃ s', forN n f s = .ok s' ∧ P n s' := by
  induction n with
  | zero => exact ⟨s, rfl, h0⟩
  | succ n ih =>
    obtain ⟨s', h1, h2⟩ := ih (fun i s hi => hs i s (by omega))
    obtain ⟨s'', h3, h4⟩ := hs n s' (by omega) h2
    exact ⟨s'', by rw [forN_succ, h1, bind_ok, h3], h4⟩

/-- Loop rule for runs that may fail: whatever holds initially and is preserved by successful steps
holds after a successful loop. -/
theorem forN_post {n : Nat} {f : Nat → σ → M σ} {s s' : σ} (P : Nat → σ → Prop) (h0 : P 0 s)
    (hs : ∀ i a b, i < n → P i a → f i a = .ok b → P (i + 1) b)
    (h : forN n f s = .ok s') : P n s' := by
  induction n generalizing s' with
  | zero => simp [forN] at h; exact h ▸ h0
  | succ n ih =>
    rw [forN_succ] at h
    cases h1 : forN n f s with
    | error e => rw [h1] at h; simp at h
    | ok a =>
      rw [h1, bind_ok] at h
      exact hs n a s' (by omega) (ih (fun i a b hi => hs i a b (by omega)) h1) h

theorem forN_congr {n : Nat} {f g : Nat → σ → M σ} (s : σ)
    (h : ∀ i s, i < n → f i s = g i s) : forN n f s = forN n g s := by
  induction n with
  | zero => rfl
  | succ n ih =>
    rw [forN_succ, forN_succ, ih (fun i s hi => h i s (by omega))]
    cases forN n g s with
    | error e => rfl
    | ok a => exact h n a (by omega)

@[simp] theorem length_tab (n : Nat) (g : Nat → α) : (tab n g).length = n := by simp [tab]

theorem getElem?_tab (n : Nat) (g : Nat → α) (i : Nat) :
    (tab n g)[i]? = if i < n then some (g i) else none := by
  simp only [tab, List.getElem?_map]
  by_cases h : i < n <;> simp [h]

theorem some_tab {n i : Nat} {α : Type _} (f : Nat → α) (h : i < n) : (tab n f)[i]? = some (f i) := by
  rw [getElem?_tab, if_pos h]

@[simp] theorem getElem_tab (n : Nat) (g : Nat → α) (i : Nat) (h : i < (tab n g).length) :
    (tab n g)[i] = g i := by
  simp [tab]

theorem tab_congr {n : Nat} {g h : Nat → α} (H : ∀ i, i < n → g i = h i) : tab n g = tab n h := by
  unfold tab
  apply List.map_congr_left
  intro i hi
  exact H i (by simpa using hi)

theorem tab_inj {n : Nat} {g h : Nat → α} (H : tab n g = tab n h) : ∀ i, i < n → g i = h i := by
  intro i hi
  have := congrArg (fun l => l[i]?) H
  simpa [getElem?_tab, hi] using this

/-- Every list is a table. -/
theorem eq_tab_of_length [Inhabited α] (l : List α) : l = tab l.length (fun i => l.getD i default) := by
  apply List.ext_getElem?
  intro i
  rw [getElem?_tab]
  by_cases h : i < l.length
  · simp [h, List.getD]
  · simp [h]

theorem rd_tab {n i : Nat} (g : Nat → α) (h : i < n) : rd (tab n g) (i : Int) = .ok (g i) := by
  simp [rd, h]

theorem rd_tab' {n : Nat} (g : Nat → α) {z : Int} {i : Nat} (hz : z = i) (h : i < n) :
    rd (tab n g) z = .ok (g i) := by
  subst hz; exact rd_tab g h

theorem rd_tab_oob {n : Nat} (g : Nat → α) {z : Int} (h : z < 0 ∨ (n : Int) ≤ z) :
    rd (tab n g) z = .error .oob := by
  unfold rd
  split
  · have h' : ¬ z.toNat < n := by omega
    rw [getElem?_tab, if_neg h']
  · rfl

theorem set_tab {n i : Nat} (g : Nat → α) (v : α) :
    (tab n g).set i v = tab n (fun k => if k = i then v else g k) := by
  apply List.ext_getElem?
  intro k
  rw [List.getElem?_set, getElem?_tab, getElem?_tab]
  simp only [length_tab]
  by_cases h : i = k
  · subst h
    by_cases h2 : i < n <;> simp [h2]
  · have h' : ¬ k = i := fun e => h e.symm
    simp [h, h']

theorem upd_tab {n i : Nat} (g : Nat → α) (v : α) (h : i < n) :
    upd (tab n g) (i : Int) v = .ok (tab n (fun k => if k = i then v else g k)) := by
  unfold upd
  rw [if_pos (by simp [h]), Int.toNat_natCast, set_tab]

theorem upd_tab' {n i : Nat} (g : Nat → α) (v : α) {z : Int} (hz : z = i) (h : i < n) :
    upd (tab n g) z v = .ok (tab n (fun k => if k = i then v else g k)) := by
  subst hz; exact upd_tab g v h

@[simp] theorem length_flat (n m : Nat) (f : Nat → Nat → α) : (flat n m f).length = n * m := by
  simp [flat]

theorem idx_lt {n m i j : Nat} (hi : i < n) (hj : j < m) : i * m + j < n * m := by
  calc i * m + j < i * m + m := by omega
    _ = (i + 1) * m := by ring
    _ ≤ n * m := Nat.mul_le_mul_right m hi

theorem idx_div {m i j : Nat} (hj : j < m) : (i * m + j) / m = i := by
  have hm : 0 < m := by omega
  rw [Nat.add_comm, Nat.add_mul_div_right _ _ hm, Nat.div_eq_of_lt hj, Nat.zero_add]

theorem idx_mod {m i j : Nat} (hj : j < m) : (i * m + j) % m = j := by
  rw [Nat.add_comm, Nat.add_mul_mod_self_right, Nat.mod_eq_of_lt hj]

theorem div_lt_of_lt_mul' {n m k : Nat} (h : k < n * m) : k / m < n := by
  exact Nat.div_lt_of_lt_mul (by rwa [Nat.mul_comm] at h)

theorem mod_lt_of_lt_mul' {n m k : Nat} (h : k < n * m) : k % m < m := by
  apply Nat.mod_lt
  rcases Nat.eq_zero_or_pos m with h0 | h0
  · simp [h0] at h
  · exact h0

theorem rd_flat {n m i j : Nat} (f : Nat → Nat → α) (hi : i < n) (hj : j < m) {z : Int}
    (hz : z = ((i * m + j : Nat) : Int)) : rd (flat n m f) z = .ok (f i j) := by
  unfold flat
  rw [rd_tab' _ hz (idx_lt hi hj), idx_div hj, idx_mod hj]

theorem flat_congr {n m : Nat} {f g : Nat → Nat → α} (H : ∀ i j, i < n → j < m → f i j = g i j) :
    flat n m f = flat n m g := by
  apply tab_congr
  intro k hk
  exact H _ _ (div_lt_of_lt_mul' hk) (mod_lt_of_lt_mul' hk)

theorem flat_inj {n m : Nat} {f g : Nat → Nat → α} (H : flat n m f = flat n m g) :
    ∀ i j, i < n → j < m → f i j = g i j := by
  intro i j hi hj
  have := tab_inj H (i * m + j) (idx_lt hi hj)
  simpa [idx_div hj, idx_mod hj] using this

/-- pointwise update of a matrix -/
def upd2 (f : Nat → Nat → α) (i j : Nat) (v : α) : Nat → Nat → α :=
  fun a b => if a = i ∧ b = j then v else f a b

theorem upd_flat {n m i j : Nat} (f : Nat → Nat → α) (v : α) (hi : i < n) (hj : j < m) {z : Int}
    (hz : z = ((i * m + j : Nat) : Int)) :
    upd (flat n m f) z v = .ok (flat n m (upd2 f i j v)) := by
  unfold flat
  rw [upd_tab' _ v hz (idx_lt hi hj)]
  congr 1
  apply tab_congr
  intro k hk
  unfold upd2
  by_cases h : k = i * m + j
  · subst h
    simp [idx_div hj, idx_mod hj]
  · rw [if_neg h, if_neg]
    rintro ⟨h1, h2⟩
    apply h
    rw [← h1, ← h2, Nat.mul_comm]
    exact (Nat.div_add_mod k m).symm

theorem upd_length {l l' : List α} {i : Int} {v : α} (h : upd l i v = .ok l') :
    l'.length = l.length := by
  unfold upd at h
  split at h
  · cases h; simp
  · cases h

/-- A loop writing cell `i` at step `i` from the old value of that cell only. -/
theorem pointLoop_eq {n : Nat} (old new : Nat → α) (body : Nat → List α → M (List α))
    (h : ∀ i, i < n → ∀ g : Nat → α, g i = old i →
      body i (tab n g) = .ok (tab n (fun k => if k = i then new i else g k))) :
    forN n body (tab n old) = .ok (tab n new) := by
  rw [forN_eq (g := fun i => tab n (fun k => if k < i then new k else old k))]
  · congr 1; apply tab_congr; intro i hi; simp [hi]
  · apply tab_congr; intro i _; simp
  · intro i hi
    rw [h i hi _ (by simp)]
    congr 1; apply tab_congr; intro k hk
    by_cases h1 : k = i
    · subst h1; simp
    · have h2 : k < i + 1 ↔ k < i := by omega
      simp [h1, h2]

/-- A nested loop writing cell `(i,j)` at step `(i,j)` from the old value of that cell only. -/
theorem gridLoop_eq {n m : Nat} (old new : Nat → Nat → α) (body : Nat → Nat → List α → M (List α))
    (h : ∀ i j, i < n → j < m → ∀ g : Nat → Nat → α, g i j = old i j →
      body i j (flat n m g) = .ok (flat n m (upd2 g i j (new i j)))) :
    forN n (fun i s => forN m (fun j s => body i j s) s) (flat n m old)
      = .ok (flat n m new) := by
  rw [forN_eq (g := fun i => flat n m (fun a b => if a < i then new a b else old a b))]
  · congr 1; apply flat_congr; intro i j hi hj; simp [hi]
  · apply flat_congr; intro i j _ _; simp
  · intro i hi
    rw [forN_eq (g := fun j => flat n m (fun a b => if a < i ∨ (a = i ∧ b < j) then new a b else old a b))]
    · congr 1; apply flat_congr; intro a b ha hb
      have : (a < i ∨ (a = i ∧ b < m)) ↔ a < i + 1 := by omega
      simp [this]
    · apply flat_congr; intro a b _ _; simp
    · intro j hj
      rw [h i j hi hj _ (by simp)]
      congr 1; apply flat_congr; intro a b ha hb
      unfold upd2
      by_cases h1 : a = i ∧ b = j
      · obtain ⟨rfl, rfl⟩ := h1; simp
      · have : (a < i ∨ (a = i ∧ b < j + 1)) ↔ (a < i ∨ (a = i ∧ b < j)) := by omega
        rw [if_neg h1]; exact if_congr this.symm rfl rfl

end lemmas

section div
variable {K : Type _} [DivisionRing K] [DecidableEq K]

theorem fdiv_ok {a b : K} (h : b ≠ 0) : FDiv.fdiv a b = .ok (a / b) := by
  simp [FDiv.fdiv, h]

theorem fdiv_zero (a : K) : FDiv.fdiv a (0 : K) = .error .nonFinite := by
  simp [FDiv.fdiv]

end div

end Verif

namespace Verif

/-- Loop rule giving both outcomes: the loop succeeds iff every step is `good`, otherwise it fails with `e`. -/
theorem forN_total {σ : Type _} {n : Nat} {f : Nat → σ → M σ} {s : σ} {e : Fault} (P : σ → Prop)
    (good : Nat → Prop) (h0 : P s)
    (hg : ∀ i s, i < n → P s → good i → ∃ s', f i s = .ok s' ∧ P s')
    (hb : ∀ i s, i < n → P s → ¬ good i → f i s = .error e) :
    ((∀ i, i < n → good i) → ∃ s', forN n f s = .ok s' ∧ P s') ∧
    ((∃ i, i < n ∧ ¬ good i) → forN n f s = .error e) := by
  induction n with
  | zero => exact ⟨fun _ => ⟨s, rfl, h0⟩, fun ⟨i, h, _⟩ => absurd h (by omega)⟩
  | succ n ih =>
    obtain ⟨ih1, ih2⟩ := ih (fun i s hi => hg i s (by omega)) (fun i s hi => hb i s (by omega))
    constructor
    · intro h
      obtain ⟨s', h1, h2⟩ := ih1 (fun i hi => h i (by omega))
      obtain ⟨s'', h3, h4⟩ := hg n s' (by omega) h2 (h n (by omega))
      exact ⟨s'', by rw [forN_succ, h1, bind_ok, h3], h4⟩
    · intro h
      by_cases hall : ∃ i, i < n ∧ ¬ good i
      · rw [forN_succ, ih2 hall]; rfl
      · have hall' : ∀ i, i < n → good i := by
          intro i hi
          by_contra hn
          exact hall ⟨i, hi, hn⟩
        obtain ⟨s', h1, h2⟩ := ih1 hall'
        obtain ⟨i, hi, hn⟩ := h
        have : i = n := by
          by_contra hne
          exact hall ⟨i, by omega, hn⟩
        subst this
        rw [forN_succ, h1, bind_ok, hb i s' (by omega) h2 hn]

theorem rd_eq_ok {α : Type _} (l : List α) {i : Int} (h0 : 0 ≤ i) (h1 : i < l.length) : ∃ v, rd l i = .ok v := by
  have hi : i.toNat < l.length := by omega
  exact ⟨l[i.toNat], by simp [rd, h0, hi]⟩

theorem rd_eq_oob {α : Type _} (l : List α) {i : Int} (h : ¬ (0 ≤ i ∧ i < l.length)) : rd l i = .error .oob := by
  unfold rd
  split
  · have hi : ¬ i.toNat < l.length := by omega
    rw [List.getElem?_eq_none (by omega)]
  · rfl

theorem upd_eq_ok {α : Type _} (l : List α) {i : Int} (v : α) (h0 : 0 ≤ i) (h1 : i < l.length) :
    ∃ l', upd l i v = .ok l' ∧ l'.length = l.length := by
  have hi : i.toNat < l.length := by omega
  exact ⟨l.set i.toNat v, by simp [upd, h0, hi], by simp⟩

theorem upd_eq_oob {α : Type _} (l : List α) {i : Int} (v : α) (h : ¬ (0 ≤ i ∧ i < l.length)) :
    upd l i v = .error .oob := by
  unfold upd
  rw [if_neg (by omega)]

/-- While rule: the run is the sequence `g 0, …, g n`. -/
theorem whileN_eq {σ : Type _} {fuel n : Nat} {cond : σ → Bool} {body : σ → M σ} (g : Nat → σ) {s : σ}
    (h0 : s = g 0) (hf : n ≤ fuel) (hc : ∀ i, i < n → cond (g i) = true)
    (hb : ∀ i, i < n → body (g i) = .ok (g (i + 1))) (hn : cond (g n) = false) :
    whileN fuel cond body s = .ok (g n) := by
  induction n generalizing fuel g s with
  | zero => subst h0; cases fuel <;> simp [whileN, hn]
  | succ n ih =>
    subst h0
    obtain ⟨f, rfl⟩ : ∃ f, fuel = f + 1 := ⟨fuel - 1, by omega⟩
    rw [whileN, if_pos (hc 0 (by omega)), hb 0 (by omega)]
    exact ih (fun i => g (i + 1)) rfl (by omega) (fun i hi => hc (i + 1) (by omega))
      (fun i hi => hb (i + 1) (by omega)) hn

/-- While rule for a failing run: the first `n` iterations succeed, the next one fails. -/
theorem whileN_error {σ : Type _} {fuel n : Nat} {cond : σ → Bool} {body : σ → M σ} (g : Nat → σ) {s : σ} {e : Fault}
    (h0 : s = g 0) (hf : n < fuel) (hc : ∀ i, i ≤ n → cond (g i) = true)
    (hb : ∀ i, i < n → body (g i) = .ok (g (i + 1))) (hn : body (g n) = .error e) :
    whileN fuel cond body s = .error e := by
  induction n generalizing fuel g s with
  | zero =>
    subst h0
    obtain ⟨f, rfl⟩ : ∃ f, fuel = f + 1 := ⟨fuel - 1, by omega⟩
    rw [whileN, if_pos (hc 0 le_rfl), hn]
  | succ n ih =>
    subst h0
    obtain ⟨f, rfl⟩ : ∃ f, fuel = f + 1 := ⟨fuel - 1, by omega⟩
    rw [whileN, if_pos (hc 0 (by omega)), hb 0 (by omega)]
    exact ih (fun i => g (i + 1)) rfl (by omega) (fun i hi => hc (i + 1) (by omega))
      (fun i hi => hb (i + 1) (by omega)) hn

end Verif

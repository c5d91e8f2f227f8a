import Verif.Spec.Input
import Verif.Lemmas.Assertions
import Verif.Lemmas.PreProcess

/-! Helper lemmas about `Model/Input.lean`. -/

set_option linter.unusedSectionVars false

namespace Verif.Inp
open Verif.Asrt Verif.Spec

variable {S K : Type _}

theorem line_ok {β : Type _} {l : List β} {i : ℕ} {v : β} : line l i = .ok v ↔ l[i]? = some v := by
  unfold line
  cases l[i]? <;> simp

theorem text_iff (R : Reader S K) (lines : List S) (i : ℕ) (v : S) :
    line (lines.map R.strip) i = .ok v ↔ TextAt R lines (i + 1) v := by
  rw [line_ok, List.getElem?_map]
  unfold TextAt
  simp

theorem int_iff (R : Reader S K) (lines : List S) (i : ℕ) (v : ℤ) :
    lineInt R (lines.map R.strip) i = .ok v ↔ IntAt R lines (i + 1) v := by
  unfold lineInt
  rw [bind_ok_iff]
  unfold IntAt toInt
  simp only [line_ok, List.getElem?_map, Nat.add_sub_cancel]
  constructor
  · rintro ⟨a, h1, h2⟩
    obtain ⟨s, hs, rfl⟩ := Option.map_eq_some_iff.mp h1
    refine ⟨s, hs, ?_⟩
    cases h : R.int (R.strip s) with
    | none => rw [h] at h2; cases h2
    | some w => rw [h] at h2; cases h2; rfl
  · rintro ⟨s, hs, h⟩
    exact ⟨R.strip s, Option.map_eq_some_iff.mpr ⟨s, hs, rfl⟩, by rw [h]⟩

theorem flt_iff (R : Reader S K) (lines : List S) (i : ℕ) (v : K) :
    lineFlt R (lines.map R.strip) i = .ok v ↔ FltAt R lines (i + 1) v := by
  unfold lineFlt
  rw [bind_ok_iff]
  unfold FltAt toFlt
  simp only [line_ok, List.getElem?_map, Nat.add_sub_cancel]
  constructor
  · rintro ⟨a, h1, h2⟩
    obtain ⟨s, hs, rfl⟩ := Option.map_eq_some_iff.mp h1
    refine ⟨s, hs, ?_⟩
    cases h : R.flt (R.strip s) with
    | none => rw [h] at h2; cases h2
    | some w => rw [h] at h2; cases h2; rfl
  · rintro ⟨s, hs, h⟩
    exact ⟨R.strip s, Option.map_eq_some_iff.mpr ⟨s, hs, rfl⟩, by rw [h]⟩

/-- the only error is ValueError -/
def OnlyVE {β : Type _} (x : M β) : Prop := ∀ e, x = .error e → e = .exc .valueError

theorem OnlyVE.bind {β γ : Type _} {x : M β} {f : β → M γ} (hx : OnlyVE x) (hf : ∀ a, OnlyVE (f a)) : OnlyVE (x >>= f) := by
  intro e he
  rcases bind_error_iff.mp he with h | ⟨a, _, h⟩
  · exact hx e h
  · exact hf a e h

theorem onlyVE_ok {β : Type _} (v : β) : OnlyVE (.ok v : M β) := by intro e he; cases he

theorem onlyVE_line {β : Type _} {l : List β} {i : ℕ} (h : i < l.length) : OnlyVE (line l i) := by
  intro e he
  unfold line at he
  rw [List.getElem?_eq_getElem h] at he
  cases he

theorem onlyVE_int (R : Reader S K) (s : S) : OnlyVE (toInt R s) := by
  intro e he
  unfold toInt at he
  cases h : R.int s with
  | none => rw [h] at he; cases he; rfl
  | some v => rw [h] at he; cases he

theorem onlyVE_flt (R : Reader S K) (s : S) : OnlyVE (toFlt R s) := by
  intro e he
  unfold toFlt at he
  cases h : R.flt s with
  | none => rw [h] at he; cases he; rfl
  | some v => rw [h] at he; cases he

theorem onlyVE_lineInt (R : Reader S K) {l : List S} {i : ℕ} (h : i < l.length) : OnlyVE (lineInt R l i) :=
  (onlyVE_line h).bind fun s => onlyVE_int R s

theorem onlyVE_lineFlt (R : Reader S K) {l : List S} {i : ℕ} (h : i < l.length) : OnlyVE (lineFlt R l i) :=
  (onlyVE_line h).bind fun s => onlyVE_flt R s

theorem intAt_unique {R : Reader S K} {lines : List S} {k : ℕ} {v w : ℤ} (h : IntAt R lines k v) (h' : IntAt R lines k w) :
    v = w := by
  obtain ⟨s, hs, hv⟩ := h
  obtain ⟨s', hs', hw⟩ := h'
  rw [hs] at hs'
  cases hs'
  rw [hv] at hw
  exact Option.some.inj hw

theorem fltAt_unique {R : Reader S K} {lines : List S} {k : ℕ} {v w : K} (h : FltAt R lines k v) (h' : FltAt R lines k w) :
    v = w := by
  obtain ⟨s, hs, hv⟩ := h
  obtain ⟨s', hs', hw⟩ := h'
  rw [hs] at hs'
  cases hs'
  rw [hv] at hw
  exact Option.some.inj hw

/-- the `k`-th line that `readline` gives -/
def lineAt (R : Reader S K) (stdin : List S) (k : ℕ) : S := (stdin[k]?).getD R.eof

theorem firstLines_eq (R : Reader S K) (stdin : List S) (n : ℕ) : firstLines R stdin n = tab n (lineAt R stdin) := by
  unfold firstLines
  apply List.ext_getElem?
  intro i
  unfold tab lineAt
  rw [List.getElem?_take, List.getElem?_map]
  by_cases hi : i < n
  · rw [if_pos hi, List.getElem?_range hi, Option.map_some]
    by_cases h2 : i < stdin.length
    · rw [List.getElem?_append_left h2, List.getElem?_eq_getElem h2, Option.getD_some]
    · rw [List.getElem?_append_right (by omega), List.getElem?_replicate, if_pos (by omega),
        List.getElem?_eq_none (by omega : stdin.length ≤ i), Option.getD_none]
  · rw [if_neg hi, List.getElem?_eq_none (by simpa using hi : (List.range n).length ≤ i), Option.map_none]

/-- the state of the reading loop before iteration `k` -/
def stdinSt (R : Reader S K) (stdin : List S) (nf nb : ℤ) (k : ℕ) : StdinSt S :=
  ⟨tab k (lineAt R stdin), stdin.drop k, decide (12 < k) && R.hasPipe (lineAt R stdin 12), k,
    if 20 < k ∧ R.hasPipe (lineAt R stdin 12) = true then 98 + nf * nb else 98,
    if 16 < k ∧ R.hasPipe (lineAt R stdin 12) = true then nf else 0⟩

theorem readline_drop (R : Reader S K) (stdin : List S) (k : ℕ) :
    readline R (stdin.drop k) = (lineAt R stdin k, stdin.drop (k + 1)) := by
  unfold lineAt
  by_cases h : k < stdin.length
  · rw [List.drop_eq_getElem_cons h, List.getElem?_eq_getElem h]
    rfl
  · rw [List.drop_eq_nil_of_le (by omega), List.drop_eq_nil_of_le (by omega), List.getElem?_eq_none (by omega)]
    rfl

theorem tab_snoc {β : Type _} (n : ℕ) (f : ℕ → β) : tab n f ++ [f n] = tab (n + 1) f := by
  unfold tab
  rw [List.range_succ, List.map_append]
  rfl

theorem stdinBody_eq (R : Reader S K) (stdin : List S) (nf nb : ℤ)
    (hp : R.hasPipe (lineAt R stdin 12) = true → R.int (lineAt R stdin 16) = some nf ∧ R.int (lineAt R stdin 20) = some nb)
    (k : ℕ) : stdinBody R (stdinSt R stdin nf nb k) = .ok (stdinSt R stdin nf nb (k + 1)) := by
  unfold stdinBody stdinSt
  dsimp only
  rw [readline_drop]
  dsimp only
  rw [tab_snoc]
  have hpiped : (if k = 12 then (decide (12 < k) && R.hasPipe (lineAt R stdin 12) || R.hasPipe (lineAt R stdin k))
      else decide (12 < k) && R.hasPipe (lineAt R stdin 12)) = (decide (12 < k + 1) && R.hasPipe (lineAt R stdin 12)) := by
    by_cases h : k = 12
    · subst h; simp
    · rw [if_neg h]
      have : decide (12 < k) = decide (12 < k + 1) := decide_eq_decide.mpr (by omega)
      rw [this]
  rw [hpiped]
  unfold pipedSizes
  dsimp only
  by_cases h : R.hasPipe (lineAt R stdin 12) = true
  · obtain ⟨h16, h20⟩ := hp h
    by_cases hk : 12 < k + 1
    · rw [if_pos (by simp [hk, h])]
      by_cases k16 : k = 16
      · subst k16
        simp [toInt, h16, h, bind_ok]
      · rw [if_neg k16]
        by_cases k20 : k = 20
        · subst k20
          simp [toInt, h20, h, bind_ok]
        · rw [if_neg k20, bind_ok]
          have a1 : (16 < k ∧ R.hasPipe (lineAt R stdin 12) = true) ↔ (16 < k + 1 ∧ R.hasPipe (lineAt R stdin 12) = true) := by
            constructor <;> rintro ⟨a, b⟩ <;> exact ⟨by omega, b⟩
          have a2 : (20 < k ∧ R.hasPipe (lineAt R stdin 12) = true) ↔ (20 < k + 1 ∧ R.hasPipe (lineAt R stdin 12) = true) := by
            constructor <;> rintro ⟨a, b⟩ <;> exact ⟨by omega, b⟩
          simp only [a1, a2]
          rfl
    · rw [if_neg (by simp [hk]), bind_ok]
      have b1 : ¬ 16 < k := by omega
      have b2 : ¬ 20 < k := by omega
      have b3 : ¬ 16 < k + 1 := by omega
      have b4 : ¬ 20 < k + 1 := by omega
      simp only [b1, b2, b3, b4, false_and, if_false]
      rfl
  · simp [h, bind_ok, pure, Except.pure]

/-- how many lines are read -/
def wanted (R : Reader S K) (stdin : List S) (nf nb : ℤ) : ℤ :=
  if R.hasPipe (lineAt R stdin 12) = true then 98 + nf * nb else 98

theorem getInputStdin_eq (R : Reader S K) (stdin : List S) (nf nb : ℤ) (n : ℕ)
    (hp : R.hasPipe (lineAt R stdin 12) = true → R.int (lineAt R stdin 16) = some nf ∧ R.int (lineAt R stdin 20) = some nb)
    (h98 : 98 ≤ n) (hn : (n : ℤ) = wanted R stdin nf nb) (fuel : ℕ) (hf : n ≤ fuel) :
    getInputStdin R fuel stdin = .ok (firstLines R stdin n) := by
  unfold getInputStdin
  rw [whileN_eq (n := n) (stdinSt R stdin nf nb) _ hf _ (fun k _ => stdinBody_eq R stdin nf nb hp k) _]
  · rw [bind_ok, firstLines_eq]; rfl
  · unfold stdinSt; simp [tab_zero, parameterLength]
  · intro k hk
    unfold wanted at hn
    unfold stdinSt
    dsimp only
    apply decide_eq_true
    by_cases h : R.hasPipe (lineAt R stdin 12) = true
    · rw [if_pos h] at hn
      by_cases h2 : 20 < k
      · rw [if_pos ⟨h2, h⟩]; omega
      · rw [if_neg (fun c => h2 c.1)]; omega
    · rw [if_neg h] at hn
      rw [if_neg (fun c => h c.2)]; omega
  · unfold wanted at hn
    unfold stdinSt
    dsimp only
    apply decide_eq_false
    by_cases h : R.hasPipe (lineAt R stdin 12) = true
    · rw [if_pos h] at hn
      rw [if_pos ⟨by omega, h⟩]; omega
    · rw [if_neg h] at hn
      rw [if_neg (fun c => h c.2)]; omega

theorem strip_loop (R : Reader S K) (ps : List S) (h : ps.length = parameterLength) :
    forN parameterLength (fun i p => do
      let s ← line p i
      upd p (i : Int) (R.strip s)) ps = .ok (ps.map R.strip) := by
  rw [forN_eq (fun k => (ps.take k).map R.strip ++ ps.drop k) (by simp)]
  · rw [← h, List.take_length, List.drop_length, List.append_nil]
  · intro k hk
    have hk' : k < ps.length := by omega
    have hl : line (List.map R.strip (List.take k ps) ++ List.drop k ps) k = .ok ps[k] := by
      rw [line_ok, List.getElem?_append_right (by simp), List.length_map, List.length_take, Nat.min_eq_left (by omega),
        List.getElem?_drop]
      simp [hk']
    rw [hl, bind_ok]
    unfold upd
    rw [if_pos ⟨by simp, by simp; omega⟩]
    congr 1
    rw [Int.toNat_natCast, List.set_append_right _ _ (by simp), List.length_map, List.length_take, Nat.min_eq_left (by omega),
      Nat.sub_self, List.drop_eq_getElem_cons hk', List.set_cons_zero, List.take_succ_eq_append_getElem hk',
      List.map_append, List.append_assoc]
    rfl

theorem mapM_toFlt (R : Reader S K) {ds : List S} {data : List K} (h : ds.map R.flt = data.map some) :
    ds.mapM (toFlt R) = .ok data := by
  induction ds generalizing data with
  | nil => cases data with
    | nil => rfl
    | cons => cases h
  | cons a l ih => cases data with
    | nil => cases h
    | cons d t =>
      rw [List.map_cons, List.map_cons, List.cons.injEq] at h
      rw [List.mapM_cons, ih h.2]
      unfold toFlt
      rw [h.1]
      rfl

end Verif.Inp

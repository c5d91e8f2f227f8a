import Verif.Spec.Machine
import Mathlib.Tactic.Tauto

/-! Helper lemmas about `Model/Assertions.lean`. -/

namespace Verif.Asrt
open Verif.Spec

theorem bind_ok_iff {α β : Type _} {x : M α} {f : α → M β} {r : β} :
    (x >>= f) = .ok r ↔ ∃ a, x = .ok a ∧ f a = .ok r := by
  cases x with
  | error e => simp
  | ok a => simp

theorem bind_error_iff {α β : Type _} {x : M α} {f : α → M β} {e : Fault} :
    (x >>= f) = .error e ↔ x = .error e ∨ ∃ a, x = .ok a ∧ f a = .error e := by
  cases x with
  | error e => simp
  | ok a => simp

theorem notNone_ok {β : Type _} {v : Option β} {e : Exn} {x : β} : notNone v e = .ok x ↔ v = some x := by
  cases v <;> simp [notNone]

theorem notNone_error {β : Type _} {v : Option β} {e : Exn} {f : Fault} :
    notNone v e = .error f ↔ v = none ∧ f = .exc e := by
  cases v <;> simp [notNone, eq_comm]

section
variable {K : Type _} [LinearOrder K]

theorem numEq_iff (a b : K) : numEq a b = true ↔ a = b := by
  unfold numEq
  rw [Bool.and_eq_true, decide_eq_true_iff, decide_eq_true_iff]
  exact ⟨fun h => le_antisymm h.1 h.2, fun h => by subst h; exact ⟨le_rfl, le_rfl⟩⟩

/-- a helper that returns when `P` and raises `e` otherwise -/
def Checks (x : M Unit) (P : Prop) (e : Exn) : Prop := (P → x = .ok ()) ∧ (¬ P → x = .error (.exc e))

theorem Checks.ok_iff {x : M Unit} {P : Prop} {e : Exn} (h : Checks x P e) {u : Unit} : x = .ok u ↔ P := by
  constructor
  · intro hx
    by_contra hn
    rw [h.2 hn] at hx; cases hx
  · intro hp; rw [h.1 hp]

theorem Checks.error_iff {x : M Unit} {P : Prop} {e : Exn} (h : Checks x P e) {f : Fault} :
    x = .error f ↔ ¬ P ∧ f = .exc e := by
  constructor
  · intro hx
    by_cases hp : P
    · rw [h.1 hp] at hx; cases hx
    · rw [h.2 hp] at hx; cases hx; exact ⟨hp, rfl⟩
  · rintro ⟨hp, rfl⟩; exact h.2 hp

theorem checks_if {c P : Prop} [Decidable c] {e : Exn} (h : c ↔ ¬ P) : Checks (if c then raise e else .ok ()) P e := by
  constructor
  · intro hp; rw [if_neg (fun hc => h.mp hc hp)]
  · intro hp; rw [if_pos (h.mpr hp)]; rfl

theorem assertGreater_checks (v l : K) (e : Exn) : Checks (assertGreater v l e) (l < v) e := checks_if not_lt.symm
theorem assertLess_checks (v l : K) (e : Exn) : Checks (assertLess v l e) (v < l) e := checks_if not_lt.symm
theorem assertLessOrEqual_checks (v l : K) (e : Exn) : Checks (assertLessOrEqual v l e) (v ≤ l) e :=
  checks_if not_le.symm
theorem assertGreaterOrEqual_checks (v l : K) (e : Exn) : Checks (assertGreaterOrEqual v l e) (l ≤ v) e :=
  checks_if not_le.symm
theorem assertEqual_checks (v l : K) (e : Exn) : Checks (assertEqual v l e) (v = l) e :=
  checks_if (by rw [← Bool.not_eq_true, numEq_iff])
theorem assertNotEqual_checks (v l : K) (e : Exn) : Checks (assertNotEqual v l e) (v ≠ l) e :=
  checks_if (by rw [numEq_iff, not_not])
theorem assertInrange_checks (v lo up : K) (e : Exn) : Checks (assertInrange v lo up e) (lo ≤ v ∧ v ≤ up) e :=
  checks_if (by rw [not_and_or, not_le, not_le])

theorem assertLogArr_checks {α : Type _} (l : List α) (bad : α → Bool) (e : Exn) :
    Checks (assertLogArr (l.map fun x => !bad x) e) (∀ x ∈ l, bad x = false) e := by
  unfold assertLogArr
  have h : ((l.map fun x => !bad x).all id) = true ↔ ∀ x ∈ l, bad x = false := by
    rw [List.all_eq_true]
    simp
  constructor
  · intro hp; rw [if_pos (h.mpr hp)]
  · intro hp; rw [if_neg (fun hc => hp (h.mp hc))]; rfl

theorem Checks.congr {x : M Unit} {P Q : Prop} {e : Exn} (h : Checks x P e) (hPQ : P ↔ Q) : Checks x Q e :=
  ⟨fun hq => h.1 (hPQ.mpr hq), fun hq => h.2 (fun hp => hq (hPQ.mp hp))⟩

end
end Verif.Asrt

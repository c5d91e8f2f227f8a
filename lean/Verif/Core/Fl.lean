import Verif.Core.Buf

/-!
# Numbers with NaN and infinities

IEEE 754 special values on top of exact rationals: no rounding, one zero.  Used where the property is
about NaN.  Comparisons with NaN are false, `x / 0` is an infinity or NaN and raises nothing.
-/

namespace Verif

inductive Fl
  | nan | pinf | ninf
  | fin (q : ℚ)
  deriving DecidableEq, Repr

namespace Fl

def neg : Fl → Fl
  | nan => nan | pinf => ninf | ninf => pinf | fin q => fin (-q)

def add : Fl → Fl → Fl
  | nan, _ => nan
  | _, nan => nan
  | pinf, ninf => nan
  | ninf, pinf => nan
  | pinf, _ => pinf
  | _, pinf => pinf
  | ninf, _ => ninf
  | _, ninf => ninf
  | fin a, fin b => fin (a + b)

/-- `sign * inf` -/
def infSign (s : Int) : Fl := if s = 0 then nan else if 0 < s then pinf else ninf

def sgn (q : ℚ) : Int := if q = 0 then 0 else if 0 < q then 1 else -1

def mul : Fl → Fl → Fl
  | nan, _ => nan
  | _, nan => nan
  | fin a, fin b => fin (a * b)
  | fin a, pinf => infSign (sgn a)
  | fin a, ninf => infSign (-sgn a)
  | pinf, fin b => infSign (sgn b)
  | ninf, fin b => infSign (-sgn b)
  | pinf, pinf => pinf
  | ninf, ninf => pinf
  | pinf, ninf => ninf
  | ninf, pinf => ninf

/-- division; division by zero gives an infinity (sign of the numerator) or NaN -/
def div : Fl → Fl → Fl
  | nan, _ => nan
  | _, nan => nan
  | fin a, fin b => if b = 0 then infSign (sgn a) else fin (a / b)
  | fin _, _ => fin 0
  | pinf, fin b => if 0 ≤ b then pinf else ninf
  | ninf, fin b => if 0 ≤ b then ninf else pinf
  | _, _ => nan

def ltb : Fl → Fl → Bool
  | nan, _ => false
  | _, nan => false
  | fin a, fin b => decide (a < b)
  | ninf, ninf => false
  | ninf, _ => true
  | pinf, _ => false
  | fin _, pinf => true
  | fin _, ninf => false

def leb : Fl → Fl → Bool
  | nan, _ => false
  | _, nan => false
  | fin a, fin b => decide (a ≤ b)
  | ninf, _ => true
  | pinf, pinf => true
  | pinf, _ => false
  | fin _, pinf => true
  | fin _, ninf => false

instance : Add Fl := ⟨add⟩
instance : Neg Fl := ⟨neg⟩
instance : Sub Fl := ⟨fun a b => add a (neg b)⟩
instance : Mul Fl := ⟨mul⟩
instance : Zero Fl := ⟨fin 0⟩
instance : One Fl := ⟨fin 1⟩
instance : NatCast Fl := ⟨fun n => fin n⟩
instance : LT Fl := ⟨fun a b => ltb a b = true⟩
instance : LE Fl := ⟨fun a b => leb a b = true⟩
instance : DecidableLT Fl := fun a b => inferInstanceAs (Decidable (ltb a b = true))
instance : DecidableLE Fl := fun a b => inferInstanceAs (Decidable (leb a b = true))
instance : FDiv Fl := ⟨fun a b => .ok (div a b)⟩
instance : Inhabited Fl := ⟨nan⟩

@[simp] theorem nan_add (a : Fl) : nan + a = nan := by cases a <;> rfl
@[simp] theorem add_nan (a : Fl) : a + nan = nan := by cases a <;> rfl
@[simp] theorem not_nan_lt (a : Fl) : ¬ nan < a := by
  change ¬ ltb nan a = true; cases a <;> simp [ltb]
@[simp] theorem not_lt_nan (a : Fl) : ¬ a < nan := by
  change ¬ ltb a nan = true; cases a <;> simp [ltb]
@[simp] theorem not_nan_le (a : Fl) : ¬ nan ≤ a := by
  change ¬ leb nan a = true; cases a <;> simp [leb]
@[simp] theorem fin_add (a b : ℚ) : fin a + fin b = fin (a + b) := rfl
theorem fin_lt (a b : ℚ) : fin a < fin b ↔ a < b := by
  change ltb (fin a) (fin b) = true ↔ _; simp [ltb]
theorem fin_le (a b : ℚ) : fin a ≤ fin b ↔ a ≤ b := by
  change leb (fin a) (fin b) = true ↔ _; simp [leb]
theorem zero_def : (0 : Fl) = fin 0 := rfl
theorem one_def : (1 : Fl) = fin 1 := rfl
theorem fdiv_def (a b : Fl) : FDiv.fdiv a b = Except.ok (div a b) := rfl
@[simp] theorem nan_div (a : Fl) : div nan a = nan := by cases a <;> rfl
theorem div_zero_zero : div (fin 0) (fin 0) = nan := by simp [div, infSign, sgn]
theorem fin_div {a b : ℚ} (h : b ≠ 0) : div (fin a) (fin b) = fin (a / b) := by simp [div, h]

end Fl
end Verif

import Verif.Core.Buf
import Mathlib.Analysis.SpecialFunctions.Trigonometric.Basic
import Mathlib.Topology.Order.Basic
import Mathlib.Topology.Algebra.Order.Field

/-!
# Rounded arithmetic

The models are generic in the numbers they compute with.  Here are the numbers of a floating point unit: real numbers whose sums,
differences, products and quotients are rounded.  What is assumed about the rounding is the usual bound on the relative error
(so no overflow and no underflow), that integers up to `1/u` are represented exactly, and that the library's sine and square root
are as accurate.  IEEE 754 binary64 with round to nearest satisfies the first two with `u = 2^-53`.
-/

namespace Verif

/-- a floating point unit: rounding, sine, square root -/
structure World where
  rnd : ℝ → ℝ
  sin : ℝ → ℝ
  sqrt : ℝ → ℝ

/-- accurate to `u` -/
structure World.Accurate (w : World) (u : ℝ) : Prop where
  rnd : ∀ x, |w.rnd x - x| ≤ u * |x|
  exact : ∀ n : ℕ, n * u ≤ 1 → w.rnd n = n
  sin : ∀ x, |x| * u ≤ 1 → |w.sin x - Real.sin x| ≤ u
  sqrt : ∀ x, 0 ≤ x → |w.sqrt x - Real.sqrt x| ≤ u * Real.sqrt x

theorem World.Accurate.mono {w : World} {u v : ℝ} (h : w.Accurate u) (huv : u ≤ v) : w.Accurate v where
  rnd x := (h.rnd x).trans (mul_le_mul_of_nonneg_right huv (abs_nonneg x))
  exact n hn := h.exact n ((mul_le_mul_of_nonneg_left huv n.cast_nonneg).trans hn)
  sin x hx := (h.sin x ((mul_le_mul_of_nonneg_left huv (abs_nonneg x)).trans hx)).trans huv
  sqrt x hx := (h.sqrt x hx).trans (mul_le_mul_of_nonneg_right huv (Real.sqrt_nonneg x))

/-- the numbers of a floating point unit -/
def Rn (_ : World) : Type := ℝ

namespace Rn
variable {w : World}

instance : Add (Rn w) := ⟨fun a b : ℝ => w.rnd (a + b)⟩
instance : Sub (Rn w) := ⟨fun a b : ℝ => w.rnd (a - b)⟩
instance : Mul (Rn w) := ⟨fun a b : ℝ => w.rnd (a * b)⟩
instance : Zero (Rn w) := ⟨(0 : ℝ)⟩
instance : One (Rn w) := ⟨(1 : ℝ)⟩
instance : NatCast (Rn w) := ⟨fun n => w.rnd (n : ℝ)⟩
instance : IntCast (Rn w) := ⟨fun z => w.rnd (z : ℝ)⟩
instance : LT (Rn w) := ⟨fun a b : ℝ => a < b⟩
instance : LE (Rn w) := ⟨fun a b : ℝ => a ≤ b⟩
noncomputable instance : DecidableLT (Rn w) := fun a b : ℝ => Real.decidableLT a b
noncomputable instance : DecidableLE (Rn w) := fun a b : ℝ => Real.decidableLE a b
noncomputable instance : DecidableEq (Rn w) := fun a b : ℝ => Real.decidableEq a b
noncomputable instance : FDiv (Rn w) :=
  ⟨fun a b : ℝ => if b = 0 then .error .nonFinite else .ok (w.rnd (a / b))⟩

end Rn

end Verif

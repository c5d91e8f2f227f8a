import Verif.Core.Buf
import Mathlib.Algebra.Order.Field.Rat
import Mathlib.Data.Rat.Cast.Order

/-!
# IEEE 754 binary formats: the number a bit pattern stands for
-/

namespace Verif.Ieee

/-- The number a pattern with `e` exponent bits and `m` fraction bits stands for; `none` for infinities and NaN.  Bits from the lowest:
fraction, exponent, sign. -/
def value (e m bits : Nat) : Option ℚ :=
  let frac := bits % 2 ^ m
  let ex := bits / 2 ^ m % 2 ^ e
  let s : ℚ := if bits / 2 ^ (m + e) % 2 = 1 then -1 else 1
  let bias : Int := 2 ^ (e - 1) - 1
  if ex = 2 ^ e - 1 then none
  else if ex = 0 then some (s * ((frac : ℚ) * 2 ^ (1 - bias - (m : Int))))
  else some (s * (((2 ^ m + frac : Nat) : ℚ) * 2 ^ ((ex : Int) - bias - (m : Int))))

/-- `float` (binary32) -/
def single (bits : Nat) : Option ℚ := value 8 23 bits
/-- `double` (binary64) -/
def double (bits : Nat) : Option ℚ := value 11 52 bits

end Verif.Ieee

import Mathlib.Algebra.Order.Floor.Ring
import Mathlib.Algebra.Field.Basic
import Mathlib.Algebra.Order.Group.Unbundled.Abs

/-!
# Model of the sine of the C++ tracking: `sin.h`, `sincos.h`, `vdtcore_common.h`

Exact arithmetic; the constants are the decimal numbers written in the source.  `int` is `Int`: `C83_int32` gives the range of
arguments for which the 32 bit integers of the code are enough.
-/

namespace Verif.Vdt

section
variable {K : Type _} [Field K]

/-- decimal number `m * 10 ^ -e` -/
def dec (m : Int) (e : Nat) : K := (m : K) / 10 ^ e

/-- vdtcore_common.h:31 -/
def mPi : K := dec 314159265358979323846 20
/-- vdtcore_common.h:46 `ONEOPIO4`, :52 `ONEOPIO4F` -/
def oneOPio4 : K := 4 / mPi

/-- sincos.h:58 -/
def dp1 : K := dec 7853981554508209228515625 25
/-- sincos.h:59 -/
def dp2 : K := dec 794662735614792836714 29
/-- sincos.h:60 -/
def dp3 : K := dec 306161699786838294307 37

/-- sincos.h:72-85 `get_sin_px` with the constants of sincos.h:44-49 -/
def sinPx (x : K) : K :=
  let px := dec 158962301576546568060 30
  let px := px * x + dec (-250507477628578072866) 28
  let px := px * x + dec 275573136213857245213 26
  let px := px * x + dec (-198412698295895385996) 24
  let px := px * x + dec 833333333332211858878 23
  px * x + dec (-166666666666666307295) 21

/-- sincos.h:89-102 `get_cos_px` with the constants of sincos.h:51-56 -/
def cosPx (x : K) : K :=
  let px := dec (-113585365213876817300) 31
  let px := px * x + dec 208757008419747316778 29
  let px := px * x + dec (-275573141792967388112) 27
  let px := px * x + dec 248015872888517045348 25
  let px := px * x + dec (-138888888888730564116) 23
  px * x + dec 416666666666665929218 22

/-- sincos.h:119-124 `fast_sincos_m45_45`: sine and cosine -/
def sincos45 (z : K) : K × K :=
  let zz := z * z
  (z + z * zz * sinPx zz, 1 - zz * dec 5 1 + zz * zz * cosPx zz)

/-- sincos.h:64 -/
def dp1F : K := dec 78515625 8
/-- sincos.h:65 -/
def dp2F : K := dec 24187564849853515625 23
/-- sincos.h:66 -/
def dp3F : K := dec 377489497744594108 25

/-- sincos.h:187-200 `fast_sincosf_m45_45` -/
def sincos45F (x : K) : K × K :=
  let z := x * x
  (((dec (-19515295891) 14 * z + dec 83321608736 13) * z - dec 16666654611 11) * z * x + x,
   ((dec 2443315711809948 20 * z - dec 1388731625493765 18) * z + dec 4166664568298827 17) * z * z - dec 5 1 * z + 1)
end

/-- `j & 4`, `j & 2` as a bit of a two's complement number -/
def bit (k : Nat) (j : Int) : Int := (j / 2 ^ k) % 2

section
variable {K : Type _} [Field K] [LinearOrder K] [FloorRing K]

/-- sincos.h:107-115, 168-179: the value of `quad` after the conversion to `int` of a number that is not negative -/
def quad0 (x : K) : Int := ⌊oneOPio4 * |x|⌋

/-- sincos.h:107-115, 168-179 `reduce2quadrant`: `(quad + 1) & ~1` clears the last bit -/
def quad (x : K) : Int := quad0 x + 1 - (quad0 x + 1) % 2

/-- sincos.h:107-115, 168-179 `reduce2quadrant`: the reduced argument -/
def reduce (d1 d2 d3 x : K) : K := ((|x| - quad x * d1) - quad x * d2) - quad x * d3

/-- sincos.h:132-161, 207-233: octants and signs; `sc` computes sine and cosine of the reduced argument `z` -/
def octants (sc : K → K × K) (z : K) (j : Int) (xx : K) : K × K :=
  let signS := bit 2 j
  let j := j - 2
  let signC := bit 2 j
  let poly := bit 1 j
  let (s, c) := sc z
  let (s, c) := if poly = 0 then (c, s) else (s, c)
  let c := if signC = 0 then -c else c
  let s := if signS ≠ 0 then -s else s
  let s := if xx < 0 then -s else s
  (s, c)

/-- sincos.h:132-161 `fast_sincos` -/
def fastSincos (xx : K) : K × K := octants sincos45 (reduce dp1 dp2 dp3 xx) (quad xx) xx

/-- sin.h:37 `fast_sin` -/
def fastSin (x : K) : K := (fastSincos x).1

/-- sincos.h:207-233 `fast_sincosf` -/
def fastSincosF (xx : K) : K × K := octants sincos45F (reduce dp1F dp2F dp3F xx) (quad xx) xx

/-- sin.h:41 `fast_sinf` -/
def fastSinF (x : K) : K := (fastSincosF x).1

end
end Verif.Vdt

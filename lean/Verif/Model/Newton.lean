import Verif.Model.Machine

/-!
# The root finder: `scipy.optimize.newton` with a derivative

The code calls scipy (`scipy ~= 1.11`, pyproject.toml:22), which is not part of the repository.  This is the documented algorithm for
one number as start, with `fprime`, without `fprime2`, `rtol = 0`: Newton-Raphson steps until two iterates are at most `tol` apart.
-/

namespace Verif.Mch

variable {K : Type _} [Field K] [LinearOrder K]

/-- `scipy.optimize.newton(f, x0, fprime=f', tol=tol, maxiter=n)`; `none` is the RuntimeError for a zero derivative or too many
iterations -/
def scipyNewton (f f' : K → K) (tol : K) : Nat → K → Option K
  | 0, _ => none
  | n + 1, p0 =>
    if f p0 = 0 then some p0
    else if f' p0 = 0 then none
    else
      let p := p0 - f p0 / f' p0
      if |p - p0| ≤ tol then some p else scipyNewton f f' tol n p

/-- machine.py:139-144, 175-180, physics.py:332-343, programs_machine.py:247-274: `tol=0.0001, maxiter=100` -/
def newtonOfTheCode (f f' : K → K) (x0 : K) : Option K := scipyNewton f f' (1 / 10000) 100 x0

end Verif.Mch

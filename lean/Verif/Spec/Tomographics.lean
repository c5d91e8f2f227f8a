import Verif.Spec.Fit
import Verif.Spec.PostProcess
import Mathlib.Algebra.Polynomial.Eval.Degree

/-! What the quantities of `utils/tomographics.py` mean, independent of the model. -/

namespace Verif.Spec
open Finset

variable {K : Type _} [Field K] [LinearOrder K]

/-- squared distance of the points `(x k, y k)`, `a ≤ k < b`, from the line with slope `s` and intercept `c` -/
def residualAt (x y : ℕ → K) (a b : ℕ) (s c : K) : K := ∑ k ∈ Ico a b, (y k - (s * x k + c)) ^ 2

/-- `z` is where a line of least squares through these points crosses zero -/
def IsFootAt (x y : ℕ → K) (a b : ℕ) (z : K) : Prop :=
  ∃ s c, s ≠ 0 ∧ (∀ s' c', residualAt x y a b s c ≤ residualAt x y a b s' c') ∧ s * z + c = 0

/-- `l` and `r` are the first and the last of the `n` values that are at least 15 % of the largest one -/
structure Above (n : ℕ) (y : ℕ → K) (l r : ℕ) : Prop where
  peak : ∃ p, p < n ∧ (∀ k, k < n → y k ≤ y p) ∧ 15 / 100 * y p ≤ y l ∧ 15 / 100 * y p ≤ y r ∧
    ∀ k, k < n → 15 / 100 * y p ≤ y k → l ≤ k ∧ k ≤ r
  left : l < n
  right : r < n

/-- `z` is `y` filtered with windows of five values and polynomials of degree at most four: in each window the polynomial of
least squares, taken in the middle, and at the ends of the data over the rest of the window -/
def Savgol (n : ℕ) (y z : ℕ → K) : Prop :=
  ∀ a, a + 5 ≤ n → ∃ P : Polynomial K, P.degree < 5 ∧
    (∀ Q : Polynomial K, Q.degree < 5 →
      ∑ k ∈ range 5, (y (a + k) - P.eval (k : K)) ^ 2 ≤ ∑ k ∈ range 5, (y (a + k) - Q.eval (k : K)) ^ 2) ∧
    z (a + 2) = P.eval 2 ∧
    (a = 0 → z 0 = P.eval 0 ∧ z 1 = P.eval 1) ∧
    (a + 5 = n → z (a + 3) = P.eval 3 ∧ z (a + 4) = P.eval 4)

/-- an area of `A` cells holds the content `c`: a share between 0 and 1 of every cell is taken, the shares add up to `A`, the
content taken is at least `c` -/
def Covers (cells : List K) (c A : K) : Prop :=
  ∃ l : List (K × K), (l.map Prod.snd).Perm cells ∧ (∀ q ∈ l, 0 ≤ q.1 ∧ q.1 ≤ 1) ∧ c ≤ (l.map fun q => q.1 * q.2).sum ∧
    A = (l.map Prod.fst).sum

/-- the smallest area (in cells) that holds the content `c` -/
def SmallestArea (cells : List K) (c A : K) : Prop := IsLeast {A | Covers cells c A} A

/-! moments of an image with `n` rows and columns -/

/-- total content -/
def contentOf (n : ℕ) (f : ℕ → ℕ → K) : K := ∑ i ∈ range n, ∑ j ∈ range n, f i j

/-- mean of a quantity over the image -/
def meanOf (n : ℕ) (f g : ℕ → ℕ → K) : K := (∑ i ∈ range n, ∑ j ∈ range n, f i j * g i j) / contentOf n f

/-- covariance of two quantities -/
def covOf (n : ℕ) (f g h : ℕ → ℕ → K) : K :=
  meanOf n f fun i j => (g i j - meanOf n f g) * (h i j - meanOf n f h)

/-! contours in the bucket; `C` and `S` are the cosine and the sine -/

/-- energy of the motion in the bucket, up to a factor and a constant: `k` is `q β² E / (π h η)` -/
def bucketEnergy (C S : K → K) (k v phi0 phi dE : K) : K := dE ^ 2 / k - v * (C phi + phi * S phi0)

/-- `h` is the half height of the contour through `(start, 0)` at phase `phi`: the crossing that is not negative if there is
one, otherwise 0 -/
def IsHeight (C S : K → K) (k v phi0 start phi h : K) : Prop :=
  0 ≤ h ∧ (bucketEnergy C S k v phi0 phi h = bucketEnergy C S k v phi0 start 0 ∨
    h = 0 ∧ ∀ e, bucketEnergy C S k v phi0 phi e ≠ bucketEnergy C S k v phi0 start 0)

/-- `z` is where the polygon through the points `(φ k, u k)` takes the value `level`, between the points `k` and `k + 1` -/
def OnChord (φ u : ℕ → K) (k : ℕ) (level z : K) : Prop :=
  (z - φ k) * (u (k + 1) - u k) = (level - u k) * (φ (k + 1) - φ k)

/-- The `j`-th particle is in the time slice `i` and not inside the contour with half height `H i` there.  `x`, `y` are in bins;
`t` and `e` are the times and energies of the bins. -/
def OutOfContour (t e H x y : ℕ → K) (i j : ℕ) : Prop :=
  (t i ≤ t 0 + x j * (t 1 - t 0) ∧ t 0 + x j * (t 1 - t 0) ≤ t (i + 1)) ∧
    (H i ≤ e 0 + y j * (e 1 - e 0) ∨ e 0 + y j * (e 1 - e 0) ≤ - H i)

/-- The `j`-th particle is in the time slice `i` and inside the contour there. -/
def InContour (t e H x y : ℕ → K) (i j : ℕ) : Prop :=
  (t i ≤ t 0 + x j * (t 1 - t 0) ∧ t 0 + x j * (t 1 - t 0) ≤ t (i + 1)) ∧
    (e 0 + y j * (e 1 - e 0) < H i ∧ - H i < e 0 + y j * (e 1 - e 0))

end Verif.Spec

import Verif.Spec.Run
import Verif.Spec.SelfField
import Verif.Model.RunSelf

/-!
# A film with self fields, stated per particle

A particle is a point of the image of the profile reconstructed.  With self fields its position at another profile is counted
in one wrap interval.
-/

namespace Verif.Spec
variable {K : Type} [Field K] [LinearOrder K]

/-- a particle whose position at profile `p` is `S p c` is inside the time window of every profile -/
def InAll (P nbins : ℕ) (S : ℕ → K × K → K × K) (c : K × K) : Prop := ∀ p, p < P → 0 ≤ (S p c).1 ∧ (S p c).1 < nbins

instance (P nbins : ℕ) (S : ℕ → K × K → K × K) : DecidablePred (InAll P nbins S) := fun c =>
  inferInstanceAs (Decidable (∀ p, p < P → 0 ≤ (S p c).1 ∧ (S p c).1 < nbins))

/-- radians per bin at a turn -/
def radPerBin (m : Run.Mach K) (A : Turns K) (t : ℕ) : K := m.hNum * A.om t * m.dtbin

/-- the machine with the voltages `V` of the self field, folded into intervals of `wrap` radians -/
def selfRing (m : Run.Mach K) (P d : ℕ) (A : Turns K) (xo wrap : K) (V : ℕ → ℤ → K) : SelfProgram K :=
  { R := ring m P d A m.phi12, drad := radPerBin m A, xorigin := xo, wrap := wrap, q := m.q, V := V, d := d }

/-- the voltages of a table of `l + 1` columns; bin `-1` is the last column -/
def tableV (v : ℕ → ℕ → K) (l p : ℕ) (z : ℤ) : K := if z = -1 then v p l else v p z.toNat

variable [FloorRing K]

/-- where in the image of profile `p` the particle is, counted in one wrap interval -/
def seenS (sin : K → K) (m : Run.Mach K) (d : ℕ) (A : Turns K) (F : SelfProgram K) (dE : K) (r p : ℕ) (c : K × K) : K × K :=
  let z := transportS sin F (r * d) (p * d) (physical m d A F.xorigin dE r c)
  (bin F (p * d) z.1, z.2 / dE + m.synchPartY)

/-- bins of the particles of a list -/
def binsOf (S : ℕ → K × K → K × K) (pts : List (K × K)) (i p : ℕ) : ℕ := ⌊(S p (pts.getD i (0, 0))).1⌋.toNat

end Verif.Spec

import Verif.Model.Run
import Verif.Spec.Tracking
import Verif.Spec.Recon

/-!
# What a whole run means

A machine ready for tracking, the way a macroparticle takes through the profiles seen in bins of the image, and the density
a set of weights makes in the image.
-/

namespace Verif.Spec
open Finset

/-- turn arrays of the machine as functions of the turn -/
structure Turns (K : Type _) where
  v1 : ℕ → K
  v2 : ℕ → K
  ph : ℕ → K
  dE : ℕ → K
  coef : ℕ → K
  om : ℕ → K

section
variable {K : Type} [Field K] [LinearOrder K]

/-- The machine has its turn arrays, one value for each turn from the first to the last of `P` profiles `d` turns apart, a
positive time bin, its synchronous particle in time known and in energy in the middle of the image. -/
structure Loaded (m : Run.Mach K) (P d : ℕ) (A : Turns K) : Prop where
  nprofiles : m.nprofiles = P
  dturns : m.dturns = d
  v1 : m.vrf1AtTurn = tab ((P - 1) * d + 1) A.v1
  v2 : m.vrf2AtTurn = tab ((P - 1) * d + 1) A.v2
  ph : m.phi0 = tab ((P - 1) * d + 1) A.ph
  dE : m.deltaE0 = tab ((P - 1) * d + 1) A.dE
  coef : m.driftCoef = tab ((P - 1) * d + 1) A.coef
  om : m.omegaRev0 = tab ((P - 1) * d + 1) A.om
  dtbin : 0 < m.dtbin
  scale : ∀ p, p < P → m.hNum * A.om (p * d) ≠ 0
  synchX : 0 ≤ m.synchPartX
  synchY : m.synchPartY = (m.nbins : K) / 2
  window : m.fullPp = false ∨ m.maxDt ≤ m.nbins * m.dtbin

/-- The ring the particles are tracked in.  The last phase difference is `past`, the memory behind the array (C24). -/
def ring (m : Run.Mach K) (P d : ℕ) (A : Turns K) (past : K) : Program K :=
  { rf1 := fun t => A.v1 t * m.q
    rf2 := fun t => A.v2 t * m.q
    phi0 := A.ph
    dE := A.dE
    coef := A.coef
    phi12 := fun t => if t < (P - 1) * d then m.phi12 else past
    h := m.hRatio }

/-- phase and energy at profile `p` of the point `(x, y)` of the image -/
def physical (m : Run.Mach K) (d : ℕ) (A : Turns K) (xo dE : K) (p : ℕ) (c : K × K) : K × K :=
  ((c.1 + xo) * m.hNum * A.om (p * d) * m.dtbin - A.ph (p * d), (c.2 - m.synchPartY) * dE)

/-- point of the image at profile `p` of a particle with phase and energy `c` -/
def toImage (m : Run.Mach K) (d : ℕ) (A : Turns K) (xo dE : K) (p : ℕ) (c : K × K) : K × K :=
  ((c.1 + A.ph (p * d)) / (m.hNum * A.om (p * d) * m.dtbin) - xo, c.2 / dE + m.synchPartY)

/-- where in the image of profile `p` the particle is that is at the point `c` of the image of profile `r` -/
def seen (sin : K → K) (m : Run.Mach K) (P d : ℕ) (A : Turns K) (past xo dE : K) (r p : ℕ) (c : K × K) : K × K :=
  toImage m d A xo dE p (transport sin (ring m P d A past) (r * d) (p * d) (physical m d A xo dE r c))

/-- the particle is inside the time window of every profile -/
def Stays (sin : K → K) (m : Run.Mach K) (P d : ℕ) (A : Turns K) (past xo dE : K) (r : ℕ) (c : K × K) : Prop :=
  ∀ p, p < P → 0 ≤ (seen sin m P d A past xo dE r p c).1 ∧ (seen sin m P d A past xo dE r p c).1 < m.nbins

instance (sin : K → K) (m : Run.Mach K) (P d : ℕ) (A : Turns K) (past xo dE : K) (r : ℕ) :
    DecidablePred (Stays sin m P d A past xo dE r) := fun c =>
  inferInstanceAs (Decidable (∀ p, p < P →
    0 ≤ (seen sin m P d A past xo dE r p c).1 ∧ (seen sin m P d A past xo dE r p c).1 < m.nbins))

/-- `pts` are the centres of the `s × s` parts of the cells of the area `l`, each once -/
structure Fills (l : Psi.Limits) (s : ℕ) (pts : List (K × K)) : Prop where
  nodup : pts.Nodup
  mem : ∀ x y, (x, y) ∈ pts ↔ ∃ (i : ℕ) (j u v : ℤ) (a b : ℕ), l.imin ≤ i ∧ (i : ℤ) ≤ l.imax ∧
    l.jmin[i]? = some u ∧ l.jmax[i]? = some v ∧ u ≤ j ∧ j < v ∧ a < s ∧ b < s ∧
    x = (i : K) + (2 * (a : K) + 1) / (2 * (s : K)) ∧ y = (j : K) + (2 * (b : K) + 1) / (2 * (s : K))

end

/-- cell of the image containing the point -/
def cellOf {K : Type} [Field K] [LinearOrder K] [FloorRing K] (c : K × K) : ℤ × ℤ := (⌊c.1⌋, ⌊c.2⌋)

/-- time bin at profile `p` of the `i`-th particle of `pts` -/
def binAt {K : Type} [Field K] [LinearOrder K] [FloorRing K] (sin : K → K) (m : Run.Mach K) (P d : ℕ) (A : Turns K)
    (past xo dE : K) (r : ℕ) (pts : List (K × K)) (i p : ℕ) : ℕ :=
  ⌊(seen sin m P d A past xo dE r p (pts.getD i (0, 0))).1⌋.toNat

/-- the image of particles in cells: each cell holds the share of the weights of the particles in it -/
def share {K : Type} [Field K] (n : ℕ) (cell : ℕ → ℤ × ℤ) (w : ℕ → K) (a b : ℕ) : K :=
  (∑ i ∈ range n with cell i = ((a : ℤ), (b : ℤ)), w i) / ∑ i ∈ range n, w i

end Verif.Spec

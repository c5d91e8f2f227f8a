import Verif.Spec.Tracking
import Verif.Model.SelfField

/-!
# Tracking with self fields, stated per particle

A particle is a pair (phase offset, energy offset).  `bin t φ` is the position of phase `φ` at turn `t` in bins, folded into one
wrap interval; `V p j` the voltage tabulated between profiles `p` and `p + 1` for bin `j`.
-/

namespace Verif.Spec
variable {K : Type} [Field K] [LinearOrder K] [IsStrictOrderedRing K] [FloorRing K]

/-- machine and voltage table as functions -/
structure SelfProgram (K : Type) where
  R : Program K
  /-- radians per bin at a turn -/
  drad : ℕ → K
  xorigin : K
  /-- the wrap interval in radians -/
  wrap : K
  q : K
  V : ℕ → ℤ → K
  /-- turns between profiles -/
  d : ℕ

/-- phase counted from the left edge of the image -/
def edgePhase (F : SelfProgram K) (t : ℕ) (φ : K) : K := φ + F.R.phi0 t - F.xorigin * F.drad t

/-- position in bins within one wrap interval -/
def bin (F : SelfProgram K) (t : ℕ) (φ : K) : K :=
  (edgePhase F t φ - F.wrap * (⌊edgePhase F t φ / F.wrap⌋ : K)) / F.drad t

/-- one turn forward: as without self fields, then the voltage of the bin *before* the one the particle is in -/
def fwdS (sin : K → K) (F : SelfProgram K) (t : ℕ) (x : K × K) : K × K :=
  let y := fwd sin F.R t x
  (y.1, y.2 + F.V (t / F.d) (⌊bin F (t + 1) y.1⌋ - 1) * F.q)

/-- one turn backward: the voltage of the bin the particle is in is *added* as well -/
def bwdS (sin : K → K) (F : SelfProgram K) (t : ℕ) (x : K × K) : K × K :=
  let e := x.2 - gain sin F.R (t + 1) x.1 + F.V (t / F.d) ⌊bin F (t + 1) x.1⌋ * F.q
  (x.1 + F.R.coef t * e, e)

/-- `k` turns forward from turn `s` -/
def upS (sin : K → K) (F : SelfProgram K) (s : ℕ) : ℕ → K × K → K × K
  | 0, x => x
  | k + 1, x => fwdS sin F (s + k) (upS sin F s k x)

/-- `k` turns backward from turn `s` -/
def downS (sin : K → K) (F : SelfProgram K) (s : ℕ) : ℕ → K × K → K × K
  | 0, x => x
  | k + 1, x => bwdS sin F (s - (k + 1)) (downS sin F s k x)

/-- from turn `s` to turn `t` -/
def transportS (sin : K → K) (F : SelfProgram K) (s t : ℕ) (x : K × K) : K × K :=
  if s ≤ t then upS sin F s (t - s) x else downS sin F s (s - t) x

/-- The arrays handed to the tracking hold machine and table for `P` profiles, turns `0..N`, with `L + 1` columns. -/
structure AgreesS (m : Track.Mach K) (phi12 : K) (f : SelfF.SF K) (P N L : ℕ) (F : SelfProgram K) : Prop where
  mach : Agrees { m with phi12 := List.replicate (N + 1) phi12 } N F.R
  omega : ∀ t, t ≤ N → ∃ w, f.omegaRev0[t]? = some w ∧ f.hNum * w * f.dtbin = F.drad t
  table : ∃ v : ℕ → ℕ → K, f.vself = tab (P - 1) (fun p => tab (L + 1) (v p)) ∧
    (∀ p (j : ℕ), F.V p j = v p j) ∧ ∀ p, F.V p (-1) = v p L
  xorigin : f.xorigin = F.xorigin
  wrap : f.phiwrap = F.wrap
  q : f.q = F.q
  dEbin : f.dEbin ≠ 0
  wrap_pos : 0 < F.wrap
  drad_pos : ∀ t, t ≤ N → 0 < F.drad t

end Verif.Spec

namespace Verif.Spec
variable {K : Type} [Field K] [LinearOrder K] [IsStrictOrderedRing K] [FloorRing K]

/-- The revolution frequency that fixes the wrap interval: at the turn before the last profile when the magnetic field rises, at
turn 0 otherwise. -/
def refOmega (bdot : K) (w : ℕ → K) (N : ℕ) : K := if 0 < bdot then w (N - 1) else w 0

/-- A machine with `P ≥ 2` profiles, `d` turns apart, `N = (P - 1) d`, positive frequencies `w`, velocities `b` and scales, seen
by the self-field calculation (`sm`) and by the tracking (`m`, `f`). -/
structure SelfSetup (sm : SelfF.SMach K) (m : Track.Mach K) (phi12 : K) (f : SelfF.SF K) (P N d : ℕ) (R : Program K)
    (w b : ℕ → K) : Prop where
  profiles : sm.nprofiles = P
  two : 2 ≤ P
  dturns : sm.dturns = d
  dpos : 0 < d
  turns : N = (P - 1) * d
  omega : sm.omegaRev0 = tab (N + 1) w
  omega_pos : ∀ t, 0 < w t
  beta : sm.beta0 = tab (N + 1) b
  beta_ne : ∀ t, b t ≠ 0
  h_pos : 0 < sm.hNum
  dt_pos : 0 < sm.dtbin
  nbins : 0 < sm.nbins
  same_omega : f.omegaRev0 = sm.omegaRev0
  same_h : f.hNum = sm.hNum
  same_dt : f.dtbin = sm.dtbin
  dEbin : f.dEbin ≠ 0
  mach : Agrees { m with phi12 := List.replicate (N + 1) phi12 } N R

/-- slope of the profile to self-field voltage, for coupling `g`, wall impedance over harmonic `Z`, bins of `dt`, revolution frequency `ω`
and velocity `β`; `e`, `pi`, `eps`, `c` are the constants -/
def selfCoeff (e pi eps c g Z dt ω β : K) : K := e / ω * ((1 / β - β) * g * pi * eps * c - Z) / dt ^ 2

end Verif.Spec

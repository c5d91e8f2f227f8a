import Verif.Model.Tracking

/-!
# What tracking means

A particle is a pair (phase offset, energy offset).  `fwd t` takes it from turn `t` to turn `t+1`, `bwd t` from `t+1` to
`t`; `transport s t` takes it from turn `s` to turn `t`.
-/

namespace Verif.Spec

/-- machine parameters as functions of the turn -/
structure Program (α : Type _) where
  rf1 : ℕ → α
  rf2 : ℕ → α
  phi0 : ℕ → α
  dE : ℕ → α
  coef : ℕ → α
  phi12 : ℕ → α
  h : α

variable {α : Type _} [Add α] [Sub α] [Mul α]

/-- energy gained at turn `t` by a particle of phase `φ` relative to the synchronous particle -/
def gain (sin : α → α) (R : Program α) (t : ℕ) (φ : α) : α :=
  R.rf1 t * sin (φ + R.phi0 t) + R.rf2 t * sin (R.h * (φ + R.phi0 t - R.phi12 t)) - R.dE t

/-- one turn forward: phase slip with the old energy, then the kick at the new phase -/
def fwd (sin : α → α) (R : Program α) (t : ℕ) (x : α × α) : α × α :=
  let φ := x.1 - R.coef t * x.2
  (φ, x.2 + gain sin R (t + 1) φ)

/-- one turn backward -/
def bwd (sin : α → α) (R : Program α) (t : ℕ) (x : α × α) : α × α :=
  let e := x.2 - gain sin R (t + 1) x.1
  (x.1 + R.coef t * e, e)

/-- `k` turns forward, starting at turn `s` -/
def up (sin : α → α) (R : Program α) (s : ℕ) : ℕ → α × α → α × α
  | 0, x => x
  | k + 1, x => fwd sin R (s + k) (up sin R s k x)

/-- `k` turns backward, starting at turn `s` -/
def down (sin : α → α) (R : Program α) (s : ℕ) : ℕ → α × α → α × α
  | 0, x => x
  | k + 1, x => bwd sin R (s - (k + 1)) (down sin R s k x)

/-- from turn `s` to turn `t` -/
def transport (sin : α → α) (R : Program α) (s t : ℕ) (x : α × α) : α × α :=
  if s ≤ t then up sin R s (t - s) x else down sin R s (s - t) x

/-- The arrays `m` hold the ring parameters at least for turns `0..nturns`. -/
structure Agrees (m : Track.Mach α) (nturns : ℕ) (R : Program α) : Prop where
  rf1v : ∀ t, t ≤ nturns → m.rf1v[t]? = some (R.rf1 t)
  rf2v : ∀ t, t ≤ nturns → m.rf2v[t]? = some (R.rf2 t)
  phi0 : ∀ t, t ≤ nturns → m.phi0[t]? = some (R.phi0 t)
  deltaE0 : ∀ t, t ≤ nturns → m.deltaE0[t]? = some (R.dE t)
  driftCoef : ∀ t, t < nturns → m.driftCoef[t]? = some (R.coef t)
  phi12 : ∀ t, t ≤ nturns → m.phi12[t]? = some (R.phi12 t)
  hratio : m.hratio = R.h

/-- `P × n` array of phases (or energies) as the list of its rows -/
def rows {β : Type _} (P n : ℕ) (f : ℕ → ℕ → β) : List (List β) := tab P fun p => tab n (f p)

end Verif.Spec

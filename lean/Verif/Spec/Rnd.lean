import Verif.Core.Rnd
import Verif.Model.RunUser
import Mathlib.Data.Int.Log
import Mathlib.Algebra.Order.Round
import Mathlib.Algebra.BigOperators.Group.Finset.Basic

/-!
# What "the same up to rounding" means
-/

namespace Verif.Rounded

/-- as many numbers, each within `ε` -/
def Within (ε : ℝ) (a b : List ℝ) : Prop := List.Forall₂ (fun x y => |x - y| < ε) a b

/-- the same for the rows of a table -/
def WithinRows (ε : ℝ) (a b : List (List ℝ)) : Prop := List.Forall₂ (Within ε) a b

/-- Binary floating point with `p` bits, rounding to nearest, exponents of any size.  `p = 53` are the doubles, `p = 24` the single
precision numbers. -/
noncomputable def binaryRound (p : ℕ) (x : ℝ) : ℝ :=
  (round (x * 2 ^ ((p : ℤ) - 1 - Int.log 2 |x|)) : ℝ) * 2 ^ (Int.log 2 |x| - ((p : ℤ) - 1))

/-- a floating point unit with `p` bits and a correctly rounded sine and square root -/
noncomputable def binary (p : ℕ) : World where
  rnd := binaryRound p
  sin x := binaryRound p (Real.sin x)
  sqrt x := binaryRound p (Real.sqrt x)

/-- input numbers, rounded -/
def roundAll (w : World) (l : List ℝ) : List ℝ := l.map w.rnd

/-- the arrays of a machine, rounded -/
def roundMach (w : World) (m : Track.Mach ℝ) : Track.Mach ℝ where
  rf1v := roundAll w m.rf1v
  rf2v := roundAll w m.rf2v
  phi0 := roundAll w m.phi0
  deltaE0 := roundAll w m.deltaE0
  driftCoef := roundAll w m.driftCoef
  phi12 := roundAll w m.phi12
  hratio := w.rnd m.hratio

/-- an array, rounded -/
def roundArr (w : World) (a : Arr2 ℝ) : Arr2 ℝ := ⟨a.cols, a.rows.map (roundAll w)⟩

/-- the attributes of the machine used to convert physical units to bins, rounded -/
def roundArea (w : World) (a : Psi.Area ℝ) : Psi.Area ℝ :=
  { a with
    phi0 := roundAll w a.phi0
    omegaRev0 := roundAll w a.omegaRev0
    hNum := w.rnd a.hNum
    dtbin := w.rnd a.dtbin
    synchPartY := w.rnd a.synchPartY }

/-- the sum of one row of a flat array, in exact arithmetic -/
noncomputable def rowTotal (l : List ℝ) (nbins i : ℕ) : ℝ := ∑ j ∈ Finset.range nbins, l.getD (i * nbins + j) 0

/-- the sum of a row of `nbins` numbers is one up to `nbins + 1` roundings -/
def SumsToOne (u : ℝ) (nbins : ℕ) (S : ℝ) : Prop := 1 - u ≤ (1 + u) ^ nbins * S ∧ (1 - u) ^ nbins * S ≤ 1 + u

/-- no coordinate is an integer, i.e. no particle sits exactly on the boundary of two bins -/
def OffGrid (a : Arr2 ℝ) : Prop := ∀ r ∈ a.rows, ∀ v ∈ r, ∀ z : ℤ, v ≠ z

/-- the threads among the first `N` that add to cell `j`, when thread `t` adds to cell `cell t` -/
def adders (N : ℕ) (cell : ℕ → ℤ) (j : ℤ) : Finset ℕ := (Finset.range N).filter fun t => cell t = j

/-- `v` is `start` plus the numbers `g t`, `t ∈ T`, up to `k` roundings, whatever the order of the additions -/
def AddedUp (u : ℝ) (k : ℕ) (start : ℝ) (T : Finset ℕ) (g : ℕ → ℝ) (v : ℝ) : Prop :=
  |v - (start + ∑ t ∈ T, g t)| ≤ ((1 + u) ^ k - 1) * (|start| + ∑ t ∈ T, |g t|)

end Verif.Rounded

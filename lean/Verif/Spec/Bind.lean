import Verif.Model.Bind

/-!
# What the bindings should do

Independent of how a call is dispatched: the arrays a caller gets back hold the result of the computation on the values that
went in, rounded to the precision in use.
-/

namespace Verif.Spec
open Verif.Bind

variable {α : Type _}

/-- a per-turn table of the machine in precision `d` -/
def inPrecision (E : Env α) (d : DType) (v : List α) : List α := v.map (E.cv d)

/-- the machine in precision `d`, with the given phase difference table and harmonic ratio -/
def machineIn (E : Env α) (d : DType) (m : Track.Mach α) (phi12 : List α) (hratio : α) : Track.Mach α :=
  ⟨inPrecision E d m.rf1v, inPrecision E d m.rf2v, inPrecision E d m.phi0, inPrecision E d m.deltaE0,
    inPrecision E d m.driftCoef, phi12, hratio⟩

/-- the contents of the two arrays a call returns -/
def contents (r : M (Heap α × Int × Int)) : M (List (List α) × List (List α)) := do
  let r ← r
  let X ← rowsAt r.1 r.2.1
  let Y ← rowsAt r.1 r.2.2
  pure (X, Y)

/-- arrays in which nothing was written -/
def untouched (E : Env α) (d : DType) (nprofiles : Int) (n : ℕ) : List (List α) :=
  List.replicate nprofiles.toNat (List.replicate n (E.cv d E.zero))

end Verif.Spec

namespace Verif.Spec
open Verif.Bind
variable {α : Type} [Add α] [Sub α] [Mul α]

/-- does the compiled code work on this very array? -/
def Direct (A : NdArr α) : Prop := A.dtype = .f64 ∧ A.order = .c

/-- the energies after the kick of one turn, from the values of the tables at that turn -/
def kickOnce (sin : α → α) (up : Bool) (dphi denergy rf1 rf2 phi0 deltaE0 : List α) (phi12 hratio : α) (n : ℕ)
    (turn : Int) : M (List α) := do
  let v1 ← rd rf1 turn
  let v2 ← rd rf2 turn
  let f0 ← rd phi0 turn
  let acc ← rd deltaE0 turn
  if up then Track.kickUp sin dphi denergy v1 v2 f0 phi12 hratio n acc
  else Track.kickDown sin dphi denergy v1 v2 f0 phi12 hratio n acc

/-- the phases after the drift of one turn -/
def driftOnce (up : Bool) (dphi denergy coefs : List α) (n : ℕ) (turn : Int) : M (List α) := do
  let c ← rd coefs turn
  if up then Track.driftUp dphi denergy c n else Track.driftDown dphi denergy c n

/-- A call gave array `r` back in memory `h'`: it holds `v`; it is the caller's own array `a` exactly if the compiled code
worked on that, and otherwise a new one; every other array the caller had is as before. -/
def Returned (h h' : Heap α) (a r : Int) (A : NdArr α) (v : List α) : Prop :=
  (∃ B, rd h' r = .ok B ∧ B.rows = [v] ∧ B.dtype = .f64 ∧ B.order = .c) ∧ (r = a ↔ Direct A) ∧
    (¬ Direct A → (h.length : Int) ≤ r) ∧ ∀ b C, rd h b = .ok C → b ≠ r → rd h' b = .ok C

end Verif.Spec

import Verif.Core.Par
import Verif.Model.Multi
import Verif.Model.Tracking

/-!
# The OpenMP loops of `cpp_routines/`

Every `#pragma omp parallel for` of reconstruct.cpp and kick_and_drift.cpp: the body of one iteration as loads and stores of
shared memory.  Variables declared inside the loop body are private (ordinary bound variables here); variables declared outside
it and not listed in a `reduction` clause are shared locations.  Not modelled: `calc_xp_and_yp` (kick_and_drift.cpp:95-112, not
exported by libtomo.cpp).  A division by zero ends the iteration (the sequential model reports it as `nonFinite`).
-/

namespace Verif.Omp
open Verif.Par Verif.Recon Verif.Track

/-- Arrays and shared scalars of type `real_t`. -/
inductive Arr
  | weights | profiles | recon | diff | rparts | disc | dphi | denergy
  /-- row `p` of the output arrays of the tracking -/
  | xp (p : Int) | yp (p : Int)
  /-- the scalar `squared_sum`, reconstruct.cpp:161 -/
  | squaredSum
  /-- the private copy of `sum_waterfall` of thread `t`, reconstruct.cpp:92-93 -/
  | waterfall (t : Nat)
  deriving DecidableEq

/-- Arrays and shared scalars of type `int`. -/
inductive IArr
  | points | coords | centers | cutleft | cutright
  /-- the scalar `idx`, reconstruct.cpp:276, 307 -/
  | idx
  /-- the scalar `bin`, reconstruct.cpp:243, 340 -/
  | bin
  deriving DecidableEq

/-- Memory locations. -/
inductive Loc
  | real (a : Arr) (i : Int)
  | int (a : IArr) (i : Int)
  | mask (i : Int)
  deriving DecidableEq

/-- What a location holds. -/
@[reducible] def Val (α : Type) : Loc → Type
  | .real _ _ => α
  | .int _ _ => Int
  | .mask _ => Bool

abbrev Thread (α : Type) := Prog Loc (Val α)
abbrev Memory (α : Type) := Mem Loc (Val α)

section
variable {α : Type}

/-- `v = a[i]; k v` -/
@[reducible] def ld (a : Arr) (i : Int) (k : α → Thread α) : Thread α := .load (.real a i) k
/-- `v = a[i]; k v` for an `int` array -/
@[reducible] def ldi (a : IArr) (i : Int) (k : Int → Thread α) : Thread α := .load (.int a i) k
/-- `a[i] = v; k` -/
@[reducible] def st (a : Arr) (i : Int) (v : α) (k : Thread α) : Thread α := .store (.real a i) v k
/-- `a[i] = v; k` for an `int` array -/
@[reducible] def sti (a : IArr) (i : Int) (v : Int) (k : Thread α) : Thread α := .store (.int a i) v k

/-- continue with the quotient -/
def quot [FDiv α] (a b : α) (k : α → Thread α) : Thread α :=
  match FDiv.fdiv a b with
  | .ok q => k q
  | .error _ => .done

/-- contents of a real array -/
@[reducible] def reals (m : Memory α) (a : Arr) : Int → α := fun i => m (.real a i)
/-- contents of an integer array -/
@[reducible] def ints (m : Memory α) (a : IArr) : Int → Int := fun i => m (.int a i)

variable [Add α] [Sub α] [Mul α] [Zero α] [One α] [NatCast α] [IntCast α]
  [LT α] [LE α] [DecidableLT α] [DecidableLE α] [DecidableEq α] [FDiv α]

/-! ## Single bunch -/

/-- reconstruct.cpp:25-28, one particle of `back_project` -/
def backProjectBody (nprof : Nat) (i : Nat) : Thread α :=
  Prog.for' nprof fun j =>
    ldi .points ((i * nprof + j : Nat) : Int) fun fp => ld .profiles fp fun v => ld .weights (i : Int) fun w =>
    st .weights (i : Int) (w + v) .done

/-- reconstruct.cpp:111-114, one element of `clip`, of the array `a` -/
def clipBody (a : Arr) (clipVal : α) (i : Nat) : Thread α :=
  ld a (i : Int) fun v => if v < clipVal then st a (i : Int) clipVal .done else .done

/-- reconstruct.cpp:129-133, one element of `find_difference_profile` -/
def differenceBody (i : Nat) : Thread α :=
  ld .profiles (i : Int) fun p => ld .recon (i : Int) fun r => st .diff (i : Int) (p - r) .done

/-- reconstruct.cpp:181-186, one row of `compensate_particle_amount` (`idx` is declared inside the loop) -/
def compensateBody (nbins : Nat) (i : Nat) : Thread α :=
  Prog.for' nbins fun j =>
    ld .diff ((i * nbins + j : Nat) : Int) fun a => ld .rparts ((i * nbins + j : Nat) : Int) fun r =>
    st .diff ((i * nbins + j : Nat) : Int) (a * r) .done

/-- reconstruct.cpp:270-273 and 301-304, one element of "setting 0's to 1's" -/
def zerosToOnesBody (i : Nat) : Thread α :=
  ld .rparts (i : Int) fun v => if v = 0 then st .rparts (i : Int) 1 .done else .done

/-- reconstruct.cpp:279-281: one bin of the reciprocal.  `idx` is declared outside the loop (line 276): shared.  The right-hand
side is evaluated before the left-hand side. -/
def reciprocalCell (maxVal : α) (nbins i j : Nat) : Thread α :=
  sti .idx 0 ((i * nbins + j : Nat) : Int) <|
  ldi .idx 0 fun a => ld .rparts a fun v => quot maxVal v fun q =>
  ldi .idx 0 fun b => st .rparts b q .done

/-- reconstruct.cpp:277-282, one row of the reciprocal -/
def reciprocalBody (maxVal : α) (nbins i : Nat) : Thread α := Prog.for' nbins fun j => reciprocalCell maxVal nbins i j

/-- reconstruct.cpp:308-313, one iteration of the collapsed loop of `reciprocal_particles_multi` -/
def reciprocalCollapsed (maxVal : α) (nbins k : Nat) : Thread α := reciprocalCell maxVal nbins (k / nbins) (k % nbins)

/-- reconstruct.cpp:96-97: the sum of row `i` in the private variable `sum_profile`, then `k` of it -/
def rowSum (nbins i : Nat) (k : α → Thread α) : Nat → α → Thread α
  | 0, s => k s
  | n + 1, s => ld .recon ((i * nbins + (nbins - (n + 1)) : Nat) : Int) fun v => rowSum nbins i k n (s + v)

/-- reconstruct.cpp:94-101, row `i` of `normalize` done by thread `t` -/
def normalizeRow (nbins t i : Nat) : Thread α :=
  rowSum nbins i (fun s =>
    (Prog.for' nbins fun j => ld .recon ((i * nbins + j : Nat) : Int) fun v => quot v s fun q =>
      st .recon ((i * nbins + j : Nat) : Int) q .done).seq
    (ld (.waterfall t) 0 fun w => st (.waterfall t) 0 (w + s) .done)) nbins 0

/-- reconstruct.cpp:93-102: the threads of `normalize`; `reduction(+ : sum_waterfall)` gives each thread a copy starting at 0 -/
def normalizePool (T : Nat) (own : Nat → Nat) (nprof nbins : Nat) : List (Thread α) :=
  tab T fun t => st (.waterfall t) 0 0
    (Prog.seqs (((List.range nprof).filter fun i => own i = t).map fun i => normalizeRow nbins t i))

/-- reconstruct.cpp:92-93: the copies are added to the original variable in the order `order` of the threads -/
def reduced (m : Memory α) (order : List Nat) : α := order.foldl (fun s t => s + reals m (.waterfall t) 0) 0

/-! ## Tracking -/

/-- kick_and_drift.cpp:36-42, one particle of `kick_up` -/
def kickUpBody (sin : α → α) (rfv1 rfv2 phi0 phi12 hratio accKick : α) (i : Nat) : Thread α :=
  ld .dphi (i : Int) fun p => ld .denergy (i : Int) fun e =>
  st .denergy (i : Int) (e + energyGain sin rfv1 rfv2 phi0 phi12 hratio accKick p) .done

/-- kick_and_drift.cpp:57-63, one particle of `kick_down` -/
def kickDownBody (sin : α → α) (rfv1 rfv2 phi0 phi12 hratio accKick : α) (i : Nat) : Thread α :=
  ld .dphi (i : Int) fun p => ld .denergy (i : Int) fun e =>
  st .denergy (i : Int) (e - energyGain sin rfv1 rfv2 phi0 phi12 hratio accKick p) .done

/-- kick_and_drift.cpp:76-77, one particle of `drift_up` -/
def driftUpBody (coef : α) (i : Nat) : Thread α :=
  ld .dphi (i : Int) fun p => ld .denergy (i : Int) fun e => st .dphi (i : Int) (p - coef * e) .done

/-- kick_and_drift.cpp:87-88, one particle of `drift_down` -/
def driftDownBody (coef : α) (i : Nat) : Thread α :=
  ld .dphi (i : Int) fun p => ld .denergy (i : Int) fun e => st .dphi (i : Int) (p + coef * e) .done

/-- kick_and_drift.cpp:140-143, 159-162, 197-200: one particle of the copy into row `p` of the outputs -/
def storeBody (p : Int) (i : Nat) : Thread α :=
  ld .dphi (i : Int) fun x => st (.xp p) (i : Int) x <| ld .denergy (i : Int) fun y => st (.yp p) (i : Int) y .done

/-- kick_and_drift.cpp:180-183: one particle of the copy back from row `p` -/
def loadBody (p : Int) (i : Nat) : Thread α :=
  ld (.xp p) (i : Int) fun x => st .dphi (i : Int) x <| ld (.yp p) (i : Int) fun y => st .denergy (i : Int) y .done

/-! ## Several bunches -/

/-- reconstruct.cpp:40-49: iteration `k` of the collapsed loop of `back_project_multi` -/
def backProjectMultiBody (npart nprof k : Nat) : Thread α :=
  let c := k / (npart * nprof)
  let i := k / nprof % npart
  let j := k % nprof
  .load (.mask ((i + c * npart : Nat) : Int)) fun b =>
    if b then
      ldi .points ((i * nprof + j : Nat) : Int) fun fp => ldi .centers (c : Int) fun ctr => ld .profiles (fp + ctr) fun v =>
      ld .weights ((i + c * npart : Nat) : Int) fun w => st .weights ((i + c * npart : Nat) : Int) (w + v) .done
    else .done

/-- reconstruct.cpp:75-84: one bunch of `project_multi` -/
def projectMultiBody (npart nprof c : Nat) : Thread α :=
  Prog.for' npart fun i => Prog.for' nprof fun j =>
    ldi .points ((i * nprof + j : Nat) : Int) fun fp => ldi .centers (c : Int) fun ctr =>
    ld .recon (fp + ctr) fun r => ld .weights ((i + c * npart : Nat) : Int) fun w => st .recon (fp + ctr) (r + w) .done

/-- reconstruct.cpp:162-172: one bunch of `discrepancy_multi`; `squared_sum` (line 161) is shared -/
def discrepancyMultiBody (sqrt : α → α) (iteration nprof nbins ncenter c : Nat) : Thread α :=
  (Prog.for' (nprof * nbins) fun i =>
    ldi .cutright (c : Int) fun cr => ldi .cutleft (c : Int) fun cl =>
    if (i : Int) < cr ∧ cl < (i : Int) then
      ld .diff (i : Int) fun d => ld .squaredSum 0 fun s => st .squaredSum 0 (s + d * d) .done
    else .done).seq
  (ldi .cutright (c : Int) fun cr => ldi .cutleft (c : Int) fun cl => ld .squaredSum 0 fun s =>
    quot s (((nprof : Int) * (cr - cl) : Int) : α) fun q => st .disc ((iteration * ncenter + c : Nat) : Int) (sqrt q) .done)

/-- reconstruct.cpp:244-253: one bunch of `count_particles_in_bin_multi`; `bin` (line 243) is shared -/
def countMultiBody (nprof npart nbins c : Nat) : Thread α :=
  Prog.for' npart fun j => Prog.for' nprof fun i =>
    ldi .coords ((j * nprof + i : Nat) : Int) fun x => ldi .centers (c : Int) fun ctr => sti .bin 0 (x + ctr) <|
    ldi .bin 0 fun b => ld .rparts (b + (i * nbins : Nat)) fun n => st .rparts (b + (i * nbins : Nat)) (n + 1) .done

/-- reconstruct.cpp:342-353: iteration `k` of the collapsed loop of `create_mask`; `bin` (line 340) is shared -/
def createMaskBody (npart nprof k : Nat) : Thread α :=
  let c := k / (npart * nprof)
  let i := k / nprof % npart
  let j := k % nprof
  ldi .coords ((i * nprof + j : Nat) : Int) fun x => ldi .centers (c : Int) fun ctr => sti .bin 0 (x + ctr) <|
  ldi .bin 0 fun b => ldi .cutleft (c : Int) fun cl =>
    if b < cl then .store (.mask ((i + c * npart : Nat) : Int)) false .done
    else ldi .bin 0 fun b => ldi .cutright (c : Int) fun cr =>
      if cr < b then .store (.mask ((i + c * npart : Nat) : Int)) false .done else .done

end
end Verif.Omp

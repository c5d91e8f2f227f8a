import Verif.Model.Bind
import Verif.Model.Reconstruct

/-!
# `project`, `back_project` and `count_particles_in_bins` on the caller's arrays

`libtomo.cpp:308-370`: the wrappers hand the memory of the arrays they received to the C++ loops and return the array written to.
Here the loops run on the memory itself, element by element, so that the same array may be given for two arguments.

Simplifications: the loops run in sequence (`Model/Omp.lean` has the interleavings); `n_particles`, `n_profiles` are not
checked against the arrays by the code, an access outside an array is the fault `oob`.
-/

namespace Verif.Bind
variable {α : Type _}

/-- `a.ptr[i]`, row by row -/
def getAt (h : Heap α) (a i : Int) : M α := do
  let A ← rd h a
  rd A.rows.flatten i

/-- the rows of an array with the elements `l`, row by row -/
def refill : List (List α) → List α → List (List α)
  | [], _ => []
  | r :: rs, l => l.take r.length :: refill rs (l.drop r.length)

/-- `a.ptr[i] = v` -/
def setAt (h : Heap α) (a i : Int) (v : α) : M (Heap α) := do
  let A ← rd h a
  let l ← upd A.rows.flatten i v
  upd h a { A with rows := refill A.rows l }

section loops
variable [Add α] [One α]

/-- reconstruct.cpp:21-29 `back_project` on the memory: `weights[i] += flat_profiles[flat_points[i*nprof+j]]`.  `toInt` reads an
element of an `int` array. -/
def backProjectMem (toInt : α → Int) (w fp f : Int) (npart nprof : Nat) (h : Heap α) : M (Heap α) :=
  forN npart (fun i h =>
    forN nprof (fun j h => do
      let p ← getAt h fp ((i * nprof + j : Nat) : Int)
      let v ← getAt h f (toInt p)
      let x ← getAt h w (i : Int)
      setAt h w (i : Int) (x + v)) h) h

/-- reconstruct.cpp:55-62 `project` on the memory: `flat_rec[flat_points[i*nprof+j]] += weights[i]` -/
def projectMem (toInt : α → Int) (r fp w : Int) (npart nprof : Nat) (h : Heap α) : M (Heap α) :=
  forN npart (fun i h =>
    forN nprof (fun j h => do
      let p ← getAt h fp ((i * nprof + j : Nat) : Int)
      let x ← getAt h r (toInt p)
      let v ← getAt h w (i : Int)
      setAt h r (toInt p) (x + v)) h) h

/-- reconstruct.cpp:220-232 `count_particles_in_bin` on the memory -/
def countMem (toInt : α → Int) (r xp : Int) (nprof npart nbins : Nat) (h : Heap α) : M (Heap α) :=
  forN npart (fun i h =>
    forN nprof (fun j h => do
      let p ← getAt h xp ((i * nprof + j : Nat) : Int)
      let x ← getAt h r ((j * nbins : Nat) + toInt p)
      setAt h r ((j * nbins : Nat) + toInt p) (x + 1)) h) h

/-- libtomo.cpp:599-601 -/
def backProjectOverload : Overload Unit α := ⟨[.arr .f64, .arr .i32, .arr .f64, .int, .int], [], ()⟩

/-- libtomo.cpp:308-327 `wrapper_back_project`: returns the array of weights it worked on -/
def backProjectCall (E : Env α) (toInt : α → Int) (h : Heap α) (args : List (PyVal α)) : M (Heap α × Int) := do
  let r ← resolve E h [backProjectOverload] args
  match r with
  | (h, _, [.ref w, .ref fp, .ref f, .int n, .int p]) => do
    let h ← backProjectMem toInt w fp f n.toNat p.toNat h
    pure (h, w)
  | _ => .error (.exc .typeError)

/-- libtomo.cpp:595-597 -/
def projectOverload : Overload Unit α := ⟨[.arr .f64, .arr .i32, .arr .f64, .int, .int, .int], [], ()⟩

/-- libtomo.cpp:330-351 `wrapper_project`: returns the array of profiles it worked on.  The shape assigned in line 348 is that of a
local description of the array and is lost. -/
def projectCall (E : Env α) (toInt : α → Int) (h : Heap α) (args : List (PyVal α)) : M (Heap α × Int) := do
  let r ← resolve E h [projectOverload] args
  match r with
  | (h, _, [.ref a, .ref fp, .ref w, .int n, .int p, .int _]) => do
    let h ← projectMem toInt a fp w n.toNat p.toNat h
    pure (h, a)
  | _ => .error (.exc .typeError)

/-- libtomo.cpp:603-607 for `double` and `float` -/
def countOverload (d : DType) : Overload DType α := ⟨[.arr d, .arr .i32, .int, .int, .int], [], d⟩

def countOverloads : List (Overload DType α) := [countOverload .f64, countOverload .f32]

/-- libtomo.cpp:353-370 `wrapper_count_particles_in_bin`: the first number is the number of profiles; returns the array it worked
on -/
def countCall (E : Env α) (toInt : α → Int) (h : Heap α) (args : List (PyVal α)) : M (Heap α × Int) := do
  let r ← resolve E h countOverloads args
  match r with
  | (h, _, [.ref a, .ref x, .int p, .int n, .int b]) => do
    let h ← countMem toInt a x p.toNat n.toNat b.toNat h
    pure (h, a)
  | _ => .error (.exc .typeError)

end loops

/-- `a[:] = v` for an array (numpy slice assignment of a scalar, e.g. EX_06_Manual_reconstruction.py:137) -/
def fillCall (h : Heap α) (a : Int) (v : α) : M (Heap α) := do
  let A ← rd h a
  upd h a { A with rows := A.rows.map (·.map fun _ => v) }

end Verif.Bind

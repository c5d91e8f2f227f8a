import Verif.Model.BindProject
import Verif.Model.Multi

/-!
# Model of the binding of `count_particles_in_bins_multi` (`cpp_routines/libtomo.cpp`)

As in `Model/BindProject.lean`: arrays live in a memory, arguments are converted as pybind11 does, the loop works on the memory.
The loop is the one of a single thread (the threads are treated in `Model/Omp.lean`).
-/

namespace Verif.Bind
open Verif

variable {α : Type} [Add α] [One α]

/-- reconstruct.cpp:235-254 `count_particles_in_bin_multi` on the memory -/
def countMultiMem (toInt : α → Int) (r xp ce : Int) (nprof npart nbins ncenters : Nat) (h : Heap α) : M (Heap α) :=
  forN ncenters (fun c h => forN npart (fun j h => forN nprof (fun i h => do
    let v ← getAt h xp ((j * nprof + i : Nat) : Int)
    let ctr ← getAt h ce (c : Int)
    let n ← getAt h r (toInt v + toInt ctr + (i * nbins : Nat))
    setAt h r (toInt v + toInt ctr + (i * nbins : Nat)) (n + 1)) h) h) h

/-- libtomo.cpp:609-613 for `double` and `float` -/
def countMultiOverload (d : DType) : Overload DType α := ⟨[.arr d, .arr .i32, .arr .i32, .int, .int, .int, .int], [], d⟩

def countMultiOverloads : List (Overload DType α) := [countMultiOverload .f64, countMultiOverload .f32]

/-- libtomo.cpp:372-393 `wrapper_count_particles_in_bin_multi`: the first number is the number of profiles (registered under the name
`n_particles`); returns the array it worked on -/
def countMultiCall (E : Env α) (toInt : α → Int) (h : Heap α) (args : List (PyVal α)) : M (Heap α × Int) := do
  let r ← resolve E h countMultiOverloads args
  match r with
  | (h, _, [.ref a, .ref x, .ref c, .int p, .int n, .int b, .int k]) => do
    let h ← countMultiMem toInt a x c p.toNat n.toNat b.toNat k.toNat h
    pure (h, a)
  | _ => .error (.exc .typeError)

end Verif.Bind

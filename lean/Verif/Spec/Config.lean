import Verif.Model.Config

/-!
# What the configuration should be after a history of calls

In terms of the calls and of what they raised, not of the state kept by the code.
-/

namespace Verif.Spec
open Verif.Config

/-- Is the GPU selected?  The last `use_cpu` or successful `use_gpu` (with an identifier that is not negative) decides. -/
def gpuSelected : List (Call × Option Err) → Bool → Bool
  | [], on => on
  | (.cpu, _) :: h, _ => gpuSelected h false
  | (.gpu id, none) :: h, on => gpuSelected h (if id < 0 then on else true)
  | (.gpu _, some _) :: h, on => gpuSelected h on
  | (.precision _, _) :: h, on => gpuSelected h on

/-- The precision asked for last. -/
def precSelected : List Call → Prec → Prec
  | [], p => p
  | .precision q :: h, _ => precSelected h q
  | _ :: h, p => precSelected h p

/-- The precision is never changed while the CPU is in use after the GPU has been in use (`used`, `on`: so far). -/
def Careful : (used on : Bool) → Prec → List Call → Prop
  | _, _, _, [] => True
  | used, _, p, .cpu :: h => Careful used false p h
  | used, on, p, .gpu id :: h => if id < 0 then Careful used on p h else Careful true true p h
  | used, on, p, .precision q :: h => (used = false ∨ on = true ∨ q = p) ∧ Careful used on q h

/-- names of the module, overlaid with the routines of a device -/
def overlay {V : Type} (base dict : Dict V) : Dict V := fun n => (dict n).or (base n)

/-- the kernels bound in the CUDA modules are those of precision `p` -/
def KernelsAre {V : Type} (s : State V) (p : Prec) : Prop := s.kdKernels = some p ∧ s.recKernels = some p

end Verif.Spec

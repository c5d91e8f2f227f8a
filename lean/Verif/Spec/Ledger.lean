import Verif.Model.Ledger

/-! # Specification: who owns the memory of the C++ library -/

namespace Verif.Ledger

/-- a block in use: its address and its number of elements -/
abbrev Block := Nat × Nat

/-- memory never runs out and python objects can always be made -/
def NoMem (fails : Fails) : Prop := ∀ n, fails n .alloc = false ∧ fails n .python = false

/-- the sizes of the blocks nobody can delete after the call although memory did not run out -/
def Call.waste : Call → List Nat
  | .makePhaseSpace nbins ps => if outside nbins ps then [nbins * nbins] else []
  | _ => []

/-- the numbers of elements of the arrays a call returns: weights, discrepancies (of all iterations and the last one), recreated
profiles; an image -/
def Call.sizes : Call → List Nat
  | .reconstruct niter nbins npart nprof => [npart, niter + 1, nprof * nbins]
  | .reconstructMulti niter nbins npart nprof ncenter => [npart * ncenter, niter + 1, ncenter * (niter + 1), nprof * nbins]
  | .makePhaseSpace nbins _ => [nbins * nbins]
  | _ => []

/-- number of elements in use -/
def Heap.used (h : Heap) : Nat := (h.live.map Prod.snd).sum

end Verif.Ledger

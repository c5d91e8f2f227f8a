import Verif.Model.Cuda
import Verif.Spec.Omp

/-!
# `reconstruct_cuda` as the host program it is: kernel launches one after the other, every launch scheduled by the device

`Model/Cuda.lean` gives every launch the effect of its threads in the order of their number.  Here a launch may end in any memory
its threads can reach, and the sums CuPy makes on the device may be bracketed and ordered in any way.  A run therefore has a set
of possible outcomes.
-/

namespace Verif.Cuda
open Verif.Par Verif.Omp Verif.Recon Verif.Track

/-- the outcomes a computation can have -/
def ND (β : Type) : Type := M β → Prop

instance : Monad ND where
  pure a := fun r => r = .ok a
  bind x f := fun r => (∃ a, x (.ok a) ∧ f a r) ∨ ∃ e, x (.error e) ∧ r = .error e

/-- a computation with one outcome -/
def det {β : Type} (x : M β) : ND β := fun r => r = x

/-- `for i in range(n)` -/
def forND {σ : Type} : Nat → (Nat → σ → ND σ) → σ → ND σ
  | 0, _, s => pure s
  | n + 1, f, s => forND n f s >>= f n

/-- one computation per element of a list -/
def mapND {ι β : Type} (f : ι → ND β) : List ι → ND (List β)
  | [] => pure []
  | i :: l => do
    let v ← f i
    let vs ← mapND f l
    pure (v :: vs)

section
variable {α : Type} [Add α] [Sub α] [Mul α] [Zero α] [One α] [NatCast α] [IntCast α]
  [LT α] [LE α] [DecidableLT α] [DecidableLE α] [DecidableEq α] [FDiv α]

/-- `v` is the sum of the numbers of a list, added in some order and with some bracketing -/
inductive SumTree : List α → α → Prop
  | leaf (x : α) : SumTree [x] x
  | node {l l' L : List α} {a b : α} : SumTree l a → SumTree l' b → L.Perm (l ++ l') → SumTree L (a + b)

/-- `cp.sum`: nothing is known about the order of the additions, nor whether they start from 0 -/
def cpSum (l : List α) : ND α := fun r => ∃ v, r = .ok v ∧ (SumTree l v ∨ SumTree (0 :: l) v)

/-- start the threads `pool` on the memory `m₀`; the first `n` elements of the array `a` when all threads have ended -/
def launch (m₀ : Memory α) (pool : List (Thread α)) (a : Omp.Arr) (n : Nat) : ND (List α) :=
  fun r => ∃ s, Reach ⟨m₀, pool⟩ s ∧ Final s ∧ r = .ok (tab n fun j => reals s.mem a j)

/-- the same for an array of integers -/
def launchInt (m₀ : Memory α) (pool : List (Thread α)) (a : Omp.IArr) (n : Nat) : ND (List Int) :=
  fun r => ∃ s, Reach ⟨m₀, pool⟩ s ∧ Final s ∧ r = .ok (tab n fun j => ints s.mem a j)

/-- reconstruct_cuda.py:41-48; the kernel gets `flat_rec`, `flat_points` and `weights` -/
def projectN (B : Nat) (flatRec : List α) (fp : List Int) (weights : List α) (npart nprof : Nat) : ND (List α) :=
  launch (Spec.memOf (fun | .recon => flatRec | .weights => weights | _ => []) (fun | .points => fp | _ => []) [])
    (grid (gridSize (npart * nprof) B) B (projectThread npart nprof)) .recon flatRec.length

/-- reconstruct_cuda.py:62-68; the kernel gets `array` -/
def clipN (B : Nat) (array : List α) (length : Nat) (clipVal : α) : ND (List α) :=
  launch (Spec.memOf (fun | .weights => array | _ => []) (fun _ => []) [])
    (grid (gridSize length B) B (clipThread .weights clipVal length)) .weights array.length

/-- reconstruct_cuda.py:70-77; the kernel gets the new array, `flat_rec` and `flat_profiles` -/
def differenceN (B : Nat) (empty : Nat → α) (flatRec flatProfiles : List α) : ND (List α) :=
  launch (Spec.memOf (fun | .diff => tab flatRec.length empty | .recon => flatRec | .profiles => flatProfiles | _ => []) (fun _ => []) [])
    (grid (gridSize flatRec.length B) B (differenceThread flatRec.length (threads flatRec.length B))) .diff flatRec.length

/-- reconstruct_cuda.py:86-92; the kernel gets `diff_prof` and `rparts` -/
def compensateN (B : Nat) (diff rparts : List α) (nprof nbins : Nat) : ND (List α) :=
  launch (Spec.memOf (fun | .diff => diff | .rparts => rparts | _ => []) (fun _ => []) [])
    (grid (gridSize (nprof * nbins) B) B (compensateThread nprof nbins)) .diff diff.length

/-- reconstruct_cuda.py:101-103; the kernel gets `rparts` and `xp` -/
def countN (B : Nat) (rparts : List α) (xp : List Int) (nprof npart nbins : Nat) : ND (List α) :=
  launch (Spec.memOf (fun | .rparts => rparts | _ => []) (fun | .coords => xp | _ => []) [])
    (grid (gridSize (npart * nprof) B) B (countThread nprof npart nbins)) .rparts rparts.length

/-- reconstruct_cuda.py:107-109; the kernel gets `rparts` and the maximum -/
def reciprocalN (B : Nat) (maxVal : α) (rparts : List α) (nprof nbins : Nat) : ND (List α) :=
  launch (Spec.memOf (fun | .rparts => rparts | _ => []) (fun _ => []) [])
    (grid (gridSize (nprof * nbins) B) B (reciprocalThread maxVal nbins nprof)) .rparts rparts.length

/-- reconstruct_cuda.py:98-111 -/
def reciprocalParticlesN (B : Nat) (rparts : List α) (xp : List Int) (nbins nprof npart : Nat) : ND (List α) := do
  let r ← countN B rparts xp nprof npart nbins
  let m ← det (Tomo.npMax r)
  reciprocalN B m r nprof nbins

/-- reconstruct_cuda.py:113-122; the kernel gets a copy of `xp` -/
def createFlatPointsN (B : Nat) (xp : List Int) (npart nprof nbins : Nat) : ND (List Int) :=
  launchInt (α := α) (Spec.memOf (fun _ => []) (fun | .points => xp | _ => []) [])
    (grid (gridSize (npart * nprof) B) B (flatPointsThread npart nprof nbins)) .points xp.length

/-- reconstruct.cu:44-52: the values of a block, one for every index of `l`, then `k` of them -/
def collect (nprof b : Nat) (k : List α → Thread α) : List Nat → List α → Thread α
  | [], vs => k vs
  | index :: l, vs =>
    if index < nprof then
      ldi .points ((b * nprof + index : Nat) : Int) fun q => ld .profiles q fun v => collect nprof b k l (vs ++ [v])
    else collect nprof b k l (vs ++ [0])

/-- reconstruct.cu:26-61 `back_project`, one block: `sum` is what `BlockReduce::Sum` and the loop around it make of the values.  The
threads of a block only read until their values are combined, so the block is one thread here; thread 0 writes the result. -/
def reduceBlock (R nprof : Nat) (sum : List α → α) (b : Nat) : Thread α :=
  collect nprof b (fun vs => ld .weights (b : Int) fun w => st .weights (b : Int) (w + sum vs) .done) (blockIndices R nprof) []

/-- reconstruct_cuda.py:30-38; the kernel gets `weights`, `flat_points` and `flat_profiles`; each block adds the values of its
particle, and the 0 it starts from, in an order and with a bracketing of its own -/
def backProjectN (R : Nat) (weights : List α) (fp : List Int) (profiles : List α) (npart nprof : Nat) : ND (List α) :=
  fun r => ∃ sum : Nat → List α → α, (∀ b vs, SumTree vs (sum b vs) ∨ SumTree (0 :: vs) (sum b vs)) ∧
    launch (Spec.memOf (fun | .weights => weights | .profiles => profiles | _ => []) (fun | .points => fp | _ => []) [])
      (tab npart fun b => reduceBlock R nprof (sum b) b) .weights weights.length r

/-- reconstruct_cuda.py:50-60 -/
def normalizeN (flatRec : List α) (nprof nbins : Nat) : ND (List α) := do
  let sums ← mapND (fun (p : Nat) => do
    let row ← det ((List.range nbins).mapM fun (j : Nat) => rd flatRec ((p * nbins + j : Nat) : Int))
    cpSum row) (List.range nprof)
  let rec ← det (forN (nprof * nbins) (fun k rec => do
    let v ← rd rec (k : Int)
    let s ← rd sums ((k / nbins : Nat) : Int)
    let q ← FDiv.fdiv v s
    upd rec (k : Int) q) flatRec)
  let total ← cpSum sums
  det (if total ≤ 0 then .error (.exc .recZero) else pure rec)

/-- reconstruct_cuda.py:79-84 -/
def discrepancyN (sqrt : α → α) (diff : List α) (nprof nbins : Nat) : ND α := do
  let s ← cpSum (diff.map fun d => d * d)
  let q ← det (FDiv.fdiv s ((nprof * nbins : Nat) : α))
  pure (sqrt q)

/-- reconstruct_cuda.py:143-144, 161-162 -/
def checkWeightsN (w : List α) : ND Unit := do
  let total ← cpSum w
  det (if total ≤ 0 then .error (.exc .allZero) else .ok ())

/-- reconstruct_cuda.py:153-162 -/
def iterationN (B R : Nat) (sqrt : α → α) (empty : Nat → α) (fp : List Int) (flatProfiles rparts : List α)
    (nbins npart nprof k : Nat) (st : RState α) : ND (RState α) := do
  let rec ← projectN B st.flatRec fp st.weights npart nprof
  let rec ← normalizeN rec nprof nbins
  let diff ← differenceN B empty rec flatProfiles
  let d ← discrepancyN sqrt diff nprof nbins
  let discr ← det (upd st.discr (k : Int) d)
  let diff ← compensateN B diff rparts nprof nbins
  let w ← backProjectN R st.weights fp diff npart nprof
  let w ← clipN B w npart 0
  checkWeightsN w
  pure ⟨w, rec, discr⟩

/-- reconstruct_cuda.py:124-173 `reconstruct_cuda`, with the device free to schedule every launch -/
def reconstructN (B R : Nat) (sqrt : α → α) (empty : Nat → α) (xp : List Int) (flatProfiles : List α)
    (niter nbins npart nprof : Nat) : ND (RState α) := do
  let rparts ← reciprocalParticlesN B (tab (nprof * nbins) fun _ => (0 : α)) xp nbins nprof npart
  let fp ← createFlatPointsN (α := α) B xp npart nprof nbins
  let w ← backProjectN R (tab npart fun _ => (0 : α)) fp flatProfiles npart nprof
  let w ← clipN B w npart 0
  checkWeightsN w
  let st ← forND niter (iterationN B R sqrt empty fp flatProfiles rparts nbins npart nprof)
    ⟨w, tab (nprof * nbins) fun _ => 0, tab (niter + 1) fun _ => 0⟩
  let rec ← projectN B st.flatRec fp st.weights npart nprof
  let rec ← normalizeN rec nprof nbins
  let diff ← differenceN B empty rec flatProfiles
  let d ← discrepancyN sqrt diff nprof nbins
  let discr ← det (upd st.discr (niter : Int) d)
  pure ⟨st.weights, rec, discr⟩

end
end Verif.Cuda

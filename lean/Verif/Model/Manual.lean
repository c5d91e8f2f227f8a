import Verif.Model.Tomography

/-!
# Model of `__EXAMPLES/example_scripts/EX_06_Manual_reconstruction.py:80-154`

The reconstruction written out by the user with `libtomo.project` and `libtomo.back_project`.  Generic in the number type.  What the two
functions do to the caller's arrays is in `Model/BindProject.lean`; the arrays here have the types the functions work on in place.
The script does not import `libtomo`, so as it stands it ends with a NameError at line 120; this is the script with the import.  Printing is
not modelled.
-/

namespace Verif.Manual
open Verif.Recon Verif.Tomo

variable {α : Type _} [Add α] [Sub α] [Mul α] [Zero α] [One α] [NatCast α]
  [LT α] [LE α] [DecidableLT α] [DecidableLE α] [DecidableEq α] [FDiv α]

/-- `a /= np.sum(a, axis=1)[:, None]`, EX_06:103, 107, 131, 151 -/
def divRows (a : List α) (nprof nbins : Nat) : M (List α) := do
  let sums ← rowSums a nprof nbins
  forN nprof (fun i w =>
    forN nbins (fun j w => do
      let v ← rd w ((i * nbins + j : Nat) : Int)
      let s ← rd sums (i : Int)
      let q ← FDiv.fdiv v s
      upd w ((i * nbins + j : Nat) : Int) q) w) a

/-- EX_06:126-145, body of the loop; `rec_wf` is cleared for the next round -/
def body (sqrt : α → α) (fp : List Int) (wf : List α) (nbins npart nprof : Nat) (st : RState α) : M (RState α) := do
  let rec ← project st.flatRec fp st.weights npart nprof
  let rec ← divRows rec nprof nbins
  let diff ← zip2 (fun a b => a - b) wf rec
  let d ← discrepancyPy sqrt diff nprof nbins
  let w ← backProject st.weights fp diff npart nprof
  pure ⟨npClip0 w, rec.map fun _ => 0, st.discr ++ [d]⟩

/-- EX_06:98-153: weights, the last recreated waterfall, discrepancies -/
def reconstruct (sqrt : α → α) (xp : List Int) (waterfall : List α) (niter nbins npart nprof : Nat) : M (RState α) := do
  let flatProfs ← divRows (npClip0 waterfall) nprof nbins
  let waterfall ← divRows waterfall nprof nbins
  let fp ← createFlatPointsPy xp npart nprof nbins
  let w ← backProject (tab npart fun _ => (0 : α)) fp flatProfs npart nprof
  let st ← forN niter (fun _ => body sqrt fp waterfall nbins npart nprof) ⟨npClip0 w, tab (nprof * nbins) fun _ => 0, []⟩
  let rec ← project st.flatRec fp st.weights npart nprof
  let rec ← divRows rec nprof nbins
  let diff ← zip2 (fun a b => a - b) waterfall rec
  let d ← discrepancyPy sqrt diff nprof nbins
  pure ⟨st.weights, rec, st.discr ++ [d]⟩

end Verif.Manual

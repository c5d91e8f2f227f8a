import Verif.Model.Tomography
import Verif.Core.Arr

/-!
# Model of the phase-space image

`cpp_routines/data_treatment.cpp`, `python_routines/data_treatment.py`, the functions `phase_space`,
`phase_space_from_coordinates`, `density_to_macro` of `data/data_treatment.py` and `create_phase_space_image` of
`utils/tomo_output.py`.
-/

namespace Verif.Img

section cpp
variable {α : Type _} [Add α] [Zero α]

/-- data_treatment.cpp:27-32: one iteration of the loop of `make_phase_space` -/
def cellBody (xp yp : List Int) (weight : List α) (nbins : Nat) (i : Nat) (ps : List α) : M (List α) := do
  let y ← rd yp (i : Int)
  let x ← rd xp (i : Int)
  let index := y + x * (nbins : Int)
  if index ≥ ((nbins * nbins : Nat) : Int) then .error (.exc .outOfRange)
  else do
    let v ← rd ps index
    let w ← rd weight (i : Int)
    upd ps index (v + w)

/-- data_treatment.cpp:22-35 `make_phase_space` with the wrapper libtomo.cpp:512-533 (`n_particles = xp.shape[0]`, the result
has shape `(n_bins, n_bins)`, C order). -/
def makePhaseSpace (xp yp : List Int) (weight : List α) (nbins : Nat) : M (List α) :=
  forN xp.length (cellBody xp yp weight nbins) (tab (nbins * nbins) fun _ => 0)

/-- python_routines/data_treatment.py:8-21 `make_phase_space` on the GPU: `cupy.add.at(phase_space, index, weights)`.
CuPy wraps indices outside the array around (documented difference to numpy) instead of raising; the additions are
atomic and are done here in the order of the particles. -/
def makePhaseSpaceCupy (xp yp : List Int) (weight : List α) (nbins : Nat) : M (List α) :=
  if xp.length = yp.length ∧ xp.length = weight.length then
    forN xp.length (fun i (ps : List α) => do
      let y ← rd yp (i : Int)
      let x ← rd xp (i : Int)
      let index := (y + x * (nbins : Int)) % ((nbins * nbins : Nat) : Int)
      let v ← rd ps index
      let w ← rd weight (i : Int)
      upd ps index (v + w)) (tab (nbins * nbins) fun _ => 0)
  else .error (.exc .valueError)

end cpp

section images
variable {K : Type _} [Field K] [LinearOrder K]

/-- data/data_treatment.py:205-206 an axis of the image: `(np.arange(nbins) - synch) * width` -/
def axis (nbins : Nat) (synch width : K) : List K := tab nbins fun k => ((k : K) - synch) * width

/-- data/data_treatment.py:163-208 `phase_space_from_coordinates`: time axis, energy axis, image (C order) -/
def phaseSpaceFromCoordinates (xp yp : List Int) (weight : List K) (nbins : Nat) (synchX synchY dtbin dEbin : K) :
    M (List K × List K × List K) := do
  let density ← makePhaseSpace xp yp weight nbins
  pure (axis nbins synchX dtbin, axis nbins synchY dEbin, density)

/-- column `j` of a 2-D array, `a[:, j]`; python's negative indices count from the end -/
def column (a : Arr2 Int) (j : Int) : M (List Int) :=
  let k := if j < 0 then j + a.cols else j
  if 0 ≤ k ∧ k < a.cols then a.rows.mapM fun r => rd r k else .error (.exc .indexError)

/-- data/data_treatment.py:119-160 `phase_space` -/
def phaseSpace (xp yp : Arr2 Int) (weight : List K) (nbins : Nat) (synchX synchY dtbin : K) (dEbin : Option K)
    (reconstrIdx : Int) : M (List K × List K × List K) :=
  match dEbin with
  | none => .error (.exc .inputError)
  | some dE => do
    let x ← column xp reconstrIdx
    let y ← column yp reconstrIdx
    phaseSpaceFromCoordinates x y weight nbins synchX synchY dtbin dE

/-- utils/tomo_output.py:66-111 `create_phase_space_image`: clipped at zero and divided by its sum -/
def createPhaseSpaceImage (xp yp : Arr2 Int) (weight : List K) (nbins : Nat) (recprof : Int) : M (List K) := do
  let x ← column xp recprof
  let y ← column yp recprof
  let ps ← makePhaseSpace x y weight nbins
  let ps := Tomo.npClip0 ps
  ps.mapM fun v => FDiv.fdiv v ps.sum

/-! ## macroparticles -/

/-- data/data_treatment.py:264-265: the density with the cells below the threshold set to zero.  (The code does this in
the caller's array.) -/
def thresholded (density : List K) (threshold : K) : M (List K) :=
  density.mapM fun v => do
    let q ← FDiv.fdiv v density.sum
    pure (if q < threshold then 0 else v)

/-- data/data_treatment.py:267-268 the probabilities -/
def probabilities (density : List K) : M (List K) := density.mapM fun v => FDiv.fdiv v density.sum

/-- data/data_treatment.py:269 `np.array(list(itl.product(tRange, ERange)))` -/
def product (t e : List K) : List (K × K) := t.flatMap fun a => e.map fun b => (a, b)

/-- data/data_treatment.py:230-276 `density_to_macro`.  The random numbers are inputs: `samples` are the indices drawn by
`np.random.choice(len(prob), n, p=prob)`, `rt`, `re` the two arrays drawn by `np.random.random(n)`.  Returns the
macroparticles and the density array as left behind in the caller's memory. -/
def densityToMacro (t e density : List K) (threshold : K) (samples : List Nat) (rt re : List K) :
    M (List (K × K) × List K) := do
  let t1 ← npGet t 1
  let t0 ← npGet t 0
  let e1 ← npGet e 1
  let e0 ← npGet e 0
  let density ← thresholded density threshold
  let _ ← probabilities density
  let coords := product t e
  let pts ← (samples.zip (rt.zip re)).mapM fun (s : Nat × K × K) => do
    let c ← npGet coords (s.1 : Int)
    pure (c.1 + (t1 - t0) * (s.2.1 - 1 / 2), c.2 + (e1 - e0) * (s.2.2 - 1 / 2))
  pure (pts, density)

end images
end Verif.Img

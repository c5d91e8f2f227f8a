import Verif.Model.PreProcess

/-!
# Model of the waterfall of `data/profiles.py` and of the shaping of raw data in `utils/tomo_input.py`
-/

namespace Verif.Prof
open Verif.Asrt Verif.Pre

/-- What can be assigned to `Profiles.waterfall`. -/
inductive WfVal (K : Type _)
  /-- no `__iter__` -/
  | scalar
  /-- iterable without `shape` (a list) -/
  | noShape
  /-- one-dimensional array -/
  | array1 (v : List K)
  /-- two-dimensional array -/
  | array2 (a : Arr2 K)

/-- The part of the `Profiles` object and its machine used by the setter: `Profiles._waterfall`, `Machine.nprofiles`,
`Machine.nbins`, `Machine.synch_part_y`. -/
structure PObj (K : Type _) where
  waterfall : Option (WfVal K)
  nprofiles : Nat
  nbins : Nat
  synchPartY : K

section
variable {K : Type _} [Field K] [LinearOrder K]

/-- machine_base.py:283-289, 343-344 the setter of `nbins` -/
def setNbins (o : PObj K) (n : Nat) : PObj K := { o with nbins := n, synchPartY := (n : K) / 2 }

/-- profiles.py:125-143 the setter of `waterfall`: the object afterwards and the exception, if any. -/
def setWaterfall (o : PObj K) (v : WfVal K) : PObj K × Option Exn :=
  match v with
  | .scalar => (o, some .waterfallError)
  | .noShape => (o, some .attributeError)
  | .array1 l =>
    if l.length ≠ o.nprofiles then (o, some .waterfallError)
    else
      let c := Tomo.npClip0 l
      let o := { o with waterfall := some (.array1 c) }
      if (c.map absv).sum = 0 then (o, some .waterfallReducedToZero)
      else (o, some .indexError)
  | .array2 a =>
    if a.rows.length ≠ o.nprofiles then (o, some .waterfallError)
    else
      let c : Arr2 K := ⟨a.cols, a.rows.map Tomo.npClip0⟩
      let o := { o with waterfall := some (.array2 c) }
      if ((c.rows.map fun r => (r.map absv).sum).sum) = 0 then (o, some .waterfallReducedToZero)
      else (setNbins o c.cols, none)

/-- profiles.py:145-157 `calc_profilecharge`: `e` is the elementary charge (scipy constant). -/
def profileCharge (waterfall : Arr2 K) (beamRefFrame : Int) (samplingTime e sensitivity : K) : M K := do
  let ref ← npGet waterfall.rows beamRefFrame
  FDiv.fdiv (ref.sum * samplingTime) (e * sensitivity)

/-! ## Raw data -/

/-- tomo_input.py:192-203 `_assert_raw_data`; `none` is an object that cannot be iterated. -/
def assertRawData {α : Type _} (f : FrameArgs) (raw : Option (List α)) : M (List α) :=
  match raw with
  | none => .error (.exc .rawDataImportError)
  | some l => if (l.length : Int) = f.nframes * f.nbinsFrame then .ok l else .error (.exc .rawDataImportError)

/-- tomo_input.py:130-139 `nprofs` -/
def nprofs (f : FrameArgs) : Int := f.nframes - f.skipFrames

/-- tomo_input.py:141-150 `nbins` -/
def nbinsOf (f : FrameArgs) : Int := f.nbinsFrame - f.skipBinsStart - f.skipBinsEnd

/-- tomo_input.py:152-189 `to_waterfall` -/
def toWaterfall {α : Type _} (f : FrameArgs) (raw : Option (List α)) : M (Arr2 α) := do
  let l ← assertRawData f raw
  assertFrameInputs f
  let w ← reshape l f.nframes.toNat f.nbinsFrame.toNat
  let w := sliceRows w f.skipFrames
  if 0 < f.skipBinsEnd then pure (sliceCols w f.skipBinsStart (-f.skipBinsEnd))
  else pure (sliceCols w f.skipBinsStart w.cols)

/-- compat/fortran.py:237-273 `calc_baseline` with the default `percent = 0.05`: `int(0.05 * nbins)` and
`floor(0.05 * nbins)` are `nbins / 20`. -/
def calcBaseline (w : Arr2 K) (ref : Int) : M K := do
  let r ← npGet w.rows ref
  let iend := r.length / 20
  FDiv.fdiv (npSlice r 0 (iend : Int)).sum (iend : K)

/-- The attributes of the machine read and written by `raw_data_to_profiles`. -/
structure RawMach (K : Type _) where
  obj : PObj K
  beamRefFrame : Int
  dtbin : K
  synchPartX : K

/-- tomo_input.py:441-494 `raw_data_to_profiles`: the machine afterwards and the exception, if any. -/
def rawDataToProfiles (m : RawMach K) (w : Arr2 K) (rbn : Nat) (samplingTime : K) (synchPartX : Option K) :
    RawMach K × Option Fault :=
  let sx := synchPartX.getD m.synchPartX
  match calcBaseline w m.beamRefFrame with
  | .error e => (m, some e)
  | .ok b =>
    match rebin (w.map fun v => v - b) rbn (some samplingTime) (some sx) with
    | .error e => (m, some e)
    | .ok (r, dt, sx') =>
      let m := { m with dtbin := dt.getD m.dtbin, synchPartX := sx'.getD m.synchPartX }
      let (o, e) := setWaterfall m.obj (.array2 r)
      ({ m with obj := o }, e.map Fault.exc)

end
end Verif.Prof

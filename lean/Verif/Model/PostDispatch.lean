import Verif.Model.PostProcess

/-!
# Model of the calls of `data/post_process.py`

`Model/PostProcess.lean` models the formulas on lists of numbers. Here the arguments are python values with their types: the
functions are chosen by `multipledispatch` from the types of the positional arguments, arrays have a shape and an element type.
Rounding to single precision is not modelled, only which type a result has. `NotImplementedError`, raised by
`multipledispatch` when no signature fits, is a `RuntimeError`.
-/

namespace Verif.PostD
open Verif.Asrt Verif.Mch Verif.Pre Verif.Post

/-- element types of arrays -/
inductive DT | i64 | f32 | f64
  deriving DecidableEq, Repr

/-- an array: element type, shape, elements in C order -/
structure Nd (K : Type _) where
  dt : DT
  shape : List Nat
  data : List K
  deriving DecidableEq, Repr

/-- python values given to the functions -/
inductive Val (K : Type _)
  /-- python `int` -/
  | int (v : K)
  /-- python `float` -/
  | float (v : K)
  /-- numpy scalar -/
  | np (dt : DT) (v : K)
  /-- numpy array -/
  | arr (a : Nd K)
  /-- CuPy array -/
  | gpu (a : Nd K)
  /-- anything else, a list for instance -/
  | other
  deriving DecidableEq, Repr

/-- the classes named in the `@dispatch` decorators (post_process.py:73,103,150,195,229) -/
inductive Cls | ndarray | float | number
  deriving DecidableEq, Repr

variable {K : Type _}

/-- `isinstance`: `numpy.float64` is a subclass of `float`, `numpy.float32` and `numpy.int64` are not; all three are
registered as `numbers.Number`; a CuPy array is not a `numpy.ndarray` -/
def isInst : Val K → Cls → Bool
  | .int _, .number => true
  | .float _, .float => true
  | .float _, .number => true
  | .np .f64 _, .float => true
  | .np _ _, .number => true
  | .arr _, .ndarray => true
  | _, _ => false

/-- the argument list fits a signature -/
def fits : List (Val K) → List Cls → Bool
  | [], [] => true
  | v :: vs, c :: cs => isInst v c && fits vs cs
  | _, _ => false

/-- a call of a dispatched function: the first entry whose signature fits the positional arguments -/
def dispatch {R : Type _} (table : List (List Cls × (List (Val K) → M R))) (args : List (Val K)) : M R :=
  match table with
  | [] => .error (.exc .runtimeError)
  | (sig, f) :: rest => if fits args sig then f args else dispatch rest args

/-- element type of a product of two arrays of types `a`, `b` followed by a true division -/
def promote : DT → DT → DT
  | .f32, .f32 => .f32
  | _, _ => .f64

/-- element type of a product -/
def promoteMul : DT → DT → DT
  | .i64, .i64 => .i64
  | .f32, .f32 => .f32
  | _, _ => .f64

variable [Field K] [LinearOrder K]

/-- the number in a scalar -/
def Val.num? : Val K → Option K
  | .int v => some v
  | .float v => some v
  | .np _ v => some v
  | _ => none

/-- `a.sum(axis)`; AxisError (a ValueError) when the array has no such axis -/
def sumAxis (a : Nd K) (axis : Nat) : M (Nd K) :=
  match a.shape[axis]? with
  | none => .error (.exc .valueError)
  | some n =>
    let inner := (a.shape.drop (axis + 1)).prod
    let outer := (a.shape.take axis).prod
    .ok ⟨a.dt, a.shape.eraseIdx axis, tab (outer * inner) fun k =>
      ((List.range n).map fun j => a.data.getD ((k / inner * n + j) * inner + k % inner) 0).sum⟩

/-- `phase_space.sum(axis)` of a value (post_process.py:59,60,97,98) -/
def sumVal (v : Val K) (axis : Nat) : M (Val K) :=
  match v with
  | .arr a => do pure (.arr (← sumAxis a axis))
  | .gpu a => do pure (.gpu (← sumAxis a axis))
  | _ => .error (.exc .attributeError)

/-- post_process.py:263-294 `_std_from_histogram` of two values. Two CuPy arrays give a CuPy array without dimensions, a
mixture raises TypeError; values without a shape raise AttributeError. -/
def stdVal (L : MathLib K) (h b : Val K) : M (Val K) :=
  match h, b with
  | .arr h, .arr b => do
    assertArrayNumelEqual [h.shape, b.shape] h.shape.prod
    let s ← stdFromHistogram L h.data b.data
    pure (.np (promote h.dt b.dt) s)
  | .gpu h, .gpu b => do
    assertArrayNumelEqual [h.shape, b.shape] h.shape.prod
    let s ← stdFromHistogram L h.data b.data
    pure (.gpu ⟨promote h.dt b.dt, [], [s]⟩)
  | .arr h, .gpu b => do
    assertArrayNumelEqual [h.shape, b.shape] h.shape.prod
    .error (.exc .typeError)
  | .gpu h, .arr b => do
    assertArrayNumelEqual [h.shape, b.shape] h.shape.prod
    .error (.exc .typeError)
  | _, _ => .error (.exc .attributeError)

/-- post_process.py:103-123: the entry `(float, float)` of `emittance_rms`; `np.pi` is a `float`, so that the product has
the type of the standard deviations -/
def emittanceRmsFloat (L : MathLib K) : List (Val K) → M (Val K)
  | [s, e] =>
    match s.num?, e.num? with
    | some s, some e => .ok (.np .f64 (emittanceRmsOf L s e))
    | _, _ => .error (.exc .typeError)
  | _ => .error (.exc .typeError)

/-- post_process.py:100: the call inside the entry for arrays. It has two arguments, so the entry for three arrays cannot fit
and is left out here. -/
def emittanceRms2 (L : MathLib K) (args : List (Val K)) : M (Val K) :=
  dispatch [([.float, .float], emittanceRmsFloat L)] args

/-- post_process.py:73-100: the entry `(ndarray, ndarray, ndarray)` of `emittance_rms` -/
def emittanceRmsArr (L : MathLib K) : List (Val K) → M (Val K)
  | [h, t, e] => do
    let tStd ← stdVal L (← sumVal h 1) t
    let eStd ← stdVal L (← sumVal h 0) e
    emittanceRms2 L [tStd, eStd]
  | _ => .error (.exc .typeError)

/-- post_process.py:73-123 `emittance_rms(*args)` -/
def emittanceRms (L : MathLib K) (args : List (Val K)) : M (Val K) :=
  dispatch [([.ndarray, .ndarray, .ndarray], emittanceRmsArr L), ([.float, .float], emittanceRmsFloat L)] args

/-- post_process.py:187-188: the width of the bins, `bins[1] - bins[0]`. One dimension gives a number, two give a row. -/
def width (b : Nd K) : M (Nd K) :=
  match b.shape with
  | [] => .error (.exc .indexError)
  | n :: rest =>
    if n < 2 then .error (.exc .indexError)
    else .ok ⟨b.dt, rest, tab rest.prod fun k => b.data.getD (rest.prod + k) 0 - b.data.getD k 0⟩

/-- product of two widths; numpy's broadcasting for at most one dimension (bins of more than two dimensions are not modelled) -/
def mulWidth (a b : Nd K) : M (Nd K) :=
  match a.shape, b.shape with
  | [], [] => .ok ⟨promoteMul a.dt b.dt, [], [a.data.getD 0 0 * b.data.getD 0 0]⟩
  | [], _ => .ok ⟨promoteMul a.dt b.dt, b.shape, b.data.map fun v => a.data.getD 0 0 * v⟩
  | _, [] => .ok ⟨promoteMul a.dt b.dt, a.shape, a.data.map fun v => v * b.data.getD 0 0⟩
  | [n], [m] =>
    if n = m then .ok ⟨promoteMul a.dt b.dt, [n], List.zipWith (· * ·) a.data b.data⟩
    else if n = 1 then .ok ⟨promoteMul a.dt b.dt, [m], b.data.map fun v => a.data.getD 0 0 * v⟩
    else if m = 1 then .ok ⟨promoteMul a.dt b.dt, [n], a.data.map fun v => v * b.data.getD 0 0⟩
    else .error (.exc .valueError)
  | _, _ => .error (.exc .valueError)

/-- post_process.py:150-192: the only entry of `emittance_fractional`. `fraction` comes as a keyword; `multipledispatch` looks
at positional arguments only and ignores `fraction=float` in the decorator. For one-dimensional bins this is
`Post.emittanceFractional`. -/
def emittanceFractionalArr (fraction : K) : List (Val K) → M (Val K)
  | [.arr h, .arr t, .arr e] => do
    assertLessOrEqual fraction 100 .valueError
    assertGreaterOrEqual fraction 0 .valueError
    let hist ← h.data.mapM fun v => FDiv.fdiv v h.data.sum
    let hist := sortDesc hist
    let n ← argmaxB ((cumsum 0 hist).map fun c => decide (fraction / 100 * hist.sum ≤ c))
    let w ← mulWidth (← width t) (← width e)
    match w.shape with
    | [] => pure (.np (promoteMul .i64 w.dt) ((n : K) * w.data.getD 0 0))
    | _ => pure (.arr ⟨promoteMul .i64 w.dt, w.shape, w.data.map fun v => (n : K) * v⟩)
  | _ => .error (.exc .typeError)

/-- post_process.py:150-192 `emittance_fractional(*args, fraction=fraction)` -/
def emittanceFractional (fraction : K) (args : List (Val K)) : M (Val K) :=
  dispatch [([.ndarray, .ndarray, .ndarray], emittanceFractionalArr fraction)] args

/-- post_process.py:126-147 `emittance_90` -/
def emittance90 (ps t e : Val K) : M (Val K) := emittanceFractional 90 [ps, t, e]

/-- post_process.py:195-226: the entry `(Number, Number, Number)` of `rms_dpp`. The result is a numpy number; its precision
depends on the numpy version when the arguments mix precisions and is written as double here. -/
def rmsDppNum (L : MathLib K) : List (Val K) → M (Val K)
  | [s, e, m] =>
    match s.num?, e.num?, m.num? with
    | some s', some e', some m' => do
      let r ← rmsDpp L s' e' m'
      pure (.np .f64 r)
    | _, _, _ => .error (.exc .typeError)
  | _ => .error (.exc .typeError)

/-- post_process.py:260: the call inside the entry for arrays; only the entry for three numbers can fit three arguments -/
def rmsDpp3 (L : MathLib K) (args : List (Val K)) : M (Val K) := dispatch [([.number, .number, .number], rmsDppNum L)] args

/-- post_process.py:229-260: the entry `(ndarray, ndarray, Number, Number)` of `rms_dpp` -/
def rmsDppArr (L : MathLib K) : List (Val K) → M (Val K)
  | [p, b, energy, mass] => do
    let s ← stdVal L p b
    rmsDpp3 L [s, energy, mass]
  | _ => .error (.exc .typeError)

/-- post_process.py:195-260 `rms_dpp(*args)` -/
def rmsDppD (L : MathLib K) (args : List (Val K)) : M (Val K) :=
  dispatch [([.number, .number, .number], rmsDppNum L), ([.ndarray, .ndarray, .number, .number], rmsDppArr L)] args

/-- post_process.py:64-68: the dictionary -/
structure Summary (K : Type _) where
  emittanceRms : Val K
  emittance90 : Val K
  rmsDpp : Val K
  deriving DecidableEq, Repr

/-- post_process.py:25-70 `post_process` -/
def postProcess (L : MathLib K) (ps t e energy mass : Val K) : M (Summary K) := do
  let timeProj ← sumVal ps 1
  let energyProj ← sumVal ps 0
  let tStd ← stdVal L timeProj t
  let eStd ← stdVal L energyProj e
  let a ← emittanceRms L [tStd, eStd]
  let b ← emittance90 ps t e
  let c ← rmsDppD L [eStd, energy, mass]
  pure ⟨a, b, c⟩

end Verif.PostD

import Verif.Core.Buf

/-!
# Device and precision configuration: utils/tomo_config.py

The state of the python process as far as `AppConfig`, `GPUDev` and the CUDA modules are concerned.  A call changes the state
and may raise; what was changed before the exception stays changed.  What the outside world does during a call (is CuPy
installed, can the device be opened, does the compilation of the kernels succeed, can a cubin be loaded) is the argument `Env`,
chosen anew for every call.  `V` is the type of the objects bound to names.
-/

namespace Verif.Config

/-- `np.float32` / `np.float64` -/
inductive Prec
  | single
  | double
  deriving DecidableEq, Repr

/-- what a call can raise -/
inductive Err
  | importError      -- `import cupy`
  | cudaRuntime      -- opening the device, loading a cubin
  | compilation      -- `CudaCompilationException`
  | attribute        -- `AttributeError`: attribute of a half initialised `GPUDev`
  deriving DecidableEq, Repr

/-- where the outside world can make a call fail -/
inductive Point
  | cupy | device | compile | loadKd | loadRec
  deriving DecidableEq, Repr

/-- the outside world during one call: which points fail -/
abbrev Env := Point → Bool

/-- a dictionary from names to objects -/
abbrev Dict (V : Type) := String → Option V

/-- tomo_config.py:122-164: the instance of `GPUDev`; attributes not assigned yet are `none` -/
structure Dev where
  id : Option Int := none
  /-- `block_size` (and all attributes assigned before it) exists -/
  blockSize : Bool := false
  /-- precision of the cubin `kd_mod` -/
  kdMod : Option Prec := none
  /-- precision of the cubin `rec_mod` -/
  recMod : Option Prec := none
  deriving DecidableEq, Repr

/-- The process. -/
structure State (V : Type) where
  /-- `AppConfig._precision`, line 6 -/
  prec : Prec
  /-- `AppConfig._gpu_enabled`, line 7 -/
  gpuEnabled : Bool
  /-- `AppConfig._active_dict`, line 8 -/
  active : Dict V
  /-- the global names of the module tomo_config -/
  globals : Dict V
  /-- `GPUDev.__instance`, line 123 -/
  dev : Option Dev
  /-- kick_and_drift_cuda.py:17-21: precision of the kernels bound in that module, `none` before its import -/
  kdKernels : Option Prec
  /-- reconstruct_cuda.py:15-27, likewise -/
  recKernels : Option Prec

section
variable {V : Type}

/-- a piece of code: the state after it and the exception, if any -/
abbrev Act (V : Type) := State V → State V × Option Err

/-- one piece of code after the other -/
def Act.then (a b : Act V) : Act V := fun s =>
  match a s with
  | (s', none) => b s'
  | (s', some e) => (s', some e)

/-- code that cannot fail -/
def act (f : State V → State V) : Act V := fun s => (f s, none)

/-- code that changes nothing but may fail -/
def failIf (c : State V → Bool) (e : Err) : Act V := fun s => (s, if c s then some e else none)

/-- tomo_config.py:10-16 `__update_active_dict` -/
def updateActiveDict (new : Dict V) : Act V := act fun s =>
  { s with
    globals := fun n => match new n with
      | some v => some v
      | none => if (s.active n).isSome then none else s.globals n
    active := new }

/-- change the attributes of the instance -/
def onDev (f : Dev → Dev) : Act V := act fun s => { s with dev := s.dev.map f }

/-- tomo_config.py:166-178 `load_double_precision_modules`, `load_single_precision_modules` -/
def loadModules (env : Env) (p : Prec) : Act V :=
  (failIf (fun _ => env .loadKd) .cudaRuntime).then <|
  (onDev fun d => { d with kdMod := some p }).then <|
  (failIf (fun _ => env .loadRec) .cudaRuntime).then <|
  onDev fun d => { d with recMod := some p }

/-- tomo_config.py:131-164 `GPUDev.__init__`: the instance is registered first (line 135), then the device is opened, the sizes
are set, the kernels compiled and loaded -/
def initDev (env : Env) (p : Prec) (id : Int) : Act V := fun s =>
  if s.dev.isSome then (s, none) else
  ((act fun s => { s with dev := some {} }).then <|
   (failIf (fun _ => env .cupy) .importError).then <|
   (onDev fun d => { d with id := some id }).then <|
   (failIf (fun _ => env .device) .cudaRuntime).then <|
   (onDev fun d => { d with blockSize := true }).then <|
   (failIf (fun _ => env .compile) .compilation).then <|
   loadModules env p) s

/-- tomo_config.py:125-129 `get_gpu_dev` -/
def getDev (env : Env) : Act V := initDev env .double 0

/-- kick_and_drift_cuda.py:17-21 `refresh_kernels` -/
def refreshKd : Act V :=
  (failIf (fun s => (s.dev.bind Dev.kdMod).isNone) .attribute).then <|
  act fun s => { s with kdKernels := s.dev.bind Dev.kdMod }

/-- reconstruct_cuda.py:15-27 `refresh_kernels` -/
def refreshRec : Act V :=
  (failIf (fun s => (s.dev.bind Dev.recMod).isNone) .attribute).then <|
  act fun s => { s with recKernels := s.dev.bind Dev.recMod }

/-- kick_and_drift_cuda.py:6-15, 85: executed at the first successful import only -/
def importKd (env : Env) : Act V := fun s =>
  if s.kdKernels.isSome then (s, none) else
  ((failIf (fun _ => env .cupy) .importError).then <|
   (getDev env).then <|
   (failIf (fun s => !(s.dev.map Dev.blockSize).getD false) .attribute).then refreshKd) s

/-- reconstruct_cuda.py:6-13, 175 -/
def importRec (env : Env) : Act V := fun s =>
  if s.recKernels.isSome then (s, none) else
  ((failIf (fun _ => env .cupy) .importError).then <|
   (getDev env).then <|
   (failIf (fun s => !(s.dev.map Dev.blockSize).getD false) .attribute).then refreshRec) s

/-- tomo_config.py:51-72 `use_cpu`; `cpu` is the dictionary it builds -/
def useCpu (cpu : Dict V) : Act V :=
  (updateActiveDict cpu).then <| act fun s => { s with gpuEnabled := false }

/-- tomo_config.py:75-104 `use_gpu`; `gpu` is the dictionary it builds -/
def useGpu (gpu : Dict V) (env : Env) (id : Int) : Act V := fun s =>
  if id < 0 then (s, none) else
  ((failIf (fun _ => env .cupy) .importError).then <|
   (initDev env s.prec id).then <|
   (importKd env).then <|
   (importRec env).then <|
   (updateActiveDict gpu).then <|
   act fun s => { s with gpuEnabled := true }) s

/-- tomo_config.py:35-46 `load_modules_and_refresh_kernels` -/
def loadAndRefresh (env : Env) (p : Prec) : Act V :=
  (failIf (fun _ => env .compile) .compilation).then <|
  (getDev env).then <|
  (loadModules env p).then <|
  (importKd env).then <|
  (importRec env).then <|
  refreshKd.then refreshRec

/-- tomo_config.py:23-33 `set_single_precision`, `set_double_precision` -/
def setPrec (env : Env) (p : Prec) : Act V :=
  (act fun s => { s with prec := p }).then fun s =>
    if s.gpuEnabled then loadAndRefresh env p s else (s, none)

/-- The calls a user can make. -/
inductive Call
  | cpu
  | gpu (id : Int)
  | precision (p : Prec)
  deriving DecidableEq, Repr

/-- one call (also through the wrappers of longitudinal_tomography/__init__.py:18-32) -/
def call (cpu gpu : Dict V) (env : Env) : Call → Act V
  | .cpu => useCpu cpu
  | .gpu id => useGpu gpu env id
  | .precision p => setPrec env p

/-- the state after `import tomo_config`: tomo_config.py:6-8, 123, 228; `base` are the names defined by the module itself -/
def start (cpu base : Dict V) : State V :=
  (useCpu cpu ⟨.double, false, fun _ => none, base, none, none, none⟩).1

/-- A history of calls, each in its own circumstances; exceptions are caught by the user.  The state after it and what every
call raised. -/
def history (cpu gpu : Dict V) : List (Call × Env) → State V → State V × List (Option Err)
  | [], s => (s, [])
  | (c, env) :: h, s =>
    let r := call cpu gpu env c s
    let t := history cpu gpu h r.1
    (t.1, r.2 :: t.2)

/-- tomo_config.py:186-226 `cast`: device (true: GPU) and precision of the array returned -/
def castTo (s : State V) : Bool × Prec := (s.gpuEnabled, s.prec)

end
end Verif.Config

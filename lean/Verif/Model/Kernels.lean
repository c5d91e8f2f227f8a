/-!
# The compiled GPU kernels on disk

`cuda_kernels/__init__.py` (compilation and the test for compiled kernels) and `utils/tomo_config.py` (`AppConfig.compile_kernels`,
`load_modules_and_refresh_kernels`).  A binary is represented by the version of the source it was compiled from and by the architecture
it was compiled for; the macro `BLOCK_SIZE` (line 5) counts as part of the source.  Simplifications: a binary is written completely or not
at all; a compiler that fails either leaves the old binary or removes it (both are considered, which one `nvcc` does is not known here).
-/

namespace Verif.Kern

/-- cuda_kernels/__init__.py:7-10: the two source files -/
inductive Src
  | kickDrift | reconstruct
  deriving DecidableEq, Repr

/-- one binary: source and precision (`true` = single) -/
abbrev Bin := Src × Bool

/-- a binary: version of the source, architecture -/
abbrev Tag := Nat × Nat

/-- the directory `cuda_kernels`: versions of the sources, and the binaries -/
structure Disk where
  src : Src → Nat
  bin : Bin → Option Tag

/-- what a run of `nvcc` does with its output file -/
inductive Nvcc
  | writes | fails | failsAndRemoves
  deriving DecidableEq, Repr

/-- starting `nvcc`: `other` is any error of the operating system but `FileNotFoundError`, for example a file that is not executable -/
inductive Start
  | starts | notFound | other
  deriving DecidableEq, Repr

/-- opening device 0: `noDevice` is a `CUDARuntimeError` in line 31; `noProperties` one in lines 42-44, outside of the `try` -/
inductive Device
  | opens | noDevice | noProperties
  deriving DecidableEq, Repr

/-- everything outside the program: CuPy can be imported, device 0, the architecture of each device, `nvcc` and what each command does -/
structure Env where
  cupy : Bool
  device : Device
  arch : Nat → Nat
  start : Start
  nvcc : Bin → Nvcc

/-- how a call ended; `killed`: the process died during the call -/
inductive End
  | returned | compilationException | otherException | killed
  deriving DecidableEq, Repr

def setBin (d : Disk) (b : Bin) (v : Option Tag) : Disk := { d with bin := fun c => if c = b then v else d.bin c }

/-- cuda_kernels/__init__.py:7-10, 51-66: the commands in the order they are run -/
def commands : List Bin := [(.kickDrift, false), (.kickDrift, true), (.reconstruct, false), (.reconstruct, true)]

/-- cuda_kernels/__init__.py:48, 52-66 `subprocess.run(command)`: the return code is not looked at; the architecture is that of device 0 (line 31) -/
def runCommand (env : Env) (d : Disk) (b : Bin) : Disk :=
  match env.nvcc b with
  | .writes => setBin d b (some (d.src b.1, env.arch 0))
  | .fails => d
  | .failsAndRemoves => setBin d b none

/-- cuda_kernels/__init__.py:81-91 `check_compiled_kernels` -/
def check (d : Disk) : Bool := commands.all fun b => (d.bin b).isSome

/-- cuda_kernels/__init__.py:12-79 `compile_kernels`; `kill = some n`: the process dies after `n` commands -/
def compileKernels (env : Env) (kill : Option Nat) (d : Disk) : Disk × End :=
  if !env.cupy then (d, .compilationException)
  else match env.device, env.start with
    | .noDevice, _ => (d, .compilationException)
    | .noProperties, _ => (d, .otherException)
    | .opens, .notFound => (d, .compilationException)
    | .opens, .other => (d, .otherException)
    | .opens, .starts =>
      match kill with
      | some n => ((commands.take n).foldl (runCommand env) d, .killed)
      | none =>
        if check (commands.foldl (runCommand env) d) then (commands.foldl (runCommand env) d, .returned)
        else (commands.foldl (runCommand env) d, .compilationException)

/-- tomo_config.py:106-119 `AppConfig.compile_kernels` -/
def compileIfNeeded (force : Bool) (env : Env) (kill : Option Nat) (d : Disk) : Disk × End :=
  if force || !check d then compileKernels env kill d else (d, .returned)

/-- tomo_config.py:35-42, 158-178: compile if needed, then load the two binaries of a precision.  The loaded binaries are returned; that
the driver accepts them is not modelled -/
def load (single : Bool) (env : Env) (kill : Option Nat) (d : Disk) : Disk × End × Option (Tag × Tag) :=
  match compileIfNeeded false env kill d with
  | (d, .returned) =>
    match d.bin (.kickDrift, single), d.bin (.reconstruct, single) with
    | some a, some b => (d, .returned, some (a, b))
    | _, _ => (d, .compilationException, none)
  | (d, e) => (d, e, none)

/-- what can happen to the directory -/
inductive Op
  | edit (s : Src)
  | delete (b : Bin)
  | compile (force : Bool) (env : Env) (kill : Option Nat)
  | load (single : Bool) (env : Env) (kill : Option Nat)

def step (d : Disk) : Op → Disk
  | .edit s => { d with src := fun t => if t = s then d.src t + 1 else d.src t }
  | .delete b => setBin d b none
  | .compile force env kill => (compileIfNeeded force env kill d).1
  | .load single env kill => (load single env kill d).1

def runOps (d : Disk) (ops : List Op) : Disk := ops.foldl step d

/-- a fresh installation: sources, no binaries -/
def fresh : Disk := ⟨fun _ => 0, fun _ => none⟩

end Verif.Kern

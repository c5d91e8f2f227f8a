import Verif.Core.Ieee
import Verif.Model.CudaTrack

/-!
# How the arguments of a launch reach a CUDA kernel

`python_routines/kick_and_drift_cuda.py` and `python_routines/reconstruct_cuda.py` call kernels of `cuda_kernels/*.cu` through
`cupy.RawModule`.  CuPy does not know the declared types of the parameters.  It lays a python `int` down as a 64 bit integer, a python
`float` as a 64 bit `double`, an array as its address; the kernel takes as many bytes as its declaration says, from the low end (CUDA
devices and their hosts are little endian).  The kernels are compiled twice: `real_t` is `float` in single and `double` in double precision
(kick_and_drift.cu:11-15, reconstruct.cu:12-16).
-/

namespace Verif.CArg
open Verif.Par Verif.Omp Verif.Track Verif.Cuda

/-- the two builds of the kernels -/
inductive Prec | single | double
  deriving DecidableEq, Repr

/-- the declared types of the parameters: `int`, `real_t`, `double`, a pointer -/
inductive Kind | int | real | dbl | ptr
  deriving DecidableEq, Repr

/-- an argument as python has it: an `int`, the pattern of a `float` (or `numpy.float64`), an array -/
inductive Arg
  | int (z : Int)
  | float (bits : Nat)
  | array (name : String)
  deriving DecidableEq, Repr

/-- the eight bytes of a number, as one integer -/
def sent : Arg → Nat
  | .int z => (z % 2 ^ 64).toNat
  | .float b => b
  | .array _ => 0

/-- what a parameter holds when the kernel starts; `wild` for an address made of a number or a number made of an address -/
inductive Recv
  | int (z : Int)
  | num (x : Option ℚ)
  | array (name : String)
  | wild
  deriving DecidableEq, Repr

/-- a 32 bit pattern as an `int` -/
def signed (w : Nat) : Int := if w < 2 ^ 31 then (w : Int) else (w : Int) - 2 ^ 32

/-- the number in a `real_t` parameter -/
def realOf (p : Prec) (bits : Nat) : Option ℚ :=
  match p with
  | .single => Ieee.single (bits % 2 ^ 32)
  | .double => Ieee.double bits

/-- what a parameter of the given type makes of an argument -/
def recv (p : Prec) : Kind → Arg → Recv
  | .ptr, .array a => .array a
  | .ptr, _ => .wild
  | _, .array _ => .wild
  | .int, x => .int (signed (sent x % 2 ^ 32))
  | .real, x => .num (realOf p (sent x))
  | .dbl, x => .num (Ieee.double (sent x))

/-- A launch: the name of the kernel, its parameters, the python variables of the argument tuple, and, since the tuple is made in a small
python function, the parameters of that function and the variables (or literals) it is called with. -/
structure Launch where
  kernel : String
  params : List (String × Kind)
  args : List String
  wrapper : List String
  call : List String

/-- the variable of the caller behind an argument; a local variable of the small function stands for itself -/
def Launch.origin (l : Launch) (a : String) : String := ((l.wrapper.zip l.call).lookup a).getD a

/-- the parameters as the kernel finds them, for given values of the variables -/
def Launch.receive (l : Launch) (p : Prec) (env : String → Arg) : List (String × Recv) :=
  (l.params.zip l.args).map fun x => (x.1.1, recv p x.1.2 (env (l.origin x.2)))

/-- kick_and_drift.cu:135-150; kick_and_drift_cuda.py:23-29, called at 68-70 -/
def upTurns : Launch :=
  { kernel := "kick_drift_up_turns"
    params := [("dphi", .ptr), ("denergy", .ptr), ("xp", .ptr), ("yp", .ptr), ("drift_coef", .ptr), ("rfv1", .ptr), ("rfv2", .ptr),
      ("phi0", .ptr), ("phi12", .ptr), ("hratio", .real), ("nr_particles", .int), ("acc_kick", .ptr), ("turn", .int), ("nturns", .int),
      ("dturns", .int), ("profile", .int)]
    args := ["dphi", "denergy", "xp", "yp", "drift_coef", "rfv1", "rfv2", "phi0", "phi12", "h_ratio", "n_particles", "acc_kick", "turn",
      "nturns", "dturns", "profile"]
    wrapper := ["dphi", "denergy", "xp", "yp", "drift_coef", "rfv1", "rfv2", "phi0", "phi12", "h_ratio", "n_particles", "acc_kick", "turn",
      "nturns", "dturns", "profile"]
    call := ["dphi", "denergy", "xp", "yp", "drift_coef", "rfv1", "rfv2", "phi0", "phi12_arr", "h_ratio", "nparts", "deltaE0", "turn",
      "nturns", "dturns", "profile"] }

/-- kick_and_drift.cu:180-194; kick_and_drift_cuda.py:31-37, called at 81-83 -/
def downTurns : Launch :=
  { kernel := "kick_drift_down_turns"
    params := [("dphi", .ptr), ("denergy", .ptr), ("xp", .ptr), ("yp", .ptr), ("drift_coef", .ptr), ("rfv1", .ptr), ("rfv2", .ptr),
      ("phi0", .ptr), ("phi12", .ptr), ("hratio", .real), ("nr_particles", .int), ("acc_kick", .ptr), ("turn", .int), ("dturns", .int),
      ("profile", .int)]
    args := ["dphi", "denergy", "xp", "yp", "drift_coef", "rfv1", "rfv2", "phi0", "phi12", "h_ratio", "n_particles", "acc_kick", "turn",
      "dturns", "profile"]
    wrapper := ["dphi", "denergy", "xp", "yp", "drift_coef", "rfv1", "rfv2", "phi0", "phi12", "h_ratio", "n_particles", "acc_kick", "turn",
      "dturns", "profile"]
    call := ["dphi", "denergy", "xp", "yp", "drift_coef", "rfv1", "rfv2", "phi0", "phi12_arr", "h_ratio", "nparts", "deltaE0", "turn",
      "dturns", "profile"] }

/-- reconstruct.cu:26-29; reconstruct_cuda.py:30-37, called at 140 with the measured profiles and at 158 with the differences -/
def backProject (profiles : String) : Launch :=
  { kernel := "back_project"
    params := [("weights", .ptr), ("flat_points", .ptr), ("flat_profiles", .ptr), ("npart", .int), ("nprof", .int)]
    args := ["weights", "flat_points", "flat_profiles", "n_particles", "n_profiles"]
    wrapper := ["weights", "flat_points", "flat_profiles", "n_particles", "n_profiles"]
    call := ["weights", "flat_points", profiles, "n_particles", "n_profiles"] }

/-- reconstruct.cu:67-70; reconstruct_cuda.py:41-47, called at 153 and 165 -/
def project : Launch :=
  { kernel := "project"
    params := [("flat_rec", .ptr), ("flat_points", .ptr), ("weights", .ptr), ("npart", .int), ("nprof", .int)]
    args := ["flat_rec", "flat_points", "weights", "n_particles", "n_profiles"]
    wrapper := ["flat_rec", "flat_points", "weights", "n_particles", "n_profiles", "n_bins"]
    call := ["flat_rec", "flat_points", "weights", "n_particles", "n_profiles", "n_bins"] }

/-- reconstruct.cu:85-87; reconstruct_cuda.py:62-67, called at 141 and 159 -/
def clip : Launch :=
  { kernel := "clip"
    params := [("array", .ptr), ("length", .int), ("clip_val", .dbl)]
    args := ["array", "array_length", "clip_val"]
    wrapper := ["array", "array_length", "clip_val"]
    call := ["weights", "n_particles", "0.0"] }

/-- reconstruct.cu:101-104; reconstruct_cuda.py:70-76, called at 155 and 167 -/
def difference : Launch :=
  { kernel := "find_difference_profile"
    params := [("diff_prof", .ptr), ("flat_rec", .ptr), ("flat_profiles", .ptr), ("all_bins", .int)]
    args := ["diff_prof", "flat_rec", "flat_profiles", "length"]
    wrapper := ["flat_rec", "flat_profiles"]
    call := ["flat_rec", "flat_profiles"] }

/-- reconstruct.cu:116-119; reconstruct_cuda.py:86-91, called at 157 -/
def compensate : Launch :=
  { kernel := "compensate_particle_amount"
    params := [("diff_prof", .ptr), ("rparts", .ptr), ("nprof", .int), ("nbins", .int)]
    args := ["diff_prof", "rparts", "n_profiles", "n_bins"]
    wrapper := ["diff_prof", "rparts", "n_profiles", "n_bins"]
    call := ["diff_prof", "rparts", "n_profiles", "n_bins"] }

/-- reconstruct.cu:130-134; reconstruct_cuda.py:98-103, called at 138 -/
def count : Launch :=
  { kernel := "count_particles_in_bin"
    params := [("rparts", .ptr), ("xp", .ptr), ("nprof", .int), ("npart", .int), ("nbins", .int)]
    args := ["rparts", "xp", "n_profiles", "n_particles", "n_bins"]
    wrapper := ["rparts", "xp", "n_bins", "n_profiles", "n_particles"]
    call := ["rparts", "xp", "n_bins", "n_profiles", "n_particles"] }

/-- reconstruct.cu:148-151; reconstruct_cuda.py:98-109, called at 138 -/
def reciprocal : Launch :=
  { kernel := "calculate_reciprocal"
    params := [("rparts", .ptr), ("nbins", .int), ("nprof", .int), ("maxVal", .dbl)]
    args := ["rparts", "n_bins", "n_profiles", "max_bin_val"]
    wrapper := ["rparts", "xp", "n_bins", "n_profiles", "n_particles"]
    call := ["rparts", "xp", "n_bins", "n_profiles", "n_particles"] }

/-- reconstruct.cu:168-171; reconstruct_cuda.py:113-120, called at 139; the array is a copy made by the small function -/
def flatPoints : Launch :=
  { kernel := "create_flat_points"
    params := [("flat_points", .ptr), ("npart", .int), ("nprof", .int), ("nbins", .int)]
    args := ["flat_points", "n_particles", "n_profiles", "n_bins"]
    wrapper := ["xp", "n_particles", "n_profiles", "n_bins"]
    call := ["xp", "n_particles", "n_profiles", "n_bins"] }

/-- every launch of the package -/
def launches : List Launch :=
  [upTurns, downTurns, backProject "flat_profiles", backProject "diff_prof", project, clip, difference, compensate, count, reciprocal,
   flatPoints]

/-! ## The array of phase differences -/

/-- kick_and_drift_cuda.py:55 `cp.full(nturns+1, phi12)`: without a type the array takes that of the number, 64 bit for an `int` and for
a `float`, whatever the precision -/
def phi12Words (nturns : Int) (phi12 : Arg) : List Nat := List.replicate (nturns + 1).toNat (sent phi12)

/-- an array of 64 bit words read 32 bit at a time -/
def halves (ws : List Nat) : List Nat := ws.flatMap fun w => [w % 2 ^ 32, w / 2 ^ 32]

/-- the array as the kernels find it, through a pointer to `real_t` -/
def phi12Read (p : Prec) (nturns : Int) (phi12 : Arg) : List (Option ℚ) :=
  match p with
  | .single => (halves (phi12Words nturns phi12)).map Ieee.single
  | .double => (phi12Words nturns phi12).map Ieee.double

section
variable {K : Type} [Field K]

/-- kick_and_drift_cuda.py:39-83 as `Cuda.Tracks`, with the harmonic ratio and the array of phase differences as the kernels find them (the
other numbers are integers and arrays of `conf.get_precision()`); `h_ratio` and `phi12` are what tracking.py:207-211 passes -/
def Tracks (p : Prec) (sin : K → K) (B : Nat) (m : Mach K) (hRatio phi12 : Arg) (dturns recProf deltaturn nturns : Int) (n : Nat)
    (m₀ m₁ : Memory K) : Prop :=
  ∃ (h : ℚ) (ps : List ℚ), recv p .real hRatio = .num (some h) ∧ phi12Read p nturns phi12 = ps.map some ∧
    let m := { m with hratio := (h : K), phi12 := ps.map fun q : ℚ => (q : K) }
    let turn := recProf * dturns + deltaturn
    let profile := if deltaturn < 0 then recProf - 1 else recProf
    ∃ m', Launched (grid (gridSize n B) B (upThread sin m dturns nturns n profile turn)) (hostPut n profile m₀) m' ∧
      if 0 < recProf then
        Launched (grid (gridSize n B) B (downThread sin m dturns n recProf (recProf * dturns))) (hostGet n recProf m') m₁
      else m₁ = m'

end
end Verif.CArg

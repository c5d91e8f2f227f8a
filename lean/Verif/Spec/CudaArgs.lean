import Verif.Model.CudaArgs

/-!
# What the parameters of the CUDA kernels are meant to hold

For every parameter of a kernel the quantity of `kick_and_drift_cuda` and `reconstruct_cuda` that belongs there.
-/

namespace Verif.CArg

/-- the kinds of quantities -/
inductive Ty | count | number | array
  deriving DecidableEq, Repr

/-- a parameter, the kind of quantity, and the python variable (or literal) holding it -/
structure Role where
  param : String
  ty : Ty
  var : String

/-- an array parameter that carries the name of the variable -/
def same (n : String) : Role := ⟨n, .array, n⟩

/-- the tracking kernels: coordinates, outputs, programs of the machine, harmonic ratio, number of particles, acceleration, counters -/
def trackRoles (counters : List String) : List Role :=
  [same "dphi", same "denergy", same "xp", same "yp", same "drift_coef", same "rfv1", same "rfv2", same "phi0",
   ⟨"phi12", .array, "phi12_arr"⟩, ⟨"hratio", .number, "h_ratio"⟩, ⟨"nr_particles", .count, "nparts"⟩, ⟨"acc_kick", .array, "deltaE0"⟩] ++
  counters.map fun c => ⟨c, .count, c⟩

def npart : Role := ⟨"npart", .count, "n_particles"⟩
def nprof : Role := ⟨"nprof", .count, "n_profiles"⟩
def nbins : Role := ⟨"nbins", .count, "n_bins"⟩

/-- the quantities of every launch -/
def roles : List (Launch × List Role) :=
  [(upTurns, trackRoles ["turn", "nturns", "dturns", "profile"]),
   (downTurns, trackRoles ["turn", "dturns", "profile"]),
   (backProject "flat_profiles", [same "weights", same "flat_points", same "flat_profiles", npart, nprof]),
   (backProject "diff_prof", [same "weights", same "flat_points", ⟨"flat_profiles", .array, "diff_prof"⟩, npart, nprof]),
   (project, [same "flat_rec", same "flat_points", same "weights", npart, nprof]),
   (clip, [⟨"array", .array, "weights"⟩, ⟨"length", .count, "n_particles"⟩, ⟨"clip_val", .number, "0.0"⟩]),
   (difference, [same "diff_prof", same "flat_rec", same "flat_profiles", ⟨"all_bins", .count, "length"⟩]),
   (compensate, [same "diff_prof", same "rparts", nprof, nbins]),
   (count, [same "rparts", same "xp", nprof, npart, nbins]),
   (reciprocal, [same "rparts", nbins, nprof, ⟨"maxVal", .number, "max_bin_val"⟩]),
   (flatPoints, [same "flat_points", npart, nprof, nbins])]

/-- the values python variables of the kinds hold: counts fit into 32 bits, numbers are `float`s -/
def Fits : Ty → Arg → Prop
  | .count, a => ∃ z : ℤ, a = .int z ∧ -2 ^ 31 ≤ z ∧ z < 2 ^ 31
  | .number, a => ∃ b : ℕ, a = .float b
  | .array, a => ∃ s : String, a = .array s

/-- the quantity itself -/
def quantity : Arg → Recv
  | .int z => .int z
  | .float b => .num (Ieee.double b)
  | .array s => .array s

/-- every quantity arrives at its parameter -/
def Arrives (l : Launch) (rs : List Role) (p : Prec) (env : String → Arg) : Prop :=
  l.receive p env = rs.map fun r => (r.param, quantity (env r.var))

/-- A short number: `±n·2^j` with `n` below `2²¹`; the integers up to two million, the halves up to one million, and so on. -/
def Short (q : ℚ) : Prop := ∃ (n : ℕ) (j : ℤ), 0 < n ∧ n < 2 ^ 21 ∧ (q = n * 2 ^ j ∨ q = -(n * 2 ^ j))

end Verif.CArg

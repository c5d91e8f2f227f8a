import Verif.Model.Reconstruct

/-!
# Calls of the compiled library by position and by keyword

pybind11 gives every registered function a list of parameter names with defaults.  A call has positional values and values by
keyword; binding turns them into the list of arguments of the C++ wrapper, or the call does not fit.  The types of the values and
their conversion are in `Model/Bind.lean`; here the values are arbitrary.

The names a function is registered with need not be those of the C++ parameters, nor those of the type stub `libtomo.pyi`.  All of
them are written down here as they stand in the sources.
-/

namespace Verif.Kw

variable {V : Type _}

/-- a parameter: its name and its default -/
abbrev Param (V : Type _) := String × Option V

/-- The value given by keyword. -/
def lookup (kw : List (String × V)) (name : String) : Option V := (kw.find? fun q => q.1 == name).map (·.2)

/-- The parameters without a positional value: by keyword, or the default, or the call does not fit
(`cpp_function::dispatcher` of pybind11, used by libtomo.cpp:537-640). -/
def fill (kw : List (String × V)) : List (Param V) → Option (List V)
  | [] => some []
  | p :: ps =>
    match lookup kw p.1, p.2 with
    | some v, _ => (fill kw ps).map (v :: ·)
    | none, some d => (fill kw ps).map (d :: ·)
    | none, none => none

/-- One registered function and a call of it: too many positional values, a value given twice, a missing value or an unknown keyword
do not fit (libtomo.cpp:537-640). A python function (`reconstruct_cuda` and others) binds in the same way. -/
def bindCall (sig : List (Param V)) (pos : List V) (kw : List (String × V)) : Option (List V) :=
  if sig.length < pos.length then none
  else if (sig.take pos.length).any fun p => kw.any fun q => q.1 == p.1 then none
  else if kw.any fun q => !(sig.drop pos.length).any fun p => p.1 == q.1 then none
  else (fill kw (sig.drop pos.length)).map (pos ++ ·)

/-- A function of the library: the names it is registered with, the number of parameters at the end that have defaults, and what each
parameter of the C++ wrapper stands for, in order.  Only for the parameters of the wrappers whose names differ by spelling alone
(`input_weights`, `nr_particles`, `arr_rfv1`) the registered spelling is used. -/
structure Fn where
  name : String
  registered : List String
  optional : Nat
  takes : List String
  deriving DecidableEq, Repr

/-- libtomo.cpp:571-593 -/
def kadNames : List String :=
  ["xp", "yp", "denergy", "dphi", "rfv1", "rfv2", "phi0", "deltaE0", "drift_coef", "phi12", "h_ratio", "dturns",
   "rec_prof", "deltaturn", "nturns", "nparts", "ftn_out", "callback"]

/-- libtomo.cpp:566-568 -/
def kadMachineNames : List String :=
  ["xp", "yp", "denergy", "dphi", "rfv1", "rfv2", "machine", "rec_prof", "deltaturn", "nturns", "nparts", "ftn_out", "callback"]

/-- libtomo.cpp:552-558, wrappers 42-79 -/
def kickNames : List String :=
  ["dphi", "denergy", "rfv1", "rfv2", "phi0", "phi12", "h_ratio", "n_particles", "acc_kick"]

/-- libtomo.cpp:615-623, wrapper 395-404 -/
def reconstructNames : List String :=
  ["xp", "waterfall", "n_iter", "n_bins", "n_particles", "n_profiles", "verbose", "callback"]

/-- libtomo.cpp:541-542, wrapper 33 -/
def fnThreads : Fn := ⟨"set_num_threads", ["num_threads"], 0, ["num_threads"]⟩

/-- libtomo.cpp:544-546, wrapper 82-89 -/
def fnKick : Fn :=
  ⟨"kick", ["machine", "denergy", "dphi", "rfv1", "rfv2", "npart", "turn", "up"], 1,
    ["machine", "denergy", "dphi", "rfv1", "rfv2", "npart", "turn", "up"]⟩

/-- libtomo.cpp:548-550, wrapper 143-149 -/
def fnDrift : Fn :=
  ⟨"drift", ["denergy", "dphi", "drift_coef", "npart", "turn", "up"], 1, ["denergy", "dphi", "drift_coef", "npart", "turn", "up"]⟩

/-- libtomo.cpp:552-554, wrapper 42-51 -/
def fnKickUp : Fn := ⟨"kick_up", kickNames, 0, kickNames⟩

/-- libtomo.cpp:556-558, wrapper 62-71 -/
def fnKickDown : Fn := ⟨"kick_down", kickNames, 0, kickNames⟩

/-- libtomo.cpp:560-561, wrapper 113-117 -/
def fnDriftUp : Fn := ⟨"drift_up", ["dphi", "denergy", "drift_coef", "n_particles"], 0, ["dphi", "denergy", "drift_coef", "n_particles"]⟩

/-- libtomo.cpp:563-564, wrapper 128-132 -/
def fnDriftDown : Fn :=
  ⟨"drift_down", ["dphi", "denergy", "drift_coef", "n_particles"], 0, ["dphi", "denergy", "drift_coef", "n_particles"]⟩

/-- libtomo.cpp:566-568, wrapper 164-178 -/
def fnKadMachine : Fn := ⟨"kick_and_drift", kadMachineNames, 2, kadMachineNames⟩

/-- libtomo.cpp:571-593, wrappers 193-213 and 228-248 -/
def fnKad : Fn := ⟨"kick_and_drift", kadNames, 2, kadNames⟩

/-- libtomo.cpp:595-597, wrapper 330-337 -/
def fnProject : Fn :=
  ⟨"project", ["flat_rec", "flat_points", "weights", "n_particles", "n_profiles", "n_bins"], 0,
    ["flat_rec", "flat_points", "weights", "n_particles", "n_profiles", "n_bins"]⟩

/-- libtomo.cpp:599-601, wrapper 308-314 -/
def fnBackProject : Fn :=
  ⟨"back_project", ["weights", "flat_points", "flat_profiles", "n_particles", "n_profiles"], 0,
    ["weights", "flat_points", "flat_profiles", "n_particles", "n_profiles"]⟩

/-- libtomo.cpp:603-607, wrapper 353-360: the wrapper takes the number of profiles first -/
def fnCount : Fn :=
  ⟨"count_particles_in_bins", ["input_parts", "input_xp", "n_particles", "n_profiles", "n_bins"], 0,
    ["input_parts", "input_xp", "n_profiles", "n_particles", "n_bins"]⟩

/-- libtomo.cpp:609-613, wrapper 372-381: the wrapper takes the number of profiles first -/
def fnCountMulti : Fn :=
  ⟨"count_particles_in_bins_multi", ["input_parts", "input_xp", "input_centers", "n_particles", "n_profiles", "n_bins", "n_centers"], 0,
    ["input_parts", "input_xp", "input_centers", "n_profiles", "n_particles", "n_bins", "n_centers"]⟩

/-- libtomo.cpp:615-623, wrapper 395-404 -/
def fnReconstruct : Fn := ⟨"reconstruct", reconstructNames, 2, reconstructNames⟩

/-- libtomo.cpp:625-633, wrapper 445-458: one keyword is spelled `inpt_cutright` -/
def fnReconstructMulti : Fn :=
  ⟨"reconstruct_multi",
    ["xp", "waterfall", "inp_cutleft", "inpt_cutright", "inp_centers", "n_iter", "n_bins", "n_particles", "n_profiles", "n_centers",
     "verbose", "callback"], 2,
    ["xp", "waterfall", "inp_cutleft", "inpt_cutright", "inp_centers", "n_iter", "n_bins", "n_particles", "n_profiles", "n_centers",
     "verbose", "callback"]⟩

/-- libtomo.cpp:635-639, wrapper 512-518 -/
def fnPhaseSpace : Fn := ⟨"make_phase_space", ["xp", "yp", "weights", "n_bins"], 0, ["xp", "yp", "weights", "n_bins"]⟩

/-- libtomo.cpp:537-640 -/
def library : List Fn :=
  [fnThreads, fnKick, fnDrift, fnKickUp, fnKickDown, fnDriftUp, fnDriftDown, fnKadMachine, fnKad, fnProject, fnBackProject,
   fnCount, fnCountMulti, fnReconstruct, fnReconstructMulti, fnPhaseSpace]

/-- kick_and_drift_cuda.py:39-56: the function the configuration holds on a GPU (tomo_config.py:94); no defaults -/
def gpuKad : Fn :=
  ⟨"kick_and_drift", ["xp", "yp", "denergy", "dphi", "rfv1", "rfv2", "phi0", "deltaE0", "drift_coef", "phi12", "h_ratio", "dturns",
      "rec_prof", "deltaturn", "nturns", "nparts", "ftn_out", "callback"], 0,
    ["xp", "yp", "denergy", "dphi", "rfv1", "rfv2", "phi0", "deltaE0", "drift_coef", "phi12", "h_ratio", "dturns",
      "rec_prof", "deltaturn", "nturns", "nparts", "ftn_out", "callback"]⟩

/-- reconstruct_cuda.py:124-127 (tomo_config.py:95) -/
def gpuReconstruct : Fn :=
  ⟨"reconstruct", ["xp", "waterfall", "n_iter", "n_bins", "n_particles", "n_profiles", "verbose", "callback"], 2,
    ["xp", "waterfall", "n_iter", "n_bins", "n_particles", "n_profiles", "verbose", "callback"]⟩

/-- data_treatment.py:8-11 of python_routines (tomo_config.py:96) -/
def gpuPhaseSpace : Fn :=
  ⟨"make_phase_space", ["xp", "yp", "weights", "n_bins", "result_cpu"], 1, ["xp", "yp", "weights", "n_bins", "result_cpu"]⟩

/-- The parameters of a function, the last ones with the given defaults. -/
def Fn.sig (f : Fn) (defaults : List V) : List (Param V) :=
  (f.registered.take (f.registered.length - f.optional)).map (fun n => (n, none)) ++
  ((f.registered.drop (f.registered.length - f.optional)).zip (defaults.map some))

/-- The declarations of `libtomo.pyi` (lines 5-88): names and number of optional parameters.  `make_phase_space` is declared twice, and the
second declaration counts; `kick_and_drift` is declared with `*args, **kwargs`; the counting functions are not declared. -/
def stub : List (String × List String × Nat) :=
  [("back_project", ["weights", "flat_points", "flat_profiles", "n_particles", "n_profiles"], 0),
   ("drift", ["denergy", "dphi", "drift_coef", "npart", "turn", "up"], 1),
   ("drift_down", ["dphi", "denergy", "drift_coef", "n_particles"], 0),
   ("drift_up", ["dphi", "denergy", "drift_coef", "n_particles"], 0),
   ("kick", ["machine", "denergy", "dphi", "rfv1", "rfv2", "npart", "turn", "up"], 1),
   ("kick_down", kickNames, 0),
   ("kick_up", kickNames, 0),
   ("project", ["flat_rec", "flat_points", "weights", "n_particles", "n_profiles", "n_bins"], 0),
   ("reconstruct", reconstructNames, 2),
   ("reconstruct_multi", ["xpRound0", "waterfall", "cutleft", "cutright", "centers", "n_iter", "n_bins", "n_particles", "n_profiles",
      "n_centers", "verbose", "callback"], 2),
   ("set_num_threads", ["num_threads"], 0),
   ("make_phase_space", ["xp", "yp", "weight", "n_particles", "n_bins"], 0)]

/-- A call written in the package: the function, what is passed by position and what by keyword.  Each value is written as what it is. -/
structure Site where
  fn : Fn
  pos : List String
  kw : List (String × String)
  deriving DecidableEq, Repr

/-- The calls of the library in the package. -/
def sites : List Site :=
  -- tracking.py:207-211, on both backends
  [⟨fnKad, ["xp", "yp", "denergy", "dphi", "rfv1", "rfv2", "phi0", "deltaE0", "drift_coef", "phi12", "h_ratio", "dturns",
      "rec_prof", "deltaturn", "nturns", "nparts", "ftn_out"], [("callback", "callback")]⟩,
   ⟨gpuKad, ["xp", "yp", "denergy", "dphi", "rfv1", "rfv2", "phi0", "deltaE0", "drift_coef", "phi12", "h_ratio", "dturns",
      "rec_prof", "deltaturn", "nturns", "nparts", "ftn_out"], [("callback", "callback")]⟩,
   -- tracking.py:277-278, 394
   ⟨fnDrift, ["denergy", "dphi", "drift_coef", "npart", "turn"], []⟩,
   -- tracking.py:281-282, 407
   ⟨fnKick, ["machine", "denergy", "dphi", "rfv1", "rfv2", "npart", "turn"], []⟩,
   -- tracking.py:300-301, 429
   ⟨fnKick, ["machine", "denergy", "dphi", "rfv1", "rfv2", "npart", "turn"], [("up", "up")]⟩,
   -- tracking.py:304-305, 436
   ⟨fnDrift, ["denergy", "dphi", "drift_coef", "npart", "turn"], [("up", "up")]⟩,
   -- data_treatment.py:203, 220, tomo_output.py:103-105, on both backends
   ⟨fnPhaseSpace, ["xp", "yp", "weights", "n_bins"], []⟩,
   ⟨gpuPhaseSpace, ["xp", "yp", "weights", "n_bins"], []⟩,
   -- tomography.py:401-403, on both backends
   ⟨fnReconstruct, ["xp", "waterfall", "n_iter", "n_bins", "n_particles", "n_profiles", "verbose", "callback"], []⟩,
   ⟨gpuReconstruct, ["xp", "waterfall", "n_iter", "n_bins", "n_particles", "n_profiles", "verbose", "callback"], []⟩,
   -- tomography.py:117-118, 136-138, 228-233, 263-267, tomography_multibunch.py:133-139, 173-177
   ⟨fnBackProject, ["weights", "flat_points", "flat_profiles", "n_particles", "n_profiles"], []⟩,
   -- tomography.py:295-296, 304-305, tomography_multibunch.py:224-225
   ⟨fnProject, ["flat_rec", "flat_points", "weights", "n_particles", "n_profiles", "n_bins"], []⟩,
   -- __tomography.py:266-268
   ⟨fnCountMulti, ["input_parts", "input_xp", "input_centers", "n_profiles", "n_particles", "n_bins", "n_centers"], []⟩,
   -- tomography_multibunch.py:283-286
   ⟨fnReconstructMulti, ["xp", "waterfall", "inp_cutleft", "inpt_cutright", "inp_centers", "n_iter", "n_bins", "n_particles",
      "n_profiles", "n_centers", "verbose", "callback"], []⟩]

/-- tomolib_wrappers.py:204-212, the calls of `kick_and_drift` for backwards compatibility: with a machine, and without -/
def compatSites : List Site :=
  [⟨fnKadMachine, ["xp", "yp", "denergy", "dphi", "rfv1", "rfv2", "machine", "rec_prof", "nturns", "nparts", "ftn_out"], []⟩,
   ⟨fnKad, ["xp", "yp", "denergy", "dphi", "rfv1", "rfv2", "phi0", "deltaE0", "drift_coef", "phi12", "h_ratio", "dturns",
      "rec_prof", "nturns", "nparts", "ftn_out"], []⟩]

/-- values as the counting functions get them -/
inductive CountVal (α : Type _)
  | reals (a : List α)
  | ints (a : List Int)
  | int (n : Nat)

/-- libtomo.cpp:353-370, 603-607: a call of `count_particles_in_bins`, with `TypeError` if it does not fit.  The array is changed in place
and returned. -/
def countCall {α : Type _} [Add α] [One α] (pos : List (CountVal α)) (kw : List (String × CountVal α)) : M (List α) :=
  match bindCall (fnCount.sig []) pos kw with
  | some [.reals parts, .ints xp, .int nprof, .int npart, .int nbins] => Recon.countParticlesInBin parts xp nprof npart nbins
  | _ => .error (.exc .typeError)

end Verif.Kw

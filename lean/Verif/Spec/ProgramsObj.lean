import Verif.Model.ProgramsObj
import Verif.Spec.MachineObj

/-!
# What the arguments of `ProgramsMachine(...)` mean, as documented

The documentation in `tracking/programs_machine.py:22-59` and `tracking/machine_base.py:59-195`.
-/

namespace Verif.PMObj
open Verif.Mch Verif.MObj

section
variable {K : Type _} [Field K] [LinearOrder K] [FloorRing K]

/-- the parameters, in the order of the signature -/
def parameters : List String :=
  ["dturns", "voltage_function", "momentum_function", "harmonics", "mean_orbit_rad", "bending_rad", "trans_gamma", "rest_energy",
   "nprofiles", "nbins", "dtbin", "t_ref", "phase_function", "vat_now"]

/-- the value given for a parameter, by position or by keyword -/
def argument (pos : List (Val K)) (kw : Dict K) (name : String) : Option (Val K) := (parameters.zip pos ++ kw).lookup name

/-- the attributes that have to be given, each with the name of its parameter -/
def requiredAttrs : List (String × String) :=
  [("dturns", "dturns"), ("mean_orbit_rad", "mean_orbit_rad"), ("bending_rad", "bending_rad"), ("trans_gamma", "trans_gamma"),
   ("e_rest", "rest_energy"), ("nprofiles", "nprofiles"), ("nbins", "nbins"), ("dtbin", "dtbin"), ("voltage_raw", "voltage_function"),
   ("momentum_raw", "momentum_function"), ("harmonics", "harmonics"), ("t_ref", "t_ref")]

/-- the attributes that may be given, each with the name of its keyword and its documented default -/
def optionalAttrs : List (String × String × Val K) :=
  [("demax", "demax", .num (-1000000)), ("phi12", "phi12", .num 0), ("h_ratio", "h_ratio", .num 1), ("h_num", "h_num", .int 1),
   ("q", "charge", .int 1), ("g_coupling", "g_coupling", .none), ("zwall_over_n", "zwall_over_n", .none),
   ("pickup_sensitivity", "pickup_sensitivity", .none), ("synch_part_x", "synch_part_x", .int (-1)),
   ("self_field_flag", "self_field_flag", .flag false), ("full_pp_flag", "full_pp_flag", .flag false),
   ("machine_ref_frame", "machine_ref_frame", .int 0), ("beam_ref_frame", "beam_ref_frame", .int 0), ("snpt", "snpt", .int 4),
   ("niter", "niter", .int 20), ("filmstart", "filmstart", .int 0), ("filmstop", "filmstop", .int 1), ("filmstep", "filmstep", .int 1),
   ("output_dir", "output_dir", .none)]

/-- the names with a meaning: parameters and optional keywords.  `n_profiles` and `n_bins` are refused. -/
def known : List String :=
  parameters ++ ["demax", "phi12", "h_ratio", "h_num", "charge", "g_coupling", "zwall_over_n", "pickup_sensitivity", "synch_part_x",
    "self_field_flag", "full_pp_flag", "machine_ref_frame", "beam_ref_frame", "snpt", "niter", "filmstart", "filmstop", "filmstep",
    "output_dir", "min_dt", "max_dt", "n_profiles", "n_bins"]

/-- the number a value stands for -/
def IsNum (v : Val K) (x : K) : Prop := v = .num x ∨ ∃ n : Int, v = .int n ∧ x = (n : K)

/-- the programs: rows of times and values, the second harmonic in the third row if there are two -/
structure Rows (v : Option (Val K)) (two : Prop) (time first second : List K) : Prop where
  rows : ∃ rest, v = some (.table (time :: first :: rest)) ∧ (two → ∃ rest', rest = second :: rest') ∧ (¬ two → second = [])

/-- the phases: a number or an array in the keyword `phi12`, a phase program, or nothing -/
inductive Phases (pos : List (Val K)) (kw : Dict K) (two : Prop) : Prog.PhaseArg K → Prop
  | number {v : Val K} {x : K} (h : kw.lookup "phi12" = some v) (hx : IsNum v x) : Phases pos kw two (.number x)
  | array {l : List K} (h : kw.lookup "phi12" = some (.list l)) : Phases pos kw two (.array l)
  | table {rows : List (List K)} (h : kw.lookup "phi12" = some (.table rows)) : Phases pos kw two (.array rows.flatten)
  | program {t p1 p2 : List K} (h : kw.lookup "phi12" = none) (hp : Rows (argument pos kw "phase_function") two t p1 p2) :
      Phases pos kw two (.program t p1 p2)
  | missing (h : kw.lookup "phi12" = none) (hp : (argument pos kw "phase_function").getD .none = .none) : Phases pos kw two .missing

/-- what the computation of the arrays gets is what the call said -/
structure Described (pos : List (Val K)) (kw : Dict K) (a : Prog.PArgs K) : Prop where
  dturns : argument pos kw "dturns" = some (.int a.dturns)
  nprofiles : argument pos kw "nprofiles" = some (.int a.nprofiles)
  machineRefFrame : (kw.lookup "machine_ref_frame").getD (.int 0) = .int a.machineRefFrame
  meanOrbitRad : ∃ v, argument pos kw "mean_orbit_rad" = some v ∧ IsNum v a.meanOrbitRad
  bendingRad : ∃ v, argument pos kw "bending_rad" = some v ∧ IsNum v a.bendingRad
  transGamma : ∃ v, argument pos kw "trans_gamma" = some v ∧ IsNum v a.transGamma
  eRest : ∃ v, argument pos kw "rest_energy" = some v ∧ IsNum v a.eRest
  hNum : IsNum ((kw.lookup "h_num").getD (.int 1)) a.hNum
  q : IsNum ((kw.lookup "charge").getD (.int 1)) a.q
  momentum : Rows (argument pos kw "momentum_function") False a.momTime a.momVal []
  voltage : Rows (argument pos kw "voltage_function") (a.harmonics.length = 2) a.voltTime a.volt1 a.volt2
  harmonics : argument pos kw "harmonics" = some (.list a.harmonics)
  count : a.harmonics.length = 1 ∨ a.harmonics.length = 2
  phase : Phases pos kw (a.harmonics.length = 2) a.phase
  tRef : (argument pos kw "t_ref" = some .none ∧ a.tRef = none) ∨
    ∃ v x, argument pos kw "t_ref" = some v ∧ IsNum v x ∧ a.tRef = some x

end
end Verif.PMObj

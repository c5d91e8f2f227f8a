import Verif.Model.MachineObj

/-!
# What the arguments of `Machine(...)` mean, as documented

The documentation in `tracking/machine_base.py:59-195` and `tracking/machine.py:46-93`.
-/

namespace Verif.MObj

section
variable {K : Type _} [Field K] [LinearOrder K] [FloorRing K]

/-- the parameters, in the order of the signature -/
def parameters : List String :=
  ["dturns", "vrf1", "mean_orbit_rad", "bending_rad", "b0", "trans_gamma", "rest_energy", "nprofiles", "nbins", "dtbin", "vat_now"]

/-- the value given for a parameter, by position or by keyword -/
def argument (pos : List (Val K)) (kw : Dict K) (name : String) : Option (Val K) := (parameters.zip pos ++ kw).lookup name

/-- the attributes that have to be given, each with the name of its parameter -/
def requiredAttrs : List (String × String) :=
  [("dturns", "dturns"), ("vrf1", "vrf1"), ("mean_orbit_rad", "mean_orbit_rad"), ("bending_rad", "bending_rad"), ("b0", "b0"),
   ("trans_gamma", "trans_gamma"), ("e_rest", "rest_energy"), ("nprofiles", "nprofiles"), ("nbins", "nbins"), ("dtbin", "dtbin")]

/-- the attributes that may be given, each with the name of its keyword and its documented default -/
def optionalAttrs : List (String × String × Val K) :=
  [("demax", "demax", .num (-1000000)), ("vrf2", "vrf2", .num 0), ("vrf1dot", "vrf1dot", .num 0), ("vrf2dot", "vrf2dot", .num 0),
   ("bdot", "bdot", .num 0), ("phi12", "phi12", .num 0), ("h_ratio", "h_ratio", .num 1), ("h_num", "h_num", .int 1),
   ("q", "charge", .int 1), ("g_coupling", "g_coupling", .none), ("zwall_over_n", "zwall_over_n", .none),
   ("pickup_sensitivity", "pickup_sensitivity", .none), ("synch_part_x", "synch_part_x", .int (-1)),
   ("self_field_flag", "self_field_flag", .flag false), ("full_pp_flag", "full_pp_flag", .flag false),
   ("machine_ref_frame", "machine_ref_frame", .int 0), ("beam_ref_frame", "beam_ref_frame", .int 0), ("snpt", "snpt", .int 4),
   ("niter", "niter", .int 20), ("filmstart", "filmstart", .int 0), ("filmstop", "filmstop", .int 1), ("filmstep", "filmstep", .int 1),
   ("output_dir", "output_dir", .none)]

/-- the names with a meaning: parameters and optional keywords.  `n_profiles` and `n_bins` are refused. -/
def known : List String :=
  parameters ++ ["demax", "vrf2", "vrf1dot", "vrf2dot", "bdot", "phi12", "h_ratio", "h_num", "charge", "g_coupling", "zwall_over_n",
    "pickup_sensitivity", "synch_part_x", "self_field_flag", "full_pp_flag", "machine_ref_frame", "beam_ref_frame", "snpt", "niter",
    "filmstart", "filmstop", "filmstep", "output_dir", "min_dt", "max_dt", "n_profiles", "n_bins"]

/-- The arguments describe a machine: not too many positions, no parameter given twice, all required ones given, no name refused,
the number of bins is a number, and so is its product with the bin width unless `max_dt` is given. -/
structure Describes (pos : List (Val K)) (kw : Dict K) : Prop where
  few : pos.length ≤ 11
  once : ∀ k ∈ kw.map Prod.fst, k ∉ (parameters.zip pos).map Prod.fst
  required : ∀ e ∈ requiredAttrs, (argument pos kw e.2).isSome = true
  notRefused : "n_profiles" ∉ kw.map Prod.fst ∧ "n_bins" ∉ kw.map Prod.fst
  bins : ∀ v, argument pos kw "nbins" = some v → ∃ n, asNum v = .ok n
  limit : (kw.lookup "max_dt").getD .none = .none → ∀ v w, argument pos kw "nbins" = some v → argument pos kw "dtbin" = some w →
    ∃ u, mulV v w = .ok u

end
end Verif.MObj

{
 "claims": [
  {
   "property": "C01",
   "status": "proved",
   "theorems": [
    "Verif.Props.C01_back_project",
    "Verif.Props.C01_adjoint",
    "Verif.Props.C01_flat_points"
   ],
   "note": "Back projection is the exact column sum over profiles, adjoint to projection, for all sizes; exact ordered-field arithmetic."
  },
  {
   "property": "C02",
   "status": "proved",
   "theorems": [
    "Verif.Props.C02_project",
    "Verif.Props.C02_conserves_weight"
   ],
   "note": "Projection is the weight histogram and conserves total weight per profile."
  },
  {
   "property": "C03",
   "status": "proved",
   "theorems": [
    "Verif.Props.C03_rows_sum_to_one",
    "Verif.Props.C03_no_division_by_zero"
   ],
   "note": "Rows sum to one after normalisation; no division by zero happens."
  },
  {
   "property": "C04",
   "status": "proved",
   "theorems": [
    "Verif.Props.C04_weights",
    "Verif.Props.C04_initial_error_iff"
   ],
   "note": "Weights are non-negative with positive sum, or the run raises; the initial error is characterised by an iff."
  },
  {
   "property": "C05",
   "status": "proved",
   "theorems": [
    "Verif.Props.C05_history",
    "Verif.Props.C05_rms_meaning",
    "Verif.Props.C05_bound"
   ],
   "note": "Length and every entry of the discrepancy history; RMS meaning over the reals."
  },
  {
   "property": "C06",
   "status": "partial",
   "theorems": [
    "Verif.Props.C06_close_partial",
    "Verif.Props.C06_hybrid_recreated",
    "Verif.Props.C06_agree_without_iterations_partial",
    "Verif.Props.C06_agree_first_weights_partial",
    "Verif.Props.C06_cpp_recreated",
    "Verif.Props.C06_violated_recreated"
   ],
   "note": "Holds for run_hybrid and for zero iterations; the C++ path is proved to differ (buffer never cleared), with a witness, and by how much at most (C06_close_partial)."
  },
  {
   "property": "C07",
   "status": "partial",
   "theorems": [
    "Verif.Props.C07_violated_gpu",
    "Verif.Props.C07_callbacks"
   ],
   "note": "Exact callback sequence for the C++ and the hybrid routine. C07_violated_gpu: the GPU path never calls the callback given to run."
  },
  {
   "property": "C08",
   "status": "proved",
   "theorems": [
    "Verif.Props.C08_factors",
    "Verif.Props.C08_at_least_one",
    "Verif.Props.C08_python_agrees"
   ],
   "note": "Value of every factor, factors >= 1, python and C++ agree."
  },
  {
   "property": "C09",
   "status": "proved",
   "theorems": [
    "Verif.Props.C09_counts"
   ],
   "note": "Counts are exact cardinalities and sum to the particle number."
  },
  {
   "property": "C10",
   "status": "proved",
   "theorems": [
    "Verif.Props.C10_permutation"
   ],
   "note": "Permutation equivariance of weights and invariance of profiles/history."
  },
  {
   "property": "C11",
   "status": "proved",
   "theorems": [
    "Verif.Props.C11_scale_invariant",
    "Verif.Props.C11_negatives_are_zero",
    "Verif.Props.C11_run_scale_invariant"
   ],
   "note": "Positive scaling and clipping of negatives do not change the stored profiles nor the run."
  },
  {
   "property": "C12",
   "status": "partial",
   "theorems": [
    "Verif.Props.C12_raises_iff",
    "Verif.Props.C12_normalised_partial",
    "Verif.Props.C12_violated_empty_profile"
   ],
   "note": "Raise condition proved as an iff; normalisation proved when every profile has signal; the empty-profile case is proved violated (NaN, silent)."
  },
  {
   "property": "C13",
   "status": "partial",
   "theorems": [
    "Verif.Props.C13_constructor",
    "Verif.Props.C13_xp_invariant_partial",
    "Verif.Props.C13_rejected_changes_nothing",
    "Verif.Props.C13_xp_exceptions",
    "Verif.Props.C13_yp_accepted_shape",
    "Verif.Props.C13_violated_stale_yp",
    "Verif.Props.C13_violated_nan_accepted"
   ],
   "note": "xp invariant over all histories of NaN-free assignments, failed assignment is a no-op, exception classes; violated for stale yp and for NaN."
  },
  {
   "property": "C14",
   "status": "proved",
   "theorems": [
    "Verif.Props.C14_memory_safe",
    "Verif.Props.C14_out_of_image",
    "Verif.Props.C14_outside_aliases"
   ],
   "note": "No out-of-bounds access for in-range coordinates; exact behaviour outside. NaN coordinates: see C13_violated_nan_accepted."
  },
  {
   "property": "C15",
   "status": "partial",
   "theorems": [
    "Verif.Props.C15_disjoint_iterations",
    "Verif.Props.C15_one_thread",
    "Verif.Props.C15_back_project",
    "Verif.Props.C15_clip",
    "Verif.Props.C15_difference",
    "Verif.Props.C15_compensate",
    "Verif.Props.C15_zeros_to_ones",
    "Verif.Props.C15_kick_up",
    "Verif.Props.C15_kick_down",
    "Verif.Props.C15_drift_up",
    "Verif.Props.C15_drift_down",
    "Verif.Props.C15_store_profile",
    "Verif.Props.C15_load_profile",
    "Verif.Props.C15_reciprocal_partial",
    "Verif.Props.C15_project_multi_partial",
    "Verif.Props.C15_normalize",
    "Verif.Props.C15_violated_reciprocal",
    "Verif.Props.C15_violated_back_project_multi",
    "Verif.Props.C15_violated_project_multi",
    "Verif.Props.C15_violated_count_multi",
    "Verif.Props.C15_violated_mask",
    "Verif.Props.C15_violated_discrepancy_multi",
    "Verif.Props.C15_mask_partial",
    "Verif.Props.C15_count_multi_partial",
    "Verif.Props.C15_back_project_multi_partial",
    "Verif.Props.C15_project_multi_one_partial",
    "Verif.Props.C15_discrepancy_multi_partial"
   ],
   "note": "Interleaving semantics of loads and stores, any number of threads and any assignment of iterations. Proved equal to the serial loop: back_project, clip, difference, compensate, zeros-to-ones, kick, drift, profile load/store, row normalisation with its reduction (exact arithmetic); reciprocal_particles only when idx is private or with one thread; project_multi only for bunches without common bins; all racy loops over bunches with one thread. Proved violated with explicit interleavings: reciprocal_particles, back_project_multi, project_multi, count_particles_in_bin_multi, create_mask, discrepancy_multi."
  },
  {
   "property": "C16",
   "status": "proved",
   "theorems": [
    "Verif.Props.C16_up_then_down",
    "Verif.Props.C16_down_then_up",
    "Verif.Props.C16_any_number_of_turns"
   ],
   "note": "One turn on the arrays in both orders (any ring), and any number of turns for the transport that C17 shows is stored."
  },
  {
   "property": "C17",
   "status": "partial",
   "theorems": [
    "Verif.Props.C17_violated_self_fields",
    "Verif.Props.C17_rows_for_every_deltaturn",
    "Verif.Props.C17_no_offset",
    "Verif.Props.C17_rows_partial",
    "Verif.Props.C17_violated_deltaturn"
   ],
   "note": "Exact rows for every start profile and |deltaturn|<dturns; equal to the transported cloud for deltaturn=0 (any arithmetic) and deltaturn<0 (exact arithmetic); violated for deltaturn>0 with a witness."
  },
  {
   "property": "C18",
   "status": "partial",
   "theorems": [
    "Verif.Props.C18_cupy_eq_cpp",
    "Verif.Props.C18_cuda_eq_cpp",
    "Verif.Props.C18_hybrid_eq_cpp_partial",
    "Verif.Props.C18_hybrid_eq_cpp_negative_partial",
    "Verif.Props.C18_violated_hybrid"
   ],
   "note": "CUDA and CuPy equal C++ for all offsets, python loop equal C++ for deltaturn<=0; violated for deltaturn>0 with a witness. C++ compared with a phi12 array of nturns+1 entries (see C24)."
  },
  {
   "property": "C19",
   "status": "proved",
   "theorems": [
    "Verif.Props.C19_start_profile_independent"
   ],
   "note": "For every pair of profiles and first-run offset <=0, any previous output contents; exact arithmetic."
  },
  {
   "property": "C20",
   "status": "proved",
   "theorems": [
    "Verif.Props.C20_selection"
   ],
   "note": "Any selection, permutation or repetition of particles; every offset; any arithmetic."
  },
  {
   "property": "C21",
   "status": "proved",
   "theorems": [
    "Verif.Props.C21_liouville",
    "Verif.Props.C21_transport"
   ],
   "note": "MeasurePreserving over the reals for every measurable sin, every machine and row of the actual output."
  },
  {
   "property": "C22",
   "status": "partial",
   "theorems": [
    "Verif.Props.C22_calls_partial",
    "Verif.Props.C22_violated_deltaturn"
   ],
   "note": "Exact call sequence for deltaturn=0; proved violated for every other offset."
  },
  {
   "property": "C23",
   "status": "partial",
   "theorems": [
    "Verif.Props.C23_accepts_iff_partial",
    "Verif.Props.C23_rejection",
    "Verif.Props.C23_violated_last_profile"
   ],
   "note": "Acceptance region as an iff and exception kinds; the last profile is proved to be always rejected although its turn is tracked."
  },
  {
   "property": "C24",
   "status": "partial",
   "theorems": [
    "Verif.Props.C24_array_safe_partial",
    "Verif.Props.C24_violated_scalar"
   ],
   "note": "Safe whenever the arrays have nturns+1 entries; proved that every accepted track() call with scalar phi12 reads one element past the phi12 array."
  },
  {
   "property": "C25",
   "status": "partial",
   "theorems": [
    "Verif.Props.C25_fixed_point",
    "Verif.Props.C25_tracked_rows_partial",
    "Verif.Props.C25_violated_before_reference"
   ],
   "note": "The synchronous particle is an exact fixed point of the kick/drift maps when its energy gain balances; proved for the tracked rows from the reference turn upward; proved violated below the reference turn when the field ramps (energy step stored at the wrong turn)."
  },
  {
   "property": "C26",
   "status": "partial",
   "theorems": [
    "Verif.Props.C26_selection_partial",
    "Verif.Props.C26_idempotent",
    "Verif.Props.C26_violated_nan"
   ],
   "note": "Exact selection, alignment of x and y, number removed, exception, idempotence for all arrays of numbers; NaN coordinates are proved to be kept (violation)."
  },
  {
   "property": "C27",
   "status": "partial",
   "theorems": [
    "Verif.Props.C27_accepted_partial",
    "Verif.Props.C27_violated_nan"
   ],
   "note": "Accepted and stored unchanged for all finite coordinates, each value the floor of the coordinate; violated for NaN."
  },
  {
   "property": "C28",
   "status": "proved",
   "theorems": [
    "Verif.Props.C28_bins_physical_bins",
    "Verif.Props.C28_physical_bins_physical"
   ],
   "note": "Both round trips at the same turn, for all machines with non-zero scales."
  },
  {
   "property": "C29",
   "status": "proved",
   "theorems": [
    "Verif.Props.C29_distribution",
    "Verif.Props.C29_points",
    "Verif.Props.C29_inside",
    "Verif.Props.C29_between_profiles"
   ],
   "note": "Exact set of generated points, no duplicates, count, containment; composed with the limits and the conversion to physical units."
  },
  {
   "property": "C30",
   "status": "partial",
   "theorems": [
    "Verif.Props.C30_cells",
    "Verif.Props.C30_conserves_weight",
    "Verif.Props.C30_fails_partial",
    "Verif.Props.C30_violated_aliasing",
    "Verif.Props.C30_violated_negative",
    "Verif.Props.C30_gpu_agrees",
    "Verif.Props.C30_from_the_end",
    "Verif.Props.C30_no_such_profile"
   ],
   "note": "Exact cell contents, conservation and GPU agreement for coordinates inside the image; out of range is reported only when the flat index passes the end: aliasing and negative writes proved as violations."
  },
  {
   "property": "C31",
   "status": "partial",
   "theorems": [
    "Verif.Props.C31_hybrid",
    "Verif.Props.C31_cpp_without_iterations_partial",
    "Verif.Props.C31_violated_cpp",
    "Verif.Props.C31_image_file"
   ],
   "note": "Proved for run_hybrid (every iteration count) and for the C++ run without iterations; violated by the C++ run with iterations (flat_rec is never cleared)."
  },
  {
   "property": "C32",
   "status": "partial",
   "theorems": [
    "Verif.Props.C32_dividable",
    "Verif.Props.C32_conserves_charge",
    "Verif.Props.C32_individable_partial",
    "Verif.Props.C32_flat_partial",
    "Verif.Props.C32_violated_small",
    "Verif.Props.C32_small_partial",
    "Verif.Props.C32_violated_last",
    "Verif.Props.C32_zero"
   ],
   "note": "Proved: exact result for every size, charge conservation and flatness. Violated: the last bin also contains the last complete bin, and a rebin factor above the number of bins fails (C32_violated_*)."
  },
  {
   "property": "C33",
   "status": "proved",
   "theorems": [
    "Verif.Props.C33_selects",
    "Verif.Props.C33_accepts"
   ],
   "note": "Every accepted geometry; acceptance characterised."
  },
  {
   "property": "C34",
   "status": "proved",
   "theorems": [
    "Verif.Props.C34_cut",
    "Verif.Props.C34_cut_empty",
    "Verif.Props.C34_get_cuts"
   ],
   "note": "Cuts accepted exactly when in range; proposed cuts accepted, keep the active bins and are tight."
  },
  {
   "property": "C35",
   "status": "partial",
   "theorems": [
    "Verif.Props.C35_removes",
    "Verif.Props.C35_rec_prof_partial",
    "Verif.Props.C35_violated",
    "Verif.Props.C35_both"
   ],
   "note": "Removal proved for every waterfall; rec_prof proved when all removed frames come before it; violated when a removed frame comes after it (C35_violated)."
  },
  {
   "property": "C36",
   "status": "proved",
   "theorems": [
    "Verif.Props.C36_accepts_iff",
    "Verif.Props.C36_result",
    "Verif.Props.C36_rejects"
   ],
   "note": "Acceptance iff the index lies in [0, length) or, with wrap-around, in [-length, length); the result is the index modulo the length, IndexError otherwise."
  },
  {
   "property": "C37",
   "status": "partial",
   "theorems": [
    "Verif.Props.C37_scalars_partial",
    "Verif.Props.C37_arrays_partial",
    "Verif.Props.C37_array_not_equal_partial",
    "Verif.Props.C37_shapes",
    "Verif.Props.C37_numel",
    "Verif.Props.C37_shapes_needs_two",
    "Verif.Props.C37_valid_particles_partial",
    "Verif.Props.C37_fields",
    "Verif.Props.C37_violated_nan",
    "Verif.Props.C37_violated_empty"
   ],
   "note": "Each helper raises the given class exactly when its comparison fails, on ordered scalars and non-empty arrays; proved violated for NaN (accepted) and for empty arrays (other exception)."
  },
  {
   "property": "C38",
   "status": "partial",
   "theorems": [
    "Verif.Props.C38_accepts_iff",
    "Verif.Props.C38_rejection",
    "Verif.Props.C38_turns_defined_partial",
    "Verif.Props.C38_violated_gaps"
   ],
   "note": "Acceptance characterised by an iff, exception class on every rejection, all turn computations defined for accepted machines whose energies stay away from zero; proved violated: accepted machines for which values_at_turns divides by zero."
  },
  {
   "property": "C39",
   "status": "partial",
   "theorems": [
    "Verif.Props.C39_turn_arrays_partial",
    "Verif.Props.C39_violated_energy_step",
    "Verif.Props.C39_energy_follows_ramp"
   ],
   "note": "All per-turn arrays satisfy the recurrences; the energy step is wrong for turns up to the reference turn (proved witness), right above."
  },
  {
   "property": "C40",
   "status": "proved",
   "theorems": [
    "Verif.Props.C40_parameters",
    "Verif.Props.C40_errors",
    "Verif.Props.C40_stdin",
    "Verif.Props.C40_stdin_file",
    "Verif.Props.C40_truncated"
   ],
   "note": "Abstract text: python's strip/int/float and comparison with 'pipe' are parameters. np.genfromtxt is a parameter."
  },
  {
   "property": "C41",
   "status": "partial",
   "theorems": [
    "Verif.Props.C41_cells_partial",
    "Verif.Props.C41_violated",
    "Verif.Props.C41_monotone",
    "Verif.Props.C41_rearranged",
    "Verif.Props.C41_rescaled",
    "Verif.Props.C41_rejects",
    "Verif.Props.C41_nothing",
    "Verif.Props.C41_empty"
   ],
   "note": "The code returns one cell area less than the statement asks for (argmax gives an index, not a count): C41_violated for every histogram and fraction in (0,100]. Proved: exact value, monotone, rearranging, rescaling, rejection. Exact arithmetic: in floating point the last cumulated value may stay below 100 % of the sum, then argmax is 0."
  },
  {
   "property": "C42",
   "status": "partial",
   "theorems": [
    "Verif.Props.C42_concentrated_partial",
    "Verif.Props.C42_scaling_partial",
    "Verif.Props.C42_violated",
    "Verif.Props.C42_emittance_partial"
   ],
   "note": "The code does not subtract the mean (missing sum): value and shift invariance violated (C42_violated). Proved: exact formula, invariance under rescaling of the histogram, covariance under stretching of the axis, zero for a one-bin histogram."
  },
  {
   "property": "C43",
   "status": "partial",
   "theorems": [
    "Verif.Props.C43_stores",
    "Verif.Props.C43_accepted",
    "Verif.Props.C43_rejected_partial",
    "Verif.Props.C43_history_partial",
    "Verif.Props.C43_violated",
    "Verif.Props.C43_charge",
    "Verif.Props.C43_no_charge"
   ],
   "note": "Accepted assignments store and keep machine in step over every history; a rejected assignment overwrites the stored waterfall when all of it is clipped away (C43_violated)."
  },
  {
   "property": "C44",
   "status": "partial",
   "theorems": [
    "Verif.Props.C44_wrap_interval",
    "Verif.Props.C44_calc_then_track_partial",
    "Verif.Props.C44_constant_frequency",
    "Verif.Props.C44_down_lookup_iff",
    "Verif.Props.C44_up_lookup_iff",
    "Verif.Props.C44_periodic",
    "Verif.Props.C44_violated_acceleration"
   ],
   "note": "Exact condition per turn proved (C44_up/down_lookup_iff), whole calc_self_fields + track proved safe when no frequency is more than one part in wrap_length+1 below the reference (in particular constant frequency); false under stronger acceleration: C44_violated_acceleration."
  },
  {
   "property": "C45",
   "status": "partial",
   "theorems": [
    "Verif.Props.C45_round_trip",
    "Verif.Props.C45_reversible_iff",
    "Verif.Props.C45_zero_field_partial",
    "Verif.Props.C45_violated"
   ],
   "note": "False: the self voltage is added in both directions (C45_violated); exact error and exact condition proved, reversibility proved for zero field."
  },
  {
   "property": "C46",
   "status": "partial",
   "theorems": [
    "Verif.Props.C46_weights",
    "Verif.Props.C46_no_other_error",
    "Verif.Props.C46_discrepancy",
    "Verif.Props.C46_single_bunch",
    "Verif.Props.C46_unpacked",
    "Verif.Props.C46_split_value_partial",
    "Verif.Props.C46_split_right_partial",
    "Verif.Props.C46_violated_split",
    "Verif.Props.C46_violated_first_bunch",
    "Verif.Props.C46_violated_memory"
   ],
   "note": "Violated: reported per-bunch discrepancy (C46_violated_split: sum not reset, only the first profile, left column left out), spurious failure when the first bunch is empty (C46_violated_first_bunch), particles outside the cuts are counted and projected, possibly outside the buffer (C46_violated_memory). Proved for bunches inside the image: non-negative weights, masked weights 0, normalised rows, no other failure, agreement with the single-bunch routine. Sequential execution of the parallel loops."
  },
  {
   "property": "C47",
   "status": "partial",
   "theorems": [
    "Verif.Props.C47_active_routines",
    "Verif.Props.C47_failed_use_gpu",
    "Verif.Props.C47_cast_precision",
    "Verif.Props.C47_set_precision_on_gpu",
    "Verif.Props.C47_kernels_partial",
    "Verif.Props.C47_violated_precision",
    "Verif.Props.C47_violated_failed_precision",
    "Verif.Props.C47_violated_never_recovers",
    "Verif.Props.C47_missing_cupy",
    "Verif.Props.C47_violated_device_id"
   ],
   "note": "Process state (AppConfig, GPUDev, bound kernels) under every history of calls with failures injected anywhere. Routines and cast precision: proved for every history. Kernels: proved for a precision change on the GPU and for careful histories; violated otherwise (C47_violated_precision, C47_violated_failed_precision, C47_violated_never_recovers, C47_violated_device_id)."
  },
  {
   "property": "C48",
   "status": "proved",
   "theorems": [
    "Verif.Props.C48_exactly_once",
    "Verif.Props.C48_back_project_profiles_once",
    "Verif.Props.C48_clip",
    "Verif.Props.C48_compensate",
    "Verif.Props.C48_difference",
    "Verif.Props.C48_flat_points",
    "Verif.Props.C48_project",
    "Verif.Props.C48_count",
    "Verif.Props.C48_reciprocal",
    "Verif.Props.C48_back_project",
    "Verif.Props.C48_same_as_cpp",
    "Verif.Props.C48_strided",
    "Verif.Props.C48_every_schedule"
   ],
   "note": "Kernels as threads over shared device memory (Core/Par): every interleaving, every block size; atomics need exact arithmetic (for rounding see C93). C48_every_schedule: the whole reconstruct_cuda with every launch scheduled freely and every device sum taken in any order and bracketing has exactly one outcome, that of the C++ reconstruct, except for the callback (C07_violated_gpu). The threads of one block of back_project only read before their reduction and are one thread of the model."
  },
  {
   "property": "C49",
   "status": "partial",
   "theorems": [
    "Verif.Props.C49_rf1",
    "Verif.Props.C49_both_harmonics",
    "Verif.Props.C49_machine",
    "Verif.Props.C49_phase_low_partial",
    "Verif.Props.C49_violated_phase_low",
    "Verif.Props.C49_programs",
    "Verif.Props.C49_fit_partial",
    "Verif.Props.C49_violated_fit"
   ],
   "note": "Derivatives over the reals for every function/derivative pair; phase_low/dphase_low only when the voltages at the two turns agree (negation proved otherwise)."
  },
  {
   "property": "C50",
   "status": "proved",
   "theorems": [
    "Verif.Props.C50_energy_momentum",
    "Verif.Props.C50_beta_monotone",
    "Verif.Props.C50_programs_machine"
   ],
   "note": "E^2=p^2+m^2, 0<beta<1, beta=p/E, monotone; the momentum-program machine uses consistent formulas."
  },
  {
   "property": "C51",
   "status": "partial",
   "theorems": [
    "Verif.Props.C51_limits_partial",
    "Verif.Props.C51_search_succeeds",
    "Verif.Props.C51_mirror_partial",
    "Verif.Props.C51_violated_symmetry",
    "Verif.Props.C51_inside_every_column",
    "Verif.Props.C51_violated_upper",
    "Verif.Props.C51_violated_assertion",
    "Verif.Props.C51_assertion_rejects_partial",
    "Verif.Props.C51_height",
    "Verif.Props.C51_energy_bin",
    "Verif.Props.C51_columns",
    "Verif.Props.C51_window_start"
   ],
   "note": "Limits ordered and inside the image, search always succeeds, assertion rejects; violated: symmetry off by one after a cut or with the full image, imax = nbins accepted when max_dt is beyond the image (then IndexError), column imax not checked."
  },
  {
   "property": "C52",
   "status": "partial",
   "theorems": [
    "Verif.Props.C52_track",
    "Verif.Props.C52_violated_particles",
    "Verif.Props.C52_tomography",
    "Verif.Props.C52_density_partial",
    "Verif.Props.C52_violated_density"
   ],
   "note": "track and Tomography proved not to change any array existing before the call; violated by density_to_macro (condition proved exactly) and, for the tracker's own record of the initial distribution, by track."
  },
  {
   "property": "C53",
   "status": "partial",
   "theorems": [
    "Verif.Props.C53_window_partial",
    "Verif.Props.C53_full_image",
    "Verif.Props.C53_violated"
   ],
   "note": "Lower bound exact, upper bound up to one column (exact for the full image); witness of the extra column."
  },
  {
   "property": "C54",
   "status": "partial",
   "theorems": [
    "Verif.Props.C54_edges_partial",
    "Verif.Props.C54_violated_centres"
   ],
   "note": "The axes are proved to be the lower edges of the cells; the documented centres are half a bin away (violation)."
  },
  {
   "property": "C55",
   "status": "proved",
   "theorems": [
    "Verif.Props.C55_macroparticles"
   ],
   "note": "All outcomes of the random draws; draws enter as inputs with the support property of np.random.choice as hypothesis."
  },
  {
   "property": "C57",
   "status": "partial",
   "theorems": [
    "Verif.Props.C57_treatment_partial",
    "Verif.Props.C57_violated_baseline",
    "Verif.Props.C57_violated_repeat"
   ],
   "note": "Exact treatment proved; violated: baseline of an empty set of samples for short frames, and repeated calls change the machine again."
  },
  {
   "property": "C59",
   "status": "proved",
   "theorems": [
    "Verif.Props.C59_momentum_spread",
    "Verif.Props.C59_zero"
   ],
   "note": "sqrt is a parameter with its usual specification; exact arithmetic."
  },
  {
   "property": "C60",
   "status": "partial",
   "theorems": [
    "Verif.Props.C60_hybrid_split",
    "Verif.Props.C60_violated_mask",
    "Verif.Props.C60_violated_counts",
    "Verif.Props.C60_mask_partial",
    "Verif.Props.C60_first_partial",
    "Verif.Props.C60_one_bunch_partial",
    "Verif.Props.C60_violated_one_bunch"
   ],
   "note": "Violated for particles on a cut (C60_violated_mask) and for the compensation factors with two or more profiles (C60_violated_counts: xp.T is copied to C order by the binding; C60_violated_one_bunch: different weights than the single-bunch routine). Proved: hybrid per-bunch discrepancy, equal masks away from the cuts, equal results without iterations for clouds off the cuts (C60_first_partial), equality with the single-bunch routine for one bunch with one profile or without iterations (C60_one_bunch_partial)."
  },
  {
   "property": "C61",
   "status": "partial",
   "theorems": [
    "Verif.Props.C61_same_as_cpp_partial",
    "Verif.Props.C61_violated_few_particles",
    "Verif.Props.C61_counts"
   ],
   "note": "Equal for n_bins <= n_particles; C61_violated_few_particles: max_2d slices the count array with n_particles instead of n_bins."
  },
  {
   "property": "C62",
   "status": "partial",
   "theorems": [
    "Verif.Props.C62_rows",
    "Verif.Props.C62_violated_first_bin",
    "Verif.Props.C62_violated_upward",
    "Verif.Props.C62_normalised_before_smoothing"
   ],
   "note": "Rows of the whole tracking characterised (C62_rows); downwards the own bin is used, upwards the column before it (C62_violated_upward), none for bin 0 (C62_violated_first_bin)."
  },
  {
   "property": "C63",
   "status": "proved",
   "theorems": [
    "Verif.Props.C63_table",
    "Verif.Props.C63_refused"
   ],
   "note": "The Savitzky-Golay filter is a parameter; intermediate values of dsprofiles after a failure are not modelled."
  },
  {
   "property": "C56",
   "status": "partial",
   "theorems": [
    "Verif.Props.C56_turns_partial",
    "Verif.Props.C56_long_enough",
    "Verif.Props.C56_violated_not_enough_data",
    "Verif.Props.C56_violated_missing_turn",
    "Verif.Props.C56_violated_early_reference",
    "Verif.Props.C56_violated_first_turn",
    "Verif.Props.C56_voltages"
   ],
   "note": "Proved: the turns returned are consecutive turns of the specification with the reference turn in place, with the program's momentum at each turn but the first; interpolated voltages; termination and success for long enough programs; all outcomes. Violations proved: one turn missing for finely sampled programs, silent empty result for an early reference time, first turn's momentum, the 'Not enough data' check never fires."
  },
  {
   "property": "C58",
   "status": "partial",
   "theorems": [
    "Verif.Props.C58_search_partial",
    "Verif.Props.C58_program_partial",
    "Verif.Props.C58_violated_number",
    "Verif.Props.C58_violated_array",
    "Verif.Props.C58_refused",
    "Verif.Props.C58_violated_modes",
    "Verif.Props.C58_chain_partial"
   ],
   "note": "Proved for phase programs with two harmonics (root finder assumed to return roots) and for the refusals. Violations proved: a number or an array for phi12 never gives a machine; bunch shortening and lengthening modes give the same phases. C58_search_partial: with the root finder of the code the voltages balance the field at every turn up to 5e-9 of the amplitudes."
  },
  {
   "property": "C64",
   "status": "partial",
   "theorems": [
    "Verif.Props.C64_arrays_partial",
    "Verif.Props.C64_violated_time",
    "Verif.Props.C64_violated_energy_step",
    "Verif.Props.C64_violated_too_few_steps"
   ],
   "note": "All arrays proved against their definitions. Violations proved: time_at_turn uses the period of the next turn, deltaE0 is stored one turn early and lacks the last entry (tracking with one turn per profile reads past its end)."
  },
  {
   "property": "C65",
   "status": "partial",
   "theorems": [
    "Verif.Props.C65_feet",
    "Verif.Props.C65_failures",
    "Verif.Props.C65_violated_first_bin",
    "Verif.Props.C65_straight_flank",
    "Verif.Props.C65_scale",
    "Verif.Props.C65_shift",
    "Verif.Props.C65_mirror_partial",
    "Verif.Props.C65_equal_potential_partial",
    "Verif.Props.C65_violated_reference",
    "Verif.Props.C65_stationary",
    "Verif.Props.C65_phase_table"
   ],
   "note": "Proved: limits characterised by an iff (least squares), all failures, rescaling (also of the errors), translation, straight flanks, middle of the bunch in a stationary bucket; mirror image when a bin follows the upper edge; equal potential when the voltages at the index 'reference frame' are those of the turn of the fit. Violated: bin 0 is never examined (C65_violated_first_bin); frame number used as turn number (C65_violated_reference)."
  },
  {
   "property": "C66",
   "status": "partial",
   "theorems": [
    "Verif.Props.C66_run_partial",
    "Verif.Props.C66_density",
    "Verif.Props.C66_faults",
    "Verif.Props.C66_violated_upper"
   ],
   "note": "C66_run_partial computes the result of every run on a loaded machine from the specification of its parts; C66_density and C66_faults follow. Needed: the maximal time inside the image when the full image is tracked; C66_violated_upper shows a whole run of an accepted machine without it, which ends with an access outside an array. Modelled: C++ backend, exact arithmetic, no self fields (never used by run, C67). Reading the file and loading the profiles are C43-C47."
  },
  {
   "property": "C67",
   "status": "partial",
   "theorems": [
    "Verif.Props.C67_violated_self_field_ignored",
    "Verif.Props.C67_violated_file"
   ],
   "note": "The property is false: C67_violated_self_field_ignored shows, for every machine and all data, that the run does not depend on the switch nor on the self-field branch. tomo_run.py:109 tests the flag of the tracker, which only that branch sets. C67_violated_file says the same of the lines of the input file: switch, coupling impedance, geometry and pickup sensitivity have no effect on the result."
  },
  {
   "property": "C68",
   "status": "partial",
   "theorems": [
    "Verif.Props.C68_same_result",
    "Verif.Props.C68_films_partial",
    "Verif.Props.C68_violated_film_alias",
    "Verif.Props.C68_violated_film_stops",
    "Verif.Props.C68_violated_film_range",
    "Verif.Props.C68_violated_film_step"
   ],
   "note": "C68_same_result in full. C68_films_partial for particles inside the image in energy and a positive step. False otherwise: C68_violated_film_alias, _film_stops, _film_range, _film_step."
  },
  {
   "property": "C69",
   "status": "partial",
   "theorems": [
    "Verif.Props.C69_loaded",
    "Verif.Props.C69_density_partial",
    "Verif.Props.C69_violated_window",
    "Verif.Props.C69_turns",
    "Verif.Props.C69_failures",
    "Verif.Props.C69_fit_partial"
   ],
   "note": "C69_loaded proves, for every file that loads, all parameters, the treated waterfall and the turn arrays, and that the machine then meets the hypotheses of C66; C69_density_partial composes it with C66. Missing: a region extended beyond the last sample, which is accepted and ends in an IndexError (C69_violated_window). Reading the file from disk and printing are not modelled."
  },
  {
   "property": "C70",
   "status": "proved",
   "theorems": [
    "Verif.Props.C70_gain_offset"
   ],
   "note": "Equality of the whole results, faults included, in exact arithmetic."
  },
  {
   "property": "C71",
   "status": "proved",
   "theorems": [
    "Verif.Props.C71_ignored_samples"
   ],
   "note": "Equality of the whole results, faults included."
  },
  {
   "property": "C72",
   "status": "partial",
   "theorems": [
    "Verif.Props.C72_feet_partial",
    "Verif.Props.C72_violated_upper",
    "Verif.Props.C72_violated_mirror",
    "Verif.Props.C72_failures",
    "Verif.Props.C72_units",
    "Verif.Props.C72_scale",
    "Verif.Props.C72_density_range",
    "Verif.Props.C72_density_offset",
    "Verif.Props.C72_density_rejects"
   ],
   "note": "Proved exactly what is computed (C72_feet_partial): the lower foot is one bin too low, the upper one is moved out by a fifth of its distance from the edge (factor 6 instead of 5). Hence the property is violated (C72_violated_upper, C72_violated_mirror). Failures, units, scale, and the claims on the density fit are proved in full."
  },
  {
   "property": "C73",
   "status": "partial",
   "theorems": [
    "Verif.Props.C73_feet",
    "Verif.Props.C73_violated_filter"
   ],
   "note": "Proved in full for the unfiltered fit (C73_feet). Violated for the filter: savgol_filter with window 5 and order 4 returns its input (C73_violated_filter), so filtering never changes anything."
  },
  {
   "property": "C74",
   "status": "partial",
   "theorems": [
    "Verif.Props.C74_area_partial",
    "Verif.Props.C74_violated_short",
    "Verif.Props.C74_monotone",
    "Verif.Props.C74_order",
    "Verif.Props.C74_rejects",
    "Verif.Props.C74_violated_scale",
    "Verif.Props.C74_violated_faint"
   ],
   "note": "Proved that the result is the smallest area less one cell, for every image with more content than the share (C74_area_partial); hence it is never the smallest area (C74_violated_short). Monotone, independent of the order, rejects: proved. Violated for images that are not normalised (C74_violated_scale, C74_violated_faint)."
  },
  {
   "property": "C75",
   "status": "partial",
   "theorems": [
    "Verif.Props.C75_moments_partial",
    "Verif.Props.C75_range",
    "Verif.Props.C75_violated_scale",
    "Verif.Props.C75_violated_square",
    "Verif.Props.C75_violated_row"
   ],
   "note": "Proved for square images with content 1 of any size (C75_moments_partial, C75_range). Violated for other contents (C75_violated_scale) and shapes (C75_violated_square, C75_violated_row). sqrt and pi are parameters."
  },
  {
   "property": "C76",
   "status": "partial",
   "theorems": [
    "Verif.Props.C76_contour_partial",
    "Verif.Props.C76_nonneg",
    "Verif.Props.C76_ends",
    "Verif.Props.C76_violated_programs",
    "Verif.Props.C76_violated_programs_error",
    "Verif.Props.C76_violated_below",
    "Verif.Props.C76_violated_flat"
   ],
   "note": "Proved what the area is, that it is not negative, and where the ends are above transition (C76_contour_partial, C76_nonneg, C76_ends); missing: that the minimiser finds the level (scipy is a parameter) and the exact area (trapezium rule on 1000 phases). Violated for machines from programs (no vrf1) and below transition (C76_violated_below, C76_violated_flat). np.argsort is modelled as stable."
  },
  {
   "property": "C77",
   "status": "partial",
   "theorems": [
    "Verif.Props.C77_mean",
    "Verif.Props.C77_range",
    "Verif.Props.C77_share_partial",
    "Verif.Props.C77_violated_thin",
    "Verif.Props.C77_violated_thin_call",
    "Verif.Props.C77_violated_low",
    "Verif.Props.C77_violated_high",
    "Verif.Props.C77_violated_first",
    "Verif.Props.C77_violated_programs"
   ],
   "note": "Means and bounds proved for every result (C77_mean, C77_range); the share is proved when the energies are equally spaced and reach beyond all contours (C77_share_partial). Violated by thin contours, contours below or above the image, the extrapolated first point, and machines from programs."
  },
  {
   "property": "C78",
   "status": "partial",
   "theorems": [
    "Verif.Props.C78_contour",
    "Verif.Props.C78_weights_partial",
    "Verif.Props.C78_factor",
    "Verif.Props.C78_violated_beyond",
    "Verif.Props.C78_violated_single",
    "Verif.Props.C78_violated_single_error",
    "Verif.Props.C78_violated_none",
    "Verif.Props.C78_violated_programs"
   ],
   "note": "Proved for every call that returns (C78_weights_partial, C78_factor). Violated: exactly one particle inside a slice raises AttributeError, no contours asked for raises UnboundLocalError, particles before the first or after the last bin are never clipped, machines from programs raise AttributeError."
  },
  {
   "property": "C79",
   "status": "proved",
   "theorems": [
    "Verif.Props.C79_image",
    "Verif.Props.C79_profile",
    "Verif.Props.C79_vself",
    "Verif.Props.C79_difference",
    "Verif.Props.C79_image_cell",
    "Verif.Props.C79_sign",
    "Verif.Props.C79_sum"
   ],
   "note": "Exact decimal rounding (ties to even) of exact values; a negative zero prints as zero in the model. Disk faults and buffering not modelled."
  },
  {
   "property": "C80",
   "status": "partial",
   "theorems": [
    "Verif.Props.C80_run",
    "Verif.Props.C80_names",
    "Verif.Props.C80_number",
    "Verif.Props.C80_profile_partial",
    "Verif.Props.C80_violated_negative_index",
    "Verif.Props.C80_difference_agree_partial",
    "Verif.Props.C80_violated_difference"
   ],
   "note": "Proved for every succeeding run; negative indices of the Fortran writer and more than 100 discrepancies are refuted."
  },
  {
   "property": "C81",
   "status": "partial",
   "theorems": [
    "Verif.Props.C81_values",
    "Verif.Props.C81_fit",
    "Verif.Props.C81_refused",
    "Verif.Props.C81_phase",
    "Verif.Props.C81_violated_other_profile",
    "Verif.Props.C81_run_partial"
   ],
   "note": "Proved for every value; the run that reconstructs a profile other than filmstart reports filmstart (refuted)."
  },
  {
   "property": "C82",
   "status": "partial",
   "theorems": [
    "Verif.Props.C82_tracking_partial",
    "Verif.Props.C82_once_partial",
    "Verif.Props.C82_violated_self",
    "Verif.Props.C82_violated_gpu",
    "Verif.Props.C82_iterations",
    "Verif.Props.C82_violated_gpu_done",
    "Verif.Props.C82_run_partial",
    "Verif.Props.C82_self_messages"
   ],
   "note": "Proved for the CPU loops without self fields; refuted with self fields and on the GPU. The interleaving of python's and C++'s buffers is not modelled."
  },
  {
   "property": "C83",
   "status": "partial",
   "theorems": [
    "Verif.Props.C83_accuracy",
    "Verif.Props.C83_single_partial",
    "Verif.Props.C83_odd",
    "Verif.Props.C83_range",
    "Verif.Props.C83_int32",
    "Verif.Props.C83_violated_large"
   ],
   "note": "Polynomials, reduction and octants over the reals with the decimal constants of the source: accuracy and oddness proved for |x| <= 1e9. Violated beyond 1.7e9 (the octant does not fit into an int). Floating point rounding not modelled."
  },
  {
   "property": "C84",
   "status": "proved",
   "theorems": [
    "Verif.Props.C84_cpu_gpu"
   ],
   "note": "Exact arithmetic apart from the sine; the CUDA sine is taken to be exact. Arguments of the sine up to 1e9, no turn offset."
  },
  {
   "property": "C85",
   "status": "partial",
   "theorems": [
    "Verif.Props.C85_phase_partial",
    "Verif.Props.C85_stable_iff",
    "Verif.Props.C85_defined_partial",
    "Verif.Props.C85_violated_transition",
    "Verif.Props.C85_balance",
    "Verif.Props.C85_near_root_partial",
    "Verif.Props.C85_defined_flat_partial"
   ],
   "note": "For one rf system of constant voltage with scipy's documented Newton iteration over the real numbers: the turn arrays are always computed (C85_defined_partial), all phases are within 0.0001 of the ideal phase (C85_phase_partial), and they are stable exactly at the turns on the same side of transition as the reference frame (C85_stable_iff). Violated when the cycle crosses transition (C85_violated_transition). For any voltages, one or two systems: C85_balance (the voltage at the phase found is right up to 5e-9 of the amplitudes), C85_near_root_partial (an exact phase within 0.0001 wherever the slope is not tiny), C85_defined_flat_partial (always computed at constant field). Rounding is not covered."
  },
  {
   "property": "C86",
   "status": "proved",
   "theorems": [
    "Verif.Props.C86_single_rf",
    "Verif.Props.C86_energy"
   ],
   "note": "C86_energy: any voltages, one or two systems, over the real numbers with scipy's documented Newton iteration; it rests on the residual a finished iteration leaves (half the bound of the second derivative times the square of the tolerance). C86_single_rf: one system of constant voltage, bound from the distance to the ideal phase. Rounding is not modelled here."
  },
  {
   "property": "C87",
   "status": "partial",
   "theorems": [
    "Verif.Props.C87_double_array",
    "Verif.Props.C87_scalar_partial",
    "Verif.Props.C87_violated_single_array",
    "Verif.Props.C87_violated_single_int",
    "Verif.Props.C87_violated_single_witness",
    "Verif.Props.C87_defaults",
    "Verif.Props.C87_default_callback"
   ],
   "note": "Proved in double precision for an array phi12 (every machine with programs) with any python numbers, and for a scalar phi12 in double precision and, with floats, in single precision (up to C24: the scalar routine reads one element behind its table). Violated in single precision: an array phi12 (never cast) sends the call to the double precision routine on copies and track returns zeros; likewise an int ratio or phase with pybind11 versions that count int to float as a conversion."
  },
  {
   "property": "C88",
   "status": "partial",
   "theorems": [
    "Verif.Props.C88_kick",
    "Verif.Props.C88_drift",
    "Verif.Props.C88_violated_program_kick",
    "Verif.Props.C88_step_partial",
    "Verif.Props.C88_violated_lost_step",
    "Verif.Props.C88_kick_step_partial"
   ],
   "note": "kick and drift proved for all element types and orders (machine with numbers); violated: kick raises TypeError for a machine with an array phi12, and the steps without return value lose their effect on arrays that are not float64 in C order."
  },
  {
   "property": "C89",
   "status": "partial",
   "theorems": [
    "Verif.Props.C89_run_partial",
    "Verif.Props.C89_violated_fortran",
    "Verif.Props.C89_image",
    "Verif.Props.C89_violated_phase_space"
   ],
   "note": "Reconstruction proved for waterfalls that are not in Fortran order, the image always. Violated for a Fortran-ordered waterfall and by phase_space (strided columns) in single precision."
  },
  {
   "property": "C90",
   "status": "proved",
   "theorems": [
    "Verif.Props.C90_reconstruct",
    "Verif.Props.C90_bits",
    "Verif.Props.C90_signs_and_sums"
   ],
   "note": "Rounded arithmetic: every sum, difference, product, quotient of the model is rounded with relative error at most u, integers up to 1/u are exact (Core/Rnd.lean); binary arithmetic of p bits is proved to be such a unit. No overflow or underflow. Order of additions as in the sequential loops."
  },
  {
   "property": "C91",
   "status": "proved",
   "theorems": [
    "Verif.Props.C91_transport",
    "Verif.Props.C91_cupy_same_bits"
   ],
   "note": "As C90; the sine of the unit is within u of the sine. Positive turn offsets excluded (C17 fails there already)."
  },
  {
   "property": "C92",
   "status": "partial",
   "theorems": [
    "Verif.Props.C92_run_partial",
    "Verif.Props.C92_violated_boundary",
    "Verif.Props.C92_violated_doubles"
   ],
   "note": "Proved when no exact coordinate is an integer. On a bin boundary it fails for arbitrarily accurate units and in doubles (1.4 - 0.4 < 1): C92_violated_boundary, C92_violated_doubles."
  },
  {
   "property": "C93",
   "status": "partial",
   "theorems": [
    "Verif.Props.C93_project",
    "Verif.Props.C93_count",
    "Verif.Props.C93_sum",
    "Verif.Props.C93_run",
    "Verif.Props.C93_reproducible",
    "Verif.Props.C93_violated_same_bits"
   ],
   "note": "C93_run and C93_reproducible: whole run, all schedules, uniform accuracy; C93_project/C93_count/C93_sum: bounds per kernel. Two runs need not give the same bits (C93_violated_same_bits). No overflow; the threads of one block of back_project are combined by an arbitrary summation tree."
  },
  {
   "property": "C94",
   "status": "proved",
   "theorems": [
    "Verif.Props.C94_profiles_and_bins",
    "Verif.Props.C94_profiles_and_bins_hybrid",
    "Verif.Props.C94_reversed_time",
    "Verif.Props.C94_twins"
   ],
   "note": "exact arithmetic; C++ routine and python reference"
  },
  {
   "property": "C95",
   "status": "partial",
   "theorems": [
    "Verif.Props.C95_dark_particles",
    "Verif.Props.C95_kept_hybrid",
    "Verif.Props.C95_kept_cpp_partial",
    "Verif.Props.C95_violated_zero_discrepancy"
   ],
   "note": "proved for run_hybrid; particles without signal proved for the C++ routine; violated by the C++ routine, which projects on top of the previous recreated waterfall: it can report discrepancy zero for weights that do not reproduce the data, and then move away again (witness); the part that holds is proved"
  },
  {
   "property": "C96",
   "status": "partial",
   "theorems": [
    "Verif.Props.C96_both_agree",
    "Verif.Props.C96_result",
    "Verif.Props.C96_fails_iff",
    "Verif.Props.C96_histories",
    "Verif.Props.C96_violated_left_cut"
   ],
   "note": "Violated: with a left cut of -1 (needed to keep particles in bin 0) the bunch's history is taken over the last column only (C96_violated_left_cut). Proved for bunches inside the image and, for the histories of the bunches, cuts inside the image."
  },
  {
   "property": "C97",
   "status": "partial",
   "theorems": [
    "Verif.Props.C97_compile_ends",
    "Verif.Props.C97_compile_success",
    "Verif.Props.C97_loaded_partial",
    "Verif.Props.C97_load_ends",
    "Verif.Props.C97_violated_failed_compiler",
    "Verif.Props.C97_violated_stale",
    "Verif.Props.C97_violated_mixture",
    "Verif.Props.C97_violated_other_device",
    "Verif.Props.C97_violated_exception"
   ],
   "note": "Proved: completeness after every return, exactness after a successful forced compilation, current kernels after every history without source changes, for every crash point. Violated: the return codes of the compiler are not looked at, a changed source is not noticed, a killed compilation leaves a mixture, binaries are built for device 0 only, some errors are not converted. The witness for a failing compiler assumes that nvcc leaves its old output; binaries written in part are not modelled."
  },
  {
   "property": "C98",
   "status": "proved",
   "theorems": [
    "Verif.Props.C98_every_schedule",
    "Verif.Props.C98_single_steps",
    "Verif.Props.C98_down_undoes_up"
   ],
   "note": "Threads interleave at single loads and stores (sequentially consistent). The per-turn arrays of the machine are read only and are parameters; the sine is a parameter, so differences between the GPU and the CPU sine (--use_fast_math) are not covered. Which arrays may overlap is not modelled."
  },
  {
   "property": "C99",
   "status": "partial",
   "theorems": [
    "Verif.Props.C99_summary",
    "Verif.Props.C99_unambiguous",
    "Verif.Props.C99_violated_two_dimensions",
    "Verif.Props.C99_violated_position",
    "Verif.Props.C99_violated_single",
    "Verif.Props.C99_violated_gpu",
    "Verif.Props.C99_values_partial",
    "Verif.Props.C99_of_reconstruction_partial",
    "Verif.Props.C99_few_bins",
    "Verif.Props.C99_columns",
    "Verif.Props.C99_one_column"
   ],
   "note": "Agreement of the summary with the separate functions is proved for all argument values, and a summary exists for every non-negative phase space on one-dimensional double precision axes and for everything the reconstruction produces on the CPU. The claim about documented argument forms is false: two-dimensional bins, single precision axes, GPU arrays and the fraction by position are rejected (C99_violated_*)."
  },
  {
   "property": "C100",
   "status": "partial",
   "theorems": [
    "Verif.Props.C100_safe",
    "Verif.Props.C100_sizes",
    "Verif.Props.C100_ledger",
    "Verif.Props.C100_no_leak_partial",
    "Verif.Props.C100_failed_call_partial",
    "Verif.Props.C100_which",
    "Verif.Props.C100_violated_image",
    "Verif.Props.C100_violated_memory",
    "Verif.Props.C100_violated_capsule"
   ],
   "note": "Safety (no double free, no array without memory) is proved for every history and every place of failure. Exactness of the memory in use is proved while memory does not run out and no index lies behind the image; make_phase_space loses an image at every exception (violated_image, unbounded), and blocks allocated before a failing new or capsule are lost (violated_memory, violated_capsule). Allocations inside the OpenMP reductions and inside pybind11 are not modelled."
  },
  {
   "property": "C101",
   "status": "partial",
   "theorems": [
    "Verif.Props.C101_reconstruct_partial",
    "Verif.Props.C101_safe_partial",
    "Verif.Props.C101_violated_reconstruct",
    "Verif.Props.C101_track_partial",
    "Verif.Props.C101_violated_track",
    "Verif.Props.C101_image_partial",
    "Verif.Props.C101_violated_image",
    "Verif.Props.C101_violated_far"
   ],
   "note": "Agreement with unbounded integers is proved for all sizes below the stated products; beyond them every run overflows (proved for all data), and nothing in the python code rejects such sizes. reconstruct_multi and the CUDA kernels are not done with 32-bit integers."
  },
  {
   "property": "C102",
   "status": "partial",
   "theorems": [
    "Verif.Props.C102_history",
    "Verif.Props.C102_fresh",
    "Verif.Props.C102_run",
    "Verif.Props.C102_failed_partial",
    "Verif.Props.C102_hybrid",
    "Verif.Props.C102_multi_hybrid",
    "Verif.Props.C102_multi_run",
    "Verif.Props.C102_violated_multi_weight",
    "Verif.Props.C102_violated_run_old",
    "Verif.Props.C102_violated_failed_hybrid",
    "Verif.Props.C102_violated_stale",
    "Verif.Props.C102_violated_weight",
    "Verif.Props.C102_violated_callback"
   ],
   "note": "Histories are arbitrary nested sequences of statements (C102_history, C102_fresh, C102_run, C102_hybrid, C102_multi_hybrid hold for all of them). Violated parts, each with a witness: a failing run_hybrid leaves zero discrepancies beside old weights (C102_violated_failed_hybrid), results survive a change of coordinates (C102_violated_stale), run_hybrid does not store weights (C102_violated_weight), the multi-bunch run never sets weight (C102_violated_multi_weight), and a callback that assigns coordinates spoils the split weights (C102_violated_callback). C102_failed_partial covers the assignments and C++ reconstructions."
  },
  {
   "property": "C103",
   "status": "partial",
   "theorems": [
    "Verif.Props.C103_binding",
    "Verif.Props.C103_split",
    "Verif.Props.C103_keywords_partial",
    "Verif.Props.C103_violated_count",
    "Verif.Props.C103_sites",
    "Verif.Props.C103_backends_reconstruct",
    "Verif.Props.C103_backends_phase_space",
    "Verif.Props.C103_backends_track_partial",
    "Verif.Props.C103_violated_backends",
    "Verif.Props.C103_stub_partial",
    "Verif.Props.C103_violated_stub_phase_space",
    "Verif.Props.C103_violated_stub_multi",
    "Verif.Props.C103_violated_compat",
    "Verif.Props.C103_violated_count_keywords"
   ],
   "note": "Proved for all mixtures of positional and keyword values: binding gives each parameter its positional or keyword value or its default, a call can be split between positions and keywords at will, all calls in the package reach the parameters they mean, reconstruct takes the same calls on both backends, make_phase_space at least the CPU calls on the GPU. Violated: the keywords n_particles and n_profiles of count_particles_in_bins(_multi) are registered in the wrong order, and with more particles than profiles the keyword call writes outside the array; kick_and_drift on the GPU has no defaults; the stub's make_phase_space and reconstruct_multi do not fit the library; the calls in tomolib_wrappers.kick_and_drift shift three arguments."
  },
  {
   "property": "C104",
   "status": "partial",
   "theorems": [
    "Verif.Props.C104_count_multi",
    "Verif.Props.C104_count_multi_values",
    "Verif.Props.C104_violated_count_multi_names",
    "Verif.Props.C104_back_project_partial",
    "Verif.Props.C104_project_partial",
    "Verif.Props.C104_count",
    "Verif.Props.C104_violated_count_in_place",
    "Verif.Props.C104_values_partial",
    "Verif.Props.C104_reuse",
    "Verif.Props.C104_violated_same_array"
   ],
   "note": "C104_back_project_partial, C104_project_partial and C104_count give the outcome of every call from the outcome of the loop on the values; C104_values_partial has the explicit sums, C104_reuse the clearing. Needed for (back) projection: the array written to is not also the other float64 argument; C104_violated_same_array shows the loop reading what it wrote. C104_violated_count_in_place: a float32 array of counts is written to with int32 coordinates and silently not with others. The conversions are pybind11's documented rules; the loops run in sequence. C104_count_multi and C104_count_multi_values: the same for several bunches. C104_violated_count_multi_names: n_particles is taken as the number of profiles."
  },
  {
   "property": "C105",
   "status": "partial",
   "theorems": [
    "Verif.Props.C105_as_new",
    "Verif.Props.C105_self_partial",
    "Verif.Props.C105_self_user_partial",
    "Verif.Props.C105_area",
    "Verif.Props.C105_start",
    "Verif.Props.C105_particles",
    "Verif.Props.C105_violated_user",
    "Verif.Props.C105_violated_turns",
    "Verif.Props.C105_violated_area",
    "Verif.Props.C105_violated_failure"
   ],
   "note": "Without self fields proved for every history (C105_as_new, C105_start, C105_particles); with self fields for automatic distributions and an unchanged number of turns (C105_self_partial). C105_area: the area belongs to the machine at the last search that found one. Violated with self fields and given particles (C105_violated_user: TypeError until an automatic distribution was made), after the machine got more profiles (C105_violated_turns: rows of zeros), for the area after a machine change (C105_violated_area) and by a failing creation (C105_violated_failure). Not modelled: coordinates after a tracking loop that fails in the middle, the legacy kick_and_drift method, single precision."
  },
  {
   "property": "C106",
   "status": "partial",
   "theorems": [
    "Verif.Props.C106_coordinates_partial",
    "Verif.Props.C106_violated_in_place",
    "Verif.Props.C106_failures",
    "Verif.Props.C106_self",
    "Verif.Props.C106_violated_again"
   ],
   "note": "Returned coordinates and failures proved for all types and orders (offsets deltaturn > 0 are excluded from the closed form, see C18; the equality with the loop on values has no such restriction), both with and without self fields, and no array other than the two given is changed. The two given arrays are overwritten if they are float64 in C order: violated, with the final contents and a second call that returns something else."
  },
  {
   "property": "C107",
   "status": "proved",
   "theorems": [
    "Verif.Props.C107_input",
    "Verif.Props.C107_failures",
    "Verif.Props.C107_bounds",
    "Verif.Props.C107_relative",
    "Verif.Props.C107_two_units",
    "Verif.Props.C107_doubles",
    "Verif.Props.C107_needs_nonnegative"
   ],
   "note": "explicit bounds for niter = 0; the limit for any number of iterations is C90. Overflow and underflow are excluded by the rounding model; C107_needs_nonnegative shows that the sign hypothesis is needed"
  },
  {
   "property": "C108",
   "status": "partial",
   "theorems": [
    "Verif.Props.C108_same_as_run_partial",
    "Verif.Props.C108_without_show",
    "Verif.Props.C108_needs_track",
    "Verif.Props.C108_violated_default",
    "Verif.Props.C108_violated_show",
    "Verif.Props.C108_violated_empty"
   ],
   "note": "Proved for every file and history when each loaded profile has a positive sample (without plots: always). Violated: track(machine) with the default index always raises, show divides the measured profile by its sum in place, which changes the profile charge and, for profiles with a negative sum, the reconstruction. An empty profile plotted becomes NaN; the model stops there."
  },
  {
   "property": "C109",
   "status": "partial",
   "theorems": [
    "Verif.Props.C109_attributes",
    "Verif.Props.C109_accepts_partial",
    "Verif.Props.C109_order",
    "Verif.Props.C109_by_name",
    "Verif.Props.C109_violated_unknown",
    "Verif.Props.C109_violated_charge",
    "Verif.Props.C109_file",
    "Verif.Props.C109_area_end",
    "Verif.Props.C109_area_end_whole"
   ],
   "note": "Acceptance, meaning of every argument, order, position or name, and the keywords of an input file are proved. Fails for unknown names: they are accepted and ignored (C109_violated_unknown), in particular the documented attribute name q (C109_violated_charge)."
  },
  {
   "property": "C110",
   "status": "partial",
   "theorems": [
    "Verif.Props.C110_calibration",
    "Verif.Props.C110_no_need",
    "Verif.Props.C110_varying",
    "Verif.Props.C110_stale",
    "Verif.Props.C110_as_run",
    "Verif.Props.C110_made",
    "Verif.Props.C110_file_machine",
    "Verif.Props.C110_file",
    "Verif.Props.C110_violated_limits",
    "Verif.Props.C110_program_again",
    "Verif.Props.C110_violated_phases_lost",
    "Verif.Props.C110_violated_phases_array",
    "Verif.Props.C110_violated_circumference"
   ],
   "note": "Proved for all histories: the calibration scan and the scan over points per cell give what new objects give, the last discrepancy of the whole program. Violated where a stored quantity is derived in the constructor only: the upper limit of the reconstructed area after nbins or dtbin change, the circumference of a ProgramsMachine after mean_orbit_rad changes; and values_at_turns of a ProgramsMachine discards phases calculated by calc_phi12 or fails on them."
  },
  {
   "property": "C111",
   "status": "partial",
   "theorems": [
    "Verif.Props.C111_attributes",
    "Verif.Props.C111_refused",
    "Verif.Props.C111_violated_harmonic",
    "Verif.Props.C111_violated_rows",
    "Verif.Props.C111_violated_phi12",
    "Verif.Props.C111_violated_unknown",
    "Verif.Props.C111_violated_documented_name",
    "Verif.Props.C111_area_end",
    "Verif.Props.C111_area_end_whole",
    "Verif.Props.C111_harmonics"
   ],
   "note": "Attributes, arrays and refusals proved for all calls. Violated: a misspelt keyword, and the documented name phase_program, are ignored; the harmonics matter only through their ratio (the harmonic number is the separate keyword h_num, 1 by default); rows of the voltage program beyond the harmonics are ignored; phi12 by keyword never gives a machine."
  },
  {
   "property": "C112",
   "status": "partial",
   "theorems": [
    "Verif.Props.C112_every_launch",
    "Verif.Props.C112_kinds",
    "Verif.Props.C112_double_partial",
    "Verif.Props.C112_single_partial",
    "Verif.Props.C112_tracks_double_partial",
    "Verif.Props.C112_violated_ratio",
    "Verif.Props.C112_violated_second_system",
    "Verif.Props.C112_violated_phi12",
    "Verif.Props.C112_violated_int",
    "Verif.Props.C112_violated_witness"
   ],
   "note": "proved for all launches in double precision with floats, and in single precision for the reconstruction; violated in single precision for the harmonic ratio (every integer or half integer ratio arrives as zero, so the second RF system is switched off) and for the phase difference, and in both precisions for numbers given as int"
  },
  {
   "property": "C113",
   "status": "proved",
   "theorems": [
    "Verif.Props.C113_memory_behind",
    "Verif.Props.C113_every_schedule",
    "Verif.Props.C113_one_outcome",
    "Verif.Props.C113_block_sizes",
    "Verif.Props.C113_density",
    "Verif.Props.C113_faults"
   ],
   "note": "Exact arithmetic with one sine for both backends; rounding is C92/C93, the sines are C84, single precision is C112. Films for the tomoscope are not part of the GPU run modelled."
  },
  {
   "property": "C114",
   "status": "partial",
   "theorems": [
    "Verif.Props.C114_films",
    "Verif.Props.C114_plain",
    "Verif.Props.C114_table",
    "Verif.Props.C114_self_partial",
    "Verif.Props.C114_zero_partial",
    "Verif.Props.C114_violated_wrapped",
    "Verif.Props.C114_violated_last_film"
   ],
   "note": "Films independent of each other (C114_films), films without self fields equal the density of a run (C114_plain), table of voltages (C114_table) and image with self fields (C114_self_partial) proved for all sizes. Two parts are false of the code: with self fields, even of zero strength, particles that leave the image are folded back into it instead of being lost (C114_violated_wrapped), and the last film named in the input file is never shown (C114_violated_last_film). Frequencies falling below the reference frequency are excluded as in C44."
  },
  {
   "property": "C115",
   "status": "partial",
   "theorems": [
    "Verif.Props.C115_rounds",
    "Verif.Props.C115_even_partial",
    "Verif.Props.C115_start_partial",
    "Verif.Props.C115_agreement_kept",
    "Verif.Props.C115_violated_compensation",
    "Verif.Props.C115_violated_negative",
    "Verif.Props.C115_violated_no_signal"
   ],
   "note": "C115_rounds describes the loop completely for data with signal in every profile. Agreement with run_hybrid is proved when every bin holds the same number of particles and no sample is negative (C115_even_partial), and with run without iterations for any spread (C115_start_partial). Otherwise it is false: no compensation for the number of particles, differences to unclipped profiles, NaN instead of an exception without signal."
  },
  {
   "property": "C116",
   "status": "partial",
   "theorems": [
    "Verif.Props.C116_returns",
    "Verif.Props.C116_measured",
    "Verif.Props.C116_total",
    "Verif.Props.C116_total_hybrid",
    "Verif.Props.C116_total_kept_iff",
    "Verif.Props.C116_violated_uncovered",
    "Verif.Props.C116_floating",
    "Verif.Props.C116_floating_measured",
    "Verif.Props.C116_floating_doubles"
   ],
   "note": "Proved for all data with a particle in the bin of every positive sample (C116_returns, C116_measured, C116_total, C116_total_hybrid, C116_total_kept_iff), and for the C++ routine in floating point as long as the accuracy suffices for the number of iterations (C116_floating, C116_floating_measured; doubles with a million particles and a thousand profiles of a thousand bins: fifty thousand iterations, C116_floating_doubles). Without that it is false: signal in a bin without particles takes weight away in every iteration until the routine raises (C116_violated_uncovered)."
  },
  {
   "property": "C117",
   "status": "partial",
   "theorems": [
    "Verif.Props.C117_distance_partial",
    "Verif.Props.C117_squares_partial",
    "Verif.Props.C117_discrepancy_partial",
    "Verif.Props.C117_rate_partial",
    "Verif.Props.C117_sum_partial",
    "Verif.Props.C117_cpp_distance_partial",
    "Verif.Props.C117_cpp_sum_partial",
    "Verif.Props.C117_violated_uneven",
    "Verif.Props.C117_violated_cut",
    "Verif.Props.C117_violated_cpp"
   ],
   "note": "run_hybrid: distance to every exact explanation does not grow if the bins with signal hold on average at least half of the largest number of particles (C117_distance_partial); without weights set to zero the compensated squares do not grow (C117_squares_partial) and the squared discrepancies have a bounded sum, so the discrepancy tends to zero (C117_sum_partial); with evenly filled bins the discrepancy does not grow (C117_discrepancy_partial) and falls at least like one over the square root of the number of iterations (C117_rate_partial). C++: squared distance plus squared differences of the previous iteration does not grow, with or without cutting (C117_cpp_distance_partial); without weights set to zero the discrepancy tends to zero, though not monotonically (C117_cpp_sum_partial). Missing: the limit when weights are set to zero. False in general: uneven bins, weights set to zero, and in C++ the monotonicity even under those conditions."
  },
  {
   "property": "C118",
   "status": "proved",
   "theorems": [
    "Verif.Props.C118_bound",
    "Verif.Props.C118_stays",
    "Verif.Props.C118_two_units",
    "Verif.Props.C118_reversible",
    "Verif.Props.C118_doubles"
   ],
   "note": "C118_bound in any arithmetic whose operations and sine have relative/absolute accuracy u; C118_doubles gives numbers for 53-bit arithmetic (without overflow and underflow); C118_stays gives a sufficient condition for the hypothesis that particles stay within X. Starts after the reconstructed profile (positive offset) are outside: there the loops store other turns than asked for even in exact arithmetic (C17)."
  },
  {
   "property": "C119",
   "status": "proved",
   "theorems": [
    "Verif.Props.C119_coords",
    "Verif.Props.C119_bins",
    "Verif.Props.C119_exact",
    "Verif.Props.C119_doubles"
   ],
   "note": "C119_coords (margins), C119_bins (same bins), C119_exact (what the exact run reconstructs from), C119_doubles (numbers for 53 bits, no overflow or underflow). Without the margin C92_violated_boundary and C92_violated_doubles show that bins can differ."
  },
  {
   "property": "C120",
   "status": "proved",
   "theorems": [
    "Verif.Props.C120_run",
    "Verif.Props.C120_hybrid",
    "Verif.Props.C120_discrepancy",
    "Verif.Props.C120_even",
    "Verif.Props.C120_measured",
    "Verif.Props.C120_violated_uncovered"
   ],
   "note": "Exact arithmetic. The theorems assume a particle wherever the first measurement has signal; C120_violated_uncovered shows that the factor does not exist without it, as the statement says. C120_measured is the effect of the normalisation of the raw profiles."
  },
  {
   "property": "C121",
   "status": "proved",
   "theorems": [
    "Verif.Props.C121_run",
    "Verif.Props.C121_discrepancy",
    "Verif.Props.C121_even",
    "Verif.Props.C121_doubles"
   ],
   "note": "Worst case bounds, with unbounded exponents (no overflow or underflow). Beyond no iterations (C107) the bound grows with a power of the number of iterations, as the sensitivity of the exact iteration to its data does (C120). For the discrepancies (P b + 4) u has to be at most 1/2."
  },
  {
   "property": "C122",
   "status": "partial",
   "theorems": [
    "Verif.Props.C122_hybrid_partial",
    "Verif.Props.C122_cpp_partial",
    "Verif.Props.C122_violated_copies"
   ],
   "note": "Proved for run_hybrid with any number of iterations and for the C++ routine without iterations. The C++ routine violates it from the first iteration on (C122_violated_copies): it accumulates projections on the recreated waterfall of the previous iteration, and the projections grow with the number of particles while the recreated waterfall does not."
  },
  {
   "property": "C123",
   "status": "partial",
   "theorems": [
    "Verif.Props.C123_union",
    "Verif.Props.C123_converse",
    "Verif.Props.C123_total",
    "Verif.Props.C123_violated_first_bunch",
    "Verif.Props.C123_violated_cut_away",
    "Verif.Props.C123_sensitivity",
    "Verif.Props.C123_sensitivity_discrepancy"
   ],
   "note": "Proved in both directions when no particle is cut away; C123_sensitivity carries the C120 bounds over. C123_violated_first_bunch: the zero test looks at the first bunch only. C123_violated_cut_away: particles that are cut away are counted."
  },
  {
   "property": "C124",
   "status": "partial",
   "theorems": [
    "Verif.Props.C124_order_partial",
    "Verif.Props.C124_returns",
    "Verif.Props.C124_violated_empty_first",
    "Verif.Props.C124_violated_split"
   ],
   "note": "C124_order_partial: weights, recreated waterfall and discrepancies of the whole, when both orders return. C124_returns: an order that keeps the first bunch first returns too. C124_violated_empty_first: an empty bunch given first raises. C124_violated_split: the discrepancies of the bunches depend on the order, because the sum of squares is never reset."
  },
  {
   "property": "C125",
   "status": "partial",
   "theorems": [
    "Verif.Props.C125_shares",
    "Verif.Props.C125_fails",
    "Verif.Props.C125_violated_shapes",
    "Verif.Props.C125_discrepancy"
   ],
   "note": "C125_shares and C125_fails: bunches of the same shape. C125_discrepancy: the discrepancies of all bunches together (those per bunch are wrong, see C46). C125_violated_shapes: bunches of different shape influence each other through the common normalisation."
  },
  {
   "property": "C126",
   "status": "partial",
   "theorems": [
    "Verif.Props.C126_run",
    "Verif.Props.C126_hybrid",
    "Verif.Props.C126_measured",
    "Verif.Props.C126_violated_signal",
    "Verif.Props.C126_cuda",
    "Verif.Props.C126_cupy_partial",
    "Verif.Props.C126_violated_cupy"
   ],
   "note": "Proved for both routines on the waterfall they are given (C126_run, C126_hybrid) and from the measured data on when the further columns have no positive samples (C126_measured). C126_violated_signal: signal in columns without particles changes the weights through the normalisation of the profiles. GPU: C126_cuda for every block size, C126_cupy_partial up to as many columns as particles, beyond that violated (C126_violated_cupy)."
  },
  {
   "property": "C127",
   "status": "partial",
   "theorems": [
    "Verif.Props.C127_hybrid_partial",
    "Verif.Props.C127_cpp_partial",
    "Verif.Props.C127_violated_repeated"
   ],
   "note": "Proved for run_hybrid with any number of iterations and for the C++ routine without iterations. The C++ routine violates it from the first iteration on (C127_violated_repeated)."
  },
  {
   "property": "C128",
   "status": "partial",
   "theorems": [
    "Verif.Props.C128_start",
    "Verif.Props.C128_apart_partial",
    "Verif.Props.C128_violated_crowd",
    "Verif.Props.C128_violated_shared",
    "Verif.Props.C128_cuda_partial",
    "Verif.Props.C128_cupy_partial",
    "Verif.Props.C128_violated_cupy"
   ],
   "note": "C128_start: without iterations. C128_apart_partial: any number of iterations when no bin is shared and the largest number of particles in a bin stays. C128_violated_crowd, C128_violated_shared: otherwise the weights of the other particles change from the first iteration on. GPU: C128_cuda_partial for every block size, C128_cupy_partial with at least as many other particles as columns, violated with fewer (C128_violated_cupy)."
  }
 ]
}
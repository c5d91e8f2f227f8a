{"id": "C01", "title": "Back projection adds exactly the profile values a particle visits", "statement": "libtomo.back_project(weights, flat_points, flat_profiles, nparts, nprofs) returns, for every particle, its old weight plus the sum over all profiles of the flattened profile value at the particle's bin in that profile, touches no memory outside the arrays when every coordinate lies in the image, and is the adjoint of libtomo.project: sum over bins of project(w)*p equals sum over particles of w*back_project(p).", "quantifier": "every number of particles, profiles and bins, every weight vector, every waterfall, every in-range coordinate array", "why_tests_cant": "tests sample a handful of particle clouds; the linear-algebra identity and absence of out-of-bounds reads must hold for every cloud and size", "anchors": ["longitudinal_tomography/cpp_routines/reconstruct.cpp:back_project", "longitudinal_tomography/cpp_routines/reconstruct.cpp:project", "longitudinal_tomography/cpp_routines/reconstruct.cpp:create_flat_points", "longitudinal_tomography/cpp_routines/libtomo.cpp:wrapper_back_project"]}
{"id": "C02", "title": "Projection conserves weight and is an exact weighted histogram", "statement": "libtomo.project adds to bin b of profile p exactly the weights of the particles whose coordinate in profile p is b, so every projected profile carries the same total, the sum of all particle weights, and nothing leaks into another profile.", "quantifier": "every number of particles, profiles and bins, every weight vector and in-range coordinates", "why_tests_cant": "a conservation law over all inputs; a sample cannot rule out leakage between neighbouring profiles", "anchors": ["longitudinal_tomography/cpp_routines/reconstruct.cpp:project", "longitudinal_tomography/cpp_routines/reconstruct.cpp:create_flat_points", "longitudinal_tomography/tomography/tomography.py:_project"]}
{"id": "C03", "title": "Normalised reconstructed profiles each integrate to one", "statement": "Whenever reconstruct succeeds, every row of the recreated waterfall sums to exactly 1 with no negative entries, and no division by zero happens on the way, whatever the iteration count.", "quantifier": "every in-range coordinate array, every finite waterfall, every number of iterations", "why_tests_cant": "the division-by-zero freedom depends on an invariant over every iteration (each profile always receives the full positive weight)", "anchors": ["longitudinal_tomography/cpp_routines/reconstruct.cpp:normalize", "longitudinal_tomography/cpp_routines/reconstruct.cpp:reconstruct", "longitudinal_tomography/cpp_routines/libtomo.cpp:wrapper_reconstruct"]}
{"id": "C04", "title": "Successful reconstruction yields non-negative weights with positive total; otherwise it raises", "statement": "Tomography.run / libtomo.reconstruct either returns weights that are all >= 0 with strictly positive sum, or raises the 'phase space reduced to zeroes' error; it never returns an all-zero or negative phase space.  The error is raised before any iteration exactly when no particle has a positive back-projected waterfall sum.", "quantifier": "every waterfall (including negative values), coordinates, iteration count", "why_tests_cant": "must hold at each of arbitrarily many iterations and for every input", "anchors": ["longitudinal_tomography/cpp_routines/reconstruct.cpp:reconstruct", "longitudinal_tomography/cpp_routines/reconstruct.cpp:clip", "longitudinal_tomography/tomography/tomography.py:Tomography.run"]}
{"id": "C05", "title": "Shapes and meaning of the discrepancy history", "statement": "The returned discrepancy array has exactly niter+1 entries; every entry is the RMS difference over all bins between the measured waterfall and the reconstructed waterfall of that iteration, is never negative, is zero exactly when they coincide, and the last entry is the RMS difference to the returned recreated waterfall.", "quantifier": "every input and every iteration count, including 0", "why_tests_cant": "relates the last entry to a separately returned array for all runs; tests compare against one recorded number", "anchors": ["longitudinal_tomography/cpp_routines/reconstruct.cpp:discrepancy", "longitudinal_tomography/cpp_routines/reconstruct.cpp:find_difference_profile", "longitudinal_tomography/cpp_routines/reconstruct.cpp:reconstruct", "longitudinal_tomography/tomography/__tomography.py:_discrepancy"]}
{"id": "C06", "title": "Recreated waterfall is the normalised projection of the returned weights; C++ and hybrid reconstructions agree", "statement": "After run the recreated waterfall equals the projection of the returned weights with each row normalised, and run (C++) gives the same weights, discrepancies and recreated waterfall as run_hybrid (the reference implementation) on the same input.", "quantifier": "every input, every iteration count", "why_tests_cant": "two implementations agree on all inputs only by proof; unit tests only use niter=1 with loose tolerances on weights", "anchors": ["longitudinal_tomography/cpp_routines/reconstruct.cpp:reconstruct", "longitudinal_tomography/cpp_routines/reconstruct.cpp:project", "longitudinal_tomography/tomography/tomography.py:run_hybrid", "longitudinal_tomography/tomography/tomography.py:run"]}
{"id": "C07", "title": "Reconstruction progress callback sequence", "statement": "A callback given to run is called exactly niter+1 times when the run succeeds, with progress 1,2,...,niter followed by a final (niter,niter); progress never exceeds the total and never decreases. A run which raises has reported a strict prefix of that sequence.", "quantifier": "every iteration count, including 0, and every input", "why_tests_cant": "call sequence over arbitrary iteration counts and at every failure point", "anchors": ["longitudinal_tomography/cpp_routines/reconstruct.cpp:reconstruct", "longitudinal_tomography/cpp_routines/libtomo.cpp:wrapper_reconstruct"]}
{"id": "C08", "title": "Particle-density compensation factors are well defined", "statement": "The compensation factor for each bin is (largest particle count in any bin of any profile)/(count in the bin), with empty bins counted as one particle; each factor of a populated bin is >= 1, equals 1 in the most populated bin, and no division by zero occurs. The C++ implementation and the python reference implementation give the same factors whenever there is at least one particle.", "quantifier": "every in-range coordinate array with any number of particles, profiles, bins", "why_tests_cant": "the max is taken before the zero replacement in one implementation and after it in the other; equality needs an argument over all count tables", "anchors": ["longitudinal_tomography/cpp_routines/reconstruct.cpp:reciprocal_particles", "longitudinal_tomography/cpp_routines/reconstruct.cpp:count_particles_in_bin", "longitudinal_tomography/cpp_routines/reconstruct.cpp:max_2d", "longitudinal_tomography/tomography/__tomography.py:_reciprocal_particles"]}
{"id": "C09", "title": "Particle counts per profile are conserved", "statement": "count_particles_in_bin puts every particle in exactly one bin of every profile: the counts of each profile sum to the number of particles and each count is the number of particles with that coordinate.", "quantifier": "every in-range coordinate array", "why_tests_cant": "conservation over all inputs", "anchors": ["longitudinal_tomography/cpp_routines/reconstruct.cpp:count_particles_in_bin", "longitudinal_tomography/cpp_routines/libtomo.cpp:wrapper_count_particles_in_bin", "longitudinal_tomography/tomography/__tomography.py:_count_particles_in_bins"]}
{"id": "C10", "title": "Result does not depend on particle order", "statement": "Permuting the particles (rows of the coordinate array) permutes the returned weights in the same way and leaves discrepancies and recreated waterfall unchanged.", "quantifier": "every permutation of every particle cloud, every waterfall and iteration count", "why_tests_cant": "factorially many permutations; needs equivariance of every step", "anchors": ["longitudinal_tomography/cpp_routines/reconstruct.cpp:reconstruct", "longitudinal_tomography/tomography/tomography.py:Tomography.run"]}
{"id": "C11", "title": "Reconstruction is invariant under rescaling of the measured data", "statement": "Building Tomography from c*waterfall (c>0) gives the same normalised waterfall, hence the same weights, discrepancies and recreated profiles as building it from waterfall; negative samples are treated as zero.", "quantifier": "every waterfall and every positive scale", "why_tests_cant": "metamorphic relation over all scale factors", "anchors": ["longitudinal_tomography/tomography/__tomography.py:__init__", "longitudinal_tomography/tomography/__tomography.py:_normalize_profiles", "longitudinal_tomography/tomography/tomography.py:Tomography.run"]}
{"id": "C12", "title": "Waterfall normalisation at construction", "statement": "Tomography(waterfall) clips negatives to zero and stores profiles that each integrate to one; it raises WaterfallReducedToZero exactly when nothing positive is left. (A single empty profile must not silently poison the data.)", "quantifier": "every waterfall", "why_tests_cant": "the corner 'one empty profile among non-empty ones' produces NaN which then spreads to every weight without any exception", "anchors": ["longitudinal_tomography/tomography/__tomography.py:__init__", "longitudinal_tomography/tomography/__tomography.py:_normalize_profiles"]}
{"id": "C13", "title": "Tomography coordinate state machine", "statement": "Whatever sequence of xp / yp assignments is attempted (valid or invalid), a Tomography object always satisfies: xp is None or a 2-D int array with one column per profile with every entry inside [0, nbins), nparts equals its number of rows, a rejected assignment changes nothing, the exception class is determined by the defect; yp is None or has the same shape as xp.", "quantifier": "every finite history of assignments with any values", "why_tests_cant": "an invariant over unboundedly many operation sequences", "anchors": ["longitudinal_tomography/tomography/__tomography.py:xp", "longitudinal_tomography/tomography/__tomography.py:yp"]}
{"id": "C14", "title": "Reconstruction never reads or writes outside its buffers when coordinates were accepted", "statement": "If the xp setter accepted the coordinates then no step of reconstruct indexes outside the arrays it was given, for every iteration; conversely a coordinate outside the image makes some access leave the profile it belongs to or the buffer.", "quantifier": "every accepted coordinate array and iteration count", "why_tests_cant": "memory safety for all inputs", "anchors": ["longitudinal_tomography/cpp_routines/reconstruct.cpp", "longitudinal_tomography/cpp_routines/libtomo.cpp:wrapper_reconstruct", "longitudinal_tomography/tomography/__tomography.py:xp"]}
{"id": "C15", "title": "Parallel loops give the sequential result under every thread schedule", "statement": "The OpenMP-parallel loops of the reconstruction and tracking (back projection, clipping, difference, compensation, kick, drift) produce the sequential result under every interleaving of loads and stores of every number of threads.", "quantifier": "every schedule/interleaving, every number of iterations", "why_tests_cant": "schedules cannot be enumerated by tests; a race shows up rarely", "anchors": ["longitudinal_tomography/cpp_routines/reconstruct.cpp:back_project", "longitudinal_tomography/cpp_routines/reconstruct.cpp:clip", "longitudinal_tomography/cpp_routines/reconstruct.cpp:find_difference_profile", "longitudinal_tomography/cpp_routines/reconstruct.cpp:reciprocal_particles", "longitudinal_tomography/cpp_routines/reconstruct.cpp:create_mask", "longitudinal_tomography/cpp_routines/reconstruct.cpp:back_project_multi", "longitudinal_tomography/cpp_routines/kick_and_drift.cpp:kick_up", "longitudinal_tomography/cpp_routines/kick_and_drift.cpp:drift_up"]}
{"id": "C16", "title": "One machine turn is exactly reversible", "statement": "For any rf voltages, phases, harmonic ratio and acceleration, kicking/drifting a particle upward one turn and then downward through the same turn returns exactly its starting phase and energy (in exact arithmetic), in both orders and for any number of turns.", "quantifier": "every particle, machine parameters and number of turns", "why_tests_cant": "tests check one particle to 7 digits", "anchors": ["longitudinal_tomography/cpp_routines/kick_and_drift.cpp:kick_up", "longitudinal_tomography/cpp_routines/kick_and_drift.cpp:kick_down", "longitudinal_tomography/cpp_routines/kick_and_drift.cpp:drift_up", "longitudinal_tomography/cpp_routines/kick_and_drift.cpp:drift_down", "longitudinal_tomography/tracking/tracking.py:kick_and_drift"]}
{"id": "C17", "title": "Tracking stores at profile p the state after p*dturns turns", "statement": "kick_and_drift fills every one of the nprofiles rows of xp, yp, and row p is the state of the initial distribution transported from the start turn (rec_prof*dturns+deltaturn) to turn p*dturns by the one-turn map (forward or inverse), for every start profile and deltaturn allowed by track.", "quantifier": "every number of profiles, dturns, rec_prof, deltaturn, machine program and particle cloud", "why_tests_cant": "quantifies over all loop counts and offsets; tests only use deltaturn=0", "anchors": ["longitudinal_tomography/cpp_routines/kick_and_drift.cpp:kick_and_drift", "longitudinal_tomography/tracking/tracking.py:track", "longitudinal_tomography/tracking/tracking.py:kick_and_drift"]}
{"id": "C18", "title": "C++ and python tracking implementations agree", "statement": "Tracking.kick_and_drift (python reference) gives the same xp, yp as the C++ kick_and_drift and as the CUDA/CuPy kernels for every deltaturn accepted by track.", "quantifier": "every machine, start profile, deltaturn, cloud", "why_tests_cant": "equality of separately written loops for all inputs", "anchors": ["longitudinal_tomography/cpp_routines/kick_and_drift.cpp:kick_and_drift", "longitudinal_tomography/tracking/tracking.py:kick_and_drift", "longitudinal_tomography/cuda_kernels/kick_and_drift.cu:kick_drift_up_turns", "longitudinal_tomography/python_routines/kick_and_drift_cupy.py:kick_and_drift_cupy"]}
{"id": "C19", "title": "Tracking result does not depend on the profile it is started from", "statement": "If the cloud stored for profile q of a tracking run from profile r is used as the initial distribution of a second run started at profile q, the second run returns the same xp and yp as the first.", "quantifier": "all pairs of start profiles, all machines and clouds", "why_tests_cant": "quadratically many pairs, every cloud; needs reversibility lifted through the loops", "anchors": ["longitudinal_tomography/cpp_routines/kick_and_drift.cpp:kick_and_drift", "longitudinal_tomography/tracking/tracking.py:track"]}
{"id": "C20", "title": "Particles are tracked independently", "statement": "The trajectory of each particle does not depend on which other particles are in the cloud: tracking a sub-selection or permutation of a cloud gives the corresponding sub-selection or permutation of the columns.", "quantifier": "every cloud, every selection of particles", "why_tests_cant": "must hold for every subset/permutation", "anchors": ["longitudinal_tomography/cpp_routines/kick_and_drift.cpp:kick_and_drift", "longitudinal_tomography/cpp_routines/kick_and_drift.cpp:kick_up", "longitudinal_tomography/cpp_routines/kick_and_drift.cpp:drift_up"]}
{"id": "C21", "title": "Phase-space area is preserved by tracking", "statement": "The map from the initial (phase, energy) to the state at any other turn preserves phase-space area (Liouville), for every rf program.", "quantifier": "all machines, all numbers of turns forward and backward", "why_tests_cant": "a statement about a continuum of initial conditions", "anchors": ["longitudinal_tomography/cpp_routines/kick_and_drift.cpp:kick_up", "longitudinal_tomography/cpp_routines/kick_and_drift.cpp:drift_up", "longitudinal_tomography/cpp_routines/kick_and_drift.cpp:kick_and_drift"]}
{"id": "C22", "title": "Tracking progress callback", "statement": "A callback given to track is invoked once per tracked turn with progress 1,2,...,total and a constant total; the last call reports progress == total.", "quantifier": "every number of turns, start profile and deltaturn", "why_tests_cant": "sequence over unbounded loops; depends on deltaturn", "anchors": ["longitudinal_tomography/cpp_routines/kick_and_drift.cpp:kick_and_drift", "longitudinal_tomography/cpp_routines/libtomo.cpp:wrapper_kick_and_drift_scalar"]}
{"id": "C23", "title": "track accepts exactly the start points inside the measured turns", "statement": "track rejects (IndexError/ValueError) precisely the (recprof, deltaturn) whose start turn lies outside the tracked turn range; negative recprof counts from the last profile.", "quantifier": "every recprof, deltaturn, nprofiles, dturns", "why_tests_cant": "exact acceptance region over all integers", "anchors": ["longitudinal_tomography/tracking/tracking.py:track", "longitudinal_tomography/assertions.py:assert_index_ok"]}
{"id": "C24", "title": "Tracking never reads machine arrays outside their length", "statement": "With machine arrays as built by values_at_turns, tracking only indexes inside them, for every start and direction; this includes the second-harmonic phase array built by the wrapper for a scalar phi12.", "quantifier": "every number of turns and start", "why_tests_cant": "out-of-bounds reads do not fail deterministically", "anchors": ["longitudinal_tomography/cpp_routines/kick_and_drift.cpp:kick_and_drift", "longitudinal_tomography/cpp_routines/libtomo.cpp:wrapper_kick_and_drift_scalar", "longitudinal_tomography/tracking/machine.py:_init_arrays"]}
{"id": "C25", "title": "Synchronous particle stays synchronous", "statement": "A particle with zero phase and energy offset keeps zero offsets through the tracking when the machine arrays satisfy the energy-balance relation the Machine computes (the synchronous energy gain equals the charge times the rf voltage at the synchronous phase).", "quantifier": "every machine program and number of turns, both directions", "why_tests_cant": "a fixed-point property for all machines; fails for turns before the reference frame", "anchors": ["longitudinal_tomography/tracking/machine.py:values_at_turns", "longitudinal_tomography/cpp_routines/kick_and_drift.cpp:kick_up"]}
{"id": "C26", "title": "Lost-particle filter keeps exactly the particles inside the image at all times", "statement": "filter_lost/ready_for_tomography returns exactly the particles whose x coordinate is inside [0, width) at every profile, in the original order, with x and y rows still belonging to the same particle, reports the number removed, and raises when none is left; filtering twice changes nothing.", "quantifier": "every coordinate array and width", "why_tests_cant": "exact set characterisation for all arrays; alignment of two arrays", "anchors": ["longitudinal_tomography/tracking/particles.py:filter_lost", "longitudinal_tomography/tracking/particles.py:ready_for_tomography"]}
{"id": "C27", "title": "Prepared coordinates are always accepted by Tomography", "statement": "The output of ready_for_tomography for nbins is always accepted by Tomography.xp of a waterfall with that many bins and profiles, and the cast to int keeps every coordinate in its bin.", "quantifier": "every tracked coordinate array", "why_tests_cant": "contract between two modules for all values, including fractional ones just below the upper edge", "anchors": ["longitudinal_tomography/tracking/particles.py:ready_for_tomography", "longitudinal_tomography/tomography/__tomography.py:xp"]}
{"id": "C28", "title": "Conversion between physical and bin coordinates round-trips", "statement": "Converting a homogeneous distribution from bin numbers to physical units and back with physical_to_coords at the same turn gives back the bin numbers, for every synchronous-particle position, harmonic and bin size for which the conversion is defined.", "quantifier": "all machines with non-zero scales and all coordinates", "why_tests_cant": "algebraic round trip over a continuum", "anchors": ["longitudinal_tomography/tracking/particles.py:_bin_nr_to_physical_coords", "longitudinal_tomography/tracking/particles.py:physical_to_coords"]}
{"id": "C29", "title": "Homogeneous initial distribution covers exactly the reconstruction area", "statement": "homogeneous_distribution produces snpt*snpt points for every cell between the limits; every produced point lies inside [imin, imax+1) x (jmin, jmax) of its column, and points are distinct.", "quantifier": "every snpt >= 1 and every limits arrays", "why_tests_cant": "every size and shape of area", "anchors": ["longitudinal_tomography/tracking/particles.py:homogeneous_distribution"]}
{"id": "C30", "title": "Phase-space image conserves weight and addresses the right cell", "statement": "make_phase_space puts each particle's weight in cell [x][y]; the total image weight equals the total particle weight; different cells never alias for in-range coordinates; it fails loudly for coordinates outside the image.", "quantifier": "all in-range and out-of-range coordinates and weights", "why_tests_cant": "aliasing (y >= n_bins folds into the next row, negative indices) is input dependent", "anchors": ["longitudinal_tomography/cpp_routines/data_treatment.cpp:make_phase_space", "longitudinal_tomography/python_routines/data_treatment.py:make_phase_space", "longitudinal_tomography/utils/tomo_output.py:create_phase_space_image"]}
{"id": "C31", "title": "Projection of the phase-space image equals the recreated profile", "statement": "Summing the phase-space image at profile p over energy gives, after normalisation, the recreated profile p (the picture and the profile shown to the user agree).", "quantifier": "all weights, coordinates, profiles", "why_tests_cant": "links two independent code paths for every input", "anchors": ["longitudinal_tomography/utils/tomo_output.py:create_phase_space_image", "longitudinal_tomography/cpp_routines/reconstruct.cpp:project"]}
{"id": "C32", "title": "Rebinning conserves charge and shape", "statement": "rebin returns ceil(nbins/rbn) bins; when rbn divides the number of bins each output bin is the sum of its rbn input bins and each profile's total is preserved; when it does not, all complete bins are plain sums and the last, incomplete bin is rbn times the mean of the left-over samples, so that a flat profile stays flat. dtbin is multiplied and the synchronous position divided by rbn.", "quantifier": "every waterfall size and rebin factor", "why_tests_cant": "depends on divisibility of arbitrary sizes", "anchors": ["longitudinal_tomography/data/pre_process.py:rebin", "longitudinal_tomography/data/pre_process.py:_rebin_individable", "longitudinal_tomography/data/pre_process.py:_rebin_last"]}
{"id": "C33", "title": "Raw data to waterfall selects exactly the requested samples", "statement": "Frames.to_waterfall returns nprofs x nbins samples with out[i][j] = raw[(i+skip_frames)*nbins_frame + skip_bins_start + j]; it accepts raw data exactly when its length is nframes*nbins_frame and the frame parameters are consistent, and otherwise raises RawDataImportError or InputError.", "quantifier": "every frame geometry and raw data", "why_tests_cant": "index arithmetic over all geometries", "anchors": ["longitudinal_tomography/utils/tomo_input.py:Frames.to_waterfall", "longitudinal_tomography/assertions.py:assert_frame_inputs"]}
{"id": "C34", "title": "Cutting a waterfall", "statement": "cut_waterfall(w, left, right) returns columns left..right-1 of each profile, rejects exactly the empty or out-of-range cuts, with negative right counted from the end; for a non-negative margin and at least one profile of two bins the cuts proposed by get_cuts are acceptable to cut_waterfall, keep every bin where a profile changes by more than the threshold, and are not wider than the margin requires.", "quantifier": "every waterfall width and pair of integers", "why_tests_cant": "acceptance region over all integers and cross-function contract", "anchors": ["longitudinal_tomography/data/pre_process.py:cut_waterfall", "longitudinal_tomography/data/pre_process.py:get_cuts"]}
{"id": "C35", "title": "Profile filtering keeps the reconstruction frame", "statement": "filter_profiles removes exactly the flagged frames and the returned rec_prof still denotes the same measured frame as before filtering.", "quantifier": "every waterfall, set of removed frames and rec_prof", "why_tests_cant": "all relative positions of removed frames and rec_prof", "anchors": ["longitudinal_tomography/data/pre_process.py:filter_profiles"]}
{"id": "C36", "title": "Index normalisation", "statement": "assert_index_ok(i, limit, wrap_around) returns an index in [0, limit) congruent to i modulo limit when it accepts, accepts 0<=i<limit unchanged, accepts negative i only with wrap_around and only if -limit <= i, and raises the documented exceptions otherwise.", "quantifier": "all integers", "why_tests_cant": "all integers", "anchors": ["longitudinal_tomography/assertions.py:assert_index_ok"]}
{"id": "C37", "title": "Scalar and array assertion helpers accept exactly the documented region", "statement": "each assert_* helper raises its error exactly when the documented relation fails and otherwise returns normally, for scalars and arrays of any length.", "quantifier": "all values and array lengths", "why_tests_cant": "boundary exactness over ordered fields and any length", "anchors": ["longitudinal_tomography/assertions.py"]}
{"id": "C38", "title": "Machine parameter validation", "statement": "A Machine that passes _assert_machine_input has only strictly positive/allowed parameters so that turn computations are well defined; every violation raises MachineParameterError (SpaceChargeParameterError for the pick-up sensitivity and the coupling coefficient).", "quantifier": "all parameter combinations", "why_tests_cant": "acceptance region in many dimensions", "anchors": ["longitudinal_tomography/assertions.py:assert_machine_input", "longitudinal_tomography/tracking/machine_base.py"]}
{"id": "C39", "title": "Per-turn machine arrays are complete and consistent", "statement": "After values_at_turns all arrays have one entry per turn, and at each turn energy, momentum-related factors and time satisfy their defining recurrences: e0 at neighbouring turns differs by the recorded deltaE0, time advances by the revolution period.", "quantifier": "every machine, ref frame and number of turns", "why_tests_cant": "recurrence relation in both directions over all turns", "anchors": ["longitudinal_tomography/tracking/machine.py:values_at_turns"]}
{"id": "C40", "title": "Input file parsing", "statement": "Parsing the 98-line parameter block followed by raw data reads each parameter from its documented line, converts Fortran 1-based indices to 0-based, splits parameters and data without losing or duplicating a line, and raises when lines or samples are missing.", "quantifier": "every text input", "why_tests_cant": "every length/shape of input", "anchors": ["longitudinal_tomography/utils/tomo_input.py:_split_input", "longitudinal_tomography/utils/tomo_input.py:txt_input_to_machine", "longitudinal_tomography/utils/tomo_input.py:_get_input_stdin"]}
{"id": "C41", "title": "Fractional emittance counts the cells needed to contain the fraction", "statement": "emittance_fractional returns cell area times the smallest number of cells (taken in order of decreasing density) whose content reaches the fraction; it is monotone in the fraction, invariant under rescaling and rearranging the cells, and rejects fractions outside [0,100].", "quantifier": "every histogram and fraction", "why_tests_cant": "off-by-one at every histogram; order statistics over all arrangements", "anchors": ["longitudinal_tomography/data/post_process.py:emittance_fractional"]}
{"id": "C42", "title": "Histogram standard deviation is the standard deviation", "statement": "the standard deviation used for rms emittance and dp/p equals sqrt(sum h (x-mean)^2 / sum h); it is unchanged when the axis is shifted.", "quantifier": "every histogram and bins", "why_tests_cant": "metamorphic shift relation for all inputs", "anchors": ["longitudinal_tomography/data/post_process.py:_std_from_histogram", "longitudinal_tomography/data/post_process.py:emittance_rms", "longitudinal_tomography/data/post_process.py:rms_dpp"]}
{"id": "C43", "title": "Profiles object keeps machine and waterfall in step", "statement": "Assigning Profiles.waterfall stores a non-negative waterfall and sets the machine's bin count (and derived synchronous energy bin) to match; a rejected assignment leaves the previous data in place.", "quantifier": "every sequence of assignments", "why_tests_cant": "state preserved on every failing assignment", "anchors": ["longitudinal_tomography/data/profiles.py:waterfall", "longitudinal_tomography/tracking/machine_base.py:nbins"]}
{"id": "C44", "title": "Self-field wrap-around lookup stays inside the voltage table", "statement": "During self-field tracking the voltage table lookup for each particle is inside the table for every particle phase, and phases equal modulo the wrap interval use the same entry.", "quantifier": "every phase of every particle at every turn", "why_tests_cant": "a continuum of phases", "anchors": ["longitudinal_tomography/tracking/tracking.py:kick_and_drift_self", "longitudinal_tomography/tracking/tracking.py:_calc_xp_sf", "longitudinal_tomography/data/profiles.py:_find_wrap_length"]}
{"id": "C45", "title": "Self-field tracking is reversible", "statement": "Tracking with self fields forward and then backward through the same turns returns the starting coordinates.", "quantifier": "every cloud, every self-field table", "why_tests_cant": "needs sign/turn consistency for every turn", "anchors": ["longitudinal_tomography/tracking/tracking.py:kick_and_drift_self"]}
{"id": "C46", "title": "Multi-bunch reconstruction treats each bunch by itself", "statement": "For each bunch the reported discrepancy is the RMS over that bunch's cut region; masked particles never contribute; all bunches' weights end up non-negative; with one bunch spanning the whole image the multi-bunch routine agrees with the single-bunch one.", "quantifier": "every number of bunches, centres, cuts", "why_tests_cant": "cross-bunch leakage depends on the number and order of bunches", "anchors": ["longitudinal_tomography/cpp_routines/reconstruct.cpp:reconstruct_multi", "longitudinal_tomography/cpp_routines/reconstruct.cpp:discrepancy_multi", "longitudinal_tomography/cpp_routines/reconstruct.cpp:create_mask", "longitudinal_tomography/tomography/tomography_multibunch.py:run"]}
{"id": "C47", "title": "Device and precision switching", "statement": "After any sequence of use_cpu, use_gpu, set_single_precision, set_double_precision the active routines belong to the selected device and the loaded GPU kernels have the configured precision.", "quantifier": "every history of switches", "why_tests_cant": "history dependent", "anchors": ["longitudinal_tomography/utils/tomo_config.py:AppConfig", "longitudinal_tomography/utils/tomo_config.py:GPUDev"]}
{"id": "C48", "title": "GPU kernels cover every element exactly once and agree with CPU code", "statement": "With the launch geometry used by the python wrappers, each CUDA kernel processes every particle/bin exactly once whatever the block size, and computes the same result as the corresponding C++ routine, for every number of particles, profiles and bins.", "quantifier": "every array size and block size, every order of atomic additions", "why_tests_cant": "grid arithmetic for all sizes, atomics in any order", "anchors": ["longitudinal_tomography/cuda_kernels/reconstruct.cu", "longitudinal_tomography/python_routines/reconstruct_cuda.py"]}
{"id": "C49", "title": "Newton iterations use the true derivatives", "statement": "Each derivative function passed to the Newton solver (drfvolt_rf1, drf_voltage, dphase_low) is the mathematical derivative of the function whose root is searched.", "quantifier": "all phases and machine parameters", "why_tests_cant": "equality of functions on a continuum", "anchors": ["longitudinal_tomography/utils/physics.py:drf_voltage", "longitudinal_tomography/utils/physics.py:drfvolt_rf1", "longitudinal_tomography/utils/physics.py:dphase_low"]}
{"id": "C50", "title": "Relativistic helper formulas are consistent", "statement": "b_to_e, lorentz_beta and the momentum relations are mutually consistent: E^2 = p^2 + m^2, 0 < beta < 1 for any nonzero field and rest energy, beta = p/E; beta increases with energy.", "quantifier": "all positive fields, radii, charges and rest energies", "why_tests_cant": "continuum", "anchors": ["longitudinal_tomography/utils/physics.py:b_to_e", "longitudinal_tomography/utils/physics.py:lorentz_beta"]}
{"id": "C51", "title": "Limits of the reconstruction area are consistent", "statement": "The index limits computed for the reconstructed area satisfy 0 <= imin <= imax < nbins and jmin, jmax symmetric about the synchronous energy bin with values inside the image; the consistency assertion rejects every inconsistent set.", "quantifier": "all machines / limit arrays", "why_tests_cant": "corner positions of the area (first column) ", "anchors": ["longitudinal_tomography/tracking/phase_space_info.py:find_binned_phase_energy_limits", "longitudinal_tomography/tracking/phase_space_info.py:_assert_correct_ijlimits", "longitudinal_tomography/tracking/phase_space_info.py:_find_max_binned_phase"]}
{"id": "C52", "title": "Caller's arrays are not modified", "statement": "track, Tomography and density_to_macro do not modify arrays the caller still owns (initial distribution, density).", "quantifier": "every input", "why_tests_cant": "aliasing for all inputs", "anchors": ["longitudinal_tomography/tracking/tracking.py:track", "longitudinal_tomography/data/data_treatment.py:density_to_macro"]}
{"id": "C53", "title": "The user's time window bounds the reconstruction area", "statement": "With min_dt and max_dt set, no particle is generated in a column of the image that starts before the bin of min_dt or after the bin in which max_dt ends, whether the full image or a smaller area is reconstructed.", "quantifier": "every machine and time window", "why_tests_cant": "boundary case where the window ends exactly at the last valid column", "anchors": ["longitudinal_tomography/tracking/phase_space_info.py:_adjust_limits"]}
{"id": "C54", "title": "The axes of the phase-space image are the centres of its cells", "statement": "The time and energy axes returned with the phase-space image are the physical coordinates (relative to the synchronous particle) of the centres of the cells, so that a particle counted in cell [a][b] lies within half a bin of (t[a], E[b]).", "quantifier": "every machine, image size and cell", "why_tests_cant": "tests compare with recorded axes; the relation to the particles' own coordinates must hold for every machine", "anchors": ["longitudinal_tomography/data/data_treatment.py:phase_space_from_coordinates", "longitudinal_tomography/tracking/particles.py:Particles._bin_nr_to_physical_coords"]}
{"id": "C55", "title": "Macroparticles are only created where there is density", "statement": "Whatever random numbers are drawn, every macroparticle returned by density_to_macro lies within half a bin of the axis values of a cell whose share of the total density reaches the threshold.", "quantifier": "every density, threshold, number of macroparticles and every outcome of the random generator", "why_tests_cant": "randomised: a test sees one seed", "anchors": ["longitudinal_tomography/data/data_treatment.py:density_to_macro"]}
{"id": "C57", "title": "Raw data treatment: baseline, rebinning, clipping and machine update", "statement": "raw_data_to_profiles subtracts from each frame its mean over the first share of the samples, rebins, clips below zero, and returns profiles that match the machine, whose dtbin, synch_part_x, bin count and phi0 limits are updated once; calling it a second time with the same arguments gives the same profiles.", "quantifier": "every waterfall, machine and rebin factor, every repetition of the call", "why_tests_cant": "A test uses one long frame and one call; the arithmetic has to hold for every frame length and the machine is modified by each call.", "anchors": ["longitudinal_tomography/utils/tomo_input.py:raw_data_to_profiles", "longitudinal_tomography/compat/fortran.py:calc_baseline"]}
{"id": "C59", "title": "Momentum spread obeys the energy-momentum relation", "statement": "rms_dpp(sigma, E, m) returns the r for which (p + r p)^2 + m^2 = (E + sigma)^2, where p is the beam momentum; r is 0 without energy spread and never negative.", "quantifier": "every energy above the rest mass and every energy spread", "why_tests_cant": "relation over a continuum of energies", "anchors": ["longitudinal_tomography/data/post_process.py:rms_dpp"]}
{"id": "C60", "title": "Multi-bunch backends agree", "statement": "For the same centres and cuts the hybrid multi-bunch routine and the C++ one use the same particles and the same compensation factors and return the same weights; the hybrid routine's discrepancy of a bunch is the RMS over the bunch's columns in all profiles.", "quantifier": "every cloud, centres, cuts", "why_tests_cant": "equivalence of two implementations for all inputs, including particles on the cuts", "anchors": ["longitudinal_tomography/tomography/tomography_multibunch.py:run_hybrid", "longitudinal_tomography/tomography/__tomography.py:_reciprocal_particles_multi", "longitudinal_tomography/cpp_routines/reconstruct.cpp:create_mask"]}
{"id": "C61", "title": "The CuPy reconstruction gives the result of the C++ one", "statement": "reconstruct_cupy returns the same weights, discrepancies and reconstructed profiles as the C++ reconstruct for the same coordinates and waterfall, or fails with the same error.", "quantifier": "every cloud of particles inside the image, every waterfall, every number of iterations", "why_tests_cant": "the two implementations are written with different operations (bincount, take, histogram against loops); agreement has to hold for every particle distribution, also for fewer particles than bins", "anchors": ["longitudinal_tomography/python_routines/reconstruct_cupy.py:reconstruct_cupy", "longitudinal_tomography/python_routines/reconstruct_cupy.py:max_2d"]}
{"id": "C62", "title": "Self-field kick comes from the particle's own bin", "statement": "With self fields on, the voltage a particle receives in a turn is the tabulated voltage of the bin the particle occupies, whichever direction the tracking runs in.", "quantifier": "every table, cloud, start profile, number of turns", "why_tests_cant": "ranges over all positions and tables; an index shifted by one changes results only slightly", "anchors": ["longitudinal_tomography/tracking/tracking.py:kick_and_drift_self"]}
{"id": "C63", "title": "Contents of the self-field table", "statement": "calc_self_fields stores, per interval between consecutive profiles and per bin, half the bunch charge times the sum over the two profiles of coefficient times slope, zero beyond the image; it refuses to run without profile charge or with filtered profiles of another shape, leaving the object unchanged.", "quantifier": "every machine with positive frequencies, every number of profiles and bins, every filtered waterfall", "why_tests_cant": "unbounded sizes; the coefficient turn index must match the profile for every profile", "anchors": ["longitudinal_tomography/data/profiles.py:calc_self_fields", "longitudinal_tomography/data/profiles.py:_calculate_self", "longitudinal_tomography/utils/physics.py:calc_self_field_coeffs"]}
{"id": "C56", "title": "A machine from programs samples the programs at its turns", "statement": "Constructing ProgramsMachine from momentum and voltage programs yields exactly dturns*nprofiles consecutive turns, spaced by the revolution period at each turn, such that the machine reference turn is the first turn at or after t_ref; the momentum and the voltages stored for a turn are the linearly interpolated programs at the time of that turn; a momentum program that is too short is reported as 'Not enough data'.", "quantifier": "every momentum and voltage program with increasing times and positive momenta, every reference time, reference frame, turns per profile and number of profiles", "why_tests_cant": "the number of turns found depends on how the revolution period and the points of the program fall against each other, which only shows for particular sampling of the programs", "anchors": ["longitudinal_tomography/tracking/programs_machine.py: ProgramsMachine._interpolate_momentum, ProgramsMachine.values_at_turns"]}
{"id": "C58", "title": "Phase difference of a machine from programs", "statement": "A ProgramsMachine can be given the phase difference of its two RF systems as a number, as an array or as a phase program, or can calculate it for one of three documented modes; the phase difference per turn follows that input and the synchronous phase found at every turn balances the RF voltage against the change of the magnetic field.", "quantifier": "every program, every phase argument, every turn, every root finder that returns roots", "why_tests_cant": "must hold for each form of the argument and each turn, whatever the programs are", "anchors": ["longitudinal_tomography/tracking/programs_machine.py: ProgramsMachine.__init__, values_at_turns, find_synchronous_phase, calc_phi12", "longitudinal_tomography/utils/physics.py: rf_voltage_pmch, drf_voltage_pmch"]}
{"id": "C64", "title": "Per-turn arrays of a machine from programs are complete and consistent", "statement": "After values_at_turns of ProgramsMachine all arrays have one entry per turn; energy, velocity, slip factor, drift coefficient and revolution frequency satisfy their definitions; deltaE0(n) is e0(n)-e0(n-1) as documented; time_at_turn is the time of the turn relative to the reference turn on the time axis of the programs; bdot is the rate of change of the field on that axis.", "quantifier": "every momentum sequence, every machine", "why_tests_cant": "off-by-one shifts between arrays are invisible for slowly varying programs and must be excluded for every program", "anchors": ["longitudinal_tomography/tracking/programs_machine.py: ProgramsMachine.values_at_turns", "longitudinal_tomography/tracking/machine_base.py: MachineABC"]}
{"id": "C65", "title": "Limits of the bunch and fitted position of the synchronous particle", "statement": "fit_synch_part_x finds the limits of the bunch in the reference profile as the zeros of the straight lines of least squares through the bins around the places where the profile falls below 15 % of its maximum on either side; the fitted position puts both limits at the same potential (in a stationary bucket: the middle of the bunch). The result does not depend on the unit of the measured signal, moves with the bunch and is mirrored with it; a profile that falls below the threshold on both sides is always accepted.", "quantifier": "for every waterfall (any number of bins), machine and solver that returns roots", "why_tests_cant": "The outcome depends on the whole shape of the profile; equivariance under rescaling, translation and reflection and the boundary bins concern all profiles.", "anchors": ["longitudinal_tomography/data/pre_process.py:fit_synch_part_x", "longitudinal_tomography/data/pre_process.py:_calc_tangentfeet", "longitudinal_tomography/data/pre_process.py:_calc_tangentbins", "longitudinal_tomography/utils/physics.py:phase_low", "longitudinal_tomography/utils/physics.py:dphase_low"]}
{"id": "C66", "title": "A whole run returns the density of the particles that were tracked", "statement": "For a machine with its turn arrays loaded and the measured profiles, a run either stops with a documented fault (refused profile, no reconstruction area, no particle left, waterfall without signal) or returns an image of nbins x nbins cells that is nowhere negative, sums to one, is zero outside the reconstruction area found, and whose every cell is the share of the reconstructed weight of the surviving macroparticles that started in that cell; the weights are those of the reconstruction of the tracked time bins, and the axes are those of the machine and of the energy bin. It never ends in an access outside an array or in a rejection of its own coordinates.", "quantifier": "every machine state after loading, every measured waterfall, every choice of profile (also counted from the end), every content of the memory behind the phase array, every number of iterations", "why_tests_cant": "the claim composes the area search, the distribution, the tracking, the filter, the reconstruction and the imaging; tests run a few stored machines", "anchors": ["longitudinal_tomography/utils/tomo_run.py:run", "longitudinal_tomography/tracking/tracking.py:Tracking.track", "longitudinal_tomography/tracking/particles.py:physical_to_coords", "longitudinal_tomography/tracking/particles.py:ready_for_tomography", "longitudinal_tomography/tomography/tomography.py:TomographyCpp.run", "longitudinal_tomography/data/data_treatment.py:phase_space"]}
{"id": "C67", "title": "The self-field switch of the input file takes effect", "statement": "When the input file asks for self fields, a run computes the self fields and tracks with them.", "quantifier": "every machine, every measured waterfall, every chosen profile, with and without tomoscope output", "why_tests_cant": "that a switch is ignored shows only if the results with and without it are compared; the claim is about all inputs", "anchors": ["longitudinal_tomography/utils/tomo_run.py:run", "longitudinal_tomography/utils/tomo_input.py:txt_input_to_machine", "longitudinal_tomography/tracking/__tracking.py:ParticleTracker"]}
{"id": "C68", "title": "Tomoscope films show the particles at their profiles", "statement": "Asking for tomoscope output does not change the result of a run; the films written are the profiles filmstart, filmstart + filmstep, ... up to filmstop, each with the normalised measured profile and an image holding in each cell the share of the weight of the particles that are in that cell at that profile.", "quantifier": "every machine whose parameters pass the input assertions, every measured waterfall", "why_tests_cant": "particles leaving the image in energy at other profiles, or film numbers past the data, are rare in stored examples", "anchors": ["longitudinal_tomography/utils/tomo_run.py:run", "longitudinal_tomography/compat/tomoscope.py:save_image", "longitudinal_tomography/utils/tomo_output.py:create_phase_space_image", "longitudinal_tomography/assertions.py:assert_machine_input"]}
{"id": "C69", "title": "A run from an input file does what the file says", "statement": "Running the program on an input file uses the machine parameters written in the documented lines, selects the frames and samples the file selects, subtracts the mean of the first twentieth of the reference profile, rebins, cuts at zero, puts the synchronous particle where the file says (or at the fitted position for a negative number) and returns a density in the rebinned cells: no cell negative, sum one, on the time axis of the rebinned bin width and the energy axis of a positive energy bin.", "quantifier": "every list of parameter lines, every raw data set, every math library with a non-zero speed of light, every choice of profile", "why_tests_cant": "The composition passes through eight functions with their own index shifts (frames counted from 1, skipped frames, rebinned units); example files exercise a few combinations, the statement is about all of them including the ones rejected.", "anchors": ["longitudinal_tomography/utils/tomo_run.py:run", "longitudinal_tomography/utils/tomo_input.py:txt_input_to_machine", "longitudinal_tomography/utils/tomo_input.py:raw_data_to_profiles", "longitudinal_tomography/shortcuts.py:read_input_file"]}
{"id": "C70", "title": "Gain and offset of the measurement do not matter", "statement": "Multiplying all raw samples of an input file by the same positive number and adding the same constant to all of them changes nothing in the result of a run: same axes, same phase space density, same discrepancies, same films, or the same exception.", "quantifier": "every file, raw data set, positive factor, offset, profile to reconstruct and output mode", "why_tests_cant": "It is a relation between pairs of runs over all data; it fails as soon as one step (baseline, clipping, fit, normalisation) uses an absolute level.", "anchors": ["longitudinal_tomography/utils/tomo_run.py:run", "longitudinal_tomography/utils/tomo_input.py:raw_data_to_profiles", "longitudinal_tomography/tomography/__tomography.py:Tomography", "longitudinal_tomography/data/pre_process.py:fit_synch_part_x"]}
{"id": "C71", "title": "Samples left out by the file have no influence", "statement": "The raw samples of the frames the file says to ignore, and those before the lower and after the upper profile bound, have no influence on the result of a run: two raw data sets of the same length that agree in the selected samples give the same result or the same exception.", "quantifier": "every file and every pair of raw data sets of equal length agreeing on the selected samples", "why_tests_cant": "An off-by-one in the selection only shows for data that differ at the edge; the statement covers all edges, frame counts and data.", "anchors": ["longitudinal_tomography/utils/tomo_input.py:Frames.to_waterfall", "longitudinal_tomography/utils/tomo_run.py:run"]}
{"id": "C72", "title": "Feet of a profile from tangents", "statement": "For a profile that falls below 15 % of its maximum on both sides, foot_tangent_fit returns the two points where the lines of least squares through the four bins at each edge cross zero, the same for both sides up to mirroring, in the units of dx and independent of the height of the profile. foot_tangent_fit_density returns a point between the abscissae, independent of a constant background, and rejects levels outside (0, 1).", "quantifier": "every profile of any length with one maximum and an edge on each side; every spacing; every background", "why_tests_cant": "The result is a closed formula of four bins at each edge; tests compare one stored profile with numbers computed by the same formula, so a factor valid on one side only is never seen.", "anchors": ["longitudinal_tomography/utils/tomographics.py: foot_tangent_fit, foot_tangent_fit_density, _foot_tangent_fit_density"]}
{"id": "C73", "title": "Feet of a sampled bunch", "statement": "foot_tangent_fit_dq returns where the lines of least squares through the six samples at each edge cross zero, provided they are in order and less than a period apart, and otherwise raises InvalidProfileError; filtering changes what is fitted.", "quantifier": "every sampled profile of any length, any sample positions, any period, with and without the filter", "why_tests_cant": "Whether a filter has any effect is a statement about all signals; tests only check that a number comes out.", "anchors": ["longitudinal_tomography/utils/tomographics.py: foot_tangent_fit_dq"]}
{"id": "C74", "title": "Emittance of a share of the distribution", "statement": "emittance_density_calc returns the smallest area of phase space that holds the wanted share of the distribution. It grows with the share, depends only on the contents of the cells and not on their order or units, and shares outside (0, 1) are rejected.", "quantifier": "every image of any size with cells that are not negative, every share, every cell size", "why_tests_cant": "That an area is the smallest is a statement about all ways to choose cells; a test can only compare with one number.", "anchors": ["longitudinal_tomography/utils/tomographics.py: emittance_density_calc, _cumulative_density_calc"]}
{"id": "C75", "title": "Moments of an image", "statement": "rms_params returns the RMS emittance (pi times the root of the determinant of the covariances), the means and the standard deviations of time and energy of the distribution in the image, for images of any shape and any normalisation; the means are inside the image and no root of a negative number is taken.", "quantifier": "every image of any size that is not negative", "why_tests_cant": "That no root of a negative number is ever taken needs the Cauchy-Schwarz inequality for all images.", "anchors": ["longitudinal_tomography/utils/tomographics.py: rms_params"]}
{"id": "C76", "title": "Matched area", "statement": "matched_area_calc returns the area inside the contour of constant energy whose length is the given bunch length, for every machine, above and below transition; it is not negative, and the contour surrounds the synchronous phase within one period.", "quantifier": "every machine, every frame, every bunch length, every minimiser", "why_tests_cant": "The contour is a property of all phases on it; tests check one machine above transition.", "anchors": ["longitudinal_tomography/utils/tomographics.py: matched_area_calc, _urf_length_at_level"]}
{"id": "C77", "title": "Density against emittance", "statement": "density_vs_emittance returns, for contours of growing amplitude, the mean, smallest and largest density on the contour, which are between the smallest and the largest density of the image, and the share inside, which is between 0 and 1; it does so for every image that covers the bucket.", "quantifier": "every image of any size, every machine, any number of contours", "why_tests_cant": "The bounds must hold for every image and every contour; a test sees a few contours of one image.", "anchors": ["longitudinal_tomography/utils/tomographics.py: density_vs_emittance"]}
{"id": "C78", "title": "Clipping of the weights", "statement": "tomo_weight_clipping sets the weight of every particle outside the contour to zero, keeps all other weights up to one common factor, keeps the total, and returns the indices of particles inside; it works for every set of particles.", "quantifier": "every set of particles of any size, every contour, every target emittance", "why_tests_cant": "How many particles are in a slice differs from case to case; the failing case needs exactly one in a slice.", "anchors": ["longitudinal_tomography/utils/tomographics.py: tomo_weight_clipping"]}
{"id": "C79", "title": "Saved files are read back", "statement": "Every number saved by save_profile, save_self_volt_profile, save_phase_space, save_image and save_difference is read back by numpy.loadtxt from its file at the same place, to eight significant digits: a profile bin by bin, an image column by column, self voltages profile by profile, discrepancies with their iteration number. Zeros and signs are kept, and the sum of an image is kept to a relative 5e-8.", "quantifier": "every list or image of any size with any finite values, any earlier contents of the directory", "why_tests_cant": "Rounding, carries to the next power of ten, exponents of any length and signs differ from value to value.", "anchors": ["longitudinal_tomography/compat/fortran.py: save_profile, save_self_volt_profile, save_phase_space, save_difference", "longitudinal_tomography/compat/tomoscope.py: save_difference, save_image, save_profile"]}
{"id": "C80", "title": "Every film in its own files", "statement": "After a tomoscope run the output directory has for every film an image file and a profile file under the number of the profile counted from one, and the discrepancies under the number of the last film; different films and different kinds never share a file, no other file is touched, and both writers of the discrepancies produce the same file.", "quantifier": "every run that succeeds, every choice of films, every earlier contents of the directory", "why_tests_cant": "Collisions depend on the numbers of the films, layouts on the number of iterations.", "anchors": ["longitudinal_tomography/tomo_run.py: run", "longitudinal_tomography/compat/tomoscope.py: save_difference, save_image, save_profile", "longitudinal_tomography/compat/fortran.py: save_profile, save_difference"]}
{"id": "C81", "title": "Plot information", "statement": "write_plotinfo returns a text in which every labelled line holds the value it names to the number of digits printed: profile count, length, bin width, energy step, charge, synchronous point, results of the fit (zeros without fit), synchronous phase and limits of the reconstructed profile; without energy step or limits it raises EnergyBinningError or PhaseLimitsError.", "quantifier": "every machine, particles object and charge", "why_tests_cant": "Wrong lines or wrong turns show only for particular values; programs that read the text rely on every one.", "anchors": ["longitudinal_tomography/compat/fortran.py: write_plotinfo, _get_fit_info"]}
{"id": "C82", "title": "Progress messages", "statement": "A run with Fortran compatible output prints the plot information, then one line for every profile particles are tracked to (later profiles first, then earlier ones, numbers from one), then the iterations numbered from one, then the end; in the same way with and without self fields and on every backend.", "quantifier": "every number of profiles, of turns between them, of iterations and every reconstructed profile", "why_tests_cant": "Numbers off by one depend on the start profile and on which of four loops is running.", "anchors": ["longitudinal_tomography/compat/fortran.py: print_tracking_status", "longitudinal_tomography/tracking/tracking.py: kick_and_drift, kick_and_drift_self", "longitudinal_tomography/cpp_routines/kick_and_drift.cpp: kick_and_drift", "longitudinal_tomography/cpp_routines/reconstruct.cpp: reconstruct"]}
{"id": "C83", "title": "The sine of the C++ tracking", "statement": "The sine used by the C++ kicks (fast_sin, fast_sinf) agrees with the sine to within 2e-17 (6e-9 in single precision) plus 2e-20 times the argument, is odd, is zero at zero, and is defined for every argument.", "quantifier": "every real argument, positive or negative", "why_tests_cant": "The error has to be bounded on a continuum; octant and sign logic has eight cases per turn, and the integer conversion fails only for huge arguments.", "anchors": ["longitudinal_tomography/cpp_routines/sincos.h: fast_sincos, fast_sincosf, reduce2quadrant", "longitudinal_tomography/cpp_routines/sin.h: fast_sin, fast_sinf", "longitudinal_tomography/cpp_routines/kick_and_drift.cpp: kick_up, kick_down"]}
{"id": "C84", "title": "CPU and GPU tracking agree up to the error of the sine", "statement": "Tracking the same particles with the C++ routine (own sine) and with the CUDA kernels (library sine) gives coordinates that differ at every profile by at most the error of the sine times a bound that depends only on voltages, drift coefficients and the number of turns.", "quantifier": "every machine, number of profiles and turns, start profile, particle cloud and block size", "why_tests_cant": "Errors accumulate over turns; a test sees one machine.", "anchors": ["longitudinal_tomography/cpp_routines/kick_and_drift.cpp: kick_and_drift", "longitudinal_tomography/cuda_kernels/kick_and_drift.cu: kick_drift_up_turns, kick_drift_down_turns", "longitudinal_tomography/python_routines/kick_and_drift_cuda.py: kick_and_drift_cuda"]}
{"id": "C85", "title": "The synchronous phases found turn by turn are the stable ones", "statement": "With the root finder the code uses (Newton steps, tolerance 0.0001, at most 100 iterations), the machine's turn arrays can always be computed when the voltage suffices for the field ramp and the cycle stays above the rest energy; the synchronous phase of every turn is within 0.0001 of the phase at which the voltage follows the ramp, on the slope of the voltage on which particles near the synchronous one are driven back to it.", "quantifier": "every accepted machine with a voltage above the ramp's, of either sign of charge and ramp, below or above transition, and every turn before and after the reference frame", "why_tests_cant": "Convergence of the search and the slope it ends on must hold for every ratio of ramp and voltage, every charge sign and arbitrarily many turns, each search starting from the previous result; sample machines only show single cycles.", "anchors": ["longitudinal_tomography/tracking/machine.py:Machine.values_at_turns", "longitudinal_tomography/tracking/machine.py:Machine._array_initial_values", "longitudinal_tomography/utils/physics.py:find_synch_phase_mch", "longitudinal_tomography/utils/physics.py:find_phi_lower_upper"]}
{"id": "C86", "title": "The synchronous energy follows the field ramp within the tolerance of the search", "statement": "With the root finder the code uses, and with one or two rf systems of constant or ramped voltage, the energy of the synchronous particle at a turn differs from the energy of the ramping field (reference energy plus turns times charge times ramp voltage) by at most the number of turns from the reference frame times the charge times 5e-9 times the greatest amplitude (that of the second system counted with the square of the harmonic ratio), whenever the turn arrays can be computed.", "quantifier": "every accepted machine, all voltages and ramps, every turn before and after the reference frame", "why_tests_cant": "The error of each search is added up over all turns; a bound for every machine and every number of turns needs an induction over the turns with the convergence of the search.", "anchors": ["longitudinal_tomography/tracking/machine.py:Machine.values_at_turns", "longitudinal_tomography/utils/physics.py:find_synch_phase_mch", "longitudinal_tomography/utils/physics.py:b_to_e"]}
{"id": "C87", "title": "The arrays track returns hold what was tracked, in both precisions", "statement": "Tracking through the compiled routine gives back arrays that hold the tracked phases and energies (the result of the tracking on the inputs rounded to the chosen precision), for every machine object (one phase difference or one per turn), python number type of the scalar attributes, and precision; a call never succeeds with arrays nothing was written to.", "quantifier": "all machines, distributions, numbers of profiles and turns, precisions, python number types, conversion functions between precisions, and contents of memory", "why_tests_cant": "whether results reach the caller depends on overload resolution and implicit copies of the binding layer for each combination of element types; tests run a few combinations in double precision", "anchors": ["longitudinal_tomography/tracking/tracking.py:Tracking.track", "longitudinal_tomography/cpp_routines/libtomo.cpp:PYBIND11_MODULE", "longitudinal_tomography/cpp_routines/libtomo.cpp:wrapper_kick_and_drift_array", "longitudinal_tomography/utils/tomo_config.py:cast_to_cpu"]}
{"id": "C88", "title": "Single kicks and drifts act on the arrays of the caller", "statement": "libtomo.kick and libtomo.drift return the kicked energies / drifted phases for arrays of any element type and memory order and for every machine; the in-place steps kick_up, kick_down, drift_up, drift_down change exactly the given array; no other array of the caller changes.", "quantifier": "all arrays (values, element types, memory orders), machines, turns, particle counts, directions", "why_tests_cant": "implicit copies made by the bindings make an in-place routine silently lose its effect; this shows only for particular element types and orders", "anchors": ["longitudinal_tomography/cpp_routines/libtomo.cpp:wrapper_kick", "longitudinal_tomography/cpp_routines/libtomo.cpp:wrapper_drift", "longitudinal_tomography/cpp_routines/libtomo.cpp:wrapper_kick_up", "longitudinal_tomography/cpp_routines/libtomo.cpp:wrapper_drift_up", "longitudinal_tomography/tracking/tracking.py:Tracking.kick_and_drift"]}
{"id": "C89", "title": "The precision set in the configuration is the precision computed in", "statement": "With single (double) precision set, reconstructing, making the phase space density and making the phase space image compute in and return single (double) precision, whatever the memory layout of the arrays the user supplied.", "quantifier": "all waterfalls, tracked points, weights, memory orders, sizes, options, both precisions", "why_tests_cant": "the layout of user arrays decides which overload runs; tests use C-ordered arrays only and do not look at the element type of results", "anchors": ["longitudinal_tomography/cpp_routines/libtomo.cpp:PYBIND11_MODULE", "longitudinal_tomography/tomography/tomography.py:TomographyCpp._run", "longitudinal_tomography/tomography/__tomography.py", "longitudinal_tomography/data/data_treatment.py:phase_space", "longitudinal_tomography/utils/tomo_output.py:create_phase_space_image"]}
{"id": "C90", "title": "The reconstruction is stable under rounding", "statement": "If the reconstruction succeeds in exact arithmetic, it succeeds in every sufficiently accurate floating point arithmetic (every sufficiently large number of bits), with weights, recreated profiles and discrepancies as near to the exact ones as wanted. At any accuracy whatsoever, a reconstruction that succeeds leaves no negative weight, no negative bin, and recreated profiles that sum to one up to as many roundings as there are additions.", "quantifier": "all waterfalls, particle coordinates, sizes, iteration counts, tolerances; all floating point units with bounded relative error", "why_tests_cant": "a test runs one precision on a few inputs; divisions by counts and sums, clipping and the early exit on all-zero weights could amplify rounding for other inputs", "anchors": ["longitudinal_tomography/cpp_routines/reconstruct.cpp:reconstruct", "longitudinal_tomography/cpp_routines/reconstruct.cpp:normalize", "longitudinal_tomography/tomography/tomography.py:TomographyCpp.run"]}
{"id": "C91", "title": "Tracking in floating point follows the exact map", "statement": "From some accuracy on, tracking in floating point puts every particle, in every profile, as near as wanted to the exact transport of its start point. In one and the same arithmetic the CuPy loop gives the same bits as the C++ loop.", "quantifier": "all machines, start profiles, non-positive turn offsets, distributions, tolerances; all floating point units with bounded relative error", "why_tests_cant": "errors accumulate over turns; tests compare with stored numbers of one machine and one precision", "anchors": ["longitudinal_tomography/cpp_routines/kick_and_drift.cpp:kick_and_drift", "longitudinal_tomography/tracking/tracking.py:Tracking.track", "longitudinal_tomography/cpp_routines/kick_and_drift_cupy.py"]}
{"id": "C92", "title": "Rounding does not move particles to other bins", "statement": "A whole run from user supplied particles in sufficiently accurate floating point puts every particle into the same bins as the exact computation, loses the same particles, and returns waterfall, weights, profiles and discrepancies as near as wanted to the exact ones.", "quantifier": "all machines, distributions, waterfalls, sizes, iteration counts, tolerances; all floating point units with bounded relative error", "why_tests_cant": "the bins depend on coordinates discontinuously; whether a particle is near a boundary depends on the input", "anchors": ["longitudinal_tomography/tracking/particles.py:physical_to_coords", "longitudinal_tomography/tracking/particles.py:ready_for_tomography", "longitudinal_tomography/tracking/particles.py:filter_lost", "longitudinal_tomography/utils/tomo_run.py:run"]}
{"id": "C93", "title": "On the GPU the schedule shows only in the rounding", "statement": "A reconstruction on the GPU in floating point arithmetic has results that depend on the order in which the device performs the atomic additions and reductions, but only through rounding: every possible outcome of a run is a success whose weights, recreated profiles and discrepancies are as near to the exact result (and so to each other and to the C++ result) as the arithmetic is accurate; particle counts are exact; each single sum has an error of one rounding per addition.", "quantifier": "every interleaving of the threads of every launch, every order and bracketing of the sums on the device, every accuracy of the arithmetic, every input for which the exact run succeeds", "why_tests_cant": "a test sees one schedule of one device; the claim is about all of them and about every precision", "anchors": ["longitudinal_tomography/cuda_kernels/reconstruct.cu", "longitudinal_tomography/python_routines/reconstruct_cuda.py:reconstruct_cuda"]}
{"id": "C94", "title": "Symmetries of the reconstruction", "statement": "Putting the profiles in another order and renaming the bins of each profile, in the measured waterfall and the coordinates alike, changes neither the weights nor the discrepancy history, the callbacks or the errors; the recreated waterfall is reordered in the same way. In particular the time axis may be reversed. Particles that share their bin in every profile get the same weight.", "quantifier": "all waterfalls, all in-range coordinates, all permutations of profiles and, per profile, of bins, all iteration counts, both the C++ routine and the python reference", "why_tests_cant": "there are factorially many reorderings of unboundedly many profiles and bins; a test tries a few, usually none", "anchors": ["longitudinal_tomography/cpp_routines/reconstruct.cpp: reconstruct", "longitudinal_tomography/tomography/tomography.py: TomographyCpp.run, TomographyCpp.run_hybrid"]}
{"id": "C95", "title": "Exact agreement with the data is kept; nothing appears where nothing was measured", "statement": "If some number of iterations reproduces the measured waterfall exactly, further iterations change neither the weights nor the recreated waterfall, and the reported discrepancy stays zero. A particle found only in bins without signal ends with weight zero.", "quantifier": "all waterfalls, all in-range coordinates, all iteration counts before and after", "why_tests_cant": "it is a statement about the continuation of every run for an unbounded number of iterations, and exact agreement occurs only for special inputs", "anchors": ["longitudinal_tomography/cpp_routines/reconstruct.cpp: reconstruct, project, normalize", "longitudinal_tomography/tomography/tomography.py: TomographyCpp.run, TomographyCpp.run_hybrid"]}
{"id": "C96", "title": "Hybrid multi-bunch routines: outcome, histories, agreement", "statement": "The two python multi-bunch routines (one array of weights, or one row per bunch) return the same weights, recreated waterfall and history. A run either returns, or raises WaterfallReducedToZero and nothing else. On success no weight of any bunch is negative, particles that are not strictly between the cuts of their bunch weigh nothing, the recreated waterfall is the normalised projection of the returned weights with profiles that sum to one, every entry of the history is the RMS difference at that iteration, and every entry of a bunch's history is the RMS difference over the columns of its cut.", "quantifier": "every number of bunches, particles, profiles, bins, iterations, every centres and cuts with all bunches inside the image, every waterfall", "why_tests_cant": "the result is stated for every input and every number of iterations", "anchors": ["longitudinal_tomography/tomography/tomography_multibunch.py:run_hybrid", "longitudinal_tomography/tomography/tomography_multibunch.py:_discrepancy_multi", "longitudinal_tomography/tomography/tomography.py:run_hybrid_multi", "longitudinal_tomography/tomography/__tomography.py:_reciprocal_particles_multi"]}
{"id": "C97", "title": "The GPU kernels that are loaded belong to the installed sources", "statement": "Whenever the GPU is switched on or the precision is changed on the GPU, the kernels that get loaded, for tracking and for reconstruction and in either precision, are compiled from the installed CUDA sources and for the device in use. A compilation that does not produce all four binaries ends in CudaCompilationException and never reports success; a compilation interrupted at any point never makes a later start load wrong kernels.", "quantifier": "every history of source changes, deleted binaries, forced and unforced compilations and loads; every outcome of every compiler command; every point at which the process is killed", "why_tests_cant": "Needs a GPU, and tests start from one directory state with a compiler that works; failing compilers, crash points between commands and histories of upgrades are not enumerable.", "anchors": ["longitudinal_tomography/cuda_kernels/__init__.py:compile_kernels", "longitudinal_tomography/cuda_kernels/__init__.py:check_compiled_kernels", "longitudinal_tomography/utils/tomo_config.py:AppConfig.compile_kernels", "longitudinal_tomography/utils/tomo_config.py:AppConfig.load_modules_and_refresh_kernels", "longitudinal_tomography/utils/tomo_config.py:GPUDev"]}
{"id": "C98", "title": "Tracking on the GPU does not depend on how its threads are scheduled", "statement": "For every block size and every interleaving of the threads of the two tracking kernels, kick_and_drift_cuda ends and leaves in xp and yp exactly the coordinates the C++ routine computes with the same sine, in any arithmetic. Each single-step kernel moves every particle by exactly one kick, drift or both and changes nothing else, and the combined downward kernel undoes the combined upward one in exact arithmetic.", "quantifier": "every machine, number of particles, start profile, turn offset, block size and interleaving of loads and stores of all threads", "why_tests_cant": "A test observes one schedule of one GPU; races show up in rare interleavings only.", "anchors": ["longitudinal_tomography/cuda_kernels/kick_and_drift.cu:kick_drift_up_turns", "longitudinal_tomography/cuda_kernels/kick_and_drift.cu:kick_drift_down_turns", "longitudinal_tomography/cuda_kernels/kick_and_drift.cu:kick_drift_up_simultaneously", "longitudinal_tomography/python_routines/kick_and_drift_cuda.py:kick_and_drift_cuda"]}
{"id": "C99", "title": "The summary of a phase space agrees with the separate functions for every documented kind of argument", "statement": "`post_process(phase_space, t_bins, e_bins, energy, mass)` returns a dictionary exactly when `emittance_rms(phase_space, t_bins, e_bins)`, `emittance_90(phase_space, t_bins, e_bins)` and `rms_dpp(phase_space.sum(0), e_bins, energy, mass)` all return, and then holds exactly their values. All four accept every documented form of argument: numpy arrays of either precision, bins of one or two dimensions, the fraction by position or by keyword, and what the reconstruction itself produces.", "quantifier": "every combination of argument values and types (python and numpy numbers, numpy and GPU arrays of every shape and element type, other objects)", "why_tests_cant": "The tests call each function once with the one-dimensional double precision arrays of one reconstruction; which entry of a dispatched function is taken, or whether any is, depends on the type of every argument, and agreement must hold for every one of them.", "anchors": ["longitudinal_tomography/data/post_process.py:post_process", "longitudinal_tomography/data/post_process.py:emittance_rms", "longitudinal_tomography/data/post_process.py:emittance_fractional", "longitudinal_tomography/data/post_process.py:rms_dpp", "longitudinal_tomography/data/data_treatment.py:phase_space_from_coordinates"]}
{"id": "C100", "title": "The library neither leaks nor frees memory twice", "statement": "A python program may call the routines of the compiled library (reconstruct, reconstruct_multi, make_phase_space, kick_and_drift with a scalar or an array of phases) in any order, keep or drop the arrays it gets, and catch every exception. No memory block is freed twice or freed while an array still uses it, no two arrays share a block, and the memory in use is always exactly that of the arrays the program still holds; in particular a call that raises leaves the memory in use as it was.", "quantifier": "every history of calls and dropped arrays, every sizes, every place at which an exception starts (tests of the routine, callbacks, memory running out, python objects that cannot be made)", "why_tests_cant": "a test runs a few histories; a leak or a double free depends on the place at which the exception starts and shows only in the sum over many calls", "anchors": ["longitudinal_tomography/cpp_routines/libtomo.cpp:wrapper_reconstruct", "longitudinal_tomography/cpp_routines/libtomo.cpp:wrapper_reconstruct_multi", "longitudinal_tomography/cpp_routines/libtomo.cpp:wrapper_make_phase_space", "longitudinal_tomography/cpp_routines/libtomo.cpp:wrapper_kick_and_drift_array", "longitudinal_tomography/cpp_routines/libtomo.cpp:wrapper_kick_and_drift_scalar", "longitudinal_tomography/cpp_routines/reconstruct.cpp:reconstruct", "longitudinal_tomography/cpp_routines/reconstruct.cpp:reconstruct_multi", "longitudinal_tomography/cpp_routines/data_treatment.cpp:make_phase_space"]}
{"id": "C101", "title": "Sizes do not overflow 32-bit integers", "statement": "Reconstruction, tracking and the phase-space image, which compute all sizes, indices and turn numbers in 32-bit integers, give the results they would give with unbounded integers; an index behind the image raises instead of wrapping around.", "quantifier": "every number of particles, profiles, bins, turns and iterations, every coordinates, every data and every arithmetic of the numbers", "why_tests_cant": "the products that overflow are reached only with inputs of several gigabytes; tests use small arrays", "anchors": ["longitudinal_tomography/cpp_routines/reconstruct.cpp:reconstruct", "longitudinal_tomography/cpp_routines/reconstruct.cpp:create_flat_points", "longitudinal_tomography/cpp_routines/libtomo.cpp:wrapper_reconstruct", "longitudinal_tomography/cpp_routines/libtomo.cpp:wrapper_kick_and_drift_array", "longitudinal_tomography/cpp_routines/kick_and_drift.cpp:kick_and_drift", "longitudinal_tomography/cpp_routines/data_treatment.cpp:make_phase_space"]}
{"id": "C102", "title": "The results of a tomography object do not depend on its past", "statement": "A Tomography object may be used again and again: coordinates are assigned (some are rejected), reconstructions by any of the methods succeed or fail, progress callbacks raise exceptions or themselves work on the object. Whatever the past, a further statement returns or raises, and on success stores, what it would on a new object with the same waterfall and x-coordinates; a failed statement leaves the object as it was; and the stored results belong to the stored coordinates.", "quantifier": "all waterfalls, all finite histories of statements on the object including nested ones from callbacks, all further statements, all arithmetics", "why_tests_cant": "tests use an object once; the histories of failed and successful statements and of callbacks are unbounded", "anchors": ["longitudinal_tomography/tomography/__tomography.py:TomographyABC", "longitudinal_tomography/tomography/tomography.py:Tomography", "longitudinal_tomography/tomography/tomography_multibunch.py:Tomography"]}
{"id": "C103", "title": "Calls of the compiled library by position and by keyword", "statement": "An argument of a function of the compiled library may be given by position or by its keyword, in any order; the function gets the same values. A call with a missing, repeated or unknown argument is rejected. Every call the package makes is accepted on the backend it is made for and passes each parameter the value meant for it; the CPU and GPU functions of the same name take the same calls; and the type stub declares the calls the library takes.", "quantifier": "every function of the library, every mixture of positional and keyword arguments with arbitrary values, every call in the package", "why_tests_cant": "the tests call each function in one way; which mixtures are accepted, and which parameter a keyword reaches, ranges over all orders and splits of the arguments", "anchors": ["longitudinal_tomography/cpp_routines/libtomo.cpp:PYBIND11_MODULE", "longitudinal_tomography/cpp_routines/libtomo.cpp:wrapper_count_particles_in_bin", "longitudinal_tomography/cpp_routines/libtomo.cpp:wrapper_count_particles_in_bin_multi", "longitudinal_tomography/cpp_routines/libtomo.pyi", "longitudinal_tomography/cpp_routines/tomolib_wrappers.py:kick_and_drift", "longitudinal_tomography/python_routines/kick_and_drift_cuda.py:kick_and_drift", "longitudinal_tomography/python_routines/reconstruct_cuda.py:reconstruct_cuda", "longitudinal_tomography/python_routines/data_treatment.py:make_phase_space", "longitudinal_tomography/utils/tomo_config.py"]}
{"id": "C104", "title": "Projection, back projection and counting on the caller's arrays", "statement": "libtomo.project, back_project, count_particles_in_bins and count_particles_in_bins_multi return an array in the shape of the one they were given to write to, holding its old content plus the projected weights, back-projected profile values or counts. It is the caller's own array exactly when that has the element type the routine works in and C order; otherwise it is a new array and the caller's is unchanged. No other array of the caller changes, whatever the element types and memory orders. Numbers of particles and of profiles are taken from the arguments registered under these names. An array cleared with a[:] = 0.0 can be reused for the next projection.", "quantifier": "every memory, every choice of arrays, element types, memory orders, sizes and values, including the same array given twice", "why_tests_cant": "tests use fresh float64 and int32 arrays; whether a call writes in place depends on types and orders of all arguments", "anchors": ["longitudinal_tomography/cpp_routines/libtomo.cpp: wrapper_back_project, wrapper_project, wrapper_count_particles_in_bin, wrapper_count_particles_in_bin_multi", "longitudinal_tomography/cpp_routines/reconstruct.cpp: back_project, project, count_particles_in_bin, count_particles_in_bin_multi"]}
{"id": "C105", "title": "A tracker can be used again", "statement": "A Tracking object may be used for many calls: tracking with automatic or given particles, creating particles, assigning coordinates, enabling Fortran output and self fields, changing the attributes of its machine in between, with calls that raise. Whatever happened before, track gives what a tracker made just now on the machine as it is now would give, and keeps a copy of the distribution it started from; the area attributes of the particles belong to the machine; a call that raises changes nothing.", "quantifier": "every history of calls and machine changes, every machine, profile, turn offset and distribution", "why_tests_cant": "a test makes a new tracker for each case; what is left over from earlier calls shows only after particular histories", "anchors": ["longitudinal_tomography/tracking/__tracking.py:ParticleTracker", "longitudinal_tomography/tracking/tracking.py:Tracking.track", "longitudinal_tomography/tracking/tracking.py:Tracking.kick_and_drift_self", "longitudinal_tomography/tracking/particles.py:Particles.homogeneous_distribution"]}
{"id": "C106", "title": "Stepwise tracking on the caller's arrays", "statement": "Tracking.kick_and_drift(denergy, dphi, rf1v, rf2v, rec_prof, deltaturn) and Tracking.kick_and_drift_self(...) return, for arrays of any element type and memory order, the coordinates of the caller's particles carried to every profile, exactly as the tracking defined on values; they change no array of the caller, so a second call with the same arguments returns the same coordinates; they fail exactly when the tracking on values fails, with the same exception.", "quantifier": "every heap of arrays, every element type and memory order of the two particle arrays, every machine whose tables are in memory, every number of particles and profiles, start profile and offset", "why_tests_cant": "whether the compiled step writes into the caller's array or into a fresh converted copy depends on element type and layout, and aliasing only shows in a later use of the same array; a test compares the returned values of one call", "anchors": ["longitudinal_tomography/tracking/tracking.py:Tracking.kick_and_drift", "longitudinal_tomography/tracking/tracking.py:Tracking.kick_and_drift_self", "longitudinal_tomography/cpp_routines/libtomo.cpp:wrapper_kick", "longitudinal_tomography/cpp_routines/libtomo.cpp:wrapper_drift"]}
{"id": "C107", "title": "The rounding error of a reconstruction without iterations is bounded by the sizes alone", "statement": "For a waterfall without negative samples and no iterations, the C++ reconstruction in floating point of relative accuracy u fails exactly when the one in exact arithmetic does, with the same error. When it succeeds, with n particles, P profiles and nb bins and a waterfall given up to m roundings, every weight is the exact one up to m+P roundings (factor between (1-u)^k and 1/(1-u)^k), every bin of the recreated profiles up to 2(m+P+n)+nb+1 roundings, and the discrepancy up to P*nb+4 roundings and a shift of at most (2+u)/(1-u)^k-2. The bounds do not depend on the data. Two floating point units of the same accuracy therefore agree up to twice as many roundings; with doubles, a million particles and a thousand profiles of a thousand bins nine decimal digits are right. With a negative sample this fails for every u: the exact run can succeed where the rounded one raises the reduced-to-zeroes error.", "quantifier": "all sizes, all coordinates in range, all waterfalls without negative samples, all floating point units of relative accuracy u < 1, all u", "why_tests_cant": "tests compare with stored doubles for a few inputs; the bound is over all data and all roundings, and the absence of any conditioning factor cannot be seen from samples", "anchors": ["longitudinal_tomography/cpp_routines/reconstruct.cpp:reconstruct", "longitudinal_tomography/cpp_routines/reconstruct.cpp:normalize", "longitudinal_tomography/cpp_routines/reconstruct.cpp:discrepancy"]}
{"id": "C108", "title": "The shortcuts do what run does, after any history of calls", "statement": "read_input_file, track, tomogram and phase_space called one after the other return what tomo_run.run returns for the same file and profile (same axes, density, discrepancies, exception), whatever calls of track, tomogram, phase_space and show were made before on the same machine and waterfall; show only presents a result; track(machine) works with its default argument; phase_space before any track is refused.", "quantifier": "every input file, every reconstructed profile, every list of earlier calls, including calls that raised an exception", "why_tests_cant": "The functions share and change the machine and the waterfall; agreement after every possible history of calls, for every file, cannot be tried out.", "anchors": ["longitudinal_tomography/shortcuts.py:read_input_file", "longitudinal_tomography/shortcuts.py:track", "longitudinal_tomography/shortcuts.py:tomogram", "longitudinal_tomography/utils/tomo_output.py:show", "longitudinal_tomography/data/data_treatment.py:phase_space", "longitudinal_tomography/utils/tomo_run.py:run"]}
{"id": "C109", "title": "Arguments of Machine(...) mean what the documentation says", "statement": "Machine(*args, **kwargs) is accepted exactly when every required argument is given once (by position or by name), no parameter is given twice, nbins is a number and max_dt is given or computable, and (unless vat_now is false) values_at_turns succeeds. The new machine has, for every documented attribute, the value given for it or its documented default; min_dt and max_dt default to 0 and nbins*dtbin; synch_part_y is nbins/2. The order of the keywords and the choice between position and name do not matter. The machine made from an input file has the value of its line in every attribute. Names with no meaning should be refused.", "quantifier": "every list of positional arguments, every dictionary of keywords, all values", "why_tests_cant": "Tests construct machines from one fixed dictionary; which of the exponentially many combinations of given and omitted keywords, orders and positions work, and that no two keywords are exchanged, has to hold for all of them.", "anchors": ["longitudinal_tomography/tracking/machine.py:Machine.__init__", "longitudinal_tomography/tracking/machine_base.py:MachineABC.__init__", "longitudinal_tomography/tracking/machine_base.py:_process_kwargs", "longitudinal_tomography/tracking/machine_base.py:_machine_base_defaults", "longitudinal_tomography/utils/tomo_input.py:txt_input_to_machine"]}
{"id": "C110", "title": "Scans with one machine and one Tomography object equal runs with new objects", "statement": "When a script changes one setting of a machine again and again, calls values_at_turns, tracks, and reconstructs with the same Tomography object (the voltage calibration and varying-input examples), the discrepancy obtained for every value is the one that new objects with this setting give, and equals the last discrepancy of the whole program on such a machine. Earlier calls, including failed ones, leave no trace. Settings the per-turn arrays do not depend on need no new values_at_turns; the others have no effect until it is called.", "quantifier": "every machine, every waterfall, every history of assignments, values_at_turns calls, trackings and calls on the Tomography object, and every list of scanned values", "why_tests_cant": "A test scans a few values after a fixed history; leftovers from an arbitrary earlier history or from a failed step cannot be enumerated.", "anchors": ["__EXAMPLES/example_scripts/EX_03_Voltage_calibration.py", "__EXAMPLES/example_scripts/EX_04_Varying_input.py", "longitudinal_tomography/tracking/machine.py:Machine.values_at_turns", "longitudinal_tomography/tracking/machine_base.py:MachineABC", "longitudinal_tomography/tracking/programs_machine.py:ProgramsMachine.values_at_turns", "longitudinal_tomography/tomography/__tomography.py", "longitudinal_tomography/tomography/tomography.py"]}
{"id": "C111", "title": "A machine made from programs has what the call says", "statement": "For every call ProgramsMachine(...), by position and by keyword: if it succeeds, every scalar attribute has the value given for it or its documented default, the limits of the reconstructed area and the circumference follow from the given values, and unless vat_now is false the arrays are those computed from exactly the momentum, voltage and phase programs, harmonics, charge, harmonic number, reference frame and reference time given in the call. Calls with a missing or doubled parameter, with another number of harmonics than 1 or 2, or with both a phase function and phi12 are refused; names that mean nothing, programs whose shape does not match the harmonics and harmonics that differ do not go unnoticed.", "quantifier": "all positional and keyword arguments (of any type), all programs, all number systems", "why_tests_cant": "The unit tests build one machine with a fixed set of arguments; which argument ends where must hold for every combination of positions, keywords and values.", "anchors": ["longitudinal_tomography/tracking/programs_machine.py:ProgramsMachine.__init__", "longitudinal_tomography/tracking/programs_machine.py:ProgramsMachine.values_at_turns", "longitudinal_tomography/tracking/machine_base.py:MachineABC.__init__"]}
{"id": "C112", "title": "GPU kernels receive the numbers the caller passes", "statement": "Every launch of a CUDA kernel hands each parameter of the kernel the quantity of the caller that belongs there, unchanged, in single and in double precision: the arrays, the counts, the harmonic ratio, the clipping value, the largest bin count, and the phase difference spread over the turns.", "quantifier": "every launch of the package, both precisions, all values of the variables (counts of 32 bits, numbers as python floats or ints)", "why_tests_cant": "the kernel takes as many bytes of an argument as its declaration says, so a wrong type changes the value silently; the tests on the GPU use machines with one RF system, where the ratio and the phase difference have no effect", "anchors": ["longitudinal_tomography/python_routines/kick_and_drift_cuda.py: kick_drift_up_whole, kick_drift_down_whole, kick_and_drift_cuda", "longitudinal_tomography/python_routines/reconstruct_cuda.py: back_project, project, clip, find_difference_profile, compensate_particle_amount, reciprocal_particles, create_flat_points", "longitudinal_tomography/cuda_kernels/kick_and_drift.cu", "longitudinal_tomography/cuda_kernels/reconstruct.cu"]}
{"id": "C113", "title": "A whole run on the GPU returns what the run on the CPU returns", "statement": "After AppConfig.use_gpu(), tomo_run on a loaded machine (no tomoscope output) returns the same time axis, energy axis, density and discrepancies as on the CPU, or ends in the same error. This holds for every block size, for every interleaving of the threads of the tracking and reconstruction kernels, for every order of the additions that make the image, and for whatever lies in the memory behind the phi12 array that the CPU routine reads. Exact arithmetic, the same sine on both, kernels compiled for double precision.", "quantifier": "every loaded machine, waterfall, profile asked for, block size, schedule of the device, contents of uninitialised device and host memory", "why_tests_cant": "A test sees the schedules of one device on a few files; the claim is about every interleaving of thousands of threads and about memory contents a test does not control.", "anchors": ["longitudinal_tomography/utils/tomo_run.py:run", "longitudinal_tomography/utils/tomo_config.py:AppConfig.use_gpu", "longitudinal_tomography/tracking/tracking.py:Tracking.track", "longitudinal_tomography/python_routines/kick_and_drift_cuda.py:kick_and_drift_cuda", "longitudinal_tomography/python_routines/reconstruct_cuda.py:reconstruct_cuda", "longitudinal_tomography/python_routines/data_treatment.py:make_phase_space"]}
{"id": "C114", "title": "Every film shown is that of a fresh run, with and without self fields", "statement": "The program that loops over the films of an input file (tracking, reconstruction and picture for each, one tracker and one set of profiles for all) shows for each film the picture a fresh run for that profile would give, although showing a picture normalises a row of the shared profiles in place. Without self fields that picture is the density returned by the run function, with the same discrepancies and the same exceptions. With self fields the picture holds in each cell the share of the weights of the particles starting there that stay inside the image; self fields of zero strength change nothing. All films from the first to the last named in the input file are shown.", "quantifier": "every machine ready for tracking, every waterfall with positive row sums, every range of films, every charge, coupling and filter, every number of profiles, turns, bins and iterations", "why_tests_cant": "the effect of one film on the next depends on the order of the films and on the data; the folding of particles depends on where every particle is at every profile", "anchors": ["__EXAMPLES/example_scripts/EX_01_Run_tomo_from_input_file.py", "longitudinal_tomography/tracking/tracking.py:Tracking.track", "longitudinal_tomography/tracking/tracking.py:Tracking.kick_and_drift_self", "longitudinal_tomography/data/profiles.py:Profiles.calc_self_fields", "longitudinal_tomography/utils/tomo_output.py:show", "longitudinal_tomography/utils/tomo_output.py:create_phase_space_image"]}
{"id": "C115", "title": "The hand-written reconstruction loop gives what the library gives", "statement": "The example that writes out the reconstruction by hand with back_project and project (first weights from the normalised profiles; then in every round projection, normalisation, difference, back projection, negative weights set to zero) returns the weights, the recreated waterfall and the list of discrepancies that Tomography.run_hybrid returns for the same data and the same number of iterations; it raises where the library raises. Once the recreated waterfall agrees with the data the weights no longer change.", "quantifier": "every number of particles, profiles, bins and iterations, every assignment of particles to bins, every measured waterfall", "why_tests_cant": "the example is a script run on one data set; whether its omissions matter depends on how the particles fill the bins and on the sign of every sample", "anchors": ["__EXAMPLES/example_scripts/EX_06_Manual_reconstruction.py", "longitudinal_tomography/tomography/tomography.py:Tomography.run_hybrid", "longitudinal_tomography/cpp_routines/reconstruct.cpp:back_project", "longitudinal_tomography/cpp_routines/reconstruct.cpp:project"]}
{"id": "C116", "title": "Iterating never loses the distribution", "statement": "A reconstruction that returns without iterations also returns with any number of iterations: iterating moves weight between particles but does not use it up. The total of the weights never falls from one iteration to the next, it starts at the sum of the samples each counted as often as there are particles in its bin, and it stays the same exactly in the iterations in which no weight had to be set to zero.", "quantifier": "every cloud of particles, every measured waterfall, every number of profiles, bins and iterations, C++ and python routine", "why_tests_cant": "whether weights vanish depends on the data, on where the particles are and on the number of iterations; no finite set of runs covers them", "anchors": ["longitudinal_tomography/cpp_routines/reconstruct.cpp:reconstruct", "longitudinal_tomography/cpp_routines/reconstruct.cpp:back_project", "longitudinal_tomography/cpp_routines/reconstruct.cpp:compensate_particle_amount", "longitudinal_tomography/tomography/tomography.py:Tomography.run", "longitudinal_tomography/tomography/tomography.py:Tomography.run_hybrid"]}
{"id": "C117", "title": "More iterations do not make the reconstruction worse", "statement": "Each iteration brings the recreated profiles at least as close to the measured ones as before (the reported discrepancy does not grow), moves the weights no further away from a distribution that explains the data exactly, and if there is such a distribution the discrepancy tends to zero with the number of iterations.", "quantifier": "every cloud of particles, every measured waterfall, every number of profiles, bins and iterations", "why_tests_cant": "a statement about all data and about the limit of many iterations; a test sees a few runs of a few iterations", "anchors": ["longitudinal_tomography/cpp_routines/reconstruct.cpp:reconstruct", "longitudinal_tomography/cpp_routines/reconstruct.cpp:back_project", "longitudinal_tomography/cpp_routines/reconstruct.cpp:compensate_particle_amount", "longitudinal_tomography/tomography/tomography.py:Tomography.run", "longitudinal_tomography/tomography/tomography.py:Tomography.run_hybrid"]}
{"id": "C118", "title": "Rounding errors of tracking are bounded by the sizes of the machine alone", "statement": "Tracking the same particles through the same machine arrays in floating point and in exact arithmetic, the coordinates of every particle in every profile differ by at most k\u00b7g^k\u00b7u\u00b7C, where k is the number of turns computed for that profile, u the accuracy of the arithmetic, and g and C depend only on the phase slip, voltages, acceleration and rf phases of the machine and on how far the particles go; for doubles, a thousand turns and a phase advance of a hundredth radian per turn this is below 1e-7. Two units of that accuracy (another sine, another processor, the CuPy loop) differ by at most twice that, and tracking up and down again returns to the start up to the bound of twice the turns.", "quantifier": "all machine arrays, all particles, all start profiles and start turns at or before them, all numbers of profiles and turns, all roundings of the stated accuracy", "why_tests_cant": "a test compares with stored numbers of one machine and one processor; the bound is about every machine and every arithmetic", "anchors": ["longitudinal_tomography/cpp_routines/kick_and_drift.cpp: kick_and_drift, kick_up, kick_down, drift_up, drift_down", "longitudinal_tomography/tracking/tracking.py: Tracking.track", "longitudinal_tomography/python_routines/kick_and_drift_cupy.py: kick_and_drift_cupy"]}
{"id": "C119", "title": "Particles clear of the bin edges by an explicit margin are put into the right bins", "statement": "Tracking user particles and converting them to phase-space coordinates in floating point gives coordinates within an explicit margin of the exact ones; the margin depends on the accuracy and on the sizes of the machine, the particles and the bins only. When no exact coordinate is nearer to a bin edge than this margin, exactly the same particles are filtered as lost and the reconstruction is made from exactly the same bins as in exact arithmetic. In doubles, for a thousand turns, phase advances of at most a hundredth radian per turn and bins of at least a hundredth radian, a 40000th of a bin is enough.", "quantifier": "all machine arrays, particles, profile counts and turn counts, start profiles and offsets at or before them, bin sizes and origins, waterfalls, iteration counts, roundings of the stated accuracy", "why_tests_cant": "whether rounding moves a particle over an edge depends on every coordinate; a test only sees the particles it has", "anchors": ["longitudinal_tomography/tracking/particles.py: physical_to_coords, ready_for_tomography, filter_lost", "longitudinal_tomography/tracking/tracking.py: Tracking.track", "longitudinal_tomography/cpp_routines/kick_and_drift.cpp: kick_and_drift"]}
{"id": "C120", "title": "Small changes of the measured data change the reconstruction by an explicit factor at most", "statement": "If every sample with signal has a particle in its bin, then changing the measured waterfall by a total amount D (sum of absolute differences) changes the weights after k iterations by at most S(k) * D in total, where S(k) = M * (1 + a + ... + a^k), M is the largest number of particles in one bin and a = 1 + 2 (P M + 1) / T with P profiles and T the starting total of the weights. The shares of the weights, the recreated profiles and the reported discrepancies move by correspondingly bounded amounts. Where every bin holds equally many particles, a is at most 5 whatever the sizes. For raw profiles the normalised waterfalls differ by at most twice the relative change of each profile. Where signal lies in bins without particles there is no such factor: an arbitrarily small change decides whether the reconstruction raises.", "quantifier": "all numbers of particles, profiles, bins and iterations, all tracked coordinates, all pairs of waterfalls, both the C++ routine and the python routine, all ordered fields", "why_tests_cant": "Continuity with an explicit constant speaks about all pairs of inputs; a test compares a few perturbations of a few measurements.", "anchors": ["longitudinal_tomography/cpp_routines/reconstruct.cpp:reconstruct", "longitudinal_tomography/tomography/tomography.py:run_hybrid", "longitudinal_tomography/tomography/__tomography.py:TomographyABC._normalize_profiles"]}
{"id": "C121", "title": "Rounding errors of an iterated reconstruction are bounded explicitly", "statement": "From the measured profiles on (negative samples set to zero, profiles normalised, back projection, any number of iterations), the C++ reconstruction in floating point arithmetic of relative accuracy u returns whenever there is a particle wherever there is signal and u is small for the sizes. Its weights differ from those of exact arithmetic by at most (P M + 1)(4 n + 4 b + P(4 k + 10) + 26) u (1 + A + ... + A^k) in total, with n particles, at most M in a bin, P profiles of b bins, k iterations and A = 1 + 2 (P M + 1)/T + 2 P u, T the starting total of the weights. The shares of the weights and the recreated profiles have corresponding bounds, and the discrepancy reported for iteration j differs from the exact one by at most P (2 E/T + (4 n + 4 b + 7 P b + 36) u)/sqrt(P b), E the bound for the weights after j iterations. With equally many particles in every bin A is at most 5 + 2 P u and the bound for the shares does not depend on M. For doubles, up to a million evenly filled particles, a thousand profiles of a thousand bins and five iterations, the shares are right up to 0.00001 in total.", "quantifier": "every floating point arithmetic of relative accuracy u (every rounding rule within that accuracy), every measured waterfall, all tracked coordinates, all numbers of particles, profiles, bins and iterations for which u is small enough", "why_tests_cant": "Rounding errors depend on every input bit; tests compare with tolerances that were found by trying.", "anchors": ["longitudinal_tomography/cpp_routines/reconstruct.cpp:reconstruct", "longitudinal_tomography/cpp_routines/reconstruct.cpp:normalize", "longitudinal_tomography/cpp_routines/reconstruct.cpp:back_project", "longitudinal_tomography/tomography/__tomography.py:TomographyABC._normalize_profiles"]}
{"id": "C122", "title": "Taking every particle several times does not change the reconstruction", "statement": "If every test particle is put into the cloud c times, in any order, each copy gets the weight its original has in the reconstruction with single particles; the recreated waterfall and the discrepancies are the same, and the reconstruction fails in the same cases. So only the relative density of test particles matters, not their number.", "quantifier": "all clouds, all numbers of copies and all orders, all measured waterfalls, profiles, bins and iterations", "why_tests_cant": "A relation between two runs with different clouds, for every cloud; tests use fixed input files with one cloud each.", "anchors": ["longitudinal_tomography/cpp_routines/reconstruct.cpp:reconstruct", "longitudinal_tomography/cpp_routines/reconstruct.cpp:project", "longitudinal_tomography/tomography/tomography.py:TomographyCpp.run_hybrid"]}
{"id": "C123", "title": "A multi-bunch reconstruction is the reconstruction of all particles together", "statement": "Take a multi-bunch reconstruction of non-negative profiles in which every particle of every bunch stays inside the cuts of its bunch. If it returns, the single-bunch reconstruction of the cloud made of all particles of all bunches (bunch after bunch, each moved to its centre) returns the same weights in the same order, the same recreated waterfall, the same discrepancies and the same callbacks. Conversely, if the single-bunch reconstruction returns, the multi-bunch one returns the same or reports that all weights are zero, and then the weights of the first bunch are all zero after some number of iterations. Hence more iterations never lower the total of all bunches when the profiles are normalised and covered by particles. Two limits are shown by witnesses: an empty first bunch stops the multi-bunch routine although the other bunches hold signal, and particles that are cut away still count in the compensation factors.", "quantifier": "every number of bunches, particles, profiles, bins and iterations; every cloud, centres and cuts that keep the particles inside; every non-negative waterfall", "why_tests_cant": "The two routines are separate code. That they agree for every number of bunches and iterations is an induction over the iterations; tests compare a few runs.", "anchors": ["longitudinal_tomography/cpp_routines/reconstruct.cpp: reconstruct_multi", "longitudinal_tomography/cpp_routines/reconstruct.cpp: reconstruct", "longitudinal_tomography/tomography/tomography_multibunch.py: run"]}
{"id": "C124", "title": "The order in which bunches are given does not matter", "statement": "Giving the same bunches (centre and cuts) to the multi-bunch reconstruction in another order gives every particle of every bunch the same weight, the same recreated waterfall, the same discrepancies of the whole, and the same discrepancies of the bunches; the reconstruction fails in the same cases.", "quantifier": "every number of bunches and every order of them; every cloud, centres and cuts inside the image; every non-negative waterfall; every number of iterations", "why_tests_cant": "A relation between two runs for every permutation of the bunches; tests use one order.", "anchors": ["longitudinal_tomography/cpp_routines/reconstruct.cpp: reconstruct_multi", "longitudinal_tomography/cpp_routines/reconstruct.cpp: discrepancy_multi", "longitudinal_tomography/tomography/tomography_multibunch.py: run"]}
{"id": "C125", "title": "Bunches of the same shape are reconstructed like one bunch", "statement": "Let the bunches of an image lie apart from each other, each inside its cuts, and let the profiles of bunch c be the share s_c (shares add up to one, the first is positive) of the profiles of one bunch. Then the multi-bunch reconstruction returns exactly when the single-bunch reconstruction of that one bunch does; every particle of bunch c has s_c times its weight in the single bunch, and the bins of bunch c in the recreated waterfall hold s_c times those of the single bunch. The sum of squares behind the reported discrepancy is that of the single bunch times the sum of the squared shares, plus the squares of what is measured between the bunches. So each bunch gets its share of the charge, after any number of iterations, whatever is measured between the bunches. A user also expects bunches of different shape to be reconstructed as they would be alone, and bunches of equal charge to get equal totals; this fails (witness).", "quantifier": "every number of bunches, particles, profiles, bins and iterations; every cloud; every position of the bunches and every non-negative shares; every non-negative profiles and samples between the bunches", "why_tests_cant": "A relation between two routines on different images, for every number of bunches and iterations.", "anchors": ["longitudinal_tomography/cpp_routines/reconstruct.cpp: reconstruct_multi", "longitudinal_tomography/cpp_routines/reconstruct.cpp: normalize", "longitudinal_tomography/tomography/tomography_multibunch.py: run"]}
{"id": "C126", "title": "Columns of the image that no particle visits do not change the reconstruction", "statement": "If an image of m columns is part of a wider image, and the particles stay within these m columns, then TomographyCpp.run and run_hybrid on the wider image return or raise exactly as on the smaller one, with the same progress reports (run) and the same weights, after any number of iterations and whatever is measured in the further columns. The recreated profiles are the same, with nothing in the further columns; the sum of squares behind each discrepancy is larger by exactly the squares of what is measured there. From the data as measured on (negative samples set to zero, profiles normalised) the same holds when the further columns have no positive samples. With signal there it fails, since the profiles are normalised with it: a column no particle visits can take all weight from a particle (witness). On the GPU the same weights, profiles and errors follow with the CUDA kernels; with cupy only while the image has no more columns than there are particles: three empty columns in front of a bunch of three particles change its weights (witness).", "quantifier": "all sizes of both images and positions of one in the other, all clouds, all measurements, all numbers of iterations, all ordered fields with a square root", "why_tests_cant": "A test compares a few widths; the claim is about all widths, all data and all numbers of iterations.", "anchors": ["longitudinal_tomography/tomography/tomography.py: Tomography (constructor), TomographyCpp.run, TomographyCpp.run_hybrid", "longitudinal_tomography/cpp_routines/reconstruct.cpp: reconstruct, project, back_project, reciprocal_particles, discrepancy"]}
{"id": "C127", "title": "Taking every profile several times does not change the distribution", "statement": "If every profile of the measurement (and every row of particle positions with it) is taken c times, in any order, the reconstruction gives c times the weights, so the same shares, recreates every copy of a profile like the original, and reports the same discrepancies, for every number of iterations; it fails in the same cases. This holds for run_hybrid. The C++ routine adds the new projection, whose total grows with the number of profiles, to the recreated profiles of the iteration before, whose total is one; from the first iteration on the result depends on how often the profiles are taken (witness).", "quantifier": "all clouds, waterfalls, numbers and orders of the copies, numbers of iterations, ordered fields", "why_tests_cant": "A test repeats the profiles of one measurement a fixed number of times; the claim is for all measurements, all orders and all numbers of copies and iterations.", "anchors": ["longitudinal_tomography/cpp_routines/reconstruct.cpp:reconstruct", "longitudinal_tomography/cpp_routines/reconstruct.cpp:back_project", "longitudinal_tomography/tomography/tomography.py:TomographyCpp.run_hybrid"]}
{"id": "C128", "title": "Particles that see no signal do not change the reconstruction", "statement": "Particles that are, in every profile, in bins without signal get weight zero, and the reconstruction of the others (weights, recreated profiles, discrepancies) is the one obtained without them, so that it does not matter how far beyond the measured signal particles are created. This holds without iterations, and with iterations when these particles never share a bin with another particle and do not raise the largest number of particles in a bin, for run and run_hybrid. Otherwise it fails from the first iteration on: all corrections are multiplied by the largest number of particles in any bin, whether there is signal or not, so a crowd of particles in an empty bin takes all weight from others that are never there; and a single such particle changes the compensation factor of a bin it shares (witnesses). On the GPU the same holds with the CUDA kernels, and with cupy while there are at least as many of the other particles as columns; with fewer, particles without signal that meet no other change the weights, since cupy looks for the fullest bin among the first n_particles bins only (witness).", "quantifier": "all clouds, all sets of particles without signal, all waterfalls, all numbers of iterations, all ordered fields", "why_tests_cant": "A test compares two distributions of particles for one measurement; the claim is for all clouds, measurements and numbers of iterations.", "anchors": ["longitudinal_tomography/cpp_routines/reconstruct.cpp:reciprocal_particles", "longitudinal_tomography/cpp_routines/reconstruct.cpp:reconstruct", "longitudinal_tomography/tomography/tomography.py:TomographyCpp.run_hybrid"]}

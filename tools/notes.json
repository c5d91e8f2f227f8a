{
"C01": [
"proved",
"Back projection is the exact column sum over profiles, adjoint to projection, for all sizes; exact ordered-field arithmetic."
],
"C02": [
"proved",
"Projection is the weight histogram and conserves total weight per profile."
],
"C03": [
"proved",
"Rows sum to one after normalisation; no division by zero happens."
],
"C04": [
"proved",
"Weights are non-negative with positive sum, or the run raises; the initial error is characterised by an iff."
],
"C05": [
"proved",
"Length and every entry of the discrepancy history; RMS meaning over the reals."
],
"C06": [
"partial",
"Holds for run_hybrid and for zero iterations; the C++ path is proved to differ (buffer never cleared), with a witness, and by how much at most (C06_close_partial)."
],
"C07": [
"partial",
"Exact callback sequence for the C++ and the hybrid routine. C07_violated_gpu: the GPU path never calls the callback given to run."
],
"C08": [
"proved",
"Value of every factor, factors >= 1, python and C++ agree."
],
"C09": [
"proved",
"Counts are exact cardinalities and sum to the particle number."
],
"C10": [
"proved",
"Permutation equivariance of weights and invariance of profiles/history."
],
"C11": [
"proved",
"Positive scaling and clipping of negatives do not change the stored profiles nor the run."
],
"C12": [
"partial",
"Raise condition proved as an iff; normalisation proved when every profile has signal; the empty-profile case is proved violated (NaN, silent)."
],
"C13": [
"partial",
"xp invariant over all histories of NaN-free assignments, failed assignment is a no-op, exception classes; violated for stale yp and for NaN."
],
"C14": [
"proved",
"No out-of-bounds access for in-range coordinates; exact behaviour outside. NaN coordinates: see C13_violated_nan_accepted."
],
"C16": [
"proved",
"One turn on the arrays in both orders (any ring), and any number of turns for the transport that C17 shows is stored."
],
"C17": [
"partial",
"Exact rows for every start profile and |deltaturn|<dturns; equal to the transported cloud for deltaturn=0 (any arithmetic) and deltaturn<0 (exact arithmetic); violated for deltaturn>0 with a witness."
],
"C18": [
"partial",
"CUDA and CuPy equal C++ for all offsets, python loop equal C++ for deltaturn<=0; violated for deltaturn>0 with a witness. C++ compared with a phi12 array of nturns+1 entries (see C24)."
],
"C19": [
"proved",
"For every pair of profiles and first-run offset <=0, any previous output contents; exact arithmetic."
],
"C20": [
"proved",
"Any selection, permutation or repetition of particles; every offset; any arithmetic."
],
"C21": [
"proved",
"MeasurePreserving over the reals for every measurable sin, every machine and row of the actual output."
],
"C22": [
"partial",
"Exact call sequence for deltaturn=0; proved violated for every other offset."
],
"C23": [
"partial",
"Acceptance region as an iff and exception kinds; the last profile is proved to be always rejected although its turn is tracked."
],
"C24": [
"partial",
"Safe whenever the arrays have nturns+1 entries; proved that every accepted track() call with scalar phi12 reads one element past the phi12 array."
],
"C25": [
"partial",
"The synchronous particle is an exact fixed point of the kick/drift maps when its energy gain balances; proved for the tracked rows from the reference turn upward; proved violated below the reference turn when the field ramps (energy step stored at the wrong turn)."
],
"C36": [
"proved",
"Acceptance iff the index lies in [0, length) or, with wrap-around, in [-length, length); the result is the index modulo the length, IndexError otherwise."
],
"C37": [
"partial",
"Each helper raises the given class exactly when its comparison fails, on ordered scalars and non-empty arrays; proved violated for NaN (accepted) and for empty arrays (other exception)."
],
"C38": [
"partial",
"Acceptance characterised by an iff, exception class on every rejection, all turn computations defined for accepted machines whose energies stay away from zero; proved violated: accepted machines for which values_at_turns divides by zero."
],
"C39": [
"partial",
"All per-turn arrays satisfy the recurrences; the energy step is wrong for turns up to the reference turn (proved witness), right above."
],
"C49": [
"partial",
"Derivatives over the reals for every function/derivative pair; phase_low/dphase_low only when the voltages at the two turns agree (negation proved otherwise)."
],
"C50": [
"proved",
"E^2=p^2+m^2, 0<beta<1, beta=p/E, monotone; the momentum-program machine uses consistent formulas."
],
"C26": [
"partial",
"Exact selection, alignment of x and y, number removed, exception, idempotence for all arrays of numbers; NaN coordinates are proved to be kept (violation)."
],
"C27": [
"partial",
"Accepted and stored unchanged for all finite coordinates, each value the floor of the coordinate; violated for NaN."
],
"C28": [
"proved",
"Both round trips at the same turn, for all machines with non-zero scales."
],
"C29": [
"proved",
"Exact set of generated points, no duplicates, count, containment; composed with the limits and the conversion to physical units."
],
"C51": [
"partial",
"Limits ordered and inside the image, search always succeeds, assertion rejects; violated: symmetry off by one after a cut or with the full image, imax = nbins accepted when max_dt is beyond the image (then IndexError), column imax not checked."
],
"C53": [
"partial",
"Lower bound exact, upper bound up to one column (exact for the full image); witness of the extra column."
],
"C30": [
"partial",
"Exact cell contents, conservation and GPU agreement for coordinates inside the image; out of range is reported only when the flat index passes the end: aliasing and negative writes proved as violations."
],
"C31": [
"partial",
"Proved for run_hybrid (every iteration count) and for the C++ run without iterations; violated by the C++ run with iterations (flat_rec is never cleared)."
],
"C52": [
"partial",
"track and Tomography proved not to change any array existing before the call; violated by density_to_macro (condition proved exactly) and, for the tracker's own record of the initial distribution, by track."
],
"C54": [
"partial",
"The axes are proved to be the lower edges of the cells; the documented centres are half a bin away (violation)."
],
"C55": [
"proved",
"All outcomes of the random draws; draws enter as inputs with the support property of np.random.choice as hypothesis."
],
"C32": [
"partial",
"Proved: exact result for every size, charge conservation and flatness. Violated: the last bin also contains the last complete bin, and a rebin factor above the number of bins fails (C32_violated_*)."
],
"C33": [
"proved",
"Every accepted geometry; acceptance characterised."
],
"C34": [
"proved",
"Cuts accepted exactly when in range; proposed cuts accepted, keep the active bins and are tight."
],
"C35": [
"partial",
"Removal proved for every waterfall; rec_prof proved when all removed frames come before it; violated when a removed frame comes after it (C35_violated)."
],
"C40": [
"proved",
"Abstract text: python's strip/int/float and comparison with 'pipe' are parameters. np.genfromtxt is a parameter."
],
"C43": [
"partial",
"Accepted assignments store and keep machine in step over every history; a rejected assignment overwrites the stored waterfall when all of it is clipped away (C43_violated)."
],
"C57": [
"partial",
"Exact treatment proved; violated: baseline of an empty set of samples for short frames, and repeated calls change the machine again."
],
"C41": [
"partial",
"The code returns one cell area less than the statement asks for (argmax gives an index, not a count): C41_violated for every histogram and fraction in (0,100]. Proved: exact value, monotone, rearranging, rescaling, rejection. Exact arithmetic: in floating point the last cumulated value may stay below 100 % of the sum, then argmax is 0."
],
"C42": [
"partial",
"The code does not subtract the mean (missing sum): value and shift invariance violated (C42_violated). Proved: exact formula, invariance under rescaling of the histogram, covariance under stretching of the axis, zero for a one-bin histogram."
],
"C59": [
"proved",
"sqrt is a parameter with its usual specification; exact arithmetic."
],
"C46": [
"partial",
"Violated: reported per-bunch discrepancy (C46_violated_split: sum not reset, only the first profile, left column left out), spurious failure when the first bunch is empty (C46_violated_first_bunch), particles outside the cuts are counted and projected, possibly outside the buffer (C46_violated_memory). Proved for bunches inside the image: non-negative weights, masked weights 0, normalised rows, no other failure, agreement with the single-bunch routine. Sequential execution of the parallel loops."
],
"C60": [
"partial",
"Violated for particles on a cut (C60_violated_mask) and for the compensation factors with two or more profiles (C60_violated_counts: xp.T is copied to C order by the binding; C60_violated_one_bunch: different weights than the single-bunch routine). Proved: hybrid per-bunch discrepancy, equal masks away from the cuts, equal results without iterations for clouds off the cuts (C60_first_partial), equality with the single-bunch routine for one bunch with one profile or without iterations (C60_one_bunch_partial)."
],
"C15": [
"partial",
"Interleaving semantics of loads and stores, any number of threads and any assignment of iterations. Proved equal to the serial loop: back_project, clip, difference, compensate, zeros-to-ones, kick, drift, profile load/store, row normalisation with its reduction (exact arithmetic); reciprocal_particles only when idx is private or with one thread; project_multi only for bunches without common bins; all racy loops over bunches with one thread. Proved violated with explicit interleavings: reciprocal_particles, back_project_multi, project_multi, count_particles_in_bin_multi, create_mask, discrepancy_multi."
],
"C48": [
"proved",
"Kernels as threads over shared device memory (Core/Par): every interleaving, every block size; atomics need exact arithmetic (for rounding see C93). C48_every_schedule: the whole reconstruct_cuda with every launch scheduled freely and every device sum taken in any order and bracketing has exactly one outcome, that of the C++ reconstruct, except for the callback (C07_violated_gpu). The threads of one block of back_project only read before their reduction and are one thread of the model."
],
"C61": [
"partial",
"Equal for n_bins <= n_particles; C61_violated_few_particles: max_2d slices the count array with n_particles instead of n_bins."
],
"C47": [
"partial",
"Process state (AppConfig, GPUDev, bound kernels) under every history of calls with failures injected anywhere. Routines and cast precision: proved for every history. Kernels: proved for a precision change on the GPU and for careful histories; violated otherwise (C47_violated_precision, C47_violated_failed_precision, C47_violated_never_recovers, C47_violated_device_id)."
],
"C44": [
"partial",
"Exact condition per turn proved (C44_up/down_lookup_iff), whole calc_self_fields + track proved safe when no frequency is more than one part in wrap_length+1 below the reference (in particular constant frequency); false under stronger acceleration: C44_violated_acceleration."
],
"C45": [
"partial",
"False: the self voltage is added in both directions (C45_violated); exact error and exact condition proved, reversibility proved for zero field."
],
"C62": [
"partial",
"Rows of the whole tracking characterised (C62_rows); downwards the own bin is used, upwards the column before it (C62_violated_upward), none for bin 0 (C62_violated_first_bin)."
],
"C63": [
"proved",
"The Savitzky-Golay filter is a parameter; intermediate values of dsprofiles after a failure are not modelled."
],
"C56": [
"partial",
"Proved: the turns returned are consecutive turns of the specification with the reference turn in place, with the program's momentum at each turn but the first; interpolated voltages; termination and success for long enough programs; all outcomes. Violations proved: one turn missing for finely sampled programs, silent empty result for an early reference time, first turn's momentum, the 'Not enough data' check never fires."
],
"C58": [
"partial",
"Proved for phase programs with two harmonics (root finder assumed to return roots) and for the refusals. Violations proved: a number or an array for phi12 never gives a machine; bunch shortening and lengthening modes give the same phases. C58_search_partial: with the root finder of the code the voltages balance the field at every turn up to 5e-9 of the amplitudes."
],
"C64": [
"partial",
"All arrays proved against their definitions. Violations proved: time_at_turn uses the period of the next turn, deltaE0 is stored one turn early and lacks the last entry (tracking with one turn per profile reads past its end)."
],
"C65": [
"partial",
"Proved: limits characterised by an iff (least squares), all failures, rescaling (also of the errors), translation, straight flanks, middle of the bunch in a stationary bucket; mirror image when a bin follows the upper edge; equal potential when the voltages at the index 'reference frame' are those of the turn of the fit. Violated: bin 0 is never examined (C65_violated_first_bin); frame number used as turn number (C65_violated_reference)."
],
"C66": [
"partial",
"C66_run_partial computes the result of every run on a loaded machine from the specification of its parts; C66_density and C66_faults follow. Needed: the maximal time inside the image when the full image is tracked; C66_violated_upper shows a whole run of an accepted machine without it, which ends with an access outside an array. Modelled: C++ backend, exact arithmetic, no self fields (never used by run, C67). Reading the file and loading the profiles are C43-C47."
],
"C67": [
"partial",
"The property is false: C67_violated_self_field_ignored shows, for every machine and all data, that the run does not depend on the switch nor on the self-field branch. tomo_run.py:109 tests the flag of the tracker, which only that branch sets. C67_violated_file says the same of the lines of the input file: switch, coupling impedance, geometry and pickup sensitivity have no effect on the result."
],
"C68": [
"partial",
"C68_same_result in full. C68_films_partial for particles inside the image in energy and a positive step. False otherwise: C68_violated_film_alias, _film_stops, _film_range, _film_step."
],
"C69": [
"partial",
"C69_loaded proves, for every file that loads, all parameters, the treated waterfall and the turn arrays, and that the machine then meets the hypotheses of C66; C69_density_partial composes it with C66. Missing: a region extended beyond the last sample, which is accepted and ends in an IndexError (C69_violated_window). Reading the file from disk and printing are not modelled."
],
"C70": [
"proved",
"Equality of the whole results, faults included, in exact arithmetic."
],
"C71": [
"proved",
"Equality of the whole results, faults included."
],
"C72": [
"partial",
"Proved exactly what is computed (C72_feet_partial): the lower foot is one bin too low, the upper one is moved out by a fifth of its distance from the edge (factor 6 instead of 5). Hence the property is violated (C72_violated_upper, C72_violated_mirror). Failures, units, scale, and the claims on the density fit are proved in full."
],
"C73": [
"partial",
"Proved in full for the unfiltered fit (C73_feet). Violated for the filter: savgol_filter with window 5 and order 4 returns its input (C73_violated_filter), so filtering never changes anything."
],
"C74": [
"partial",
"Proved that the result is the smallest area less one cell, for every image with more content than the share (C74_area_partial); hence it is never the smallest area (C74_violated_short). Monotone, independent of the order, rejects: proved. Violated for images that are not normalised (C74_violated_scale, C74_violated_faint)."
],
"C75": [
"partial",
"Proved for square images with content 1 of any size (C75_moments_partial, C75_range). Violated for other contents (C75_violated_scale) and shapes (C75_violated_square, C75_violated_row). sqrt and pi are parameters."
],
"C76": [
"partial",
"Proved what the area is, that it is not negative, and where the ends are above transition (C76_contour_partial, C76_nonneg, C76_ends); missing: that the minimiser finds the level (scipy is a parameter) and the exact area (trapezium rule on 1000 phases). Violated for machines from programs (no vrf1) and below transition (C76_violated_below, C76_violated_flat). np.argsort is modelled as stable."
],
"C77": [
"partial",
"Means and bounds proved for every result (C77_mean, C77_range); the share is proved when the energies are equally spaced and reach beyond all contours (C77_share_partial). Violated by thin contours, contours below or above the image, the extrapolated first point, and machines from programs."
],
"C78": [
"partial",
"Proved for every call that returns (C78_weights_partial, C78_factor). Violated: exactly one particle inside a slice raises AttributeError, no contours asked for raises UnboundLocalError, particles before the first or after the last bin are never clipped, machines from programs raise AttributeError."
],
"C79": [
"proved",
"Exact decimal rounding (ties to even) of exact values; a negative zero prints as zero in the model. Disk faults and buffering not modelled."
],
"C80": [
"partial",
"Proved for every succeeding run; negative indices of the Fortran writer and more than 100 discrepancies are refuted."
],
"C81": [
"partial",
"Proved for every value; the run that reconstructs a profile other than filmstart reports filmstart (refuted)."
],
"C82": [
"partial",
"Proved for the CPU loops without self fields; refuted with self fields and on the GPU. The interleaving of python's and C++'s buffers is not modelled."
],
"C83": [
"partial",
"Polynomials, reduction and octants over the reals with the decimal constants of the source: accuracy and oddness proved for |x| <= 1e9. Violated beyond 1.7e9 (the octant does not fit into an int). Floating point rounding not modelled."
],
"C84": [
"proved",
"Exact arithmetic apart from the sine; the CUDA sine is taken to be exact. Arguments of the sine up to 1e9, no turn offset."
],
"C85": [
"partial",
"For one rf system of constant voltage with scipy's documented Newton iteration over the real numbers: the turn arrays are always computed (C85_defined_partial), all phases are within 0.0001 of the ideal phase (C85_phase_partial), and they are stable exactly at the turns on the same side of transition as the reference frame (C85_stable_iff). Violated when the cycle crosses transition (C85_violated_transition). For any voltages, one or two systems: C85_balance (the voltage at the phase found is right up to 5e-9 of the amplitudes), C85_near_root_partial (an exact phase within 0.0001 wherever the slope is not tiny), C85_defined_flat_partial (always computed at constant field). Rounding is not covered."
],
"C86": [
"proved",
"C86_energy: any voltages, one or two systems, over the real numbers with scipy's documented Newton iteration; it rests on the residual a finished iteration leaves (half the bound of the second derivative times the square of the tolerance). C86_single_rf: one system of constant voltage, bound from the distance to the ideal phase. Rounding is not modelled here."
],
"C87": [
"partial",
"Proved in double precision for an array phi12 (every machine with programs) with any python numbers, and for a scalar phi12 in double precision and, with floats, in single precision (up to C24: the scalar routine reads one element behind its table). Violated in single precision: an array phi12 (never cast) sends the call to the double precision routine on copies and track returns zeros; likewise an int ratio or phase with pybind11 versions that count int to float as a conversion."
],
"C88": [
"partial",
"kick and drift proved for all element types and orders (machine with numbers); violated: kick raises TypeError for a machine with an array phi12, and the steps without return value lose their effect on arrays that are not float64 in C order."
],
"C89": [
"partial",
"Reconstruction proved for waterfalls that are not in Fortran order, the image always. Violated for a Fortran-ordered waterfall and by phase_space (strided columns) in single precision."
],
"C90": [
"proved",
"Rounded arithmetic: every sum, difference, product, quotient of the model is rounded with relative error at most u, integers up to 1/u are exact (Core/Rnd.lean); binary arithmetic of p bits is proved to be such a unit. No overflow or underflow. Order of additions as in the sequential loops."
],
"C91": [
"proved",
"As C90; the sine of the unit is within u of the sine. Positive turn offsets excluded (C17 fails there already)."
],
"C92": [
"partial",
"Proved when no exact coordinate is an integer. On a bin boundary it fails for arbitrarily accurate units and in doubles (1.4 - 0.4 < 1): C92_violated_boundary, C92_violated_doubles."
],
"C93": [
"partial",
"C93_run and C93_reproducible: whole run, all schedules, uniform accuracy; C93_project/C93_count/C93_sum: bounds per kernel. Two runs need not give the same bits (C93_violated_same_bits). No overflow; the threads of one block of back_project are combined by an arbitrary summation tree."
],
"C94": [
"proved",
"exact arithmetic; C++ routine and python reference"
],
"C95": [
"partial",
"proved for run_hybrid; particles without signal proved for the C++ routine; violated by the C++ routine, which projects on top of the previous recreated waterfall: it can report discrepancy zero for weights that do not reproduce the data, and then move away again (witness); the part that holds is proved"
],
"C96": [
"partial",
"Violated: with a left cut of -1 (needed to keep particles in bin 0) the bunch's history is taken over the last column only (C96_violated_left_cut). Proved for bunches inside the image and, for the histories of the bunches, cuts inside the image."
],
"C97": [
"partial",
"Proved: completeness after every return, exactness after a successful forced compilation, current kernels after every history without source changes, for every crash point. Violated: the return codes of the compiler are not looked at, a changed source is not noticed, a killed compilation leaves a mixture, binaries are built for device 0 only, some errors are not converted. The witness for a failing compiler assumes that nvcc leaves its old output; binaries written in part are not modelled."
],
"C98": [
"proved",
"Threads interleave at single loads and stores (sequentially consistent). The per-turn arrays of the machine are read only and are parameters; the sine is a parameter, so differences between the GPU and the CPU sine (--use_fast_math) are not covered. Which arrays may overlap is not modelled."
],
"C99": [
"partial",
"Agreement of the summary with the separate functions is proved for all argument values, and a summary exists for every non-negative phase space on one-dimensional double precision axes and for everything the reconstruction produces on the CPU. The claim about documented argument forms is false: two-dimensional bins, single precision axes, GPU arrays and the fraction by position are rejected (C99_violated_*)."
],
"C100": [
"partial",
"Safety (no double free, no array without memory) is proved for every history and every place of failure. Exactness of the memory in use is proved while memory does not run out and no index lies behind the image; make_phase_space loses an image at every exception (violated_image, unbounded), and blocks allocated before a failing new or capsule are lost (violated_memory, violated_capsule). Allocations inside the OpenMP reductions and inside pybind11 are not modelled."
],
"C101": [
"partial",
"Agreement with unbounded integers is proved for all sizes below the stated products; beyond them every run overflows (proved for all data), and nothing in the python code rejects such sizes. reconstruct_multi and the CUDA kernels are not done with 32-bit integers."
],
"C102": [
"partial",
"Histories are arbitrary nested sequences of statements (C102_history, C102_fresh, C102_run, C102_hybrid, C102_multi_hybrid hold for all of them). Violated parts, each with a witness: a failing run_hybrid leaves zero discrepancies beside old weights (C102_violated_failed_hybrid), results survive a change of coordinates (C102_violated_stale), run_hybrid does not store weights (C102_violated_weight), the multi-bunch run never sets weight (C102_violated_multi_weight), and a callback that assigns coordinates spoils the split weights (C102_violated_callback). C102_failed_partial covers the assignments and C++ reconstructions."
],
"C103": [
"partial",
"Proved for all mixtures of positional and keyword values: binding gives each parameter its positional or keyword value or its default, a call can be split between positions and keywords at will, all calls in the package reach the parameters they mean, reconstruct takes the same calls on both backends, make_phase_space at least the CPU calls on the GPU. Violated: the keywords n_particles and n_profiles of count_particles_in_bins(_multi) are registered in the wrong order, and with more particles than profiles the keyword call writes outside the array; kick_and_drift on the GPU has no defaults; the stub's make_phase_space and reconstruct_multi do not fit the library; the calls in tomolib_wrappers.kick_and_drift shift three arguments."
],
"C104": [
"partial",
"C104_back_project_partial, C104_project_partial and C104_count give the outcome of every call from the outcome of the loop on the values; C104_values_partial has the explicit sums, C104_reuse the clearing. Needed for (back) projection: the array written to is not also the other float64 argument; C104_violated_same_array shows the loop reading what it wrote. C104_violated_count_in_place: a float32 array of counts is written to with int32 coordinates and silently not with others. The conversions are pybind11's documented rules; the loops run in sequence. C104_count_multi and C104_count_multi_values: the same for several bunches. C104_violated_count_multi_names: n_particles is taken as the number of profiles."
],
"C105": [
"partial",
"Without self fields proved for every history (C105_as_new, C105_start, C105_particles); with self fields for automatic distributions and an unchanged number of turns (C105_self_partial). C105_area: the area belongs to the machine at the last search that found one. Violated with self fields and given particles (C105_violated_user: TypeError until an automatic distribution was made), after the machine got more profiles (C105_violated_turns: rows of zeros), for the area after a machine change (C105_violated_area) and by a failing creation (C105_violated_failure). Not modelled: coordinates after a tracking loop that fails in the middle, the legacy kick_and_drift method, single precision."
],
"C106": [
"partial",
"Returned coordinates and failures proved for all types and orders (offsets deltaturn > 0 are excluded from the closed form, see C18; the equality with the loop on values has no such restriction), both with and without self fields, and no array other than the two given is changed. The two given arrays are overwritten if they are float64 in C order: violated, with the final contents and a second call that returns something else."
],
"C107": [
"proved",
"explicit bounds for niter = 0; the limit for any number of iterations is C90. Overflow and underflow are excluded by the rounding model; C107_needs_nonnegative shows that the sign hypothesis is needed"
],
"C108": [
"partial",
"Proved for every file and history when each loaded profile has a positive sample (without plots: always). Violated: track(machine) with the default index always raises, show divides the measured profile by its sum in place, which changes the profile charge and, for profiles with a negative sum, the reconstruction. An empty profile plotted becomes NaN; the model stops there."
],
"C109": [
"partial",
"Acceptance, meaning of every argument, order, position or name, and the keywords of an input file are proved. Fails for unknown names: they are accepted and ignored (C109_violated_unknown), in particular the documented attribute name q (C109_violated_charge)."
],
"C110": [
"partial",
"Proved for all histories: the calibration scan and the scan over points per cell give what new objects give, the last discrepancy of the whole program. Violated where a stored quantity is derived in the constructor only: the upper limit of the reconstructed area after nbins or dtbin change, the circumference of a ProgramsMachine after mean_orbit_rad changes; and values_at_turns of a ProgramsMachine discards phases calculated by calc_phi12 or fails on them."
],
"C111": [
"partial",
"Attributes, arrays and refusals proved for all calls. Violated: a misspelt keyword, and the documented name phase_program, are ignored; the harmonics matter only through their ratio (the harmonic number is the separate keyword h_num, 1 by default); rows of the voltage program beyond the harmonics are ignored; phi12 by keyword never gives a machine."
],
"C112": [
"partial",
"proved for all launches in double precision with floats, and in single precision for the reconstruction; violated in single precision for the harmonic ratio (every integer or half integer ratio arrives as zero, so the second RF system is switched off) and for the phase difference, and in both precisions for numbers given as int"
],
"C113": [
"proved",
"Exact arithmetic with one sine for both backends; rounding is C92/C93, the sines are C84, single precision is C112. Films for the tomoscope are not part of the GPU run modelled."
],
"C114": [
"partial",
"Films independent of each other (C114_films), films without self fields equal the density of a run (C114_plain), table of voltages (C114_table) and image with self fields (C114_self_partial) proved for all sizes. Two parts are false of the code: with self fields, even of zero strength, particles that leave the image are folded back into it instead of being lost (C114_violated_wrapped), and the last film named in the input file is never shown (C114_violated_last_film). Frequencies falling below the reference frequency are excluded as in C44."
],
"C115": [
"partial",
"C115_rounds describes the loop completely for data with signal in every profile. Agreement with run_hybrid is proved when every bin holds the same number of particles and no sample is negative (C115_even_partial), and with run without iterations for any spread (C115_start_partial). Otherwise it is false: no compensation for the number of particles, differences to unclipped profiles, NaN instead of an exception without signal."
],
"C116": [
"partial",
"Proved for all data with a particle in the bin of every positive sample (C116_returns, C116_measured, C116_total, C116_total_hybrid, C116_total_kept_iff), and for the C++ routine in floating point as long as the accuracy suffices for the number of iterations (C116_floating, C116_floating_measured; doubles with a million particles and a thousand profiles of a thousand bins: fifty thousand iterations, C116_floating_doubles). Without that it is false: signal in a bin without particles takes weight away in every iteration until the routine raises (C116_violated_uncovered)."
],
"C117": [
"partial",
"run_hybrid: distance to every exact explanation does not grow if the bins with signal hold on average at least half of the largest number of particles (C117_distance_partial); without weights set to zero the compensated squares do not grow (C117_squares_partial) and the squared discrepancies have a bounded sum, so the discrepancy tends to zero (C117_sum_partial); with evenly filled bins the discrepancy does not grow (C117_discrepancy_partial) and falls at least like one over the square root of the number of iterations (C117_rate_partial). C++: squared distance plus squared differences of the previous iteration does not grow, with or without cutting (C117_cpp_distance_partial); without weights set to zero the discrepancy tends to zero, though not monotonically (C117_cpp_sum_partial). Missing: the limit when weights are set to zero. False in general: uneven bins, weights set to zero, and in C++ the monotonicity even under those conditions."
],
"C118": [
"proved",
"C118_bound in any arithmetic whose operations and sine have relative/absolute accuracy u; C118_doubles gives numbers for 53-bit arithmetic (without overflow and underflow); C118_stays gives a sufficient condition for the hypothesis that particles stay within X. Starts after the reconstructed profile (positive offset) are outside: there the loops store other turns than asked for even in exact arithmetic (C17)."
],
"C119": [
"proved",
"C119_coords (margins), C119_bins (same bins), C119_exact (what the exact run reconstructs from), C119_doubles (numbers for 53 bits, no overflow or underflow). Without the margin C92_violated_boundary and C92_violated_doubles show that bins can differ."
],
"C120": [
"proved",
"Exact arithmetic. The theorems assume a particle wherever the first measurement has signal; C120_violated_uncovered shows that the factor does not exist without it, as the statement says. C120_measured is the effect of the normalisation of the raw profiles."
],
"C121": [
"proved",
"Worst case bounds, with unbounded exponents (no overflow or underflow). Beyond no iterations (C107) the bound grows with a power of the number of iterations, as the sensitivity of the exact iteration to its data does (C120). For the discrepancies (P b + 4) u has to be at most 1/2."
],
"C122": [
"partial",
"Proved for run_hybrid with any number of iterations and for the C++ routine without iterations. The C++ routine violates it from the first iteration on (C122_violated_copies): it accumulates projections on the recreated waterfall of the previous iteration, and the projections grow with the number of particles while the recreated waterfall does not."
],
"C123": [
"partial",
"Proved in both directions when no particle is cut away; C123_sensitivity carries the C120 bounds over. C123_violated_first_bunch: the zero test looks at the first bunch only. C123_violated_cut_away: particles that are cut away are counted."
],
"C124": [
"partial",
"C124_order_partial: weights, recreated waterfall and discrepancies of the whole, when both orders return. C124_returns: an order that keeps the first bunch first returns too. C124_violated_empty_first: an empty bunch given first raises. C124_violated_split: the discrepancies of the bunches depend on the order, because the sum of squares is never reset."
],
"C125": [
"partial",
"C125_shares and C125_fails: bunches of the same shape. C125_discrepancy: the discrepancies of all bunches together (those per bunch are wrong, see C46). C125_violated_shapes: bunches of different shape influence each other through the common normalisation."
],
"C126": [
"partial",
"Proved for both routines on the waterfall they are given (C126_run, C126_hybrid) and from the measured data on when the further columns have no positive samples (C126_measured). C126_violated_signal: signal in columns without particles changes the weights through the normalisation of the profiles. GPU: C126_cuda for every block size, C126_cupy_partial up to as many columns as particles, beyond that violated (C126_violated_cupy)."
],
"C127": [
"partial",
"Proved for run_hybrid with any number of iterations and for the C++ routine without iterations. The C++ routine violates it from the first iteration on (C127_violated_repeated)."
],
"C128": [
"partial",
"C128_start: without iterations. C128_apart_partial: any number of iterations when no bin is shared and the largest number of particles in a bin stays. C128_violated_crowd, C128_violated_shared: otherwise the weights of the other particles change from the first iteration on. GPU: C128_cuda_partial for every block size, C128_cupy_partial with at least as many other particles as columns, violated with fewer (C128_violated_cupy)."
]
}
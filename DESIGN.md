# Design: a Lean 4 model of longitudinal_tomography

Subject: PhaseSpaceTomography/longitudinal-tomography at the pinned commit in `/repo`
(python package with a C++ extension `libtomo` and CUDA kernels). The code was only read,
never built or run. `properties.jsonl` lists the properties; this file says how each one is
modelled and proved; `MANIFEST.json` maps each property to its theorems.

## 1. Ground rules of the model

* **Language.** Lean 4.33, Mathlib imported one module at a time. Every definition of the model
  carries a comment with the file and lines of `/repo` it models, and states its simplifications.
* **Shape.** Small total functions, one per function of the code, with the same branches in the
  same order. Mutated buffers become returned values. Exceptions and undefined behaviour are
  values of type `Fault` in `Except Fault`: `Fault.oob` is an access outside a buffer,
  `Fault.nonFinite` a floating-point division by zero (IEEE would give inf/NaN and carry on),
  and every python/C++ exception has its own constructor.
* **Buffers.** A C array or numpy array is a `List`; reads and writes go through checked `rd`,
  `upd` that fail with `Fault.oob`. So "the model returns `ok`" includes memory safety.
  Nothing uses `getD`/`head!` defaults where the code would fail.
* **Loops.** C `for` loops become `forN` (a fold over `0..n-1` in `Except Fault`), `while` loops
  become recursion on the remaining number of turns.
* **Arithmetic.** `double`/`float` are replaced by an exact ordered field `K` (all theorems are
  for every linearly ordered field; `ℚ` for executable witnesses, `ℝ` where `sqrt`, `sin`, measure
  or derivatives are needed). Overflow and subnormals are NOT modelled. Rounding is modelled in C90–C93, C107, C118, C120, C121 only: there the
  same definitions run on the numbers of a floating point unit (relative error at most `u` per operation). The division of
  the model is checked: a zero divisor is a `Fault`, never Lean's `x/0 = 0`. Where the NaN itself
  matters (C12) the same generic model is run over `Fl`, rationals extended with NaN and infinities.
* **External functions** (`sin`, `cos`, `sqrt`, numpy sort, polyfit, Newton) are parameters of the
  model or their mathematical counterparts; what is assumed of them is said at each theorem.
  The C++ tracking has a sine of its own; C83, C84 model it over the reals with the decimal constants of the
  source, elsewhere the sine is an arbitrary function.
* **C `int`** is `Int` (no 32-bit overflow; C101 proves when this makes no difference; C83 states when the octant of the C++ sine fits into 32 bits).
* **Threads.** OpenMP loops and CUDA kernels are modelled twice: as the sequential loop (used by all functional
  properties) and as threads under arbitrary interleavings (C15, C48, `Core/Par`). A thread is a list of atomic
  steps on a shared store: load a cell into a private register, store a register, atomic add. A variable declared
  outside an OpenMP region without a `private` clause is a cell of the shared store, so every thread sees it
  (that is what makes `idx`, `bin`, `squared_sum` race). Any number of threads, any assignment of iterations to
  threads, any order. Reductions and atomics need exact arithmetic (C15, C48); with rounding the order of the additions shows, by how much is C93.
  Weak memory (reordering inside a thread) is not modelled; the race-free loops do not depend on it.
  A block of the CUDA `back_project` is one thread that adds its terms in an arbitrary order: its threads only read
  before the block reduction.
* **Aliasing** (C52) is modelled with a heap of arrays (`Model/Memory`): views share a cell, copies get a new one.
* **Process state** (C47): `AppConfig`, `GPUDev` and the bound kernels form the state; each call takes an `Env` that says
  where the outside world makes it fail. Module names are assumed disjoint from the keys of the device dictionaries.
* **Text input** (C40): lines are an abstract type with python's `strip`, `int`, `float`, `== 'pipe'` as parameters.
  In the code `'pipe'` is compared after stripping only in one of the two places; the model keeps both tests apart.
* **Self fields** (C44, C45, C62, C63): the Savitzky-Golay filter is a parameter.
* **Programs machine** (C56, C58, C64): the nested `while` loops run with explicit fuel; a theorem shows that enough fuel
  exists and that more fuel does not change the result. `newton` is a parameter.
* **Arguments of CUDA kernels** (C112): from CuPy's documentation, a python `int` is passed as a 64 bit integer, a `float` as a `double`,
  an array as its address, without looking at the declared types; `cp.full` without a type makes an array of 64 bit numbers. The kernel
  takes the bytes of its declaration, low end first. (`clip` and `calculate_reciprocal` declare `const double` in both builds, which fits.)
* **Random draws** (C55) enter as inputs; the only assumption is that a drawn index has positive probability.
* The temporary buffers of `reconstruct` (`diff_prof`, `reciprocal`) are fresh zero buffers of each call in the code; the
  model of an iteration creates the difference buffer anew, which is the same because every entry is written before it is read.

## 2. File layout (`/verif/lean/Verif`)

* `Core/*`  – checked buffers, loops, NaN arithmetic; helper lemmas.
* `Model/*` – the model, one file per source file or group of functions.
* `Spec/*`  – small specifications written independently of the model (sums over finite sets,
  iterated maps, predicates).
* `Lemmas/*` – helper lemmas relating model to spec.
* `Props/*` – the property theorems (named `Cxx_...`), each followed by an `example` showing that
  its hypotheses are met by a concrete non-trivial case. Counterexamples to properties the code violates
  are theorems named `Cxx_..._violated...` with an explicit witness.

## 3. Properties: what is modelled, how it is proved

| id | model | proof |
|----|-------|-------|
| C01, C02, C09, C14 | `reconstruct.cpp` routines on flat buffers with checked indices | loop invariants; equality with sums over `Finset.range`; adjointness by exchanging sums |
| C03, C04, C05, C07 | full `reconstruct` loop incl. exceptions, callbacks as an event log; GPU driver for C07 | invariant over iterations: row sums > 0, weights ≥ 0, history length |
| C06 | `reconstruct` and `run_hybrid` | violated for niter ≥ 1: `flat_rec` is never cleared in C++, so each projection is added on top of the previous normalised rows. Proved: agreement at niter = 0, the hybrid routine satisfies the property; negation with witness for C++ |
| C08 | `reciprocal_particles` C++/python | count table invariants, max lemmas |
| C10 | `reconstruct` | equivariance of each routine under `Equiv.Perm`, lifted through the loop |
| C11, C12 | `TomographyABC.__init__`, `_normalize_profiles` | algebra; NaN counterexample in `Fl` for one empty profile, for every waterfall |
| C13 | `xp`, `yp` setters as a state machine | invariant by induction over operation lists; yp clause violated (stale yp after new xp), witness |
| C15 | interleaving semantics of per-iteration load/store programs | generic theorem: threads with disjoint footprints are deterministic; instances for each loop. Racy loops: explicit schedules |
| C16–C20, C22, C24 | `kick_and_drift.cpp`, wrappers, python, CUDA and CuPy loops; `sin` an arbitrary function | induction on turns; refinement to the iterated one-turn map; deltaturn > 0 violated, witnesses |
| C21 | one-turn map on ℝ×ℝ | measure preserving shear maps (Mathlib), induction on turns, transferred to the rows of the output |
| C23, C36, C37, C38 | `track` preamble, `assertions.py`, `_assert_input` | decision logic stated outright as iff |
| C25, C39 | `Machine.values_at_turns` recurrences | induction both directions; violated for turns ≤ i0 |
| C26, C27, C28, C29 | `particles.py` | list lemmas, algebra |
| C30, C31 | `make_phase_space` | sums over cells; aliasing witness |
| C32–C35, C57 | `pre_process.py`, `Frames` | index arithmetic; violations: individable last bin, filter_profiles, short frames, repeated call |
| C40 | `tomo_input.py` | list splitting |
| C41, C42, C59 | `post_process.py` | order statistics over sorted lists; C41, C42 violated by an off-by-one / missing sum, witnesses |
| C43 | `Profiles.waterfall` setter | state machine |
| C44, C45, C62, C63 | `calc_self_fields`, `_kick_drift_self`/`_find_dphi...`, python loop with self fields | floor arithmetic; loop refinement to a one-turn map with lookup; reversibility violated, witness |
| C46, C60 | `reconstruct_multi`, hybrid multi-bunch routine | sums per bunch; per-bunch discrepancy violated, witnesses |
| C47 | `AppConfig` state machine | invariant over histories with failures; violated by use_gpu, use_cpu, set_single_precision, use_gpu |
| C48, C61 | CUDA kernels with launch geometry, CuPy variant | coverage arithmetic, commutation of atomics, whole routine equal to C++ |
| C49, C50 | `physics.py` | derivatives in ℝ; algebra |
| C51, C53 | `phase_space_info.py` limits | list search lemmas; witnesses for the boundary cases. (A first-column clause that was in an early draft turned out unreachable.) |
| C52 | heap model of `track`, `Tomography`, `density_to_macro` | frame property: every cell allocated before the call is unchanged; violated by density_to_macro |
| C54 | axes of `phase_space` | algebra |
| C55 | `density_to_macro` | support of the draws |
| C65 | `fit_synch_part_x`, `_calc_tangentfeet`, `_calc_tangentbins`; `np.polyfit` exact, Newton a parameter | search lemmas, explicit least-squares lines with a minimality proof, structural proof of scale invariance |
| C66 | `tomo_run.run` after loading: tracker, tracking, conversion, filter, Tomography object, reconstruction, imaging composed | composition of C17, C23, C26–C30, C51 with explicit particles; case split on every way a run ends |
| C67 | as C66 with both flags (input file, tracker) and the self-field branch as an unknown | equality of runs for all values of the flag and the branch: the property is false |
| C68 | the tomoscope part of `run`: `range`, images, profiles, the variable used after the loop | as C66; images by C30; counterexamples |
| C69 | `tomo_run.run` from the lines of an input file: parameters, raw data, baseline, rebinning, fit, then the run of C66 | inversion of every loading step, then composition with C66; counterexample for a region beyond the last sample |
| C70 | as C69, for two raw data sets related by a positive gain and an offset | every step shown equivariant, then equality of the whole runs |
| C71 | as C69, for two raw data sets that agree on the selected samples | the loaded waterfall reads only the selected samples |
| C72, C73 | `utils/tomographics.py` `foot_tangent_fit*` | closed formula compared with the line of least squares (`Spec.IsFoot`, `Spec.IsFootAt`); the filter is any function with the defining property of Savitzky–Golay; witnesses |
| C74 | `emittance_density_calc` on the decreasing order of the cells | knapsack bound: fullest cells first is the smallest area (`Spec.SmallestArea`) |
| C75 | `rms_params` incl. numpy broadcasting | expansion of covariances, Cauchy–Schwarz |
| C76 | `matched_area_calc`, potential and contour on the grid of 1000 phases; minimiser a parameter | contour points have constant energy (`Spec.bucketEnergy`); inverse interpolation on monotone branches; witnesses below transition |
| C77 | `density_vs_emittance` | invariants of the loop over bins; area under a polygon at most the sum |
| C78 | `tomo_weight_clipping` | invariant of the loop over slices: weights are zero exactly outside (`Spec.OutOfContour`) |
| C79 | `compat/fortran.py`, `compat/tomoscope.py`: formats `E`, `f`, `d`, files as texts, a directory as a function | a separate reader (`Spec.readNum`, `Spec.loadtxt`) applied to the written text; rounding error of the decimal digits |
| C80 | file names, the order of writing in `tomo_run.run` | names injective; invariant over the films; counterexamples |
| C81 | `write_plotinfo` line by line | a separate reader of labelled lines (`Spec.field`) |
| C82 | the printing statements of the tracking and reconstruction loops | closed form by induction over turns; a separate reader of the messages (`Spec.slices`) |
| C83 | `sin.h`, `sincos.h`: constants, polynomials, octant logic over the reals | difference to the Taylor polynomial bounded by a verified subdivision (`pev_check`), remainder by `Complex.exp_bound`, pi by Mathlib's bounds |
| C84 | as C17, C18 with different sines on the two sides | induction over turns; the bound is `Spec.errTransport` |
| C85, C86 | the documented iteration of `scipy.optimize.newton` (`Model/Newton.lean`) inside `values_at_turns` | on an arc of the sine the Newton steps halve the distance and stay on one side of the root; the four arcs (sign of ramp, side of transition) are reflections of one; induction over turns. For any voltages: a finished iteration leaves at most half the Lipschitz constant of the slope times the square of the tolerance (`newton_residual`), so the energies follow the ramp; intermediate value theorem for an exact phase near |
| C87, C88, C89 | the registered signatures of `libtomo.cpp`, pybind11's argument conversion and overload resolution, an array memory (`Model/Bind.lean`) | case analysis of the two resolution passes for arbitrary arrays; effect of the body on memory; equality with `Track.track`, `Track.trackArray` |
| C90, C91, C92 | the models of reconstruction, tracking, conversion to bins and the whole run, on the numbers of a floating point unit (`Core/Rnd.lean`, `Model/RunUser.lean`) | logical relation along the filter of ever more accurate units, one lemma per routine (`Lemmas/Rnd*.lean`); explicit bounds for the sums; `Lemmas/Binary.lean`: binary arithmetic of `p` bits is such a unit; witnesses |
| C93, C48 | `reconstruct_cuda` as host program whose launches and device sums have sets of outcomes (`Model/CudaRun.lean`), on exact and on rounded numbers | outcome monad; every launch reduced to its kernel theorem; logical relation between sets of rounded outcomes and the exact result; witness of two schedules with different bits |
| C94, C95 | the existing model of `reconstruct.cpp` and `run_hybrid` | closed form of the run as a sequence of (weights, recreated) pairs, transported along permutations of profiles and bins; fixed point by induction; witness for the C++ routine |
| C60, C96 | both hybrid multi-bunch routines | closed form of the run of either routine by induction over the iterations; boolean masks as filtered lists; slices of one array of weights; witnesses for transposed counts and negative cuts |
| C97 | `cuda_kernels/__init__.py` and the compilation part of `tomo_config.py`: a directory of sources and binaries, every outcome of every compiler command, every kill point | invariant over histories (every binary present is of the installed source) by induction; witnesses for unchecked return codes, unnoticed changes, mixtures and other devices. Not modelled: binaries written in part, whether the driver accepts a binary |
| C98 | the kernels of `kick_and_drift.cu` as threads and the two launches of `kick_and_drift_cuda` as a relation on device memory (`Model/CudaTrack.lean`) | disjoint columns of the outputs give every interleaving the result of the threads in order; simulation of the thread loop against the buffer model; C18 |
| C99 | argument types and dispatch of `data/post_process.py`, `post_process` | `Model/PostDispatch.lean`: values with type tags, shapes and element types; `multipledispatch` as first fitting signature; agreement for all values by following the calls in both directions; existence from the closed form of the standard deviation; rejected argument forms as theorems for all inputs. Not modelled: rounding to single precision, bins of more than two dimensions |
| C100 | memory of the C++ wrappers and routines: allocations, deletions, owners and the places where exceptions start (`Model/Ledger.lean`) | failures chosen by an arbitrary oracle; Hoare triples with a ghost list of blocks (`Lemmas/Ledger.lean`), then induction over the history of calls. Not modelled: allocations inside the OpenMP reductions and inside pybind11, negative image indices (C30) |
| C101 | the C++ reconstruction, tracking and image routines with every `int` operation checked for overflow (`Model/Int32.lean`) | equality with the models over unbounded integers by loop congruence with invariants (values read from the coordinates, turn and progress counters); overflow for all data beyond the sizes. Not done: `reconstruct_multi`, CUDA kernels |
| C102 | `TomographyABC` and both `Tomography` classes as objects with mutable attributes; nested histories of statements and callbacks | mutual induction over statements, callbacks and histories with the invariant `Sound`; simulation of the in-place methods by the models without an object; witnesses |
| C103 | signatures of all functions of the library, of their GPU counterparts and of the type stub, and the calls in the package, as data; pybind11's binding of positional and keyword values | induction over the parameters (`bindCall_iff`), naturality of binding in the values, so that the finite tables of names settle all values; witnesses |
| C104 | `project`, `back_project`, `count_particles_in_bins`, `count_particles_in_bins_multi` (`Model/BindCount.lean`) on the memory of C87–C89: element-wise reads and writes of the arrays the binding passes, so arrays may coincide | the loop on the memory simulates the loop on values (`forN_image`) unless arrays coincide; overload resolution by cases; sums from C01, C02; counterexamples |
| C105 | `Model/TrackObj.lean`: the `Tracking` object with its particles and its machine; every call returns the object afterwards, also when it raises; histories of calls and machine changes | invariants over histories (machine, tables, area as functions of the history); what a call reads is the same for a new tracker; in-place tracking from `kickAndDrift_run`; concrete histories for the violations |
| C106 | `Model/StepTrack.lean`: the loops of `kick_and_drift` and `kick_and_drift_self` on references to arrays, each step a call of the compiled `kick` or `drift` of `Model/Bind.lean` | simulation: the heap loop and the loop on values run in step, the two arrays either hold the particles of the loop (float64, C order) or are never written; the closed form from `kickAndDriftPy_run`; a second call on a concrete heap for the violation |
| C107 | the reconstruction without iterations (`Model/Reconstruct.lean`) on `Rn w` beside the same function on the reals | two-run logic `Both` (same error or related results) with the relation "equal up to k roundings", k counted cell by cell through the loops (`Lemmas/RndNear.lean`); the discrepancy by Cauchy-Schwarz |
| C108 | `shortcuts.py` and `tomo_output.show` as calls on a shared machine and waterfall (`Model/Shortcuts.lean`); a session is a list of calls | invariant over the list: the waterfall is the loaded one with rows multiplied by positive numbers, which the constructor of `Tomography` undoes; `track` returns and stores the same whatever came before; then the calls are those of `run` |
| C109 | `Machine.__init__` of both classes, `_process_kwargs`, Python's binding of positional and keyword arguments, `machine_kwargs` of the input file; values are numbers, integers, booleans, strings, `None` | characterisation of all accepted calls (`machineInit_iff`), attribute table; calls giving the same values to the known names make the same machine |
| C110 | `EX_03_Voltage_calibration.py` and `EX_04_Varying_input.py` as programs on a machine (its attributes and arrays) and a `Tomography` object; arbitrary statements before them; a `ProgramsMachine` whose `values_at_turns` is called again (`Model/Scan`) | the outcome of one point is a function of the settings and the waterfall alone (`Lemmas/Scan`), then induction on the list of values; the histories by the invariant of C102 (`Sound`) |
| C111 | `ProgramsMachine(...)`: binding of positional and keyword arguments, the keywords of the base class, phases, the attributes read and left by `values_at_turns` (`Model/ProgramsObj`); arrays of numbers are lists, tables lists of rows | inversion of the constructor to its arguments or defaults (`Spec/ProgramsObj`: `Described`), uniqueness of the description, independence of the arrays from the scale of the harmonics by induction over the loops of the interpolation |
| C112 | the ten CUDA launches: declared types of the kernel parameters, python variables behind the arguments, little endian bytes, IEEE 754 patterns (`Core/Ieee.lean`, `Model/CudaArgs.lean`) | the parameter lists are compared with a table of quantities once, the values by case analysis for all variables; a number `n·2^j`, `n < 2²¹`, has a zero low half; harmonic ratio zero gives thread by thread the kernel of a machine without second voltage |
| C113 | `Model/RunGpu.lean`: `tomo_run` after `use_gpu()`: upload, the two tracking launches, conversion, filtering, `reconstruct_cuda`, `cupy.add.at`, normalisation, as a set of possible outcomes. | Every step has one outcome (C98, C48, sums over permutations), so the run has one; it is that of `Run.runMachine` with `past = phi12`. A second theorem shows that `runMachine` does not depend on `past`: the last profile is refused, so only the energies of the last row change. |
| C114 | `Model/RunSelf.lean`: EX_01:39-69 – one tracker, `calc_self_fields`/`enable_self_fields` if the flag is set, the loop over the films with `track`, `ready_for_tomography`, a reconstruction without energies, the image and the in-place division of `show`; composed of the models of C17, C26, C44, C63, C66 and C108 | The loop carries a waterfall whose rows are rescaled by positive factors, which no reconstruction sees (C108), so every film is a film of the loaded profiles; the film without self fields is unfolded to the run of C66; with self fields the tracking is `transportS` of C44 and the image is `share` over the particles kept; zero voltages reduce `transportS` to `transport` and folding to the identity inside the wrap interval. Negations: machine whose image covers one RF period (folding), range of films |
| C115 | `Model/Manual.lean`: EX_06:80-154 – the reconstruction loop of the example, on `project` and `back_project` of `Model/Reconstruct.lean` | Invariant of the loop: the weights are `plainW` of `Spec/Manual.lean`, the cleared buffer makes each projection the sum over the particles; vanishing weights are the only way to NaN. With the same number of particles in every bin the factor by which the library compensates is one, so both loops coincide. Negations: uneven bins, negative sample, no signal |
| C116 | nothing new: the sequences of weights and recreated profiles of `Lemmas/ReconRun.lean` that C++ and python routine were proved to compute | Summed over the particles, the compensation factor cancels the number of particles in the bin, so an iteration adds (largest count) × Σ (measured − recreated) over the bins with particles, which is zero if those bins hold all signal, as both profiles have total one; cutting negative weights can only add. In floating point (`Lemmas/RndTotal.lean`, `Props/RndTotal.lean`) each iteration can lose at most (number of profiles) × (largest count) × (error of the row sums + (2 nb + 16 P + 30) u) and the fraction 2 P u: sums, differences and products are bounded one by one, rows of the recreated profiles sum to one up to nb + 1 roundings. Negation: signal in a bin without particles |
| C117 | the same | The step is linear before the cut: with `A` the projection and `D` the compensation, `w + Aᵀ D r`. Cauchy–Schwarz over the profiles and over the particles of a bin bounds `Aᵀ D A` by (profiles × largest count); expanding the squares gives the distance and the discrepancy, summing over the iterations the rate. Cutting is a projection onto the non-negative weights. For the C++ routine, whose profiles are averages over the iterations, the quantity that falls is squared distance plus squared differences of the iteration before (`C117_cpp_distance_partial`). Negations: witnesses found by search, checked by the kernel |
| C118 | the tracking loop (`Model/Tracking.lean`) on `Rn w` beside the same function on the reals | one turn is compared with the exact one in a weighted norm (phase plus scaled energy): drift and kick enlarge a difference by at most `1+κ+κ²` and add at most `u` times a constant of the sizes (`Lemmas/RndTurn.lean`); induction over the turns; the rows of the loop from C17, which holds in any arithmetic; CuPy from C18. `Lemmas/RndReach.lean` bounds how far particles go |
| C119 | `Run.userCoords` and `Run.fromDistribution` on `Rn w` beside the reals | tracking from C118; forward error of the conversion (`Lemmas/RndBins.lean`): rounded bin width within `(1±u)²`, quotient, origin; truncation and the comparisons of the filter are constant between integers |
| C120 | exact arithmetic, C++ and python iteration on two measurements with the same particles (Spec/Sensitive: sum of absolute differences) | recursion for the differences of weights and recreated profiles in the 1-norm; the total of the weights of C116 keeps the normalisation from dividing by less than the starting total; evenly filled bins give the factor 5; negation with signal outside the particles |
| C121 | constructor and C++ reconstruction from the measured profiles, in exact and in rounded arithmetic (Core/Rnd) | each iteration adds the rounding errors of projection, normalisation, compensation and back projection to the enlarged difference of before (recursion of C120); C116 keeps the totals away from zero in both |
| C122 | `reconstruct` and `run_hybrid` for a cloud with c copies of every particle, in any order | weights, counts, projections and compensation factors of the copies related to the originals by induction over the iterations; concrete witness for the C++ routine |
| C123 | `reconstruct_multi` beside `reconstruct` on the cloud of all bunches | counts, factors, projections and back projections of the union equal those of the bunches; induction over the iterations; sensitivity carried over from C120; witnesses for the first-bunch test and for particles that are cut away |
| C124 | `reconstruct_multi` for two orders of the bunches | sums over the bunches reordered, induction over the iterations; witnesses for an empty first bunch and for the discrepancies of the bunches |
| C125 | `reconstruct_multi` on bunches of the same shape beside `reconstruct` on one of them | counts, factors and projections of a bunch are those of the single bunch, row totals agree because the shares add up to one; induction over the iterations; witness for different shapes |
| C126 | `reconstruct`, `run_hybrid`, `reconstruct_cuda`, `reconstruct_cupy` and the constructor on an image beside those on a part of it | counts, factors, projections and row totals agree, nothing is recreated outside; induction over the iterations; GPU through C48 and C61; witnesses for signal where no particle is, and for `reconstruct_cupy` with fewer particles than columns |
| C127 | `run_hybrid`, `reconstruct` on a measurement and on one with every profile repeated | back projections are multiplied by the number of copies, factors and normalised projections stay; induction over the iterations; witness for the C++ routine |
| C128 | `reconstruct`, `run_hybrid` with and without particles that see no signal | their weights stay zero because recreated profiles are not negative; induction over the iterations; witnesses through the largest count and through a shared bin; GPU through C48 and C61; witness for `reconstruct_cupy` with fewer particles than columns |
| C56, C58, C64 | `programs_machine.py` | invariants of the nested loops, refinement to the recurrence of turns; witnesses |

## 4. Trusted base

* Lean's kernel, and the axioms `propext`, `Classical.choice`, `Quot.sound` (checked with
  `#print axioms`); no others.
* The reading of the source: that each definition mirrors the cited lines. The code was not run.
* Exact arithmetic in place of IEEE doubles (see 1; in C90–C93, C107, C118, C120, C121 rounded arithmetic without overflow and underflow, each
  operation rounded once, in the order of the source), `Int` in place of `int32`.
* The external functions listed in 1.

## 5. Not modelled

Plotting, logging, the progress callback text, disk faults, the interleaving of the C++ and python output buffers, pybind11's reference counting (its argument conversion and overload resolution are modelled in `Model/Bind.lean` from its documentation: first a pass without conversions over the overloads in order of registration, then one with; `array_t<T, c_style | forcecast>` takes a matching array as it is and copies any other), GPU memory management, nvcc compilation, `scipy.optimize.newton` (a parameter, except in C85, C86, which use its documented iteration over the reals, `Model/Newton.lean`), `scipy.signal`
and `polyfit` internals, wall-clock/parallel speed, IEEE rounding outside C90–C93, C107, C118, C120 and C121, contraction of `a*b+c` into one rounding.
In floating point `cumsum` may end below the sum it is compared with (C41), and comparisons with a
threshold that holds with equality in exact arithmetic may go either way; such cases are outside the model.

## 6. Findings (code disagrees with the property)

Every item is a theorem with an explicit witness (or for all inputs, where the text says so). The list is generated
from the comments of the theorems by `tools/design.py`.

<!-- findings:begin -->
* `C06_violated_recreated` – C06 violated: three particles, two profiles of two bins, one iteration. The C++ run succeeds, but its recreated waterfall is not the normalised projection of its weights, and it differs from what `run_hybrid` returns (5/8 against 11/18 in the first bin), for every square root function.
* `C07_violated_gpu` – C07: the GPU reconstruction never calls the progress callback; the C++ one calls it after every iteration and at the end.
* `C100_violated_capsule` – C100 is violated when the capsule of an image cannot be made (libtomo.cpp:530): the image is lost.
* `C100_violated_image` – C100 is violated by `make_phase_space` (data_treatment.cpp:22-35): the image is allocated with `new[]` and not deleted before the `throw`, and the wrapper (libtomo.cpp:512-533) has no pointer to it. A program that catches the exception `n` times has lost `n` images, although it holds no array and memory did not run out: the loss has no bound.
* `C100_violated_memory` – C100 is violated when memory runs out: the arrays of `wrapper_reconstruct` (libtomo.cpp:409-412) and of `reconstruct` (reconstruct.cpp:373-377) are allocated one after the other outside any `try`; when a later `new` fails the earlier blocks are lost, `k` of them when the `k`-th of the first three fails. The wrapper's own blocks are deleted when `reconstruct` fails, those of `reconstruct` are not.
* `C101_violated_far` – C101 is violated: the test that a position lies inside the image (data_treatment.cpp:28-30) is made after a product that can overflow; a first position beyond 2³¹/nbins is undefined behaviour where the code means to raise `out_of_range`.
* `C101_violated_image` – C101 is violated: a larger image overflows, whatever the positions (data_treatment.cpp:24-25).
* `C101_violated_reconstruct` – C101 is violated: beyond these sizes the sizes and indices of `reconstruct` (libtomo.cpp:410-412, reconstruct.cpp:372-377) overflow, whatever the data; nothing in the python code limits them.
* `C101_violated_track` – C101 is violated: with more than 2³¹-1 pairs of a particle and a profile the row pointers (libtomo.cpp:267, 271) overflow, whatever the data.
* `C102_violated_callback` – C102 is violated: the multi-bunch `run` reads the number of particles again after the reconstruction to cut the weights into bunches. If a callback assigned other coordinates meanwhile, the pieces are not the weights of the bunches.
* `C102_violated_failed_hybrid` – C102 is violated: after a `run_hybrid` that raises an exception the object shows a history of discrepancies that are all zero, that is, of perfect agreement, beside the weights and the profiles of an earlier run.
* `C102_violated_multi_weight` – C102 is violated: `weight`, which the documentation of the multi-bunch `run` promises to set, is never set by it.
* `C102_violated_run_old` – C102 is violated: `_run_old` never succeeds, because the library function it calls does not exist, but it replaces the discrepancies of earlier runs by zeros first.
* `C102_violated_stale` – C102 is violated: results are not dropped with the coordinates they belong to: after the assignment of other coordinates the object still shows the weights of the old ones, of which there may be more or less than particles.
* `C102_violated_weight` – C102 is violated: `run_hybrid` stores its discrepancies and profiles but not its weights, so that after a successful run the weights in the object may be those of other coordinates.
* `C103_violated_backends` – C103 is violated: `conf.kick_and_drift` without a callback is accepted on the CPU, and no such call is accepted on the GPU.
* `C103_violated_compat` – C103 is violated: the calls `tomolib_wrappers.kick_and_drift` makes are accepted, but the C++ parameter `deltaturn` gets the number of turns, `nturns` the number of particles and `nparts` the flag for the output.
* `C103_violated_count` – C103 is violated: in every accepted call of the counting functions, the C++ parameter for the number of profiles gets what the call gives to the name `n_particles`, and the other way round.
* `C103_violated_count_keywords` – C103 is violated: for every set of particles in the bins, if there are more particles than profiles, the call of `count_particles_in_bins` with its registered keywords writes outside the array, while the call by position counts.
* `C103_violated_stub_multi` – C103 is violated: a call of `reconstruct_multi` that uses one of the declared names `xpRound0`, `cutleft`, `cutright`, `centers` as keyword is not accepted.
* `C103_violated_stub_phase_space` – C103 is violated: no call of `make_phase_space` that fits the declaration in the type stub is accepted by the library.
* `C104_violated_count_in_place` – **C104 (counting), consequence**: whether the caller's `float32` array is written to depends on the type of the coordinates. With `int32` coordinates in C order it is, with any others the counts are in a new `float64` array and the caller's is untouched.
* `C104_violated_count_multi_names` – C104 is violated for the names the function is registered with: `n_particles` is taken as the number of profiles. Two particles in one profile of four bins, called as the names say: the second coordinate is counted in a second profile, behind the end of the array.
* `C104_violated_same_array` – C104 is violated when the same array is given for the weights and the profiles: the loop reads weights it has already changed. Two particles with the weights 1 and 2, one profile with the values 1 and 2, the particles in the opposite bins: from a copy of the array the new weights are 3 and 3, from the array itself 3 and 5.
* `C105_violated_area` – C105 violated: the area kept with the particles is not that of the machine. After an automatic distribution the machine gets twice the energy range and the user's particles are tracked: the particles keep bins of height 3 instead of 6, so the conversion to the image, which takes its scale from the particles, puts a particle of energy 3 into the row 3 instead of 2.5.
* `C105_violated_failure` – C105 violated: a call that raises changes the particles. The automatic distribution stores the bins before it makes the particles (particles.py:146-175); when the particles cannot be made (`IndexError`, C51) the new height of the bins stays next to the limits and the particles of the machine before.
* `C105_violated_turns` – C105 violated with self fields after the machine got more profiles. The number of turns is taken when the tracker is made (__tracking.py:68) and used by the tracking with self fields only (tracking.py:393). A tracker made for two profiles returns zeros for the third one of the machine as it is now, without any error; a new tracker follows the particle.
* `C105_violated_user` – C105 violated with self fields and particles given by the user. As long as no search has found an area, every such call that passes the checks stops with a `TypeError`, because `particles.xorigin` and `particles.dEbin` are set by the automatic distribution only (particles.py:146-148, tracking.py:382-389). After an automatic distribution the same call on the same machine succeeds: the outcome depends on the history.
* `C106_violated_again` – **C106 is violated by a second call** (tracking.py:275-289): the same call made twice with the same arrays gives different coordinates, because the second one starts from the particles the first one left.
* `C106_violated_in_place` – **C106 is violated by `kick_and_drift`** (tracking.py:275-289, libtomo.cpp:82-160: every turn is done in place, the copies of lines 259-260 are for the second half of the tracking): arrays of type `float64` in C order hold the particles at the last profile after the call, any other array is as it was.
* `C108_violated_default` – C108 fails: the default value of the argument `reconstruction_idx` never works. `track(machine)` raises for every machine and after any calls: a MachineParameterError if the position of the synchronous particle is negative, a TypeError otherwise.
* `C108_violated_empty` – C108 fails for `show`: a profile without samples is filled with values that are not numbers, and the measured data are lost
* `C108_violated_show` – C108 fails for `show`: plotting a result changes the measured waterfall. The charge of the reference profile computed afterwards is another one; with measured noise, where the sum of a profile can be negative, so is the profile that is reconstructed.
* `C109_violated_charge` – C109 fails for documented attributes: "All scalar attributes can be set via the kwargs", but the charge cannot be given by the name of its attribute. Whatever is given as `q`, the charge of the machine is 1.
* `C109_violated_unknown` – C109 fails for names that mean nothing: they are accepted and have no effect at all. A misspelt keyword leaves the default.
* `C110_violated_circumference` – C110 violated: the mean radius of a machine from programs. After an assignment, `values_at_turns` takes the revolution periods from the circumference of the old radius: the arrays are not those of a new machine.
* `C110_violated_limits` – C110 violated: the upper limit of the reconstructed area is computed from bins and bin width in the constructor only. A machine made with other values of them has another limit; after an assignment the old limit stays.
* `C110_violated_phases_array` – C110 violated: phases in an attribute that was given to the constructor, an array after `calc_phi12`: the next `values_at_turns` is a TypeError or another exception, never a machine.
* `C110_violated_phases_lost` – C110 violated: a machine from programs that was given no phases keeps none: `values_at_turns` discards the phases that were assigned or calculated by `calc_phi12`.
* `C111_violated_documented_name` – C111 fails for the documented name `phase_program`: the phase program has to be given as `phase_function`; given under the documented name it is ignored, and the machine has no phases.
* `C111_violated_harmonic` – C111 fails for the harmonics ("each is the harmonic of an RF station"): only their number and their ratio matter. Two calls that differ only in the harmonics, those of one a multiple of those of the other, give the same arrays; in particular with one RF station its harmonic has no effect at all. The harmonic in the drift coefficient is the keyword `h_num`, which is 1 if it is not given.
* `C111_violated_phi12` – C111 fails for the keyword `phi12`: it is documented as a phase in radians, but no value of it gives a machine whose arrays are computed.
* `C111_violated_rows` – C111 fails for the shapes of the programs ("the number of harmonics must be the same as the passed voltage and phase functions"): with one harmonic, further rows of the voltage program are neither refused nor used.
* `C111_violated_unknown` – C111 fails for names that mean nothing: they are accepted and have no effect at all. A misspelt keyword leaves the default.
* `C112_violated_int` – **C112 is violated for a ratio or a phase difference given as an `int`**, in double precision: the kernels take the 64 bit integer for the pattern of a `double`, a number below `10⁻³⁰⁰`.
* `C112_violated_phi12` – **C112 is violated in single precision: the phase difference.** The array made of it has 64 bit elements, read as 32 bit numbers: the kernels find the low half of the pattern at even turns and the high half at odd turns.
* `C112_violated_ratio` – **C112 is violated in single precision**: a harmonic ratio `±n·2^j` with `n` below `2²¹` – every integer, every half – arrives at the tracking kernels as zero, whatever the other arguments.
* `C112_violated_second_system` – **C112 is violated in single precision: the second RF system is switched off.** With a harmonic ratio as above and a phase difference both halves of whose pattern are finite `float`s, the GPU tracks exactly as with a second voltage of zero (and any ratio and phase difference), without an error.
* `C112_violated_witness` – **C112 is violated in single precision, in a concrete case**: a harmonic ratio of 2.0, no phase difference, one particle, one turn: in double precision the particle gains three units of energy, one from the first and two from the second RF system, in single precision one.
* `C114_violated_last_film` – C114 fails for the last film: the input file names the last profile to reconstruct, and the loop stops before it. A machine asked for one film shows none, where `tomo_run` with tomoscope output makes it.
* `C114_violated_wrapped` – C114 fails for particles that leave the image. There is no charge, so no self field; the image covers one RF period. Without the flag five particles are lost and the film shows the other seven; with the flag they are folded back into the image and the film shows all twelve.
* `C115_violated_compensation` – C115 violated where the bins hold different numbers of particles. The library divides the differences by the number of particles in the bin before it gives them to the particles (tomography.py:137-138, reconstruct.cpp:411); the loop of the example does not. Three particles, two profiles of two bins, no negative samples, one iteration: other weights.
* `C115_violated_negative` – C115 violated by a negative sample. The loop takes its first weights from clipped profiles (line 101) and compares with profiles that are divided by their sum but not clipped (line 107); the library clips once. Four evenly spread particles: other weights, and discrepancies against profiles that no non-negative weights can produce.
* `C115_violated_no_signal` – C115 violated by data without a signal. `Tomography(...)` raises; the loop divides zeros by zeros and ends without an error, with weights that are not numbers.
* `C116_violated_uncovered` – C116 violated where signal lies in a bin without particles. One profile with two equal samples, one particle, in the first bin: without iterations the reconstruction returns, with one iteration the weight is gone and both routines raise, although there is signal and the particle collects half of it.
* `C117_violated_cpp` – C117 violated in C++, under conditions that are sufficient in python (`C117_discrepancy_partial`): two particles in every bin of every profile, data that some weights explain exactly, no weight set to zero (the total stays). The third iteration makes the discrepancy larger, because each projection is added to the profiles of the iteration before.
* `C117_violated_cut` – C117 violated when weights are set to zero: two particles in every bin of every profile, data that no weights explain. The second iteration of `run_hybrid` sets weights to zero (the total grows) and makes the discrepancy larger.
* `C117_violated_uneven` – C117 violated where the signal lies in sparsely filled bins. One profile, three particles in the bin with a fifth of the signal, one in the bin with the rest; there are weights that explain the data exactly, and a particle wherever there is signal. The second iteration of `run_hybrid` makes the discrepancy larger than the first left it, without setting any weight to zero.
* `C120_violated_uncovered` – C120 is violated where signal lies in a bin without particles: the reconstruction of `(1/2, 1/2)` with one particle, in the first bin, raises after one iteration, that of `(1/2 + ε, 1/2 - ε)` returns the weight `2 ε`, however small `ε` is.
* `C122_violated_copies` – C122 violated: one flat profile of two bins, one particle in the first and three in the second, two iterations. Taken once, the C++ routine ends with the discrepancy `sqrt (1/144)` and the weights 5/4, 1/4, 1/4, 1/4; with every particle taken twice it ends with other weights and another discrepancy. It adds the new projection, whose total is that of the weights and therefore grows with the number of particles, to the recreated profiles of the iteration before, whose total is one.
* `C123_violated_cut_away` – C123 is violated for particles that are cut away: they have no weight but are still counted, so the result is not that of the single-bunch routine on the remaining two particles.
* `C123_violated_first_bunch` – C123 is violated when the first bunch is empty: the union is reconstructed, the bunches are not.
* `C124_violated_empty_first` – C124 is violated for failures: with the empty bunch given first the reconstruction raises, with the other first it returns.
* `C124_violated_split` – C124 is violated for the discrepancies of the bunches: the bunch at the bins 2, 3 is recreated exactly; given second it has the discrepancy of the other bunch, given first it has none. (`sqrt` is left out: mean squares.)
* `C125_violated_shapes` – C125 is violated for bunches of different shapes: half of the charge is in each bunch of every profile; the second is flat. After two iterations its weights are not half of those found for it alone, and the two bunches do not have the same total.
* `C126_violated_cupy` – C126 is violated by `reconstruct_cupy` once the image has more columns than there are particles: the fullest bin is looked for among the first `n_particles` bins only, so three empty columns in front of the bunch change the weights of its three particles.
* `C126_violated_signal` – C126 is violated from the data as measured on when there is signal where no particle is: the profiles are normalised with it. The further column, although no particle visits it, takes all weight from the third of the three particles.
* `C127_violated_repeated` – C127 violated: one flat profile of two bins, one particle in the first and three in the second, two iterations of the C++ routine. With the profile taken twice the weights are not twice those of the profile taken once, and the discrepancies differ from the first iteration on.
* `C128_violated_crowd` – C128 is violated by many particles in a bin without signal, although none of the others is ever there: one iteration, both routines. The four particles get no weight, but with them the first of the three others gets no weight either. All corrections are multiplied by the largest number of particles in any bin.
* `C128_violated_cupy` – C128 is violated by `reconstruct_cupy`, with particles without signal that meet no other and leave the largest number of particles in a bin as it is: with them there are as many particles as columns, and only then is the fullest bin among those that are searched.
* `C128_violated_shared` – C128 is violated by a single particle without signal that meets one of the others, without any change of the largest number of particles in a bin: one iteration, both routines. The third weight is more than doubled, since the bin is counted as filled twice.
* `C12_violated_empty_profile` – C12 violated (IEEE special values, rational samples): for EVERY waterfall with some positive sample and an empty profile `p0`, the constructor reports no error and stores NaN in the whole of profile `p0`, and the following reconstruction, whatever the particles and iteration count, also reports success with every weight NaN.
* `C13_violated_nan_accepted` – C13 and C14 violated: a NaN coordinate passes the range check and is stored as a huge negative index, for every object and every position.
* `C13_violated_stale_yp` – C13 violated: assigning new x-coordinates does not touch y-coordinates of another shape: afterwards `yp` has 2 rows and `xp` has 1.
* `C15_violated_back_project_multi` – C15: `collapse(3)` hands the profiles of one particle to different threads, which add to the same weight without synchronisation: an addition is lost.
* `C15_violated_count_multi` – C15: the variable `bin` of `count_particles_in_bin_multi` is shared: particles are counted in the wrong bin.
* `C15_violated_discrepancy_multi` – C15: `squared_sum` of `discrepancy_multi` is shared (and never reset, see C46): with two threads the discrepancy stored for the first bunch contains samples of the second one.
* `C15_violated_mask` – C15: the variable `bin` of `create_mask` is shared: a particle outside its bunch is kept.
* `C15_violated_project_multi` – C15: two bunches reaching a common bin add to it from different threads: weight is lost.
* `C15_violated_reciprocal` – C15: the variable `idx` of `reciprocal_particles` is shared between the threads: with two threads a compensation factor is computed for the wrong bin.
* `C17_violated_deltaturn` – C17 fails for positive offsets that `track` accepts: two profiles, two turns apart, started one turn after profile 0. Row 0 holds the untransported particle, not the particle carried back to turn 0.
* `C17_violated_self_fields` – With self fields the offset `deltaturn` is accepted and ignored.
* `C18_violated_hybrid` – C18 fails for positive offsets: on the drift machine started one turn after profile 0, the python loop writes the state of turn 0 into the *last* row (index −1), the C++ loop does not.
* `C22_violated_deltaturn` – C22 fails for *every* offset `δ ≠ 0`: `nturns - δ` calls are made, with a total of `nturns`, so the last call never reports `progress = total`.
* `C23_violated_last_profile` – C23 fails at the end of the range: the last profile is never accepted, although its turn `nturns` is tracked.
* `C24_violated_scalar` – C24 fails for the scalar `phi12` of an ordinary machine: *every* call of `track` that passes its checks reads `phi12[nturns]` from an array of `nturns` entries.
* `C25_violated_before_reference` – C25 fails before the reference frame: tracking the synchronous particle one turn back from the reference turn moves it off its zero offset whenever the machine accelerates there.
* `C26_violated_nan` – C26 fails for NaN: a particle whose coordinate is NaN is kept.
* `C27_violated_nan` – C27 fails for a NaN coordinate: it passes the filter, is cast to INT_MIN, and `Tomography.xp` rejects it.
* `C30_violated_aliasing` – C30 violated: an energy coordinate one past the image is not reported; the particle is counted in the first energy bin of the next column (for every image with at least two bins, every weight).
* `C30_violated_negative` – C30 violated: a negative coordinate in the first column makes the C++ code write in front of the image (undefined behaviour) instead of raising.
* `C31_violated_cpp` – C31 violated by the C++ code with one iteration: the image of profile 0 has column sums 11/6 and 7/6 (11/18 and 7/18 of the total), the recreated profile shown to the user is 5/8, 3/8.
* `C32_violated_last` – C32 is violated in the last bin: the only left-over sample is 0, yet the last bin is 8: it repeats the content of the preceding complete bin, so charge is counted twice.
* `C32_violated_small` – C32 is violated when the factor exceeds the number of bins: a flat profile of value 1 in 2 bins becomes, for factor 3, one bin of 6/5 instead of 3.
* `C35_violated` – C35 is violated: when the removed frame comes after the reconstruction frame 1, the returned index 0 denotes frame 0, a different measurement; for reconstruction frame 0, which is kept, ValueError is raised.
* `C37_violated_empty` – C37 fails for an empty array: `assert_array_not_equal` raises IndexError while writing its message.
* `C37_violated_nan` – C37 fails for NaN: NaN is neither greater than 0, nor less, nor in a range, yet every order check accepts it, for scalars and inside arrays, and a NaN coordinate is a "valid particle".
* `C38_violated_gaps` – C38 fails: machines that pass the validation but whose turn values cannot be computed: reference frame beyond the last profile (index error), zero transition gamma, or zero charge (division by zero).
* `C39_violated_energy_step` – C39 fails at and before the reference turn, for every machine for which `values_at_turns` returns: the step recorded at the reference turn is 0 and the one recorded at an earlier turn `i` is the step from `i` to `i + 1`. So it is wrong at the reference turn whenever that is not turn 0 and the synchronous particle gains energy there.
* `C41_violated` – C41 is violated: the returned area is always one cell short of the area that holds the fraction. A phase space whose whole content is in one cell has 90 % emittance zero.
* `C42_violated` – C42 is violated: two equally filled bins `[0,1]`, `[1,2]` have variance 1/4, the code takes the root of 5/16; moving the axis by 10 changes the result to the root of 485/16, although the variance stays 1/4.
* `C43_violated` – C43 is violated: assigning an all-zero waterfall of three bins raises WaterfallReducedToZero, but the good waterfall is gone and the machine still has two bins.
* `C44_violated_acceleration` – C44 fails under acceleration: the interval is measured at the last turns, where a bin is largest. Here it holds three bins of those turns but six bins of turn 1; the table has four columns, and tracking a particle of phase 7/2 down from profile 1 raises an IndexError.
* `C45_violated` – C45 fails: a particle in bin 3 tracked one turn up and one turn down comes back with energy 5 instead of 0 and at phase 17/2 (bin 2.5) instead of 7/2.
* `C46_violated_first_bunch` – C46 is violated when the first bunch is empty: the run is given up although the second bunch holds everything.
* `C46_violated_memory` – C46 is violated for particles moved out of the image: although they are outside the cuts of their bunch and the coordinates are accepted (`InRange`), they are counted and projected — outside the buffer, or into the next profile (bin 0 of profile 1 gets two counts, one of them from profile 0).
* `C46_violated_split` – C46 is violated for the discrepancy of a bunch: the second bunch is recreated exactly (its mean square is 0) but gets 1/1024; the first has mean square 1/256 and gets 1/1024 too. (`sqrt` is left out: mean squares.)
* `C47_violated_device_id` – C47 is violated (device identifier): the device opened first is kept for ever; `use_gpu(j)` after `use_gpu(i)` succeeds and goes on using device `i`.
* `C47_violated_failed_precision` – C47 is violated: a `set_single_precision` that fails to compile the kernels leaves the precision changed and the kernels unchanged; the GPU stays in use.
* `C47_violated_never_recovers` – C47 is violated (selection): once the first `use_gpu` has failed for any other reason than a missing CuPy, no `use_gpu` of the same process ever succeeds, even when the reason of the failure is gone.
* `C47_violated_precision` – C47 is violated: `use_gpu(); use_cpu(); set_single_precision(); use_gpu()` raises nothing and leaves kernels of double precision in use, while arrays are made in single precision.
* `C49_violated_fit` – C49 fails for the fit when the voltages differ: one system, no voltage at the index of the reference frame.
* `C49_violated_phase_low` – C49 fails for `phase_low`/`dphase_low` when the voltage changes between the turn of the fit and the reference index: with voltage 0 at index 0 and 1 at index 1 the function is constant, the claimed derivative is not zero.
* `C51_violated_assertion` – C51: the consistency assertion does not look at column `imax`, whose limits may be anything.
* `C51_violated_symmetry` – C51 fails on symmetry: the full image of four bins with the synchronous energy in the middle gives the cells 1, 2, 3.
* `C51_violated_upper` – C51 fails when the maximal time lies beyond the image: `imax = nbins` is accepted, and the distribution then fails with an IndexError.
* `C52_violated_density` – C52 violated: the small cell (1/101 of the total, threshold 1/50) of the caller's array is set to zero.
* `C52_violated_particles` – C52: `particles.coordinates_dphi_denergy`, documented as the initial distribution, is what gets overwritten: after tracking one turn it holds the cloud at the last profile.
* `C53_violated` – C53 fails: with a window of three bins (columns 0, 1, 2) the area still contains column 3 (with energy limits 1 and 4), because the limit is only applied when the window ends strictly before the last column.
* `C54_violated_centres` – C54 violated: the centre of every cell is half a bin away from the axis values, in time and in energy.
* `C56_violated_early_reference` – C56 violated: the reference time lies before turn `i0`; no turn is returned and no error raised.
* `C56_violated_first_turn` – C56 violated: the first turn has the momentum of the start of the program, not the one at its time (2 at time 1).
* `C56_violated_missing_turn` – C56 violated: a program with a point per turn that goes on long after the turns wanted; 4 turns are asked for (2 profiles, 2 turns apart), 3 are returned.
* `C56_violated_not_enough_data` – C56, all outcomes: for every momentum program the computation ends with turns, with IndexError, or with ValueError because no turn lies at or after the reference time. The message "Not enough data in momentum program" is never given: a program that is too short is an IndexError.
* `C57_violated_baseline` – C57 is violated for fewer than 20 bins: the baseline is 0/0, so every sample becomes NaN (and is stored as such).
* `C57_violated_repeat` – C57 is violated by repeating the call: every call divides the machine's synchronous position again, so the second, identical call yields a position `rbn` times smaller.
* `C58_violated_array` – C58 violated: an array for the phase difference never gives a machine.
* `C58_violated_modes` – C58 violated: `calc_phi12` has three documented modes; bunch shortening (0) and bunch lengthening (1) give the same phases.
* `C58_violated_number` – C58 violated: a number for the phase difference never gives a machine.
* `C60_violated_counts` – C60 is violated: the hybrid routine hands the coordinates over transposed, so its compensation factors belong to other bins.
* `C60_violated_mask` – C60 is violated: on one bunch, one profile, cuts `[0, 2]` the hybrid routine drops the particle on the cut, the C++ routine keeps it.
* `C60_violated_one_bunch` – C60 is violated: one bunch spanning the image, two profiles, three particles, one iteration. The compensation factors belong to other bins, so the multi-bunch routine drops a particle that the single-bunch routine keeps and reproduces the profiles differently.
* `C61_violated_few_particles` – C61: with fewer particles than bins, `reconstruct_cupy` looks for the fullest bin among the first `n_particles` bins only: here the compensation factors become 0 instead of 1 (and the second iteration of the C++ code is a different one).
* `C62_violated_first_bin` – C62 fails upwards for bin 0: index `-1` is the last column, which is zero whenever the table is longer than the image, so these particles feel no field.
* `C62_violated_upward` – C62 fails upwards: a particle in bin 3, where the tabulated voltage is 3, gains 2, the voltage of bin 2; a particle in bin 0 gains the last column.
* `C64_violated_energy_step` – C64 violated: entry `n` of the energy differences is not the difference between turn `n` and turn `n - 1`.
* `C64_violated_time` – C64 violated: on a ramp the time between two turns (first and second of three) is not the time between the moments their momenta belong to.
* `C64_violated_too_few_steps` – C64 violated: with one turn per profile, tracking to the last profile reads past the end of the energy differences.
* `C65_violated_first_bin` – C65 violated: bin 0 is never looked at. The bunch is surrounded by empty bins, yet its lower limit is an UnboundLocalError; the mirrored profile, with one empty bin after the bunch, is accepted.
* `C65_violated_reference` – C65 violated: the number of the reference frame is used as the number of a turn. With a single RF system whose voltage there (`v1r`) differs from the one at the turn of the fit (`v1t`), whenever the beam is accelerated and the fit succeeds, the two ends of the fitted bunch do NOT lie at the same potential.
* `C66_violated_upper` – C66 fails when the maximal time of the machine lies beyond the image: on the loaded machine above with a maximal time of four and a half bins instead of four the limits pass the check of the code, and the run ends in an access outside an array.
* `C67_violated_file` – C67 fails for every file: the self-field switch, the coupling coefficient, the wall impedance and the pickup sensitivity written in a parameter file have no effect on the result.
* `C67_violated_self_field_ignored` – C67 fails: the self-field switch of the input file has no effect on a run, for any machine, data, profile and output mode; whatever the self-field branch would compute is not used.
* `C68_violated_film_alias` – C68 fails for particles above the image. At profile 1 the five particles are at `(1,3), (2,3), (3,3), (1,4), (2,4)`. The film shows weight in the cells `(2,0)` and `(3,0)`, where no particle is.
* `C68_violated_film_range` – C68 fails: the last film is not compared with the number of profiles. Asking for a film past the last profile stops the run with an IndexError after the reconstruction.
* `C68_violated_film_step` – C68 fails: a negative film step passes the input assertions, gives no films, and the run stops with an UnboundLocalError after the reconstruction, for every machine and all data.
* `C68_violated_film_stops` – C68 fails: with a particle above the image in its last column the run stops with `std::out_of_range` while writing the films, although the reconstruction succeeded.
* `C69_violated_window` – C69 fails: the file says to reconstruct one sample beyond the end of the data (a negative number of empty bins, with the whole region asked for). Every check accepts it and it is loaded; the run then ends with an IndexError.
* `C72_violated_mirror` – C72 is violated: two profiles of nine bins, each its own mirror image, have different centres.
* `C72_violated_upper` – C72 is violated: the upper foot is wrong by an amount that depends on the profile, so no convention for the position of a bin makes it right. The formula for the upper foot has a factor 6 where the line of least squares has 5.
* `C73_violated_filter` – C73 is violated: the filter does nothing. A window of five values is fitted with polynomials of degree four, which pass through all of them; the argument `apply_filter` has no effect on any profile of at least five values.
* `C74_violated_faint` – Not normalised with too little content: every share has the same emittance, the whole image less one cell.
* `C74_violated_scale` – C74 is violated for images that are not normalised: the "share" is compared with the absolute content, so the same distribution in other units has another emittance.
* `C74_violated_short` – C74 is violated by every image: the result is never the smallest area.
* `C75_violated_row` – … and with one side of length 1 the image is repeated: the mean is far outside the bins of a normalised image.
* `C75_violated_scale` – C75 is violated for images that are not normalised: one cell with content 2 has no spread, but the variance computed is negative and its root is no number.
* `C75_violated_square` – C75 is violated for images that are not square: they are refused with an unrelated error of numpy (unless one side is 1).
* `C76_violated_below` – C76 is violated below transition, where the potential has its minimum at the synchronous phase: every level above the potential one grid point before the synchronous phase gives that grid point as the left end, whatever the length of the bunch the level is meant for.
* `C76_violated_flat` – … so the contour is flat: every height where the potential is at least the one at that grid point is zero.
* `C76_violated_programs` – C76 is violated by machines made from programs: they have no `vrf1`, so no matched area is ever returned.
* `C76_violated_programs_error` – … with the error `AttributeError` whenever the frame exists
* `C77_violated_first` – C77 is violated by the extrapolated first point: it may lie above all densities found.
* `C77_violated_high` – … while a contour that reaches above the image is accepted, and its share grows without bound.
* `C77_violated_low` – C77 is violated by contours that reach below the image: the call fails with `ValueError` …
* `C77_violated_programs` – C77 is violated by machines made from programs, which have no `vrf1`.
* `C77_violated_thin` – C77 is violated by thin contours: where the half height is positive but below every energy of the image (an odd number of bins has none at 0), the call fails with `IndexError`.
* `C77_violated_thin_call` – … then no result is returned for any number of contours
* `C78_violated_beyond` – C78 is violated by particles whose times are not between the first and the last bin: they are never clipped, whatever their energy.
* `C78_violated_none` – C78 is violated when no contour is asked for: an unbound variable is read.
* `C78_violated_programs` – C78 is violated by machines made from programs, which have no `vrf1`.
* `C78_violated_single` – C78 is violated when a slice holds exactly one particle inside the contour: nothing is returned.
* `C78_violated_single_error` – … the error is `AttributeError`: one particle in the middle of the contour
* `C80_violated_difference` – C80 fails: from the entry number 100 on the columns are shifted by one in one of them.
* `C80_violated_negative_index` – C80 fails: the last profile, asked for by the index `-1`, is written as profile number zero.
* `C81_violated_other_profile` – C81 fails for a run that reconstructs another profile than the first film: the plot information still names the first film and its phase. Here profile 2 (index 1) is reconstructed and profile 1 is reported.
* `C82_violated_gpu` – C82 fails on the GPU: nothing is printed although it was asked for.
* `C82_violated_gpu_done` – C82 fails on the GPU: the last line has no blank in front, so that the two outputs differ.
* `C82_violated_self` – C82 fails with self fields: the first message leads from the profile to itself, on the way down every message is one too low, and the last one names a profile number zero.
* `C83_violated_large` – C83 fails for large arguments: from about `1.69e9` on the octant does not fit into an `int`; the conversion is undefined in C++. A particle gets there when it slips in phase for long enough.
* `C85_violated_transition` – C85 fails when transition is crossed: the search starts where the previous turn ended, so the phase stays on the slope chosen at the reference frame, and one turn after the reference frame, above transition, particles are driven away from the synchronous one.
* `C87_violated_single_array` – **C87 is violated in single precision for an array `phi12`** (every machine with programs: programs_machine.py keeps `phi12` a `float64` array and tracking.py:207-214 passes it without a cast). No single precision overload takes the call and the first double precision one that does works on converted copies. The caller's arrays are not among them, and `track` drops what the compiled function returns (tracking.py:207): whenever the tracking succeeds, the two arrays `track` returns hold nothing but the zeros they were created with.
* `C87_violated_single_int` – **C87 is violated in single precision for integers** with a pybind11 that does not take a python `int` for a `float` parameter: a phase difference or harmonic ratio given as an `int` (such as the `h_ratio = 1` of programs_machine.py:165) sends the call to the double precision routine, on copies. The returned arrays hold nothing but zeros whenever the tracking succeeds.
* `C87_violated_single_witness` – in single precision it gives zeros, without an error
* `C88_violated_lost_step` – **C88 is violated by the steps without a return value** (libtomo.cpp:42-79, 113-140: `kick_up`, `kick_down`, `drift_up`, `drift_down` work in place and return nothing): on any array of phases that is not `float64` in C order the call succeeds and changes none of the caller's arrays, the step is lost.
* `C88_violated_program_kick` – **C88 is violated for machines with programs**: `libtomo.kick` reads `machine.phi12` as one number (libtomo.cpp:93), so it raises `TypeError` for every machine whose `phi12` is an array with more than one value, and with it every tracking in python steps (tracking.py:216-307 `kick_and_drift`, 300-440 `kick_and_drift_self`).
* `C89_violated_fortran` – **C89 is violated for a waterfall in Fortran order** (for instance the transpose of a C-ordered array): the cast keeps the memory order (`np.array(arr, dtype=...)`, tomo_config.py:212-226), no overload takes it without a conversion, and the first one that does is the double precision one: in single precision the reconstruction runs and returns in double precision.
* `C89_violated_phase_space` – **C89 is violated by `phase_space`** (data_treatment.py:155-160): it passes columns `xp[:, i]`, which are not contiguous, so the call needs a conversion and goes to the double precision routine: in single precision the density comes in double precision, unlike the image of the same data (`C89_image`).
* `C92_violated_boundary` – C92 fails for particles on a bin boundary: whatever accuracy is asked for, there is a floating point unit of that accuracy that puts a particle with exact coordinate 1 into bin 0, although the exact computation (and C92 off the boundaries) puts it into bin 1.
* `C92_violated_doubles` – C92 on a boundary, in doubles: phase 7/5 and origin 2/5 give the coordinate 1, but in double precision 1.4 - 0.4 is the number below 1, and the particle is put into bin 0.
* `C93_violated_same_bits` – C93 is violated if the same bits are expected from every run: three particles with the weights `1`, `3·2⁻⁵⁵` and `3·2⁻⁵⁵` in one bin; in double precision `project` leaves `1` in the bin when the heavy particle is added first and `1 + 2⁻⁵²` when it is added last.
* `C95_violated_zero_discrepancy` – C95 violated: one flat profile of two bins, one particle in the first and three in the second. After one iteration the C++ routine reports the discrepancy `sqrt 0`, although its weights project to (5/8, 3/8) instead of (1/2, 1/2); the second iteration then moves away from the data again, to (7/12, 5/12). For every square root function.
* `C96_violated_left_cut` – C96 is violated: to keep the particles in bin 0 the left cut has to be -1, since the comparisons are strict; the python slice `[-1:2]` of the differences is then the last column only, divided by three columns: 49/1728 is reported instead of 49/576.
* `C97_violated_exception` – C97 is violated: an `nvcc` that cannot be executed ends in another exception than `CudaCompilationException`.
* `C97_violated_failed_compiler` – C97 is violated (for a compiler that leaves its old output when it fails): the sources are changed, the forced compilation fails because the compiler rejects them — and reports success, since the return codes are not looked at and the old binaries are there. The kernels loaded afterwards are those of the old sources.
* `C97_violated_mixture` – C97 is violated: both sources are changed and the forced compilation is killed after two commands. All files exist, so the next start loads the new kernels for tracking together with the old ones for the reconstruction.
* `C97_violated_other_device` – C97 is violated: the kernels are always compiled for device 0, whichever device is going to be used: on a machine whose device 1 has another architecture, the binaries loaded on device 1 are not built for it, even right after a successful forced compilation.
* `C97_violated_stale` – C97 is violated: a changed source is not noticed without `force`; nothing is compiled and the old kernels are loaded.
* `C99_violated_gpu` – C99 is violated: phase spaces on the GPU have no summary, no emittance and no momentum spread
* `C99_violated_position` – C99 is violated: `emittance_fractional(phase_space, t_bins, e_bins, fraction)` with the documented fourth argument given by position is never accepted, nor is `emittance_rms` of numbers other than python floats and double precision ones
* `C99_violated_single` – C99 is violated: a phase space of single precision with bins of single precision has no summary and no rms emittance
* `C99_violated_two_dimensions` – C99 is violated: bins of two dimensions, which the documentation allows, are rejected by every function that needs a standard deviation, whatever the phase space
<!-- findings:end -->

## 7. Tests of the theorems

`seeded/LOG.jsonl` holds one line per wrong program tried. `tools/mutate.py` applies an edit to one definition of the model
in a scratch copy, rebuilds, and maps the failing proofs to the property theorems that depend on them. When a property is
hidden behind a failed file, the failed helper proofs are replaced by `sorry` in the scratch copy only, and the
build continues. Edits that survived led to the tightenings recorded in the field `tightened`.

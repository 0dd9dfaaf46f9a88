# Formal model of at-wat/mcl_3dl in Lean 4 — design

## 1. Trusted base

* **Lean 4.33.0's kernel.** No axiom is declared in this project; theorems may depend on
  `propext`, `Classical.choice` and `Quot.sound` only (the last two enter through Mathlib).
  No `native_decide`, no `bv_decide`.  `tools/axioms.sh` prints the axioms of every theorem named
  in `MANIFEST.json`.
* **Our reading of the C++ text.** The code is not compiled or run here. Every model definition
  carries a comment with the file and lines it models and the simplifications made.
* **Arithmetic.** C++ `float`/`double` are modelled in one of three ways, always stated at the
  definition:
  1. *abstract arithmetic*: the definition is generic over a type `F` that has only operation
     symbols (`+ * / 0 1 < …`) with **no laws at all**; theorems there hold for any arithmetic,
     including IEEE-754 with rounding, NaN and infinities;
  2. *exact arithmetic*: ordered fields / ℝ; theorems hold for the ideal real-number program,
     rounding is outside the model;
     (C138, C158 and C161 instead assume only the standard model of rounding errors, `Spec/Rounded`, C158 also that
     rounding is monotone, `Spec/RoundedResample`; likewise C170 and C173 with `Spec/RoundedGeom`, and C175 with monotone
     rounding alone);
  3. *extended reals with NaN* (`XR`): exact values plus `nan`, `+inf`, `-inf` with the IEEE
     propagation rules, to exhibit the non-finite behaviours.
  *Division by zero*: Lean's `x / 0` is `0`. Where the program would convert the resulting infinity or NaN to
  an integer, the model returns `ub`; where it would go on with NaN, the theorems about exact arithmetic assume
  the divisor (variance, time constant, …) is not zero, and C80/C141 state over `XR` what happens for zero.
* **External components as parameters with a stated contract**: random engines (an arbitrary
  sequence of draws), `std::sort` (*any* permutation that is ordered — it is not stable),
  `pcl::KdTreeFLANN::radiusSearch` (points within the radius, nearest first), `pcl::VoxelGrid`
  (arbitrary function), tf2 lookups (arbitrary `Option` results), ROS message delivery (arbitrary
  event sequences, one callback at a time — the node is single threaded: `ros::spin`),
  `ros::Time` and `ros::Duration` (exact numbers; C159: an operation throws iff its result is out of range),
  user callbacks of the accumulation logic (arbitrary success/failure results).
* **Not modelled**: memory allocation failure, thread interleavings (none in the code), ROS
  transport, dynamic loading, logging, the C++ type system, PCL/Eigen internals, rounding in the
  geometry (quaternion/ray) theorems other than C170 and C175, in the smoothing other than C173.

## 2. Undefined behaviour

`Outcome α` (`Verif/Model/Outcome.lean`) has three results: `ok a`, `throws msg`, `ub reason`.
Operations which can read past the end of a container, divide an integer by zero, evaluate a
negative left shift or read an uninitialised value return `Outcome`, so "never undefined" is a
theorem and each precondition is visible.

## 3. Layout

* `lean/Verif/Model/*`   the model: one file per source file, definitions only.
* `lean/Verif/Spec/*`    small independent specifications used in the statements.
* `lean/Verif/Proofs/*`  helper lemmas.
* `lean/Verif/Props/*`   property theorems `Cxx_…`, each with a non-vacuity `example`.
* `lean/Verif/Tests/*`   the project's own unit tests replayed on the model (kernel-checked `example`s). They are
  evidence that the model behaves like the program, not proofs of any property.

## 4. Properties that do not hold as one would expect

Where the unchanged code does not do what a user would expect, the property in `properties.jsonl`
states exactly what it does and under which condition the expectation holds (if possible as an
"if and only if"), followed by the expectation in parentheses. The exact statement is proved for all
inputs; beside it a concrete witness (`Cxx_…_example`, or a name saying what happens) shows that the
expectation really fails. Section 7 lists these findings. No theorem name carries `_partial` because no
property is left partly proved.

## 5. Plan per property

| id | modelled | proof |
|---|---|---|
| C01–C09 | `CloudAccumulationLogic(PassThrough)::push` as a step function that emits the trace of callback calls; callback results are an arbitrary oracle. | refinement to a batch specification; induction on the list of pushes |
| C10–C27 | `ParticleFilter` member functions, generic in number type and state type; resampling with arbitrary sort permutation and arbitrary draws. | induction on particle lists; systematic-sampling count lemma with `Nat.ceil/floor`; `Real.log` concavity (Jensen) for entropy |
| C28–C39 | `Quat`, `Vec3` over a commutative ring/field or ℝ. | `ring`, trigonometric identities, `Complex.arg` for `atan2` |
| C40–C45 | `State6DOF` | algebra; induction for loops (`while (diff > π)`) |
| C46–C51 | `Filter`, `FilterVec3` | closed-form recurrences, induction on the input list |
| C52–C57 | `ChunkedKdtree` with the PCL tree as a contract | geometric covering argument |
| C58–C65 | `RaycastUsingDDA`, `RaycastUsingKDTree` | invariants over `getNextCastResult` calls |
| C66–C71 | both lidar measurement models | case analysis, monotonicity, induction on clouds |
| C72–C76 | samplers | invariants over an arbitrary draw stream |
| C77–C81 | motion model, gaussian, IMU model | algebra, analysis |
| C82–C101 | the node `MCL3dlNode` as an event-driven state machine | invariants over arbitrary event histories |
| C102–C106 | parameters, compatibility helpers, point conversion | decision tables, case analysis |
| C107, C132 | `RaycastUsingKDTree` stepping; the order of `setInputCloud` / `setPointRepresentation` / `setEpsilon` calls on `ChunkedKdtree` | contract of the search tree; case analysis over call sequences |
| C108, C109 | landmark measurement (`cbLandmark`'s 6-d density), `MultivariateNoiseGenerator` | positive definite quadratic forms; spectral decomposition as an arbitrary valid answer of the solver |
| C110–C118 | the whole measurement callback (`cbCloud` → `accumCloud` → `measure`) over arbitrary histories | run invariants; the particle filter steps composed; Bayes' rule stated in `Spec/NodePosterior` |
| C119, C120 | `Quat::weighted`; per-slot action of predict / noise / bias / measure | real trigonometry; list induction |
| C121–C130 | noise, drift, resampling, expansion, covariance, markers, saved map, landmark callback, start-up | description relations in `Spec/NodeNoise`, `Spec/NodeCovariance`, `Spec/NodeMarkers`, `Spec/NodeLandmark`; composed from the particle-filter lemmas |
| C131 | `Parameters::load`, the model parameter loaders and `configure`'s own reads | table of names and defaults in `Spec/ParamTable`, written from doc/Parameters.md; equality of loaded fields |
| C133, C134 | the low-pass filters of the node: tolerance of transforms and particles, smoothing of the map-to-odom transform | invariant over runs relating the filter state to the past inputs (`Spec/NodeTolerance`, `Spec/NodeSmooth`) |
| C135, C136 | fake IMU and odometry: the mutual calls of `cbOdom` and `cbImu` | simulation: the run equals that of a node without the option on the history with the made-up messages inserted (`Spec/NodeFake`) |
| C137 | `diagnoseStatus` and the status messages of the cloud callback (`Model/NodeDiag`) | case analysis of the callbacks and the invariants of C86/C87 |
| C138 | `ParticleFilter::measure` over any arithmetic that satisfies the standard model of floating-point rounding (`Spec/Rounded`) | error bound of a left sum by induction; Bernoulli's inequality |
| C139 | the node of C110 with the modelled ray casters in place of an abstract one, an exact kd-tree search, over any history | the invariant of the DDA cache (every cached grid belongs to a map of the history) and unit orientations of all particles along the run; termination and absence of overflow of both casters' loops |
| C140 | `setInputCloud`, `getChunkId`, `radiusSearch` with NaN/infinite coordinates (`XR`), conversions to `int`, sums of ids and hashes checked one by one (`Model/ChunkRange`) | each checked step is shown to succeed exactly if the indices fit, then it equals the unchecked model |
| C141, C142 | particle filter, densities, gravity model and motion model over `XR` (`Props/NonFinite`) | propagation of NaN and infinities through the generic model; list induction |
| C143 | one- and n-dimensional densities of nd.h (`Model/Num`, `Props/Density`) | Mathlib's Gaussian integrals; change of variables by the square root of the matrix |
| C144 | resampling of equally weighted particles (`Props/PFFlat`) | closed form of the scan (C16–C20) specialised; cut positions computed |
| C145 | kd-tree ray cast against points of a plane (`Props/KDRayWall`) | nearest points from C107, Pythagoras for the plane, triangle inequality |
| C146 | prediction of planar motion (`Props/MotionPlanar`) | yaw quaternions as a one-parameter group; induction over the steps |
| C147 | the node with the normal-weighted sampler (`Spec/NodeNormal`, `Props/NodeNormal`, runs in `Props/NodeNormalDemo`) | particle statistics as a weighted mean and covariance over the counted particles; C73/C74 for the selection; invariant of C110 extended by positive weights |
| C148 | all operators of vec3.h and quat.h, compound assignments with aliasing (`Model/QuatAssign`, `Spec/Algebra`, `Props/Algebra`) | maps to Mathlib's `Quaternion ℝ`, `crossProduct`, `EuclideanSpace` shown to preserve every operation |
| C149 | rigid motions (`Spec/Frame`) against motion model, likelihood field, gravity, landmark and estimate (`Props/FrameInvariance`) | quaternion identities, induction over the odometry sequence, C71's formula for the score, uniqueness of the look-at orientation |
| C150 | the whole filter over two state types (`Spec/Relabel`, `Props/Relabel`) | simulation: one step commutes with the translation for each operation, then induction over the history |
| C151 | both `operator[]` and the loops of `operator+`, `operator-`, `generateNoise` as written (`Model/StateIndex`, `Props/StateIndex`) | case analysis over the indices; the loops are shown equal to the closed forms used elsewhere |
| C152 | the existing models of the casters and of the two measurement models (`Props/ScanOrder`); answers without the state left behind in `Spec/ScanOrder` | invariant: the stored grid is the one a new object would build; the loop over the points is a fold of answers independent of the caster state, so adjacent points can be swapped |
| C153 | the existing model of the filter (`Props/ParticleOrder`) | permutation invariance of sums and folds of commuting steps; `C26`, `C25` for the early exit |
| C154 | the model of `resample` with the draw as argument; the average is the integral over the draw (`Spec/Draws`, `Props/PFUnbiased`) | for each draw the family of j holds the scan positions in its weight interval; the comb of scan positions shifted over one step covers the interval once |
| C155 | the existing model of the filter (`Spec/Concentrate`, `Props/Concentrate`) | induction over the measurements on the ratio of the others' weight to that of j, from Bayes' rule (C11) |
| C156 | bias and estimate over any number type, the node's at the reals by `rfl` (`Model/Estimate`, `Spec/Finite`), read over `XR` | embedding of finite arithmetic, case split on the parallel case, induction over the measurements (`Props/Opposed`) |
| C157 | the existing models; `OnMap`/`offMap` count points near the map (`Spec/Aligned`) | sum of per-point gains (C71) bounded point by point, equality case by induction over the scan; C155 for the limit (`Props/Aligned`) |
| C158 | rounded arithmetic with monotone rounding (`Spec/RoundedResample`); `Filter.resample` over any such number type | each running total differs from the previous one plus the weight by one rounding only, so the error of a share does not accumulate; counting of scan positions in intervals; scans beyond the computed total are at most 1 + 4 N u; truncating arithmetic with p digits satisfies the contract |
| C159 | list of the time computations of each callback (`Model/NodeTime`), range of `ros::Time` and `ros::Duration` (`Spec/RosTime`), node state machine | invariant over histories: every stored time is a stamp, a clock reading or 0; the tolerance base is a low-pass of values in [0,1]; by the step relation the first measurement still has the initial time |
| C160 | node state machine; `Spec/NodeLive` counts clouds and names the conditions on the continuation | potential argument: each usable cloud lengthens the collected batch by one or ends it, and the batch never exceeds its maximum (invariant over histories); with C89 one of `skip_measure` successive batches is measured, with C112 it is published |
| C161 | particle filter and mean over an arithmetic with the standard model of rounding (`Spec/Rounded`) | error bound of a rounded sum by induction, of a quotient of two such sums, and for the early exit a bound on the exact weight of the particles left out |
| C162 | node state machine; the display settings and the display members (`Spec/Display`) | simulation: the state with other display members is preserved by every callback; the cloud callback as one expression of accumulation and measurement; induction over the history |
| C163 | the beam evaluation and the markers with whole cast results (`Model/BeamResult`); proved to be those of `Model/Lidar` and `Model/NodeMeasure` with the positions left out | simulation between the two loops; induction over the results; geometry of the cell |
| C164 | the frame_ids of the map clouds beside the node's heap of clouds (`Model/NodeFrames`) | invariant over histories: the frame of the base cloud is the one of the last accepted map; projection to the node's run |
| C165 | the existing node model; `Spec/DeadReckoning` defines the motion from the odometry messages alone | invariant over histories (every particle is an earlier one moved by the motion so far), using unit quaternions; telescoping of the increments; C114 for the estimate |
| C166 | `Model/Sampler.uniform` under all `N^num` sequences of draws; `Model/Lidar` | the sample is the sequence of the drawn points; sums over functions factor into products of sums |
| C167 | the sampler over the product measure of uniform numbers on [0, 1), with the weights written out | conditioning on the first number of the stream (it and the others are independent), a recurrence for the probability of every sequence of picks, and a disjoint union over the orders of the set |
| C168 | start-up, `cbPosition`, `cbExpansionReset` and `cbCloud` of `Model/Node` over the product measure of standard normal numbers | the positions of the numbers used are explicit and different, so the blocks are independent; the law of a linear image by characteristic functions; `NoiseSwap` runs the same localization with other numbers, and the sources of the resampled particles do not depend on them (`C17_sources`) |
| C169 | `Env.withDrift` replaces the numbers drawn for the odometry errors; the node model is run with a stream of independent standard normal numbers (`normalStream`); `driveLaw` is the product of two normal laws | `NoiseSwap`: the same localization with other numbers changes only the error coefficients; C86 gives the effect of the odometry message on each particle; `gaussian_pair` adds the two independent normal terms (`gaussianReal_conv_gaussianReal`); blocks of four numbers are independent (`stream_blocks`) |
| C170 | the generic quaternion, motion and filter models over any arithmetic with bounded rounding errors, underflow and any sine/cosine near the unit circle | error propagation through dot, norm, product and inverse, then induction over the messages; instance: arithmetic cut off after 24 binary digits |
| C171 | node, smoothing filters, odometry gate | C165 gives the estimate; every correction of the trace is computed from it; C134's smoothed sequence of equal inputs after a jump is constant, else contracts |
| C172 | node and filter without particles | resizing to zero empties the filter and nothing else; no particles is an invariant of every callback that ends; the preparation of a measurement does not depend on the particles, and max() of none is undefined |
| C173 | the filter over a number type with rounding (RoundedGeom of C170), beside the exact filter with the same inputs | the coefficients are close to the exact ones; the error of the inner state contracts by (1-2T)/(1+2T) up to rounding, so its bound 13 u S^2 M is an invariant of every call; the output error follows |
| C174 | motion model, particle filter, estimate and smoothing over the extended reals with NaN | zero times anything is zero or NaN, and normalizing a quaternion of zeros and NaNs gives NaN; NaN in one component reaches all through the product; being lost is an invariant of every filter operation except a new placing; the estimate by C156 |
| C175 | `Model/DDAMachine` (the caster with the arithmetic abstracted to subtraction, conversion to cell and comparison; end cell and axes arbitrary), `Spec/DDAMachine` (monotone arithmetic, reachable states, rounding, view of the exact caster) | invariant over all reachable states: the sizes come from the corners by the same expression as the cells, so monotonicity puts every in-box point in the grid; a ray that may still advance is in the grid; refinement of `Model/DDA`; NaN by computation |
| C176 | likelihood-field model, pose transformation; `Spec/Smooth` has the distances | the gain is a clipped distance to the nearest map point, which changes at most by the distance moved (triangle inequality in the weighted norm); sums; the displacement of a turn is 2 |v x p| |
| C177 | particle filter over any ordered field, repeated measurements (`Spec/Concentrate`), closeness of weights in `Spec/Stable` | by induction the weights agree up to one common factor and a factor between a^n and b^n; the common factor is bounded since both sum to 1; the estimate by comparing weighted sums; C176 for scans |
| C178 | likelihood-field model with an exact search; `Spec/MapLocal` says that maps agree near a point | the nearest distance below the radius is determined by the points within it; the minimum over more points is smaller; per-point bounds summed |
| C179 | beam model with the kd-tree caster and an exact search; `Spec/RayLocal` says that maps agree along a ray | the searches at a sample and two steps before see the same points; the nearest point is unique by assumption; the loops are equal step by step |
| C180 | two runs of the node; `Spec/FarMap` says that maps look alike to a measurement from a pose | the caster state is the kd one in all reachable states; C178 and C179 give equal likelihoods for all particles; the rest of the measurement does not read the map |
| C181 | the node with its own ray casters as in C139; `Spec/Agree` says that particles agree | weighted sums of unit vectors in two cones that together fill a right angle are not parallel (Bessel's inequality); then C139 |
| C182 | `Model/ChunkFloat`: the chunk number, the position in the chunk and the border with a rounding after each operation, nothing assumed about it; `Spec/ChunkFloat`: the error contract | error analysis of the three quantities along one axis, then as C52; a rounding that snaps to 1 loses a point |
| C183 | the models of C58-C64 and C66-C70; `Spec/DDALocal`: same box, points along a ray, what a result says | the two casters run in lockstep with the same ray state; induction on the calls, for the beam on the remaining cells; a pair of maps with different boxes is evaluated |
| C184 | the models of C58-C70 with a caster that also counts the calls (`Spec/BeamWork`), proved not to change the measurement | a variant (remaining steps) for each caster, an invariant of the loop over the results, induction on the points; the number of steps from the floor of the length, for the grid from the index differences along the axes and Cauchy-Schwarz |
| C185 | the node model and C129 | the published matrix is that of C129 over all particles; Cauchy-Schwarz by a discriminant, Popoviciu's inequality by shifting the centre, wrapped angles are within pi |
| C186 | the node model and the batches of C111 | induction over the history: a cloud is added only while the batch is not complete; the invariant of C111 says that the members hold the batch |
| C187 | the node model, C91 and C95 | induction over the history with the view of a step: a measurement shrinks towards num_particles, requests set the number, everything else keeps it |

## 6. Modelled code

Every line range is cited at the definition that models it. Summary:

| /repo | model | modelled | not modelled |
|---|---|---|---|
| `cloud_accum.{h,cpp}` | `Model/CloudAccum` | both logics, all calls, any callback results | – |
| `pf.h` | `Model/PF` | all members of `ParticleFilter`, `ParticleWeightedMean(Quat)` | the random engine (arbitrary draws) |
| `vec3.h`, `quat.h` | `Model/Quat` | all operators and conversions | rounding; stream output |
| `state_6dof.h` | `Model/State6DOF` | state, `ParticleWeightedMeanQuat`, noise, `covElement`, `generateNoise` | Eigen storage |
| `filter.h`, `filter_vec3.h` | `Model/Filter` | all | rounding |
| `chunked_kdtree.h` | `Model/ChunkedKdtree`, `Model/ChunkRange`, `Model/KdtreeSettings` | chunk assignment, overlap copies, hash, integer ranges, search dispatch, settings | FLANN itself (contract `Spec/KdSearch`); the node model uses the version without integer ranges |
| `raycast.h`, `raycast_using_dda.h` | `Model/DDA` | grid construction, `setRay`, stepping, incidence angle, integer ranges | – |
| `raycast_using_kdtree.h` | `Model/KDRay` | stepping, collision, incidence angle | – |
| lidar measurement models | `Model/Lidar` | filters, sampling, beam status, likelihood field, beam likelihood | plugin loading |
| random samplers | `Model/Sampler` | uniform sampler, normal-weighted sampler | normal estimation and eigen solver (oracles) |
| motion / IMU models, `nd.h` | `Model/Motion` | all | – |
| noise generators | `Model/State6DOF`, `Model/MultiNoise` | diagonal, multivariate | – |
| `point_conversion.h`, `point_types.*` | `Model/Conv` | field test, conversion, element access | byte layout of PointCloud2 |
| `parameters.*`, `compatibility.h`, `configure()` | `Model/Params` | all names, defaults, renames, checks, compatibility level | reading of YAML, dynamic_reconfigure transport |
| `mcl_3dl.cpp` | `Model/NodeTypes`, `Model/NodeMeasure`, `Model/Node`, `Model/NodeTime` (time ranges), `Model/BeamResult` (collision-marker positions), `Model/NodeFrames` (frames of map clouds) | all callbacks, services, the timer, start-up and shutdown as one state machine with outputs | marker shapes and lifetimes, log texts, message queues, service registration |

## 7. Findings (behaviour of the unchanged code that breaks an expected property)

Each is a kernel-checked counterexample or exact description.

| theorem | finding |
|---|---|
| `CloudAccum.C08_zero_max_undefined` | `total_accum_cloud_max = 0`: the first push reads the front of an empty vector |
| `PF.C17_zero_draw`, `C18_needs_positive_draw`, `C18_needs_stable_sort` | a resampling draw of exactly 0 (possible for `uniform_real_distribution`) lets a zero-weight particle survive; with an unstable sort equal accumulated weights do too |
| `PF.C19_first_copy_disturbed` | the first copy of the first surviving particle is disturbed although it is not a repeat |
| `PF.C20_needs_stable_sort` | `resizeParticle` with zero-weight particles can copy one |
| `PF.C21_empty_undefined` | `resizeParticle(0)` is accepted; afterwards `max`, `maxBiased` and growing again read out of range |
| `PF.C24_not_most_probable` | `expectation(pass_ratio)` sorts by the stale accumulated weight, not by weight |
| `PF.C25_empty_selection` | `covariance` with an empty random selection divides by zero |
| `PF.C26_stops_early` | `expectation` drops particles when weights sum to more than 1 |
| `Quat.C34_gimbal_lock_example`, `Quat.C38_half_turn_example`, `State6.C39_half_turn_example` | RPY roundtrip at pitch ±90°, look-at constructor for half turns |
| `State6.C43_linear_example` | fresh particles start with an error integral equal to their *position*, not their deviation |
| `State6.C44_noise_example` | adding noise drops a particle's odometry-error coefficients (so C122 fails after an expansion: `Node.C122_expansion`) |
| `ChunkedKdtree.C54_beyond_overlap_example` | a search with a radius beyond the overlap silently misses points near chunk borders |
| `ChunkedKdtree.C57_negative_undefined`, `C140_negative` | left shift of negative chunk indices (undefined in C++14): no map with a point below `max_search_radius` along y or z can be stored |
| `ChunkedKdtree.C140_radiusSearch` | a search at a NaN point converts NaN to `int` |
| `DDA.C58_zero_length_undefined` | zero-length ray: conversion of NaN to integer |
| `DDA.C62_same_stamp_ignored`, `C62_same_stamp_example` | a new map with the old stamp is ignored by the DDA caster, which goes on using pointers into the released old map (`Lidar.C62_dangling`: undefined behaviour) |
| `DDA.C63_z_ignored` | the grid threshold reads the y grid size twice, never z |
| `Lidar.C68_global_localization_example` | during global localization the exponent uses the stale number of points |
| `Lidar.C69_nan_passes` | NaN points pass the clip filter |
| `Sampler.C74_zero_covariance` | zero position covariance: NaN weights, the sampling loop never ends |
| `Sampler.C76_negative_correlation` | `std::abs` on covariance entries loses the sign of a correlation: wrong principal axis |
| `Node.C84_second_update_example` | consecutive map updates accumulate instead of replacing one another in the search map |
| `Node.C90_division_by_zero` | `skip_measure = 0` is accepted and divides by zero |
| `Node.C96_sum_example` | weights sum to `div_yaw` after global localization |
| `Node.C100_beyond_search_range` | with the default parameters `unmatch_output_dist` exceeds the kd-tree's overlap: a point near a map point in the next chunk is published as unmatched |
| `Node.C101_undefined_before` | a status can be published with an indeterminate entropy |
| `Params.C102_not_a_number`, `C102_mistyped` | an old parameter of a wrong type makes the program use an uninitialised value |
| `Conv.C106_other_datatypes` | a field with another datatype silently becomes 0; a missing field keeps the target's old value |
| `Node.C114_half_turn_example` | unanimous particles at a half turn do not give their pose (from C38) |
| `Node.C121_angular_ignored`, `Node.C121_start` | `odom_err_integ_ang_sigma` has no effect; the error record starts at the position |
| `Node.C128_frame_ignored` | frame and stamp of a landmark message have no effect |
| `Node.C135_level`, `Node.C135_tilt` | the fake IMU measures "up in the odometry frame" turned by the odometry's orientation and turned back by tf: a tilted robot is weighed as level |
| `Node.C137_diagnostics` | diagnostics are only published by a measurement, so a missing map is never reported |
| `DDA.C58_zero_grid`, `KDRay.C65_zero_grid` | a map cell or grid size of 0 is accepted and makes ray casting undefined |
| `NonFinite.C141_*` | a spread or time constant of 0 is accepted and silently disables measurements, or makes the estimate NaN |
| `NonFinite.C142_measure`, `C142_resample` | infinite likelihoods are accepted: after resampling all particles are copies of one arbitrary particle |
| `Motion.C146_turn` | the angle that scales the odometry noise is negated if the relative odometry quaternion has the negative sign, although it is the same rotation; left and right turns have the same sign |
| `Node.C147_stuck` | with `use_random_sampler_with_normal` the node hangs in its first measurement while all particles are at one place (initial pose with zero variance): zero eigenvalues give NaN weights and the selection loop never finds a second point |
| `C153_large_weights` | with weights above 1 `expectation()` depends on the order of the particles |
| `C156_opposed` | if the vote-weighted forward and up axes are parallel (e.g. two equal particles with opposite headings), the look-at constructor silently returns the zero quaternion, the estimate's orientation becomes NaN after normalization, past the isfinite assertions, and every later estimate is NaN until the particle count exceeds num_particles |
| `Node.C159_2038` | the first measurement after 2038-01-19 computes `now - ros::Time()`, which is out of range of `ros::Duration` and throws: from then on a freshly started node dies at its first measurement |
| `Node.C162_refused` | with `unmatch_output_dist` > `map_chunk` the node runs well until somebody subscribes to the matched or unmatched cloud; then the search radius is refused with an exception nobody catches and the node ends |
| `C164_untransformed` | a map message in a foreign frame is neither transformed nor refused; its coordinates are used as map coordinates |
| `C171_lag` | The map-to-odom correction is computed from the newest odometry message, although the particles were moved only to the last used one (at most every 0.05 s): with odometry faster than 20 Hz the published transform is off by the motion since (up to 0.05 s of motion), and the published pose lags accordingly |
| `C172_final` | resize_mcl_particle with 0 (and global localization where no map point has free space above it) is answered with success and leaves the filter empty for good; the next request for particles or the next measured cloud reads past the end of an empty vector |
| `BadOdom.C174_message, C174_forever` | cbOdom does not look at the orientation: one message with the all-zero quaternion (the default of nav_msgs/Odometry) turns every particle into NaN; after the next published pose not even an initial pose repairs the estimate (the bias is centred on the NaN estimate), only a global localization or a restart |
| `C175_nan` | `RaycastUsingDDA::setRay` with a NaN beginning: `isPointWithinMap` only rejects on a true comparison, so NaN counts as within the map and `toIndex` converts NaN to `int` (undefined) |
| `Lidar.C176_ratio_jumps` | the match ratio, which decides on expansion resetting and is published, is discontinuous in the pose (a point counts fully up to match_dist_min and not at all beyond), although the score itself is continuous there |
| `ChunkedKdtree.C182_lost` | chunk numbers and chunk borders are computed in float without a margin, so a search with exactly `max_search_radius` (the likelihood field's, if match_dist_min is more than four map grids) can miss points at the rim next to a chunk border (by a fraction of a millimetre with float) |
| `DDA.C183_box` | with the grid ray caster a map point far from a beam can change the beam: the grid starts at the smallest coordinates of the map and the first cell of a ray is not looked into, so one more point at the edge of the map shifts which map points near the sensor are seen |

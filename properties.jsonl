{"id": "C01", "title": "A processed batch is exactly the clouds accumulated since the last clear", "statement": "When CloudAccumulationLogic calls process(), the clouds whose accumulate() succeeded since the most recent clear() form a batch whose frame ids are exactly the ids recorded for the current accumulation; after the push returns, the caller's buffer and the logic's own record agree again.", "quantifier": "every accum/accum_max setting, every history of push()/reset()+clear() calls with arbitrary frame ids and arbitrary accumulate() results", "why_tests_cant": "the agreement is an invariant of an unbounded callback history; tests replay one short script", "anchors": ["src/cloud_accum.cpp: CloudAccumulationLogic::push", "src/cloud_accum.cpp: CloudAccumulationLogic::reset", "include/mcl_3dl/cloud_accum.h: CloudAccumulationLogic"]}
{"id": "C02", "title": "Every pushed cloud is offered to accumulate exactly once and process is never called on an empty batch", "statement": "Each push() calls accumulate() exactly once, calls process() at most once, never calls process() while nothing is accumulated, and process() is always immediately followed by clear().", "quantifier": "every history of pushes, accum >= 0, accum_max >= 1", "why_tests_cant": "quantifies over all callback histories", "anchors": ["src/cloud_accum.cpp: CloudAccumulationLogic::push", "src/cloud_accum.cpp: CloudAccumulationLogic::reset", "include/mcl_3dl/cloud_accum.h: CloudAccumulationLogic"]}
{"id": "C03", "title": "Batch size bounds", "statement": "Every batch handed to process() holds between 1 and accum_max clouds and at most max(1, accum) clouds of the sensor whose cloud opened the batch.", "quantifier": "every history, every accum and accum_max >= 1", "why_tests_cant": "bound must hold for all interleavings of any number of sensors", "anchors": ["src/cloud_accum.cpp: CloudAccumulationLogic::push", "src/cloud_accum.cpp: CloudAccumulationLogic::reset", "include/mcl_3dl/cloud_accum.h: CloudAccumulationLogic"]}
{"id": "C04", "title": "Processing is triggered exactly when the batch is complete", "statement": "push() calls process() if and only if the pending batch already holds accum_max clouds, or the arriving cloud comes from the sensor that opened the pending batch and that sensor has already contributed accum clouds.", "quantifier": "every reachable state and every arriving cloud", "why_tests_cant": "iff over all reachable states", "anchors": ["src/cloud_accum.cpp: CloudAccumulationLogic::push", "src/cloud_accum.cpp: CloudAccumulationLogic::reset", "include/mcl_3dl/cloud_accum.h: CloudAccumulationLogic"]}
{"id": "C05", "title": "No cloud is lost or duplicated or reordered while accumulation succeeds", "statement": "If no accumulate() call fails, then the concatenation of all processed batches followed by the pending batch is exactly the sequence of pushed clouds.", "quantifier": "every push sequence of any length", "why_tests_cant": "unbounded histories", "anchors": ["src/cloud_accum.cpp: CloudAccumulationLogic::push", "src/cloud_accum.cpp: CloudAccumulationLogic::reset", "include/mcl_3dl/cloud_accum.h: CloudAccumulationLogic"]}
{"id": "C06", "title": "A failed accumulate discards the pending batch and nothing else", "statement": "When accumulate() fails on a push that did not call process(), clear() is called, the pending batch is dropped and never processed; when it fails after process(), only that cloud is dropped; in both cases the logic is back in its initial state.", "quantifier": "every reachable state and failing push", "why_tests_cant": "all reachable states", "anchors": ["src/cloud_accum.cpp: CloudAccumulationLogic::push", "src/cloud_accum.cpp: CloudAccumulationLogic::reset", "include/mcl_3dl/cloud_accum.h: CloudAccumulationLogic"]}
{"id": "C07", "title": "Bounded latency", "statement": "Among any accum_max + 1 consecutive pushes, at least one calls process() or clear(): data never waits for more than accum_max further clouds, even if the opening sensor has stopped.", "quantifier": "every reachable state and every continuation", "why_tests_cant": "liveness over all continuations", "anchors": ["src/cloud_accum.cpp: CloudAccumulationLogic::push", "src/cloud_accum.cpp: CloudAccumulationLogic::reset", "include/mcl_3dl/cloud_accum.h: CloudAccumulationLogic"]}
{"id": "C08", "title": "push performs undefined behaviour exactly when accum_max is 0", "statement": "A sequence of push()/reset() calls is free of undefined behaviour if and only if accum_max (total_accum_cloud_max) is positive or no cloud is ever pushed. (One expects no undefined behaviour whatever the configuration; with total_accum_cloud_max: 0, which is accepted, the first push reads the front of an empty vector.)", "quantifier": "every configuration and history", "why_tests_cant": "corner configuration total_accum_cloud_max = 0 is outside the tested range", "anchors": ["src/cloud_accum.cpp: CloudAccumulationLogic::push", "src/cloud_accum.cpp: CloudAccumulationLogic::reset", "include/mcl_3dl/cloud_accum.h: CloudAccumulationLogic"]}
{"id": "C09", "title": "Pass-through mode processes each cloud alone", "statement": "CloudAccumulationLogicPassThrough clears, accumulates the cloud, and calls process() exactly when accumulate() succeeded, so each processed batch is that single cloud.", "quantifier": "every history", "why_tests_cant": "unbounded histories", "anchors": ["src/cloud_accum.cpp: CloudAccumulationLogicPassThrough::push"]}
{"id": "C10", "title": "Particle count is changed only by resize and append", "statement": "init, predict, bias, measure, resample, noise, expectation and covariance leave the number of particles unchanged; resizeParticle(n) makes it n; appendParticle(n) adds n.", "quantifier": "every sequence of filter operations, every arithmetic (including rounding and NaN)", "why_tests_cant": "all operation histories and all floating point behaviours", "anchors": ["include/mcl_3dl/pf.h: ParticleFilter::resample", "include/mcl_3dl/pf.h: ParticleFilter::measure", "include/mcl_3dl/pf.h: ParticleFilter::resizeParticle", "include/mcl_3dl/pf.h: ParticleFilter::appendParticle"]}
{"id": "C11", "title": "measure() is a Bayes update", "statement": "If the total of prior weight times likelihood is positive, each particle's new weight is its prior weight times its likelihood divided by that total; states and order are unchanged and the weights sum to 1.", "quantifier": "every particle set and every likelihood function", "why_tests_cant": "universally quantified over likelihood functions", "anchors": ["include/mcl_3dl/pf.h: ParticleFilter::measure"]}
{"id": "C12", "title": "measure() is all-or-nothing", "statement": "If the total weighted likelihood is not greater than zero (including when it is not a number), measure() leaves every particle's state, weight and bias exactly as it was, and keeps the reported entropy.", "quantifier": "every particle set, likelihood and arithmetic", "why_tests_cant": "NaN/zero corner over all inputs", "anchors": ["include/mcl_3dl/pf.h: ParticleFilter::measure"]}
{"id": "C13", "title": "Weights stay a probability distribution", "statement": "Starting from init, after any sequence of operations with non-negative likelihoods every weight is non-negative and the weights sum to 1, for any positive number of particles.", "quantifier": "all histories of init/predict/bias/measure/resample/noise/resize", "why_tests_cant": "invariant over unbounded histories", "anchors": ["include/mcl_3dl/pf.h: ParticleFilter::initUsingNoiseGenerator", "include/mcl_3dl/pf.h: ParticleFilter::measure", "include/mcl_3dl/pf.h: ParticleFilter::resampleUsingNoiseGenerator", "include/mcl_3dl/pf.h: ParticleFilter::resizeParticle"]}
{"id": "C14", "title": "measure() is insensitive to likelihood scale and fuses independently of grouping", "statement": "Multiplying the likelihood by a positive constant does not change the result of measure(); measuring with l1 and then l2 equals measuring once with l1*l2 (and hence the order is irrelevant) whenever the totals are positive.", "quantifier": "all particle sets, all likelihoods, all positive constants", "why_tests_cant": "algebraic law over all functions", "anchors": ["include/mcl_3dl/pf.h: ParticleFilter::measure"]}
{"id": "C15", "title": "Reported entropy is the Shannon entropy and is bounded", "statement": "After a successful measure() getEntropy() equals -sum p log p of the current weights and lies between 0 and log(number of particles).", "quantifier": "all particle sets and non-negative likelihoods", "why_tests_cant": "inequality over all weight vectors", "anchors": ["include/mcl_3dl/pf.h: ParticleFilter::measure", "include/mcl_3dl/pf.h: ParticleFilter::getEntropy"]}
{"id": "C16", "title": "Resampling invents no states", "statement": "After resample, every particle's state is either the state of a particle present before, or such a state plus one noise sample, normalized; every weight equals 1/N.", "quantifier": "all particle sets, random draws, generators and arithmetic", "why_tests_cant": "all random outcomes", "anchors": ["include/mcl_3dl/pf.h: ParticleFilter::resampleUsingNoiseGenerator"]}
{"id": "C17", "title": "Resampling is low-variance (systematic)", "statement": "Call a particle of positive weight w together with the weight-zero particles directly after it a family. Among N particles of total weight W, with any result of the sort: if the random offset is positive, between floor(N*w/W) and ceil(N*w/W) of the new particles descend from the family; if the offset is exactly 0, the number differs from N*w/W by at most 1. If all weights are positive the family is the particle itself. The sources are in the order of the sort. (One expects floor..ceil for every offset; for the offset 0, which uniform_real_distribution may return, it can be off by one.)", "quantifier": "all N, all non-negative weight vectors with positive sum, all random offsets in [0, W/N), all outcomes of the (unstable) sort", "why_tests_cant": "combinatorial bound over all sizes and offsets", "anchors": ["include/mcl_3dl/pf.h: ParticleFilter::resampleUsingNoiseGenerator"]}
{"id": "C18", "title": "When a particle of zero weight survives resampling", "statement": "A particle of weight zero has a copy after resample only if the random offset is 0 and no particle before it has weight, or if the sort put it in front of the particle of positive weight that directly precedes it (weight-zero particles in between). In particular, with a sort that keeps the order of equal keys and a positive offset it is never copied. (One expects that it is never copied; std::sort is not stable, and both exceptions are shown to occur.)", "quantifier": "all weight vectors, all outcomes of the (unstable) sort and of the random draw", "why_tests_cant": "depends on unspecified ordering of equal keys and on the zero draw", "anchors": ["include/mcl_3dl/pf.h: ParticleFilter::resampleUsingNoiseGenerator"]}
{"id": "C19", "title": "Resampling perturbs a copy exactly if it repeats the source before it", "statement": "In resample the sources of the copies are in non-decreasing order; a copy is the unmodified state if its source differs from the source of the previous copy, and receives noise if it is the same, where the copy before the first counts as a copy of the first particle in sorted order. (One expects that the first copy of every selected particle is unmodified; the first copy of the first particle in sorted order is not.)", "quantifier": "all particle sets and draws", "why_tests_cant": "all selection patterns", "anchors": ["include/mcl_3dl/pf.h: ParticleFilter::resampleUsingNoiseGenerator", "doc/Algorithms.md: Resampling"]}
{"id": "C20", "title": "resizeParticle keeps the distribution", "statement": "resizeParticle(n) yields n particles of weight 1/n whose states are all states of the previous set; of each family (a particle of positive weight w and the weight-zero particles directly after it) there are between floor(n*w/W) and ceil(n*w/W) copies, and a weight-zero particle is copied only if the sort put it before the weighted particle of its family. If all weights are positive, these are counts of the particle itself and the order of the states is kept; resizing a uniformly weighted set to its own size changes nothing. (One expects the counts for single particles always; the unstable sort can prefer a weight-zero particle, shown by an example.)", "quantifier": "all particle sets with non-negative weights of positive sum, all n >= 1, all outcomes of the sort", "why_tests_cant": "all sizes", "anchors": ["include/mcl_3dl/pf.h: ParticleFilter::resizeParticle"]}
{"id": "C21", "title": "When filter operations are defined", "statement": "max and maxBiased are defined if and only if the filter has a particle; every other operation (predict, measure, resample, noise, resize, bias, init, expectation, covariance) is defined unless it resizes an empty filter to a positive size, which dereferences the end iterator. A filter with a particle becomes empty only by a resize to 0, which is accepted. (One expects that no sequence of requested sizes reads outside the particle array.)", "quantifier": "all operation histories including size 0", "why_tests_cant": "size 0 corner of a ROS service", "anchors": ["include/mcl_3dl/pf.h: ParticleFilter::resizeParticle", "include/mcl_3dl/pf.h: ParticleFilter::max", "src/mcl_3dl.cpp: MCL3dlNode::cbResizeParticle"]}
{"id": "C22", "title": "max() returns a most probable particle", "statement": "max() (maxBiased()) returns the state of the first particle whose weight (weight times bias) is maximal.", "quantifier": "all non-empty particle sets", "why_tests_cant": "all sets", "anchors": ["include/mcl_3dl/pf.h: ParticleFilter::max", "include/mcl_3dl/pf.h: ParticleFilter::maxBiased"]}
{"id": "C23", "title": "expectation() is the weighted mean", "statement": "For weights that sum to 1, expectation() with the default pass ratio is the weighted mean of all particle states in each component, and lies between the smallest and largest particle value.", "quantifier": "all particle sets of any size and dimension", "why_tests_cant": "all sets", "anchors": ["include/mcl_3dl/pf.h: ParticleFilter::expectation", "include/mcl_3dl/pf.h: ParticleWeightedMean"]}
{"id": "C24", "title": "expectation(pass_ratio) averages a prefix in the order of the last cumulative weights", "statement": "expectation(r) with r < 1 is the weighted mean of the shortest non-empty prefix, in descending order of the cumulative weight that the last resampling left in the particles, whose total weight exceeds r (of all particles, if none does). (One expects the most probable particles; the sort key is the cumulative weight and not the weight, and an example shows the difference.)", "quantifier": "all particle sets and ratios", "why_tests_cant": "depends on sort key", "anchors": ["include/mcl_3dl/pf.h: ParticleFilter::expectation"]}
{"id": "C25", "title": "covariance() is symmetric positive semidefinite", "statement": "The particles taken into account are, without sampling, those counted until the weight exceeds the pass ratio, and with sampling the drawn ones among these, each at most once. If their weight is positive, the returned matrix is the weighted average of the outer products of their deviations from the expectation; it is symmetric and has a non-negative quadratic form. If the drawn number floor(ratio * count) is 0, no particle is taken into account and every entry is 0 divided by 0.", "quantifier": "all particle sets, pass ratios, sampling ratios and sampling outcomes", "why_tests_cant": "all sets, all shuffles", "anchors": ["include/mcl_3dl/pf.h: ParticleFilter::covariance"]}
{"id": "C26", "title": "expectation() uses every particle of a distribution", "statement": "expectation() with the default pass ratio is the weighted mean of the particles from the first up to the one with which the total weight exceeds 1, and of all particles if it never does, in particular whenever the weights are non-negative with a sum of at most 1. (One expects every particle to count whatever the scale of the weights; after global localization the weights sum to more, see C96.)", "quantifier": "all weight vectors", "why_tests_cant": "wrong only when weights are not normalised (after global localization)", "anchors": ["include/mcl_3dl/pf.h: ParticleFilter::expectation", "src/mcl_3dl.cpp: MCL3dlNode::cbGlobalLocalization"]}
{"id": "C27", "title": "Appended particles are inert until given weight", "statement": "appendParticle(n) keeps all existing particles and adds n particles of weight 0 and bias 0, which leave the weighted mean unchanged.", "quantifier": "all sets and n", "why_tests_cant": "all sizes", "anchors": ["include/mcl_3dl/pf.h: ParticleFilter::appendParticle"]}
{"id": "C28", "title": "Rotating by a unit quaternion is a rigid rotation", "statement": "For a unit quaternion q, q*v preserves dot products, lengths and cross products of vectors, and for any quaternion the length is scaled by the squared norm.", "quantifier": "all quaternions and vectors (exact arithmetic)", "why_tests_cant": "algebraic identity over all inputs", "anchors": ["include/mcl_3dl/quat.h: Quat::operator*", "include/mcl_3dl/vec3.h: Vec3::dot", "include/mcl_3dl/vec3.h: Vec3::cross"]}
{"id": "C29", "title": "Quaternion product is composition of rotations", "statement": "(a*b)*v = a*(b*v), the product is associative with Quat() as unit, and the norm is multiplicative.", "quantifier": "all quaternions and vectors", "why_tests_cant": "algebraic identity", "anchors": ["include/mcl_3dl/quat.h: Quat::operator*"]}
{"id": "C30", "title": "inv() inverts", "statement": "For every non-zero quaternion q*q.inv() and q.inv()*q are the identity quaternion, and q.inv()*(q*v) = v for every vector v, whether or not q is a unit quaternion.", "quantifier": "all quaternions", "why_tests_cant": "algebraic identity", "anchors": ["include/mcl_3dl/quat.h: Quat::inv", "include/mcl_3dl/quat.h: Quat::conj"]}
{"id": "C31", "title": "normalized() yields a unit quaternion of the same rotation", "statement": "For every non-zero quaternion, normalized() has norm 1 and is a positive multiple of the original; the zero quaternion is the only input without a result.", "quantifier": "all quaternions", "why_tests_cant": "all inputs", "anchors": ["include/mcl_3dl/quat.h: Quat::normalized", "include/mcl_3dl/quat.h: Quat::normalize"]}
{"id": "C32", "title": "RPY constructor is yaw-pitch-roll composition", "statement": "Quat(rpy) is a unit quaternion and equals the product of the axis rotations: about z by yaw, then about y by pitch, then about x by roll.", "quantifier": "all angles", "why_tests_cant": "trigonometric identity over all angles", "anchors": ["include/mcl_3dl/quat.h: Quat::setRPY", "include/mcl_3dl/quat.h: Quat::setAxisAng"]}
{"id": "C33", "title": "getRPY inverts the RPY constructor", "statement": "For roll and yaw in (-pi, pi] and pitch strictly between -pi/2 and pi/2, Quat(rpy).getRPY() = rpy.", "quantifier": "all such angles", "why_tests_cant": "inverse-function identity over a continuum", "anchors": ["include/mcl_3dl/quat.h: Quat::getRPY", "include/mcl_3dl/quat.h: Quat::setRPY"]}
{"id": "C34", "title": "Converting a rotation to RPY and back keeps the rotation away from gimbal lock", "statement": "For every unit quaternion q whose forward axis is not vertical, Quat(q.getRPY()) is the same rotation as q (equal to q or -q). If the forward axis is vertical, getRPY is (0, +-90 degrees, 0) and the round trip gives the same rotation exactly if q leaves the y axis where it is. (One expects the round trip for all unit quaternions; an example shows the loss.)", "quantifier": "all unit quaternions", "why_tests_cant": "fails only on the measure-zero gimbal-lock set", "anchors": ["include/mcl_3dl/quat.h: Quat::getRPY", "include/mcl_3dl/quat.h: Quat::setRPY", "src/mcl_3dl.cpp: MCL3dlNode::measure"]}
{"id": "C35", "title": "Axis-angle constructor is the rotation about the axis", "statement": "Quat(axis, ang) with a non-zero axis is a unit quaternion that fixes the axis, and rotates any vector according to Rodrigues' formula about the normalized axis by ang.", "quantifier": "all axes and angles", "why_tests_cant": "identity over all angles", "anchors": ["include/mcl_3dl/quat.h: Quat::setAxisAng"]}
{"id": "C36", "title": "getAxisAng inverts the axis-angle constructor", "statement": "For every unit quaternion with |w| < 1 - 1e-6, getAxisAng returns a unit axis and an angle in (-pi, pi] whose axis-angle quaternion is q or -q.", "quantifier": "all such quaternions", "why_tests_cant": "continuum", "anchors": ["include/mcl_3dl/quat.h: Quat::getAxisAng", "include/mcl_3dl/quat.h: Quat::setAxisAng"]}
{"id": "C37", "title": "rotateAxis conjugates", "statement": "q.rotateAxis(r), for unit q and r with |w| < 1 - 1e-6, is the same rotation as r*q*r.conj().", "quantifier": "all unit quaternions", "why_tests_cant": "continuum", "anchors": ["include/mcl_3dl/quat.h: Quat::rotateAxis"]}
{"id": "C38", "title": "Look-at constructor aligns forward and up, except for half turns about mixed axes", "statement": "For linearly independent forward and up there is exactly one rotation that maps the x axis to the normalized forward direction and keeps up in the x-z half plane with positive z component. Quat(forward, up) is always a unit quaternion, and it is that rotation if and only if that rotation is not a half turn about an axis with components of both signs. (One expects it always; an example faces the opposite direction.)", "quantifier": "all linearly independent pairs", "why_tests_cant": "fails only for half-turn rotations with mixed-sign axis", "anchors": ["include/mcl_3dl/quat.h: Quat::Quat(forward,up)"]}
{"id": "C39", "title": "The weighted mean of equal orientations is that orientation, except for half turns about mixed axes", "statement": "expectation() of particles that share one unit orientation returns the same rotation, whatever the positive weights and the pass ratio, if and only if the orientation is not a half turn about an axis with components of both signs. (One expects it always.)", "quantifier": "all orientations, numbers of particles, weights", "why_tests_cant": "continuum and unbounded sizes", "anchors": ["include/mcl_3dl/state_6dof.h: ParticleWeightedMeanQuat", "include/mcl_3dl/quat.h: Quat::Quat(forward,up)"]}
{"id": "C40", "title": "State addition and subtraction are inverse", "statement": "(s - a) + a and (s + a) - a have the position, orientation and odometry-error integrals of s for every a with non-zero orientation.", "quantifier": "all states", "why_tests_cant": "all inputs", "anchors": ["include/mcl_3dl/state_6dof.h: State6DOF::operator+", "include/mcl_3dl/state_6dof.h: State6DOF::operator-"]}
{"id": "C41", "title": "Angular deviations are wrapped to the shortest turn", "statement": "covElement uses for each angular component a deviation in [-pi, pi] that differs from the raw difference by a whole number of turns, and terminates; adding whole turns to an angle does not change it unless the deviation is exactly a half turn.", "quantifier": "all angles", "why_tests_cant": "loop termination and range over all reals", "anchors": ["include/mcl_3dl/state_6dof.h: State6DOF::covElement"]}
{"id": "C42", "title": "Transforming a cloud is a rigid motion", "statement": "transform keeps the number, order and non-position fields of points and preserves all pairwise distances; it equals rotating by the normalized orientation and adding the position.", "quantifier": "all clouds and states with non-zero orientation", "why_tests_cant": "all clouds", "anchors": ["include/mcl_3dl/state_6dof.h: State6DOF::transform"]}
{"id": "C43", "title": "Error integrals of a freshly initialised particle", "statement": "After init(mean, sigma) each particle's rotational error integral is the deviation of its roll, pitch and yaw from the mean, and its translational error integral is its position, that is its deviation from the mean exactly when the mean is at the origin. (One expects the deviation from the mean in both.)", "quantifier": "all means, sigmas and draws", "why_tests_cant": "only visible with non-zero mean position", "anchors": ["include/mcl_3dl/state_6dof.h: State6DOF::generateNoise", "include/mcl_3dl/pf.h: ParticleFilter::initUsingNoiseGenerator"]}
{"id": "C44", "title": "Adding noise to a particle resets its odometry-noise coefficients", "statement": "noise() (expansion resetting) sets all odometry-noise coefficients of every particle to zero; in resample a copy that repeats the source of the copy before it has coefficients zero and every other copy keeps those of its source. (One expects the coefficients to be kept.)", "quantifier": "all particle sets, noises, draws and outcomes of the sort", "why_tests_cant": "hidden field dropped by operator+", "anchors": ["include/mcl_3dl/state_6dof.h: State6DOF::operator+", "include/mcl_3dl/pf.h: ParticleFilter::addNoiseUsingNoiseGenerator", "src/mcl_3dl.cpp: MCL3dlNode::cbExpansionReset"]}
{"id": "C45", "title": "Zero-sigma noise is exactly the mean and draws nothing", "statement": "DiagonalNoiseGenerator returns, in each component with sigma 0, exactly the mean, independently of the random engine; the result always has as many components as sigma.", "quantifier": "all means, sigmas, engine states", "why_tests_cant": "all engine states", "anchors": ["include/mcl_3dl/noise_generators/diagonal_noise_generator.h: operator()"]}
{"id": "C46", "title": "set() makes the low-pass filter steady", "statement": "After set(v), get() = v and feeding v any number of times keeps the output at v (for the angle filter as well).", "quantifier": "all values, all time constants > -1/2, any number of samples", "why_tests_cant": "unbounded sample counts", "anchors": ["include/mcl_3dl/filter.h: Filter::set", "include/mcl_3dl/filter.h: Filter::in"]}
{"id": "C47", "title": "Low-pass output never overshoots", "statement": "For time constant >= 1/2 step, if the initial output and all inputs lie in [lo, hi], every output lies in [lo, hi].", "quantifier": "all input sequences", "why_tests_cant": "unbounded sequences", "anchors": ["include/mcl_3dl/filter.h: Filter::in"]}
{"id": "C48", "title": "Low-pass output converges to a constant input", "statement": "For positive time constant and constant input v, the output error after n samples is the first error times ((2T-1)/(2T+1))^(n-1), hence tends to 0.", "quantifier": "all n, T > 0, v", "why_tests_cant": "limit statement", "anchors": ["include/mcl_3dl/filter.h: Filter::in"]}
{"id": "C49", "title": "High-pass and low-pass outputs are complementary", "statement": "Two filters with the same time constant started at 0 satisfy lpf.in(x) + hpf.in(x) = x at every sample of every input sequence.", "quantifier": "all input sequences", "why_tests_cant": "unbounded sequences", "anchors": ["include/mcl_3dl/filter.h: Filter::Filter", "include/mcl_3dl/filter.h: Filter::in"]}
{"id": "C50", "title": "Angle filter follows the shortest turn and ignores whole turns", "statement": "The angle filter treats an input as the equivalent angle within a half turn of its current output, and feeding x or x + 2*pi*k gives the same output unless x is exactly opposite to the current output.", "quantifier": "all states, inputs and whole turns", "why_tests_cant": "continuum", "anchors": ["include/mcl_3dl/filter.h: Filter::in"]}
{"id": "C51", "title": "FilterVec3 is three independent filters", "statement": "Each component of FilterVec3 behaves as a scalar Filter with its own time constant fed with that component.", "quantifier": "all input sequences", "why_tests_cant": "unbounded sequences", "anchors": ["include/mcl_3dl/filter_vec3.h: FilterVec3"]}
{"id": "C52", "title": "Chunked search finds every point that a whole-cloud search finds", "statement": "For a search radius r <= max_search_radius, chunk length >= 2*max_search_radius and axis weights >= 1, radiusSearch at any query reports exactly the indices of the input points within distance r (up to the requested number, nearest first), as a search over the whole cloud would.", "quantifier": "all clouds, queries and radii", "why_tests_cant": "all geometric configurations around chunk borders", "anchors": ["include/mcl_3dl/chunked_kdtree.h: ChunkedKdtree::setInputCloud", "include/mcl_3dl/chunked_kdtree.h: ChunkedKdtree::radiusSearch", "include/mcl_3dl/chunked_kdtree.h: ChunkedKdtree::getChunkId"]}
{"id": "C53", "title": "Returned ids index the input cloud", "statement": "Every id returned by radiusSearch is a valid index of the input cloud and refers to a point within the radius; no id is returned twice.", "quantifier": "all clouds, queries, radii <= chunk length", "why_tests_cant": "all clouds", "anchors": ["include/mcl_3dl/chunked_kdtree.h: ChunkedKdtree::radiusSearch"]}
{"id": "C54", "title": "What a search beyond max_search_radius finds", "statement": "radiusSearch with a radius above the chunk length throws. Any smaller radius is answered like an exact search over those points that lie less than max_search_radius beyond the border of the query's chunk: without a limit a point is found iff it is one of these and within the radius, so with axis weights of at least 1 every point within max_search_radius is found. (One expects a search to be complete or refused; with the default configuration a search of radius 0.5 misses a point at distance 0.46.)", "quantifier": "all clouds, queries, axis weights, limits, radii, chunk lengths and overlaps up to half a chunk", "why_tests_cant": "silent misses only near chunk borders", "anchors": ["include/mcl_3dl/chunked_kdtree.h: ChunkedKdtree::radiusSearch", "src/mcl_3dl.cpp: MCL3dlNode::measure (unmatch_output_dist)"]}
{"id": "C55", "title": "Oversized radius is refused", "statement": "radiusSearch throws if and only if the radius exceeds the chunk length.", "quantifier": "all radii and queries", "why_tests_cant": "all inputs", "anchors": ["include/mcl_3dl/chunked_kdtree.h: ChunkedKdtree::radiusSearch"]}
{"id": "C56", "title": "Chunk clouds and chunk ids", "statement": "Each input point is stored once in its own chunk and at most once in any other chunk, and only in chunks adjacent to its own.", "quantifier": "all clouds", "why_tests_cant": "all positions", "anchors": ["include/mcl_3dl/chunked_kdtree.h: ChunkedKdtree::setInputCloud"]}
{"id": "C57", "title": "When hashing a chunk id is defined", "statement": "Hashing a chunk id evaluates no undefined shift if and only if its y index is in [0, 2^21) and its z index in [0, 2^10); in particular storing a point with negative y evaluates an undefined shift in C++14. (One expects it to be defined on both sides of the origin.)", "quantifier": "all chunk coordinates", "why_tests_cant": "undefined behaviour is invisible to tests on common compilers", "anchors": ["include/mcl_3dl/chunked_kdtree.h: ChunkedKdtree::ChunkId::operator()"]}
{"id": "C58", "title": "DDA never leaves the grid array", "statement": "Every cell examined while casting any ray, and every cell a map point is stored in, lies inside the grid; the flat array index is within bounds and distinct cells have distinct indices; with a positive grid size casting is always defined once a ray is set (a grid size of 0, or a negative one not larger in magnitude than the extent of the map along some axis, makes the first ray undefined). Setting a ray is defined for every ray of positive length if the map is not empty, its grid has less than 2^31 cells and at most 2^28 along an axis, and the ray ends within 2^28 cells. A ray of length zero that starts inside the map is undefined behaviour (NaN converted to int).", "quantifier": "all clouds, grid sizes, rays", "why_tests_cant": "memory safety over all rays", "anchors": ["include/mcl_3dl/raycasts/raycast_using_dda.h: RaycastUsingDDA::getNextCastResult", "include/mcl_3dl/raycasts/raycast_using_dda.h: RaycastUsingDDA::updatePointCloud", "include/mcl_3dl/raycasts/raycast_using_dda.h: RaycastUsingDDA::getArrayIndex"]}
{"id": "C59", "title": "DDA casting terminates and moves cell by cell", "statement": "A ray yields fewer results than the sum of the index distances between its ends, consecutive cells differ by one step along one axis, always toward the ray end, and after the first false every further call returns false.", "quantifier": "all rays", "why_tests_cant": "all rays", "anchors": ["include/mcl_3dl/raycasts/raycast_using_dda.h: RaycastUsingDDA::setRay", "include/mcl_3dl/raycasts/raycast_using_dda.h: RaycastUsingDDA::getNextCastResult", "include/mcl_3dl/raycasts/raycast_using_dda.h: RaycastUsingDDA::incrementIndex"]}
{"id": "C60", "title": "DDA covers the ray", "statement": "For a ray that starts inside the map, every point of the extended ray that is inside the map lies in the begin cell, an examined cell, or the end cell. If the extended ray does not end below the minimum of the map, every examined cell is met by the ray; otherwise an examined cell may miss it, shown by an example (the end index is rounded toward zero).", "quantifier": "all rays that start inside the map (exact arithmetic)", "why_tests_cant": "geometric statement over all rays", "anchors": ["include/mcl_3dl/raycasts/raycast_using_dda.h: RaycastUsingDDA::setRay", "include/mcl_3dl/raycasts/raycast_using_dda.h: RaycastUsingDDA::getNextCastResult"]}
{"id": "C61", "title": "A DDA collision is a real map point near the ray", "statement": "A reported collision carries a point of the current map lying in the reported cell whose squared distance from the ray line is below the larger of the grid threshold and the beam-width threshold; no collision is reported only if no point in the cell satisfies this.", "quantifier": "all clouds and rays", "why_tests_cant": "all inputs", "anchors": ["include/mcl_3dl/raycasts/raycast_using_dda.h: RaycastUsingDDA::hasIntersection"]}
{"id": "C62", "title": "Ray casting uses the current map if stamps differ", "statement": "If the maps used have different stamps, every point reported by a cast is a point of the map given to the last setRay. A map with the same stamp as the one in use is ignored: the caster behaves as with the old map, and reports points of it. Since the old cloud is gone by then, evaluating a beam that would have hit something in it dereferences a dangling pointer. (One expects the new map always.)", "quantifier": "all sequences of map replacements and casts", "why_tests_cant": "depends on time stamps of successive maps", "anchors": ["include/mcl_3dl/raycasts/raycast_using_dda.h: RaycastUsingDDA::updatePointCloud"]}
{"id": "C63", "title": "The grid threshold uses the y size in place of the z size", "statement": "The DDA collision threshold does not depend on the map grid size along z: no result of the caster does. It is the squared diagonal of a map cell if and only if the grid sizes along y and z agree. (One expects all three sizes to count.)", "quantifier": "all grid sizes", "why_tests_cant": "tests use equal y and z", "anchors": ["include/mcl_3dl/raycasts/raycast_using_dda.h: RaycastUsingDDA::RaycastUsingDDA"]}
{"id": "C64", "title": "A ray starting outside the map sees nothing", "statement": "If the ray starts outside the bounding box of the map, the DDA caster returns no cell at all.", "quantifier": "all such rays", "why_tests_cant": "all rays", "anchors": ["include/mcl_3dl/raycasts/raycast_using_dda.h: RaycastUsingDDA::setRay", "include/mcl_3dl/raycasts/raycast_using_dda.h: RaycastUsingDDA::isPointWithinMap"]}
{"id": "C65", "title": "KD-tree casting samples the ray at map-grid steps and terminates", "statement": "The k-th result is at ray_begin + k*step with step the map's smallest grid size along the ray, k = 1 .. floor((length+tolerance)/grid)-1, and no result lies beyond the ray end by more than the tolerance.", "quantifier": "all rays of non-zero length", "why_tests_cant": "all rays", "anchors": ["include/mcl_3dl/raycasts/raycast_using_kdtree.h: RaycastUsingKDTree::setRay", "include/mcl_3dl/raycasts/raycast_using_kdtree.h: RaycastUsingKDTree::getNextCastResult"]}
{"id": "C66", "title": "Beam classification", "statement": "A beam is LONG iff no cast result collides with a point of accepted label; otherwise the first such result decides: TOTAL_REFLECTION iff its incidence sine is at most the total-reflection sine, else HIT iff its point is nearer to the measured point than hit_range, else SHORT.", "quantifier": "all finite result sequences of any ray caster", "why_tests_cant": "all sequences", "anchors": ["src/lidar_measurement_model_beam.cpp: LidarMeasurementModelBeam::getBeamStatus"]}
{"id": "C67", "title": "Beam likelihood is bounded and monotone", "statement": "With 0 < beam_likelihood_min <= 1 the beam likelihood lies in [beam_likelihood_min, 1], equals 1 when no beam is penalised and does not increase when more beams are penalised; quality is 1 (an empty or missing cloud yields likelihood 1, quality 0).", "quantifier": "all clouds, statuses, states", "why_tests_cant": "all inputs", "anchors": ["src/lidar_measurement_model_beam.cpp: LidarMeasurementModelBeam::measure"]}
{"id": "C68", "title": "Beam likelihood is alpha^(n/N) with the configured N", "statement": "With n penalised beams the likelihood is beam_likelihood_min^(n/N), where N is the configured default number of beams, also while global localization uses fewer; if more than N are penalised it is beam_likelihood_min. (One expects N to be the number of beams in effect; during global localization it is not, shown by an example.)", "quantifier": "all configurations with N > 0 and 0 < beam_likelihood_min <= 1, all clouds, origins, poses and ray casters", "why_tests_cant": "documented formula; breaks when the number of beams is reduced", "anchors": ["src/lidar_measurement_model_beam.cpp: LidarMeasurementModelBeam::measure", "src/lidar_measurement_model_beam.cpp: LidarMeasurementModelBeam::refreshParameters", "src/lidar_measurement_model_beam.cpp: LidarMeasurementModelBeam::setGlobalLocalizationStatus", "doc/Algorithms.md"]}
{"id": "C69", "title": "Clip filter keeps exactly the points in range", "statement": "For points with real coordinates, filter passes to the sampler exactly those, in order, whose horizontal distance lies in [clip_near, clip_far] and height in [clip_z_min, clip_z_max]. A point whose coordinates are all NaN passes every clip range.", "quantifier": "all clouds and non-negative clip ranges", "why_tests_cant": "all inputs", "anchors": ["src/lidar_measurement_model_beam.cpp: LidarMeasurementModelBeam::filter", "src/lidar_measurement_model_likelihood.cpp: LidarMeasurementModelLikelihood::filter"]}
{"id": "C70", "title": "Number of points is interpolated between its limits", "statement": "setGlobalLocalizationStatus selects the default number when the particle count is not increased, and otherwise max(global, default*particles/current), which never exceeds max(default, global).", "quantifier": "all counts without overflow", "why_tests_cant": "all counts", "anchors": ["src/lidar_measurement_model_beam.cpp: LidarMeasurementModelBeam::setGlobalLocalizationStatus", "src/lidar_measurement_model_likelihood.cpp: LidarMeasurementModelLikelihood::setGlobalLocalizationStatus"]}
{"id": "C71", "title": "Likelihood-field score and match ratio", "statement": "For a non-empty cloud the score is the sum over points with a map neighbour at distance d < match_dist_min of weight*(match_dist_min - max(d, match_dist_flat)) where non-negative, the quality is the fraction of such points, so 0 <= quality <= 1 and 0 <= score <= n*weight*(match_dist_min - match_dist_flat); moving a point closer never lowers the score.", "quantifier": "all clouds, maps, parameters", "why_tests_cant": "all inputs", "anchors": ["src/lidar_measurement_model_likelihood.cpp: LidarMeasurementModelLikelihood::measure"]}
{"id": "C72", "title": "Uniform sampler returns the requested number of input points", "statement": "sample(pc, num) returns num points, each a point of pc, with the header of pc; for an empty cloud it returns an empty cloud.", "quantifier": "all clouds, numbers and draws", "why_tests_cant": "all random outcomes", "anchors": ["include/mcl_3dl/point_cloud_random_samplers/point_cloud_uniform_sampler.h: PointCloudUniformSampler::sample"]}
{"id": "C73", "title": "Normal-weighted sampler returns distinct input points", "statement": "When pc has more than num points, sample returns exactly num distinct points of pc; when it has at most num (and num > 0) it returns pc unchanged; when num is 0 or pc is empty it returns an empty cloud.", "quantifier": "all clouds, numbers and draw sequences that eventually reach num points", "why_tests_cant": "all random outcomes", "anchors": ["include/mcl_3dl/point_cloud_random_samplers/point_cloud_sampler_with_normal.h: PointCloudSamplerWithNormal::sample"]}
{"id": "C74", "title": "When the normal-weighted sampler terminates", "statement": "With a fair random source and a maximal weight of at least 1, sample returns if and only if it is not the case that all particle positions coincide, some point has a normal, and two or more of a larger number of points are wanted. (One expects it to return always; without spread all weights are NaN and the rejection loop never ends.)", "quantifier": "all position covariances, correct eigen solvers, clouds, normals, sample sizes and fair random sources", "why_tests_cant": "degenerate statistics (zero covariance) make it loop forever", "anchors": ["include/mcl_3dl/point_cloud_random_samplers/point_cloud_sampler_with_normal.h: PointCloudSamplerWithNormal::sample", "include/mcl_3dl/point_cloud_random_samplers/point_cloud_sampler_with_normal.h: PointCloudSamplerWithNormal::setParticleStatistics"]}
{"id": "C75", "title": "Sampler weight is interpolated between 1 and max_weight", "statement": "For max_weight >= 1 every point's sampling weight lies between 1 and max_weight, equals 1 when the eigenvalue ratio is below perform_weighting_ratio, and a point whose normal is parallel to the principal axis gets the maximal weight.", "quantifier": "all normals and ratios", "why_tests_cant": "continuum", "anchors": ["include/mcl_3dl/point_cloud_random_samplers/point_cloud_sampler_with_normal.h: PointCloudSamplerWithNormal::sample"]}
{"id": "C76", "title": "The axis the sampler uses for weighting", "statement": "The axis used for weighting is a principal axis of the matrix of the absolute values of the particle position covariances; if no covariance is negative it is a principal axis of the covariance itself. (One expects that always; for particles spread along (1,-1,0) the axis used is (1,1,0).)", "quantifier": "all covariances", "why_tests_cant": "wrong only for negatively correlated axes", "anchors": ["include/mcl_3dl/point_cloud_random_samplers/point_cloud_sampler_with_normal.h: PointCloudSamplerWithNormal::setParticleStatistics"]}
{"id": "C77", "title": "Noise-free prediction composes the odometry motion", "statement": "A particle without noise coefficients at pose X moves to X * (odom_prev^-1 * odom_current); hence the map-to-odom transform implied by the particle is unchanged, over any sequence of odometry messages.", "quantifier": "all poses with unit orientations, all odometry sequences", "why_tests_cant": "unbounded sequences, continuum", "anchors": ["include/mcl_3dl/motion_prediction_models/motion_prediction_model_differential_drive.h: MotionPredictionModelDifferentialDrive::setOdoms", "include/mcl_3dl/motion_prediction_models/motion_prediction_model_differential_drive.h: MotionPredictionModelDifferentialDrive::predict"]}
{"id": "C78", "title": "Prediction keeps orientations unit and adds only yaw error", "statement": "After predict every particle orientation is a unit quaternion and differs from the noise-free prediction by a rotation about the map z axis of noise_la*distance + noise_aa*angle.", "quantifier": "all states and odometries", "why_tests_cant": "continuum", "anchors": ["include/mcl_3dl/motion_prediction_models/motion_prediction_model_differential_drive.h: MotionPredictionModelDifferentialDrive::predict"]}
{"id": "C79", "title": "Odometry error integrals are forgotten exponentially", "statement": "Without noise each prediction scales both integrals by 1 - dt/tc; they never grow in magnitude if 0 <= dt <= 2 tc and never change sign if dt <= tc.", "quantifier": "all sequences of dt", "why_tests_cant": "unbounded sequences", "anchors": ["include/mcl_3dl/motion_prediction_models/motion_prediction_model_differential_drive.h: MotionPredictionModelDifferentialDrive::predict"]}
{"id": "C80", "title": "Gaussian likelihood", "statement": "NormalLikelihood is positive, symmetric, maximal at 0 and strictly decreasing in |x| for sigma != 0.", "quantifier": "all x, sigma", "why_tests_cant": "continuum", "anchors": ["include/mcl_3dl/nd.h: NormalLikelihood"]}
{"id": "C81", "title": "IMU gravity likelihood is well defined and rotation-about-gravity invariant", "statement": "For a non-zero acceleration and orientation the argument of acos lies in [-1, 1], the likelihood is positive, is maximal when the predicted gravity direction equals the measured one, and does not depend on the yaw of the particle.", "quantifier": "all states and accelerations", "why_tests_cant": "continuum", "anchors": ["include/mcl_3dl/imu_measurement_models/imu_measurement_model_gravity.h: measure"]}
{"id": "C82", "title": "Clouds are ignored until a map is available", "statement": "A cloud received while no valid map is loaded changes nothing but the status message, publishes nothing, and calls neither accumulation nor measurement.", "quantifier": "all histories", "why_tests_cant": "all histories", "anchors": ["src/mcl_3dl.cpp: MCL3dlNode::cbCloud", "src/mcl_3dl.cpp: MCL3dlNode::cbMapcloud", "src/mcl_3dl.cpp: MCL3dlNode::cbLoadPCD"]}
{"id": "C83", "title": "Sensor-origin lookup is always in range", "statement": "Whenever a beam is evaluated, the label of its point is a valid index into the list of sensor origins, and the accumulation buffer exists.", "quantifier": "all histories of maps, clouds, transform failures", "why_tests_cant": "memory safety over all histories", "anchors": ["src/mcl_3dl.cpp: MCL3dlNode::accumCloud", "src/mcl_3dl.cpp: MCL3dlNode::measure", "src/mcl_3dl.cpp: MCL3dlNode::accumClear", "src/lidar_measurement_model_beam.cpp: LidarMeasurementModelBeam::measure"]}
{"id": "C84", "title": "A map update is added to the map in use", "statement": "The first update merged after a map is loaded makes the active and published map the loaded map followed by the update. Further updates do not replace it: the active map is always the loaded map followed by all updates merged since (C85). (One expects the base map plus the most recent update only; an example shows two updates.)", "quantifier": "all sequences of map loads, updates and timer events", "why_tests_cant": "aliasing appears only after a timer event between load and update", "anchors": ["src/mcl_3dl.cpp: MCL3dlNode::cbMapUpdateTimer", "src/mcl_3dl.cpp: MCL3dlNode::cbMapcloudUpdate", "src/mcl_3dl.cpp: MCL3dlNode::loadMapCloud"]}
{"id": "C85", "title": "The active search map is the loaded map plus merged updates", "statement": "Whenever a map is available the search structure holds the base map followed by the updates merged since it was loaded, in order; loading a map discards all earlier maps, pending updates and pending clouds.", "quantifier": "all histories", "why_tests_cant": "all histories", "anchors": ["src/mcl_3dl.cpp: MCL3dlNode::cbMapUpdateTimer", "src/mcl_3dl.cpp: MCL3dlNode::loadMapCloud"]}
{"id": "C86", "title": "Odometry prediction is gated by time and never double counts", "statement": "A prediction is made exactly when an odometry stamp is more than 0.05 s and at most 5 s after the last used one; each prediction uses the odometry change since the previous prediction (or since (re)initialisation), so consecutive motions telescope; a time jump makes the next message a new reference.", "quantifier": "all odometry histories", "why_tests_cant": "unbounded histories", "anchors": ["src/mcl_3dl.cpp: MCL3dlNode::cbOdom"]}
{"id": "C87", "title": "IMU handling is gated by time", "statement": "The IMU likelihood is applied exactly when the stamp is more than 0.05 s and at most 5 s after the last used one and the transform is available; a time jump resets.", "quantifier": "all IMU histories", "why_tests_cant": "unbounded histories", "anchors": ["src/mcl_3dl.cpp: MCL3dlNode::cbImu"]}
{"id": "C88", "title": "Fake IMU and fake odometry never recurse", "statement": "With any accepted parameter set, handling one odometry or IMU message triggers at most one synthetic message; parameter sets enabling both are rejected.", "quantifier": "all parameters and messages", "why_tests_cant": "all configurations", "anchors": ["src/mcl_3dl.cpp: MCL3dlNode::cbOdom", "src/mcl_3dl.cpp: MCL3dlNode::cbImu", "src/parameters.cpp: Parameters::load"]}
{"id": "C89", "title": "Only every skip_measure-th batch is measured", "statement": "The n-th complete batch is measured iff n is a multiple of skip_measure, for positive skip_measure.", "quantifier": "all histories", "why_tests_cant": "unbounded histories", "anchors": ["src/mcl_3dl.cpp: MCL3dlNode::measure"]}
{"id": "C90", "title": "measure divides by zero exactly with skip_measure 0", "statement": "With a skip_measure different from zero no callback ever divides by zero. With skip_measure: 0, which is accepted, no callback that completes a batch of clouds returns, and a history is given in which it is a division by zero. (One expects an accepted parameter never to do this.)", "quantifier": "all parameter values", "why_tests_cant": "corner parameter 0", "anchors": ["src/mcl_3dl.cpp: MCL3dlNode::measure", "src/parameters.cpp: Parameters::load"]}
{"id": "C91", "title": "After global localization the particle count returns to normal", "statement": "Each measurement replaces a count N larger than num_particles by max(floor(0.75 N), num_particles), never below num_particles and strictly smaller, so after finitely many measurements the count is num_particles and stays there.", "quantifier": "all counts and numbers of measurements", "why_tests_cant": "unbounded number of steps", "anchors": ["src/mcl_3dl.cpp: MCL3dlNode::measure"]}
{"id": "C92", "title": "GLOBAL_LOCALIZATION status lasts exactly as long as documented", "statement": "The status reports GLOBAL_LOCALIZATION during every measurement that reduces particles and for exactly 3*ceil(lpf_step) measurements after the last reduction, and not otherwise; it takes precedence over EXPANSION_RESETTING, which is reported iff the best match ratio is below match_ratio_thresh.", "quantifier": "all histories of measurements", "why_tests_cant": "unbounded histories", "anchors": ["src/mcl_3dl.cpp: MCL3dlNode::measure"]}
{"id": "C93", "title": "Convergence status", "statement": "LARGE_STD_VALUE is reported iff some standard deviation exceeds its threshold and the measurement before did not leave the node in the global-localization period; CONVERGED iff that is not the case and both position and angular deviations are below fix thresholds; NORMAL otherwise. (One expects the period itself to count; the measurement in which it begins is not exempt. Outside the measurements that reduce the particles both agree.)", "quantifier": "all covariances and thresholds", "why_tests_cant": "decision logic over all inputs", "anchors": ["src/mcl_3dl.cpp: MCL3dlNode::measure", "src/mcl_3dl.cpp: MCL3dlNode::diagnoseStatus"]}
{"id": "C94", "title": "TF tolerance stays within one second", "statement": "The base tolerance added to transform stamps is always between 0 and 1 second, whatever the clock does.", "quantifier": "all histories of clock readings (including backward jumps)", "why_tests_cant": "unbounded histories", "anchors": ["src/mcl_3dl.cpp: MCL3dlNode::measure", "include/mcl_3dl/filter.h: Filter::in"]}
{"id": "C95", "title": "Global localization places particles on a regular grid", "statement": "On success there are points*div_yaw particles; particle k stands on point k / div_yaw with yaw offset 2*pi*(k mod div_yaw)/div_yaw relative to the IMU orientation, so that at every point every heading is within pi/div_yaw of a particle's; the iteration never runs past the points; without a map the request fails and changes nothing.", "quantifier": "all maps and divisions", "why_tests_cant": "all sizes", "anchors": ["src/mcl_3dl.cpp: MCL3dlNode::cbGlobalLocalization"]}
{"id": "C96", "title": "Global localization weights sum to the number of headings", "statement": "After a successful global localization with at least one place all weights are equal and their sum is the number of headings, round(2 pi / global_localization_grid_ang). (One expects 1; with the default parameters it is 12.)", "quantifier": "all maps", "why_tests_cant": "sums to div_yaw instead", "anchors": ["src/mcl_3dl.cpp: MCL3dlNode::cbGlobalLocalization"]}
{"id": "C97", "title": "Initial pose is validated and resets the filter", "statement": "An initial pose whose orientation's squared norm differs from 1 by more than 0.1, or that cannot be transformed, changes nothing; an accepted one gives every particle weight 1/N and zero error integrals, keeps the particle count and drops the pending map update.", "quantifier": "all messages and states", "why_tests_cant": "all inputs", "anchors": ["src/mcl_3dl.cpp: MCL3dlNode::cbPosition"]}
{"id": "C98", "title": "On a pose jump the published transform equals the estimate", "statement": "When the estimate jumps (or during global localization) the smoothing filters are reset so that the published pose equals the filter's estimate (as position and rotation).", "quantifier": "all states with pitch away from gimbal lock", "why_tests_cant": "continuum", "anchors": ["src/mcl_3dl.cpp: MCL3dlNode::measure"]}
{"id": "C99", "title": "Published transform and pose are consistent", "statement": "The published pose equals the published map-to-odom transform composed with the current odometry, for every measurement; with publish_tf the transforms are published with every pose, without it never, and never without a pose.", "quantifier": "all measurements", "why_tests_cant": "all states", "anchors": ["src/mcl_3dl.cpp: MCL3dlNode::measure"]}
{"id": "C100", "title": "Matched and unmatched outputs are disjoint and correct", "statement": "No point is published as both matched and unmatched. For unmatch_output_dist up to map_chunk: consider for each point of the batch the map points less than the search range beyond the border of its chunk; exactly the points with none of these within unmatch_output_dist are published as unmatched, and exactly those with one within unmatch_output_dist and match_output_dist as matched. If unmatch_output_dist is at most the search range, all map points can be considered. (One expects that always; with the default parameters a point 0.46 m from a map point is published as unmatched.)", "quantifier": "all clouds and maps", "why_tests_cant": "all inputs", "anchors": ["src/mcl_3dl.cpp: MCL3dlNode::measure"]}
{"id": "C101", "title": "When the published entropy is defined", "statement": "Every status with a positive match ratio carries an entropy computed by a completed measurement, and once a status has carried one all later ones do. A status published before the first usable measurement carries an entropy that was never computed. (One expects none to.)", "quantifier": "all histories", "why_tests_cant": "uninitialised read is invisible to tests", "anchors": ["src/mcl_3dl.cpp: MCL3dlNode::diagnoseStatus", "include/mcl_3dl/pf.h: ParticleFilter::getEntropy"]}
{"id": "C102", "title": "Renamed parameters", "statement": "For each renamed parameter the value under the new name wins, otherwise the old name's value is used if it is a number, otherwise the default; the old name is never modified. If the new name is not set and the old one is set to something that is not a number, the node runs with the indeterminate content of an uninitialised variable.", "quantifier": "all parameter server contents", "why_tests_cant": "all contents", "anchors": ["include/mcl_3dl_compat/compatibility.h: paramRename", "src/parameters.cpp: Parameters::load"]}
{"id": "C103", "title": "Compatibility level", "statement": "Configuration is refused iff the compatibility level is below the supported or above the current level; the new topic name is used iff the level equals the current level, else the old one. The node does not start if both odometry and the IMU are faked; otherwise it opens exactly the documented topics and services, without the odometry topic if odometry is faked and without the IMU topic if the IMU is.", "quantifier": "all levels", "why_tests_cant": "all values", "anchors": ["include/mcl_3dl_compat/compatibility.h: checkCompatMode, subscribe, advertiseService"]}
{"id": "C104", "title": "Beam label filter default accepts every label", "statement": "With the default filter_label_max no map label is filtered out; with a configured value v >= 0 exactly the labels greater than v are; with -v exactly the labels greater than 2^32 - v are.", "quantifier": "all labels (32 bit)", "why_tests_cant": "signed/unsigned conversion over all labels", "anchors": ["src/parameters.cpp: Parameters::load", "src/lidar_measurement_model_beam.cpp: LidarMeasurementModelBeam::getBeamStatus"]}
{"id": "C105", "title": "DDA grid is never finer than the map grid", "statement": "With DDA enabled the effective DDA grid size is at least the largest map grid size, and equals the configured value whenever that is admissible.", "quantifier": "all parameter values", "why_tests_cant": "all values", "anchors": ["src/parameters.cpp: Parameters::load"]}
{"id": "C106", "title": "What point cloud conversion keeps", "statement": "Conversion succeeds iff the message has fields named x, y, z and at least one point; a failed conversion leaves the target unchanged. After success the target has as many points as the message; each has as coordinates the values of the first float fields of that name (0 if there is none). Intensity (float) and label (unsigned) are read in the same way if a field of that name exists, whatever its type; if none exists the point keeps what the target had at its place, and new points have 0. (One expects fields of another type, such as a double x, to be converted or refused; they silently become 0.)", "quantifier": "all messages and previous contents of the target", "why_tests_cant": "all field combinations and sizes", "anchors": ["include/mcl_3dl/point_conversion.h: fromROSMsg"]}
{"id": "C107", "title": "KD-tree cast reports exactly the collisions within its search radius", "statement": "Stepping a KD-tree ray cast reports a collision at a sample iff some map point lies within sqrt(2)/2 times the largest grid size of it in the search metric; the reported point is then a nearest map point, and for unit axis weights the incidence sine lies in [0, 1].", "quantifier": "all maps, rays, positions along the ray and admissible metrics", "why_tests_cant": "all geometric configurations", "anchors": ["include/mcl_3dl/raycasts/raycast_using_kdtree.h: getNextCastResult"]}
{"id": "C108", "title": "Landmark measurement", "statement": "For a positive definite landmark covariance every particle gets a positive likelihood, a particle at exactly the measured pose gets the largest one, and the sign of an orientation quaternion does not matter.", "quantifier": "all covariances, measured poses and particles", "why_tests_cant": "continuum", "anchors": ["src/mcl_3dl.cpp: MCL3dlNode::cbLandmark", "include/mcl_3dl/nd.h: NormalLikelihoodNd"]}
{"id": "C109", "title": "Multivariate noise has the requested mean and covariance", "statement": "For every symmetric positive semidefinite covariance the generated noise has exactly the given mean and covariance (given standard normal draws), whatever eigenvectors the solver returns; entries above the diagonal are ignored in favour of those below; if the covariance is not positive semidefinite every component is NaN.", "quantifier": "all means, covariances, dimensions and eigenvector choices", "why_tests_cant": "a distribution cannot be tested exactly; continuum of covariances", "anchors": ["include/mcl_3dl/noise_generators/multivariate_noise_generator.h: setCovariance, operator()"]}
{"id": "C110", "title": "The node never crashes on sensible input", "statement": "With sane parameters (positive particle count, skip_measure, grid sizes, search radii within map_chunk) and working libraries, the node starts and, after any history of callbacks with sensible arguments (clouds with x/y/z fields, positive resize requests, non-empty map files), is still running: no exception leaves a callback, nothing undefined happens (apart from the integer conversions and hashes of the kd-tree's chunks, see C140) and the particle filter is never empty.", "quantifier": "all parameter sets, histories of callbacks of any length and interleaving, transforms available or not, random draws", "why_tests_cant": "tests execute a handful of histories; a crash needs one bad interleaving", "anchors": ["src/mcl_3dl.cpp: all callbacks"]}
{"id": "C111", "title": "Clouds are measured in the batches the parameters describe", "statement": "A cloud is collected if it is a cloud with points that can be transformed to the odometry frame, otherwise what has been collected is discarded; loading a map discards it too. A measurement happens exactly when a cloud arrives from the sensor that began the batch after accum_cloud clouds of that sensor, or when total_accum_cloud_max clouds are collected, and covers exactly the clouds collected before; with accum_cloud 0 each cloud is measured alone. Nothing else publishes a pose or a status.", "quantifier": "all histories of callbacks, sensors and parameters", "why_tests_cant": "the batch depends on the whole history", "anchors": ["src/mcl_3dl.cpp: MCL3dlNode::cbCloud", "src/mcl_3dl.cpp: MCL3dlNode::accumCloud", "src/cloud_accum.cpp: push"]}
{"id": "C112", "title": "What a measured batch publishes", "statement": "A measured batch whose transforms are not available publishes nothing; one without a usable point (after transformation to the robot, downsampling and clipping) publishes only a status with POINTS_NOT_FOUND; any other publishes exactly one pose, in the map frame with the time stamp of the last cloud of the batch, and a status without error.", "quantifier": "all histories, batches, transforms and clouds", "why_tests_cant": "quantifies over all inputs", "anchors": ["src/mcl_3dl.cpp: MCL3dlNode::measure", "src/lidar_measurement_model_likelihood.cpp: filter"]}
{"id": "C113", "title": "The estimated position lies in the convex hull of the particles", "statement": "Whenever the votes (weight times bias) of the particles are non-negative with a positive sum, the estimated position lies in every half space that contains all particles.", "quantifier": "all particle sets, weights and half spaces", "why_tests_cant": "continuum", "anchors": ["include/mcl_3dl/pf.h: expectationBiased", "include/mcl_3dl/state_6dof.h: ParticleWeightedMeanQuat"]}
{"id": "C114", "title": "Unanimous particles give their pose", "statement": "If all particles that have a vote agree on a position and a rotation, the estimate has that position, and that rotation if and only if it is not a half turn about an axis with components of both signs. (One expects it always.)", "quantifier": "all poses and weights", "why_tests_cant": "continuum of rotations", "anchors": ["include/mcl_3dl/state_6dof.h: ParticleWeightedMeanQuat", "include/mcl_3dl/quat.h: Quat(forward, up)"]}
{"id": "C115", "title": "Particle weights stay a probability distribution", "statement": "After any history of callbacks no particle weight is negative and the weights sum to one (or to div_yaw: from an accepted global localization request until a callback other than an expansion request publishes the particles); a callback that publishes the particles, other than an expansion request, leaves equal weights that sum to one.", "quantifier": "all histories of callbacks, random draws, clouds and maps", "why_tests_cant": "an invariant over unbounded histories", "anchors": ["src/mcl_3dl.cpp: MCL3dlNode::measure", "src/mcl_3dl.cpp: MCL3dlNode::cbPosition", "src/mcl_3dl.cpp: MCL3dlNode::cbLandmark", "include/mcl_3dl/pf.h: measure, resample, noise, resizeParticle"]}
{"id": "C116", "title": "Matched and unmatched clouds are published at the configured interval", "statement": "When a pose is published and the matched (unmatched) cloud has a subscriber, the cloud is published with that pose exactly if more than match_output_interval has passed since the cloud the last such output was stamped with, or time went back by more than a second; it carries the stamp of the pose; without a pose neither is published.", "quantifier": "all histories of callbacks, clouds and subscriptions", "why_tests_cant": "depends on the whole history of outputs", "anchors": ["src/mcl_3dl.cpp: MCL3dlNode::measure"]}
{"id": "C117", "title": "The reported match ratio is the best particle's fraction of matched points", "statement": "With match_dist_min within the search range of the map index, the match_ratio published with a pose is the largest, over the particles before the measurement, of the fraction of the selected points (a non-empty selection of the usable points of the batch) that the particle's pose puts within match_dist_min of a map point; so it is 1 if one particle matches every usable point, 0 if no particle matches any, and always in [0, 1].", "quantifier": "all histories of callbacks, random draws, clouds, maps and particle sets", "why_tests_cant": "all maps, clouds and particle sets", "anchors": ["src/mcl_3dl.cpp: MCL3dlNode::measure", "src/lidar_measurement_model_likelihood.cpp: measure, filter"]}
{"id": "C118", "title": "The estimate is the weighted mean under Bayes' rule with the documented likelihoods", "statement": "When a callback publishes a pose, the new estimate is the mean of the particles before the callback (position: weighted mean; orientation: the one looking along the weighted sum of the particles' front vectors with the weighted sum of their up vectors). A particle's vote is its posterior weight times its nearness to the last estimate (no nearness factor while the number of particles is above num_particles); the posterior weight is the old weight times the product of the beam score, the likelihood-field score and the normal density of its accumulated linear odometry error, normalised, the old weights staying if all products are zero. The points used are drawn from the points of the batch inside each model's clipping range, as many as configured for the number of particles.", "quantifier": "all histories of callbacks, random draws, clouds, maps and particle sets", "why_tests_cant": "all maps, clouds, weights and particle sets", "anchors": ["src/mcl_3dl.cpp: MCL3dlNode::measure", "include/mcl_3dl/pf.h: measure, bias, expectationBiased", "src/lidar_measurement_model_likelihood.cpp: measure", "src/lidar_measurement_model_beam.cpp: measure"]}
{"id": "C119", "title": "A weighted rotation is the fraction of the rotation", "statement": "For a unit quaternion, weighting by 0 gives the identity, weights add up under composition, every weighted rotation is a unit quaternion, and n applications of the rotation weighted by 1/n give the rotation itself; rotations with |w| of at least 1 - 1e-6 are taken as the identity.", "quantifier": "all unit quaternions, all weights and all numbers of parts", "why_tests_cant": "continuum of rotations", "anchors": ["include/mcl_3dl/quat.h: weighted, getAxisAng"]}
{"id": "C120", "title": "Predict, noise, bias and measure act on each particle by itself", "statement": "Predicting, adding noise, biasing and measuring keep the number of particles and their order; the value each particle slot gets depends on that particle (and its own noise draw) only, apart from the common normalisation of the weights; predicting and noise leave the weights alone, measuring and biasing leave the states alone, and the bias is computed from the state only.", "quantifier": "all particle sets, models and noise draws", "why_tests_cant": "all functions and all filters", "anchors": ["include/mcl_3dl/pf.h: predict, noise, bias, measure"]}
{"id": "C122", "title": "Odometry error coefficients of the particles", "statement": "After a callback that publishes a pose, each particle carries four odometry error coefficients, each a fresh standard normal draw times the matching parameter (odom_err_lin_lin, odom_err_lin_ang, odom_err_ang_lin, odom_err_ang_ang), or all are zero if the match ratio was below match_ratio_thresh so that the particles were expanded; a request for expansion resetting makes all zero; and a coefficient is always zero when its parameter is zero. (One expects expanded particles to keep theirs.)", "quantifier": "all histories of callbacks, random draws, clouds, maps and particle sets", "why_tests_cant": "all histories and draws", "anchors": ["src/mcl_3dl.cpp: MCL3dlNode::measure", "src/mcl_3dl.cpp: MCL3dlNode::cbExpansionReset", "include/mcl_3dl/state_6dof.h: operator+"]}
{"id": "C123", "title": "Expansion resetting disturbs every particle by expansion_var, exactly when asked or when the match is poor", "statement": "The expansion resetting service moves every particle by independent normal draws scaled by expansion_var (three along, three about the axes of the map), keeps the number, weights and order of the particles and everything else, publishes the particles and reports success. A callback that publishes a pose does the same to the resampled particles exactly if the published match ratio is below match_ratio_thresh; otherwise each particle is at the pose of an old one or at one scattered by resample_var.", "quantifier": "all states of the node, random draws, clouds and maps", "why_tests_cant": "all particle sets and draws", "anchors": ["src/mcl_3dl.cpp: MCL3dlNode::cbExpansionReset", "src/mcl_3dl.cpp: MCL3dlNode::measure", "include/mcl_3dl/pf.h: noise"]}
{"id": "C124", "title": "A measurement resamples the particles in proportion to their posterior weights", "statement": "When a callback publishes a pose, every new particle comes from an old one; each old particle of positive posterior weight, together with the particles of weight zero directly after it, has floor or ceiling of (count times posterior weight) descendants (off by at most 1 if the number drawn for the start is exactly 0), a particle of weight zero having none except in the cases of C18; the ancestors are in the order of the sort by cumulative weight, which with positive weights is the order of the particles; a descendant whose predecessor has the same ancestor is scattered by fresh draws scaled by resample_var (and so is the first one if it comes from the particle sorted first), the others keep the pose; the accumulated odometry error is kept unless the estimate leapt by more than jump_dist or jump_ang (the count being at most num_particles), then it is zero. Above num_particles the remaining particles are taken from these.", "quantifier": "all histories of callbacks, random draws, clouds, maps and particle sets", "why_tests_cant": "all weights, draws and particle sets", "anchors": ["src/mcl_3dl.cpp: MCL3dlNode::measure", "include/mcl_3dl/pf.h: resample, resizeParticle", "include/mcl_3dl/state_6dof.h: operator+, generateNoise"]}
{"id": "C126", "title": "Particles are always proper poses and are published as they are", "statement": "If the messages and frames used have unit quaternions, every particle's orientation is a unit quaternion after any history of callbacks; the published particle poses are, in order, the poses of all particles: of those before resampling when a pose is published, of the ones after the callback otherwise.", "quantifier": "all histories of callbacks, random draws, clouds and maps", "why_tests_cant": "an invariant over unbounded histories", "anchors": ["src/mcl_3dl.cpp: MCL3dlNode::publishParticles", "src/mcl_3dl.cpp: MCL3dlNode::measure", "src/mcl_3dl.cpp: MCL3dlNode::cbPosition", "src/mcl_3dl.cpp: MCL3dlNode::cbGlobalLocalization", "include/mcl_3dl/state_6dof.h: operator+, normalize"]}
{"id": "C121", "title": "What the recorded odometry error does", "statement": "A measurement multiplies the weight of a particle by the normal density of its recorded translational error with the acceptable range odom_err_integ_lin_sigma; the recorded rotational error has no effect on the weight and odom_err_integ_ang_sigma none on anything. At the start, what is recorded as translational error is the particle's position in the map. (One expects both errors to count and both to start from the deviation.)", "quantifier": "all parameters, states of the node, particles and events", "why_tests_cant": "all parameters and states", "anchors": ["src/mcl_3dl.cpp: MCL3dlNode::measure", "src/mcl_3dl.cpp: MCL3dlNode::configure", "include/mcl_3dl/state_6dof.h: generateNoise", "doc/Parameters.md: odom_err_integ_ang_sigma"]}
{"id": "C130", "title": "The particles start at the configured pose with the configured spread", "statement": "After start-up there are num_particles particles of equal weight; each has the configured initial position and roll, pitch and yaw plus independent normal draws scaled by init_var, no draw being used for two components or particles.", "quantifier": "all parameters (initial angles in the principal range) and draws", "why_tests_cant": "all parameters and draws", "anchors": ["src/mcl_3dl.cpp: MCL3dlNode::configure", "include/mcl_3dl/pf.h: init", "include/mcl_3dl/state_6dof.h: generateNoise", "src/parameters.cpp: load"]}
{"id": "C131", "title": "Every parameter sets what its name says, with its default, and nothing else has an effect", "statement": "For each parameter (real, whole, switch, frame name), the configuration the node uses holds the value set under exactly that name if it has the right type and otherwise the documented default (a whole number that is set with a fraction is rounded to the nearest, and down if it is negative; a warning threshold below zero or above the largest double is clamped; derived settings, such as the finest grid, the number of yaw steps, the widest search range and the ray caster's step and search range, are the extremum or the rounding of the values they derive from); two parameter servers that agree on the listed names give the same configuration.", "quantifier": "all parameter servers", "why_tests_cant": "all combinations of set and unset parameters of any type", "anchors": ["src/parameters.cpp: load", "doc/Parameters.md"]}
{"id": "C132", "title": "A kd-tree search uses the last cloud and settings, in whatever order they were set", "statement": "After any sequence of setInputCloud, setPointRepresentation and setEpsilon calls, a search answers like one on a tree built from the last cloud with the last representation and epsilon; with axis weights of at least 1 and a radius the overlap supports it equals an exact search over the whole last cloud.", "quantifier": "all sequences of calls, clouds, weights and queries", "why_tests_cant": "all call orders", "anchors": ["include/mcl_3dl/chunked_kdtree.h: ChunkedKdtree::setInputCloud, setPointRepresentation, setEpsilon, radiusSearch"]}
{"id": "C125", "title": "The debug markers show what was measured", "statement": "A callback that publishes a pose publishes one marker array, with ids counting from 0: for each beam point used a ray from the place of its sensor to the point, both seen from the new estimate, coloured by the beam's status (hit green, short red, long blue, total reflection faint green); for each beam that is not long a collision marker of that colour; for each point used for the likelihood field a sample marker at the point.", "quantifier": "all histories of callbacks, clouds, maps and particle sets", "why_tests_cant": "all clouds, maps and beam outcomes", "anchors": ["src/mcl_3dl.cpp: MCL3dlNode::measure", "src/lidar_measurement_model_beam.cpp: getBeamStatus"]}
{"id": "C127", "title": "The file saved at shutdown holds the matched clouds of the current map", "statement": "With output_pcd, at shutdown the file holds the points used for the likelihood field by all callbacks that published a pose since the last map was loaded, in order, placed at the published poses; loading a map discards them, no other callback changes them; without output_pcd, or before a map arrived, no file is written.", "quantifier": "all histories of callbacks", "why_tests_cant": "unbounded accumulation over all histories", "anchors": ["src/mcl_3dl.cpp: MCL3dlNode::measure", "src/mcl_3dl.cpp: MCL3dlNode::~MCL3dlNode", "src/mcl_3dl.cpp: MCL3dlNode::loadMapCloud"]}
{"id": "C128", "title": "A landmark measurement reweighs the particles by a normal density, as a pose in the map frame", "statement": "After a landmark message every particle's weight is its old weight times the 6-dimensional normal density (covariance from the message) of the difference between the landmark pose and the particle's, normalised (unchanged if all products vanish); then particles are resampled in proportion to these weights, as in C124. The frame and time stamp of the message have no effect: the pose is taken as in the map frame.", "quantifier": "all messages with an admissible covariance, all particle sets and draws", "why_tests_cant": "all messages and particle sets", "anchors": ["src/mcl_3dl.cpp: MCL3dlNode::cbLandmark", "include/mcl_3dl/nd.h: NormalLikelihoodNd"]}
{"id": "C129", "title": "The published covariance is that of the particles under the posterior weights", "statement": "When a pose is published and the posterior weights form a distribution, entry (j, k) of its covariance is the weighted mean over the used particles of the product of deviations j and k from the mean pose (position differences; shortest turns of roll, pitch, yaw); mean pose and weights are those of the posterior. All particles are used, or, if there are more than num_particles, a random subset of the share num_particles/count, at least a tenth.", "quantifier": "all histories of callbacks, clouds, maps and particle sets", "why_tests_cant": "all particle sets and draws", "anchors": ["src/mcl_3dl.cpp: MCL3dlNode::measure", "include/mcl_3dl/pf.h: covariance, expectation", "include/mcl_3dl/state_6dof.h: covElement"]}
{"id": "C133", "title": "The tolerance added to transforms and particles is the smoothed interval between measurements", "statement": "The time of every published transform and particle set is the time of the reference odometry message (of the clock, if there is none) plus tf_tolerance plus a running tolerance; the running tolerance is the low-pass filtered (time constant 5 measurements, initially zero) sequence of the times between the measurements before, each limited to between zero and one second, the first counted from time zero.", "quantifier": "all histories, clocks and parameters", "why_tests_cant": "a statement about the whole history of measurements", "anchors": ["src/mcl_3dl.cpp: MCL3dlNode::measure", "src/mcl_3dl.cpp: MCL3dlNode::publishParticles", "include/mcl_3dl/filter.h: Filter"]}
{"id": "C134", "title": "The published transform is the smoothed correction of the odometry", "statement": "After any history the translation of the published map-to-odom transform is, in each coordinate, the low-pass filtered (lpf_step) sequence of the unsmoothed corrections, i.e. of the transforms that bring the odometry to the estimate of each measurement; its rotation has the roll, pitch and yaw filtered likewise as angles, each input taken as the equivalent angle within half a turn of the last output. A jump of the estimate (by more than jump_dist or jump_ang, or with more than num_particles particles) sets the filters to the correction.", "quantifier": "all histories and parameters with lpf_step not negative", "why_tests_cant": "a statement about the whole history of measurements", "anchors": ["src/mcl_3dl.cpp: MCL3dlNode::measure", "include/mcl_3dl/filter.h: Filter", "include/mcl_3dl/filter_vec3.h: FilterVec3"]}
{"id": "C135", "title": "Fake IMU messages act as received ones, and always measure a level robot", "statement": "With fake_imu the node reaches the same state and publishes the same messages as a node without it that receives, after each odometry message which is neither the first reference nor a time jump, an IMU message with the odometry's stamp, frame and orientation and the vertical turned by that orientation as acceleration. If the odometry keeps one orientation and tf gives the inverse of that orientation as the transform from the odometry frame to the robot, this weighs the particles as if the robot were level: a level particle is more likely than any tilted one, even if the odometry is tilted. (Expected: the tilt of the odometry is favoured.)", "quantifier": "all histories, parameters and orientations", "why_tests_cant": "a statement about whole histories and all orientations", "anchors": ["src/mcl_3dl.cpp: MCL3dlNode::cbOdom", "src/mcl_3dl.cpp: MCL3dlNode::cbImu", "include/mcl_3dl/imu_measurement_models/imu_measurement_model_gravity.h: ImuMeasurementModelGravity"]}
{"id": "C136", "title": "Fake odometry messages act as received ones", "statement": "With fake_odom the node reaches the same state and publishes the same messages as a node without it that receives, after each IMU message that is used, an odometry message with the IMU's stamp, the robot frame, position zero and the IMU's orientation with its axis turned into the robot frame.", "quantifier": "all histories and parameters", "why_tests_cant": "a statement about whole histories", "anchors": ["src/mcl_3dl.cpp: MCL3dlNode::cbOdom", "src/mcl_3dl.cpp: MCL3dlNode::cbImu"]}
{"id": "C137", "title": "Status and diagnostics tell what happened", "statement": "A callback publishes at most one status: only a point cloud does, only when there is a map, with the time at which the callback began; every published pose comes with one. It reports ERROR_POINTS_NOT_FOUND exactly if no pose is published with it, and then number of particles and match ratio are 0 and the other codes NORMAL. Diagnostics are published exactly with a status, with level ERROR iff no usable points were found or the standard deviation is too large; they report the odometry (IMU) as available iff there is a reference odometry (IMU) message, and the map always. (Expected: a missing map is reported.)", "quantifier": "all histories and parameters", "why_tests_cant": "a statement about whole histories", "anchors": ["src/mcl_3dl.cpp: MCL3dlNode::diagnoseStatus", "src/mcl_3dl.cpp: MCL3dlNode::cbCloud", "src/mcl_3dl.cpp: MCL3dlNode::measure"]}
{"id": "C138", "title": "Rounding of the weights is bounded by the number of particles", "statement": "With rounded arithmetic (every operation exact up to a relative error u, no underflow of the products and quotients), a measurement with positive evidence gives each particle prior times likelihood over evidence up to a relative error between (1-u)^2/(1+u)^(n+1) and (1+u)^2/(1-u)^(n+1), and weights whose sum differs from 1 by at most 2(n+3)u if (n+3)u is at most one half, where n is the number of particles.", "quantifier": "all numbers of particles, weights, likelihoods and roundings within the standard model of floating-point arithmetic", "why_tests_cant": "rounding errors of all inputs cannot be enumerated", "anchors": ["include/mcl_3dl/pf.h: ParticleFilter::measure"]}
{"id": "C139", "title": "With its own ray casters the node never crashes, except for stated reasons", "statement": "With sensible parameters, an exact kd-tree search and sensible events, the node with its own ray casters (kd-tree stepping or DDA grid) starts and deals with every history of callbacks: no exception, no undefined behaviour (apart from the integer conversions and hashes of the kd-tree's chunks, see C140), no endless loop, provided that no point inside the clipping range of the beam model is exactly at its sensor and all are within some distance of it (kd-tree: numbers of steps fit in an int; DDA: map stamps differ, grids fit). The only exceptions are a measurement at which the weighted mean directions of the particles are parallel (no orientation can be computed) and, for DDA, one at which a particle is farther than the considered distance from the origin of the map.", "quantifier": "all histories of callbacks of any length, maps and map updates, clouds, sensor poses, particle states, random draws; both ray casters", "why_tests_cant": "the casters run for every particle and point of every cloud; a crash needs one bad ray in one state of the caster's cache", "anchors": ["src/mcl_3dl.cpp: all callbacks", "include/mcl_3dl/raycasts/raycast_using_dda.h", "include/mcl_3dl/raycasts/raycast_using_kdtree.h", "src/lidar_measurement_model_beam.cpp: getBeamStatus"]}
{"id": "C140", "title": "When the chunked kd-tree is defined", "statement": "setInputCloud is free of undefined behaviour if and only if no coordinate is NaN or infinite and the indices of all chunks closer than max_search_radius to a point fit an int (in C++14 moreover the hash of each must be defined, C57); radiusSearch with an accepted radius if and only if the query is finite and the index of its chunk fits. Then the results are those of C52 to C56. Within 2^30 chunk lengths of the origin all indices fit; in C++14 no cloud with a point below max_search_radius along y or z can be stored. (One expects every finite map to be accepted and NaN queries to find nothing.)", "quantifier": "all clouds and queries with finite, infinite and NaN coordinates, all chunk lengths and radii, both language versions", "why_tests_cant": "an overflow or a NaN conversion shows no symptom in most runs", "anchors": ["include/mcl_3dl/chunked_kdtree.h: ChunkedKdtree::setInputCloud", "include/mcl_3dl/chunked_kdtree.h: ChunkedKdtree::radiusSearch", "include/mcl_3dl/chunked_kdtree.h: ChunkedKdtree::getChunkId"]}
{"id": "C141", "title": "A spread or time constant of zero", "statement": "With odom_err_integ_lin_sigma (or acc_var) set to 0, every likelihood is NaN and a measurement of clouds (IMU message) changes no weight and no entropy, whatever was measured. With odom_err_integ_lin_tc set to 0, one odometry step makes the accumulated error of every particle infinite or NaN in every component, and the measurement of clouds that follows changes nothing. With bias_var_dist or bias_var_ang set to 0, the estimated position is NaN. (One would expect such a setting to be rejected.)", "quantifier": "all filters, scores, accelerations, particle states, including infinite and NaN values", "why_tests_cant": "must hold for every filter and measurement", "anchors": ["include/mcl_3dl/nd.h: NormalLikelihood", "include/mcl_3dl/pf.h: measure, expectationBiased", "include/mcl_3dl/motion_prediction_models/motion_prediction_model_differential_drive.h: predict", "src/mcl_3dl.cpp: MCL3dlNode::measure"]}
{"id": "C142", "title": "Infinite and NaN likelihoods", "statement": "If the likelihood of some particle is NaN, a measurement changes nothing. If all weights are positive, no likelihood is NaN or negative and at least one is infinite (as for a landmark covariance whose determinant underflows), the measurement is accepted: particles of finite likelihood get weight 0, the others NaN, the entropy is 0. As soon as one weight is NaN, resampling replaces all particles by noisy copies of one and the same particle, with equal weights. (One would expect the measurement to be rejected.)", "quantifier": "all filters, likelihood functions, sorts and draws", "why_tests_cant": "must hold for every filter, sort and draw", "anchors": ["include/mcl_3dl/pf.h: measure, resample", "src/mcl_3dl.cpp: MCL3dlNode::cbLandmark"]}
{"id": "C143", "title": "Gaussian likelihoods are probability densities whose parameter is the spread", "statement": "NormalLikelihood(sigma) with sigma > 0 integrates to 1 over the real line, has mean 0 and variance sigma^2 (so the parameter is the standard deviation, not the variance). NormalLikelihoodNd with a positive definite matrix integrates to 1 over R^n, and its second moments are the entries of that matrix (so the parameter is the covariance).", "quantifier": "all positive standard deviations, all dimensions and all positive definite matrices", "why_tests_cant": "integrals over all inputs; tests compare values at a few points", "anchors": ["include/mcl_3dl/nd.h: NormalLikelihood", "include/mcl_3dl/nd.h: NormalLikelihoodNd"]}
{"id": "C144", "title": "Resampling equally weighted particles keeps them in place", "statement": "If all particles have the same positive weight, resampling with a random offset strictly between 0 and the scan step keeps every particle at its index; only the first gets noise, and all weights become 1/N. With the offset exactly 0 every particle moves up by one index: the first is kept twice, both copies with noise, and the last is lost.", "quantifier": "all numbers of particles, states, weights, offsets, noises and sorts", "why_tests_cant": "must hold for every particle set and every draw", "anchors": ["include/mcl_3dl/pf.h: ParticleFilter::resample"]}
{"id": "C145", "title": "Incidence sine against a flat wall", "statement": "For a map whose points all lie in one plane and unit axis weights, a collision reported by the KD-tree ray cast has an incidence sine within rho / (2 * step) of the sine of the angle between the ray and the plane, if the wall has a point within rho of the foot of the sample and of the foot of the point two steps before, both on the same side of the wall; without the same-side condition it is still never larger than that sine by more than rho / (2 * step).", "quantifier": "all planes, densities, rays, grids and samples", "why_tests_cant": "all geometric configurations; the test tries three rays on one wall", "anchors": ["include/mcl_3dl/raycasts/raycast_using_kdtree.h: getNextCastResult"]}
{"id": "C146", "title": "Planar motion stays planar", "statement": "If the odometry only turns about its own z axis and a particle has no roll and pitch, then prediction keeps it without roll and pitch whatever the noise coefficients; its heading becomes the old one plus the turn plus noise_la * distance + noise_aa * angle, its position moves by the translation scaled by 1 + noise_ll plus noise_al * angle forwards, in the direction of the old heading, and the error integrals take up exactly the added noise, then decay. The angle the noise sees is the turn without its direction, and 0 if the cosine of half the turn is at least 1 - 1e-6. (A user would expect it not to depend on the sign of the odometry quaternion, but it is negated if the relative quaternion comes with the negative sign.)", "quantifier": "all odometry histories without relative roll and pitch, particles and noise coefficients", "why_tests_cant": "continuum of poses, any number of steps", "anchors": ["include/mcl_3dl/motion_prediction_models/motion_prediction_model_differential_drive.h: setOdoms, predict", "include/mcl_3dl/quat.h: getAxisAng"]}
{"id": "C147", "title": "The sampler with normals inside the node", "statement": "With use_random_sampler_with_normal the node selects the points of every measurement with the statistics of the particles as they are at that moment (mean orientation and main axis of the positions; the same for both models), takes no point twice and takes all if there are not more than wanted. With sensible parameters, working libraries and fair random numbers it goes on running after every history of events, unless a batch of clouds is completed while the particles do not tell an axis (those used for the spread are all at one place, or their mean orientation is undefined). (A user would expect no exception: but while all particles are at one place, for example after an exactly known initial pose, the first batch with more usable points than wanted, one of which has a normal, stops the node: the selection does not end.)", "quantifier": "all parameters, histories, clouds, normals and random numbers", "why_tests_cant": "must hold for every history; non-termination cannot be tested", "anchors": ["src/mcl_3dl.cpp: MCL3dlNode::measure", "src/point_cloud_random_sampler_with_normal.cpp: sample, setParticleStatistics"]}
{"id": "C148", "title": "Vector and quaternion operators are those of vector algebra", "statement": "The operators of Vec3 are componentwise, dot, cross and norm are the scalar product, the vector product and the Euclidean length; indices 0, 1, 2 read and write the components and every other index the first. The operators of Quat are those of Hamilton's quaternions (sum, product, scalar multiples, conjugate, inverse, inner product, norm, unit), rotating a vector is conjugation q v q*, and the compound assignments give what the operators give, also if the operand is the assigned quaternion itself.", "quantifier": "all vectors, quaternions, scalars and indices", "why_tests_cant": "identities over a continuum of inputs", "anchors": ["include/mcl_3dl/vec3.h", "include/mcl_3dl/quat.h"]}
{"id": "C149", "title": "Results do not depend on the choice of the coordinate frames", "statement": "Moving all odometry poses by one rigid motion does not change where the particles go. Moving a particle by a rigid motion that keeps the vertical moves its whole predicted path (any rigid motion if it has no angular odometry noise). Moving map and pose by a rigid motion that keeps the vertical leaves the likelihood-field score and match ratio of every scan unchanged if the horizontal weights of the distance are equal (every rigid motion if all weights are equal), and the gravity likelihood unchanged. Shifting landmark pose and particle together leaves the landmark likelihood unchanged. Moving all particles moves the estimated pose (orientation: unless one of the estimates is a half turn).", "quantifier": "all rigid motions, poses, odometry sequences of any length, maps, scans, parameters and particle sets", "why_tests_cant": "equality of two runs for every motion of the frame and every sequence; tests use a handful of poses", "anchors": ["include/mcl_3dl/motion_prediction_models/motion_prediction_model_differential_drive.h", "src/lidar_measurement_model_likelihood.cpp", "include/mcl_3dl/imu_measurement_models/imu_measurement_model_gravity.h", "include/mcl_3dl/state_6dof.h: ParticleWeightedMeanQuat"]}
{"id": "C150", "title": "The particle filter does not look at the states", "statement": "Translating all states of a filter by any function, with the same random numbers and user functions that agree along the translation, translates every history of operations: weights, biases, entropy and failures are the same, states are translated, and max, maxBiased and getParticle answer with the translated state. For poses this covers every rigid motion of the map frame if the noise is turned too, and shifts with the same noise.", "quantifier": "all state types, translations, filters and operation histories of any length", "why_tests_cant": "a parametricity statement over all state types and histories", "anchors": ["include/mcl_3dl/pf.h: ParticleFilter::resample", "include/mcl_3dl/pf.h: ParticleFilter::measure", "include/mcl_3dl/pf.h: ParticleFilter::predict", "include/mcl_3dl/pf.h: ParticleFilter::resizeParticle", "include/mcl_3dl/pf.h: ParticleFilter::max"]}
{"id": "C151", "title": "A state is a vector of 13 numbers", "statement": "Index i < 13 of a state reads and writes exactly the i-th of position (x, y, z), orientation (x, y, z, w), linear and angular error integral, and no other member; other indices are undefined. The sum and difference of states, computed index by index, act on every number outside the orientation, compose the orientations, reset the members without index and never index out of range. A noise state has the first three generated numbers as position and linear error, the last three as roll, pitch, yaw, and their deviation from the mean as angular error; it is undefined exactly if fewer than six numbers or means are given.", "quantifier": "all states, indices, values and noise vectors of any length", "why_tests_cant": "every index and length, including those out of range, whose effect is undefined behaviour", "anchors": ["include/mcl_3dl/state_6dof.h: State6DOF::operator[]", "include/mcl_3dl/state_6dof.h: State6DOF::operator+", "include/mcl_3dl/state_6dof.h: State6DOF::operator-", "include/mcl_3dl/state_6dof.h: State6DOF::generateNoise"]}
{"id": "C152", "title": "Earlier casts and the order of the points do not matter", "statement": "The answers of a ray caster along a ray, and the likelihood and quality of a measurement of the beam model, do not depend on what was cast or measured before with the same object (other rays, particles, scans; for the grid caster also other maps, as long as different maps have different stamps); rearranging the points of a scan does not change the result of the beam model or of the likelihood-field model.", "quantifier": "all histories of casts, all maps with distinct stamps, all rays, scans, poses, parameters and permutations of the scan", "why_tests_cant": "hidden state (stored grid, position along the ray) could leak between calls; every history and permutation has to be covered", "anchors": ["include/mcl_3dl/raycasts/raycast_using_dda.h: setRay, getNextCastResult, updatePointCloud", "include/mcl_3dl/raycasts/raycast_using_kdtree.h: setRay, getNextCastResult", "src/lidar_measurement_model_beam.cpp: measure, getBeamStatus", "src/lidar_measurement_model_likelihood.cpp: measure"]}
{"id": "C153", "title": "The order of the particles does not matter", "statement": "Two filters holding the same particles in a different order stay so under prediction, bias and measurement, with the same entropy after a measurement, and give the same biased mean and the same pose estimate; the mean and the covariance at the default pass ratio agree if the weights are non-negative with sum at most 1 (for the covariance: 1), and max() agrees if all particles of maximal weight have the same state. (With weights above 1, as global localization gives, the mean does depend on the order.)", "quantifier": "all filters, all permutations of the particles, all models, likelihoods and biases", "why_tests_cant": "all permutations of filters of any size", "anchors": ["include/mcl_3dl/pf.h: ParticleFilter::measure", "include/mcl_3dl/pf.h: ParticleFilter::expectation", "include/mcl_3dl/pf.h: ParticleFilter::expectationBiased", "include/mcl_3dl/pf.h: ParticleFilter::covariance", "include/mcl_3dl/pf.h: ParticleFilter::max", "include/mcl_3dl/state_6dof.h: ParticleWeightedMeanQuat"]}
{"id": "C154", "title": "Resampling is unbiased", "statement": "Averaged over the uniform random draw, the number of copies of a particle of weight w (of its family, if weight-0 particles follow it directly) is exactly N w / W; and with positive weights the plain average over the new particles of any quantity the noise does not change is, averaged over the draw, the weighted mean over the old particles.", "quantifier": "all filters with non-negative weights of positive sum, all sorts, all noise (also depending on the draw), all particles and quantities", "why_tests_cant": "an average over a continuum of draws", "anchors": ["include/mcl_3dl/pf.h: ParticleFilter::resample", "include/mcl_3dl/pf.h: ParticleFilter::resampleUsingNoiseGenerator"]}
{"id": "C155", "title": "Repeated measurements that favour one particle single it out", "statement": "Without motion or resampling, each measurement in which every other particle has at most the fraction rho of the likelihood of particle j shrinks the weight of all others relative to that of j at least by rho. After n such measurements the others weigh at most rho^n (W - w_j)/w_j; once this is below 1/2, max() returns the state of j; the mean is within this bound times the largest distance of a particle; for rho < 1 the weight of j tends to 1.", "quantifier": "all filters with non-negative weights, all particles of positive weight, all sequences of likelihoods of any length, every rho >= 0", "why_tests_cant": "a limit over unboundedly many measurements", "anchors": ["include/mcl_3dl/pf.h: ParticleFilter::measure", "include/mcl_3dl/pf.h: ParticleFilter::max", "include/mcl_3dl/pf.h: ParticleFilter::expectation"]}
{"id": "C156", "title": "Opposed headings leave no orientation, and no later estimate recovers", "statement": "With finite particles whose votes (weight times bias) do not sum to 0 the mean position is finite, and the mean orientation before normalization is finite too, so the isfinite assertions hold. If the vote-weighted sums of the forward and of the up axes are not parallel, the estimate is that of exact arithmetic, with a unit orientation. If they are parallel (for example two particles of equal votes heading opposite ways) the look-at constructor returns the zero quaternion, because std::max absorbs its NaNs, and normalizing it yields NaN. From then on every estimate made while the particle count does not exceed num_particles is NaN in position and orientation, whatever is measured, because the bias is centred on the previous estimate. (Expected: an ambiguous orientation gives some orientation, and later measurements repair it.)", "quantifier": "all finite forward/up vectors; all filters with finite states and weights of any size; all later sequences of non-empty particle sets of any length and content (including non-finite ones)", "why_tests_cant": "the degenerate case is a set of measure zero that random tests miss, and the consequence is about all later measurements", "anchors": ["include/mcl_3dl/quat.h: Quat::Quat(forward, up_raw)", "include/mcl_3dl/state_6dof.h: ParticleWeightedMeanQuat::getMean", "src/mcl_3dl.cpp: MCL3dlNode::measure (bias_func, expectationBiased, normalize, state_prev_)"]}
{"id": "C157", "title": "The likelihood field is highest where the scan lies on the map", "statement": "For 0 <= match_dist_flat < match_dist_min and a positive match_weight, the likelihood-field score of a scan of n points is at most n * match_weight * (match_dist_min - match_dist_flat) at every pose, and the poses that reach this value are exactly those from which every point is within match_dist_flat of a map point (the match ratio is then 1). Every point more than d beyond that range costs at least match_weight * d. A standing robot whose scans all lie on the map as seen from one particle, while from every other particle at least a fraction k of the points is more than d off, therefore shrinks the others' weight by 1 - k d / (match_dist_min - match_dist_flat) per scan: the particle's weight tends to 1 and max() settles on it.", "quantifier": "all maps, scans, poses and parameters in range; all filters with non-negative weights; all infinite sequences of such scans", "why_tests_cant": "an optimum over all poses and a limit over unboundedly many scans", "anchors": ["src/lidar_measurement_model_likelihood.cpp: LidarMeasurementModelLikelihood::measure", "include/mcl_3dl/pf.h: ParticleFilter::measure", "include/mcl_3dl/pf.h: ParticleFilter::max"]}
{"id": "C158", "title": "Resampling copies in proportion despite rounding", "statement": "With machine arithmetic (each operation has a relative error of at most u <= 1/100 and rounding never reverses an order), resample() succeeds for every draw in [0, step], every result of the sort and every set of non-negative weights in range, and a particle of weight w whose weight is not lost when the running total is computed, together with the particles after it whose weights are lost, is copied N w / W times with an error of at most -1 - 7 N u and +2 + 11 N u, where N is the number of particles and W the computed sum of the weights. (The expected floor or ceiling of N w / W holds for exact arithmetic only, C17; with float and 10000 particles the error is within -1.01 and +2.01.)", "quantifier": "all machine arithmetics, particle sets, weights, draws and sort results", "why_tests_cant": "the error must be bounded for every rounding mode and every weight vector; unit tests use a handful of weights whose sums are exact", "anchors": ["include/mcl_3dl/pf.h: ParticleFilter::resample", "include/mcl_3dl/pf.h: ParticleFilter::resampleUsingNoiseGenerator"]}
{"id": "C159", "title": "Time arithmetic stays in range until 2038", "statement": "As long as the stamps of all messages and the clock are between 1970 and 19 January 2038 and tf_tolerance and match_output_interval are between 0 and 2^30 s, no subtraction of times, addition of a duration to a time or construction of a duration in any callback, after any history, leaves the range of ros::Time and ros::Duration (which would throw std::runtime_error and end the node); and the duration parameters can be stored. (Not later: the first measurement made at or after 2038-01-19 03:14:08 subtracts the initial time 0 from the clock, which does not fit.)", "quantifier": "all parameters in range, histories, stamps and clocks before 2038; for the failure, all nodes that have not yet published a pose", "why_tests_cant": "the range of the operands depends on the whole history and on the wall clock; tests run today", "anchors": ["src/mcl_3dl.cpp: MCL3dlNode::measure", "src/mcl_3dl.cpp: MCL3dlNode::cbOdom", "src/mcl_3dl.cpp: MCL3dlNode::cbImu", "src/mcl_3dl.cpp: MCL3dlNode::publishParticles"]}
{"id": "C160", "title": "Measurements keep coming", "statement": "After any history that leaves a map available, of any skip_measure * total_accum_cloud_max + 1 successive clouds (skip_measure + 1 if accum_cloud is 0) that have points and can be transformed to the odometry frame at least one triggers a measurement, however the sensors take turns and whatever other messages and requests come in between (except new maps). If the transforms needed for the measurement are known too, a status is published, together with a pose in the map frame unless no point is in range of the likelihood model (then the error POINTS_NOT_FOUND).", "quantifier": "all parameters with skip_measure > 0 and a positive batch size, histories and continuations", "why_tests_cant": "a bound on waiting must hold for every interleaving of sensors and other callbacks and every state of the collected batch; tests see a few schedules", "anchors": ["src/mcl_3dl.cpp: MCL3dlNode::cbCloud", "src/mcl_3dl.cpp: MCL3dlNode::measure", "include/mcl_3dl/cloud_accum.h: CloudAccumulationLogic::push"]}
{"id": "C161", "title": "The estimated position despite rounding", "statement": "With floating-point arithmetic (each operation exact up to a relative error u, no overflow or underflow), each coordinate of the position returned by expectationBiased differs from the exact weighted mean of the particles' coordinates by at most (4 n + 8) u B, where n is the number of particles and B bounds the coordinates. expectation, which stops summing once the running total of the probabilities exceeds the requested ratio 1, may thereby drop the last particles; this adds at most 2 B (eps + n u) / V, where V is the exact total of the probabilities and V <= 1 + eps.", "quantifier": "all arithmetics meeting the standard model of rounding, particle sets, weights, biases and coordinates", "why_tests_cant": "rounding errors depend on every input value and on the order of summation, and the early exit is triggered or not by single rounding errors; tests compare a few estimates with a tolerance", "anchors": ["include/mcl_3dl/pf.h: ParticleFilter::expectationBiased", "include/mcl_3dl/pf.h: ParticleFilter::expectation", "include/mcl_3dl/state_6dof.h: ParticleWeightedMeanQuat"]}
{"id": "C162", "title": "Observing does not disturb", "statement": "The settings that only concern what is shown (publish_tf, output_pcd, match_output_interval, match_output_dist, unmatch_output_dist, std_warn_thresh_*, fix_dist, fix_ang), the subscribers of the matched and unmatched clouds and the warning thresholds of dynamic reconfigure do not influence localization: any history that runs without error also runs with any other such settings and subscribers, every callback publishes the same poses with covariance, particles, markers, maps and responses, and filter, map and motion members end the same. (Expected: for all settings. In fact unmatch_output_dist must not exceed map_chunk: beyond it, a callback that would publish a pose ends the node with an exception as soon as somebody subscribes to one of the two clouds and they are due.)", "quantifier": "all parameters, display settings, libraries, histories and patterns of subscription", "why_tests_cant": "a non-interference property: it compares two runs over every history", "anchors": ["src/mcl_3dl.cpp: MCL3dlNode::measure", "src/mcl_3dl.cpp: MCL3dlNode::cbCloud", "src/mcl_3dl.cpp: MCL3dlNode::diagnoseStatus", "include/mcl_3dl/raycasts/raycast_using_kdtree.h: RaycastUsingKDTree::radiusSearch"]}
{"id": "C163", "title": "Collision markers are where the beam met the map", "statement": "getBeamStatus reports in its out-parameter the first accepted collision whenever the status is not LONG (otherwise the last result of the caster); the out-parameter does not influence the status. With the DDA caster that position is within half a cell diagonal of the map point that stopped the beam; with the kd-tree caster it is a sample on the ray within sqrt(2)/2 of the largest grid size of a nearest map point; after a HIT the position is less than hit_range plus that distance from the measured point, after a SHORT at least hit_range minus it. The node publishes one collision marker per stopped beam, in order, at this position in the colour of the status.", "quantifier": "all maps, kd-trees that search exactly, rays, caster states reached by any history, beam parameters, and all selections of points", "why_tests_cant": "the position depends on every cell or sample visited before, for any map", "anchors": ["src/lidar_measurement_model_beam.cpp: LidarMeasurementModelBeam::getBeamStatus", "src/mcl_3dl.cpp: MCL3dlNode::measure", "include/mcl_3dl/raycasts/raycast_using_dda.h: getNextCastResult", "include/mcl_3dl/raycasts/raycast_using_kdtree.h: getNextCastResult"]}
{"id": "C164", "title": "The published map carries the frame and time of the map it came from", "statement": "Whenever the node publishes updated_map, its frame is that of the point cloud last accepted as the map (the map frame if it was loaded from a file), also after updates have been merged into it, and its stamp is that of the map message, or the present if that had none, if the map came from a file or if an update was merged, cut to whole microseconds. The frame of a map is not read otherwise: with other frames the node goes through the same states. (One would expect a map in another frame to be transformed or refused: its coordinates are used and published as they are, whatever transforms are known.)", "quantifier": "all parameters, all histories of events with all frames of their messages, all later events", "why_tests_cant": "The frame and stamp live in cloud objects that are shared, replaced and merged in an order decided by the history; a test sees only a few histories.", "anchors": ["src/mcl_3dl.cpp: MCL3dlNode::cbMapcloud", "src/mcl_3dl.cpp: MCL3dlNode::cbMapUpdateTimer", "src/mcl_3dl.cpp: MCL3dlNode::loadMapCloud", "src/mcl_3dl.cpp: MCL3dlNode::cbLoadPCD"]}
{"id": "C165", "title": "Without noise the particles move exactly with the odometry", "statement": "With no noise configured (all four odometry error parameters, the resampling variance and the expansion variance zero; no fake odometry) and without events that place particles anew (initialpose, global localization), every particle is, after any history, the pose of one of the earlier particles moved exactly by the motion that the used odometry messages report, whatever scans, landmarks, IMU messages, resizing and expansion requests say in between: measurements select poses but never create or shift them. As long as there is no time jump, that motion is exactly the one from the reference odometry at the beginning to the one at the end, whatever happened in between; messages within 0.05 s of the last used one do not count. If all particles agree, every published estimate is therefore dead reckoning from that pose (its orientation unless that is a half turn about an axis with components of mixed signs).", "quantifier": "all noise-free parameters, all unit quaternions, all histories of events and environments, all earlier states, all estimates", "why_tests_cant": "It is a statement about all histories of interleaved messages, and about the exact composition of any number of incremental motions.", "anchors": ["src/mcl_3dl.cpp: MCL3dlNode::cbOdom", "src/mcl_3dl.cpp: MCL3dlNode::measure", "include/mcl_3dl/pf.h: ParticleFilter::predict", "include/mcl_3dl/pf.h: ParticleFilter::resample", "include/mcl_3dl/pf.h: ParticleFilter::noise", "include/mcl_3dl/motion_prediction_models/motion_prediction_model_differential_drive.h"]}
{"id": "C166", "title": "Sampled scans represent the whole scan", "statement": "With the uniform sampler, averaged over all equally likely sequences of draws, the mean of any quantity over the sampled points is its mean over all points given to the sampler, with a mean square error of exactly its variance divided by the number of points asked for; so it is off by e or more in at most the share variance / (num e^2) of the cases. In particular, for every pose, the average likelihood-field score is num_points times the mean gain of all points within the clip range, and the average match ratio is the share m of those points that are near the map, with mean square error m (1 - m) / num_points.", "quantifier": "all clouds, all quantities, all numbers of points, all sequences of draws, all poses, maps and parameters of the likelihood model", "why_tests_cant": "It is a statement about the average over all sequences of random draws; a test sees one sequence, or estimates the average.", "anchors": ["include/mcl_3dl/point_cloud_random_samplers/point_cloud_uniform_sampler.h", "src/lidar_measurement_model_likelihood.cpp"]}
{"id": "C167", "title": "Law of the normal-weighted sampler", "statement": "When the random numbers are independent and uniform in [0, 1), sampling num of more points with the normal-weighted sampler returns with probability 1, and the probability that exactly a given set of num points is handed out is that of drawing them one after the other without replacement, each time one of the points left with a probability proportional to its weight; a single point is drawn with a probability of its weight over the sum of all weights. The weights are those documented: 1 for a point without normal, and up to the maximal weight for a point facing the principal axis of the particles.", "quantifier": "all parameters with a maximal weight of at least 1 and a positive ratio interval, all particle statistics with a unit mean orientation and some spread, all clouds of distinct points, all normals, all sizes num, all sets of num points; the whole distribution of the infinite stream of random numbers", "why_tests_cant": "A statement about probabilities: a test sees a few samples of one seed and cannot tell a slightly biased draw from a correct one.", "anchors": ["include/mcl_3dl/point_cloud_random_samplers/point_cloud_sampler_with_normal.h: sample"]}
{"id": "C168", "title": "Particles are normally distributed", "statement": "When the random numbers are independent standard normal numbers: at the start the particles are independent, each with normally distributed position, roll, pitch and yaw with the configured initial pose as mean and the configured standard deviations; after an accepted initial pose they are independent with the multivariate normal distribution whose mean is the pose in the map frame and whose covariance is that of the message (if it is symmetric positive semidefinite); the expansion resetting service, and a localization whose match ratio is below match_ratio_thresh, move every particle by independent normally distributed amounts with the standard deviations expansion_var; a localization moves exactly the repeated copies among the resampled particles, by independent normally distributed amounts with the standard deviations resample_var. At the start and after an initial pose, each coordinate of the average position of the N particles is normally distributed about the given position, with the given variance divided by N.", "quantifier": "all parameters, all nodes, all messages, all numbers of particles, all (measurable) sets of poses for every particle; the whole distribution of the random numbers", "why_tests_cant": "A statement about a joint distribution of any number of poses: a test can only compare a few moments of one sample, with a tolerance.", "anchors": ["include/mcl_3dl/noise_generators/diagonal_noise_generator.h", "include/mcl_3dl/noise_generators/multivariate_noise_generator.h", "include/mcl_3dl/state_6dof.h: generateNoise", "include/mcl_3dl/pf.h: ParticleFilter::init, noise", "src/mcl_3dl.cpp: MCL3dlNode::cbPosition, cbExpansionReset"]}
{"id": "C169", "title": "Odometry errors are normally distributed with the configured deviations", "statement": "After a localization, when odometry reports a drive of distance d straight ahead and a turn by a about the vertical axis, every particle moves ahead by a random distance and turns by the reported turn plus a random heading error: distance and heading error are independent and normally distributed, the distance has the mean d and the variance (odom_err_lin_lin d)^2 + (odom_err_ang_lin a)^2, the heading error has the mean 0 and the variance (odom_err_lin_ang d)^2 + (odom_err_ang_ang a)^2, and different particles are independent. (A turn of less than 0.0028 rad counts as no turn. If the localization expanded the particles, they move without error. With the default match_ratio_thresh of 0 that never happens.)", "quantifier": "every parameter set, history of messages, localization, number of particles, pair of odometry messages that report a drive and turn, and family of measurable sets of poses, one for each particle", "why_tests_cant": "A test sees one draw of the random numbers; that the errors have exactly this joint law, for every set of poses and every number of particles, is a statement about all draws at once.", "anchors": ["src/mcl_3dl.cpp: MCL3dlNode::measure", "src/mcl_3dl.cpp: MCL3dlNode::cbOdom", "include/mcl_3dl/motion_prediction_models/motion_prediction_model_differential_drive.h (predict, setOdoms)"]}
{"id": "C170", "title": "Orientations do not drift by rounding", "statement": "In floating-point arithmetic (every operation with relative error at most u <= 1e-4, products and quotients with an underflow error of at most u/100), normalize() makes the squared length of a quaternion 1 up to 12u, from any squared length between 1/2 and 2. Hence after any number of odometry messages, whose orientations have a squared length within a tenth of 1, the squared length of a particle's orientation is within 12u of 1: the error does not grow with the running time. A resampled particle has the orientation of an old one or one within 12u of unit length. An orientation whose squared length is off by e changes the lengths in a scan rotated by it by the factor 1+e at most.", "quantifier": "all roundings within the model, all numbers of messages, all orientations, noises and particle filters", "why_tests_cant": "a bound that holds for an unlimited number of messages and every pattern of rounding errors cannot be reached by running finitely many", "anchors": ["include/mcl_3dl/quat.h normalized, norm, operator*, operator/, inv", "include/mcl_3dl/motion_prediction_models/motion_prediction_model_differential_drive.h setOdoms, predict", "include/mcl_3dl/pf.h: ParticleFilter::resample"]}
{"id": "C171", "title": "A known pose gives the true transform, if every odometry message is used", "statement": "If the particles agree on the pose of the robot and there is no noise, every estimate is the pose the robot had at the last used odometry message. If every odometry message is used (they come more than 0.05 s apart), the published map-to-odom transform is, from a jump of the estimate on, exactly the true place of the odometry frame, whatever is measured, and every published pose is the newest odometry taken there; without a jump each measurement shrinks the error of each coordinate of the translation by the factor |2 lpf_step - 1| / (2 lpf_step + 1). (A user would expect this for faster odometry, too: but messages within 0.05 s of the last used one change the odometry pose from which the correction is computed, not the particles, so the unsmoothed correction is off by exactly the distance the odometry moved since the last used message, and is right only if it did not move.)", "quantifier": "all known poses, noise-free parameters, histories of odometry, scans and other events without time jump or new placing, all measurements (orientations: no half turn about an axis with components of mixed signs; no gimbal lock)", "why_tests_cant": "depends on the whole history of odometry stamps relative to the scans and on all measurements in between", "anchors": ["src/mcl_3dl.cpp: MCL3dlNode::cbOdom", "src/mcl_3dl.cpp: MCL3dlNode::measure", "include/mcl_3dl/filter.h Filter::in"]}
{"id": "C172", "title": "Zero particles are accepted and final", "statement": "A request for zero particles always succeeds, and so does a global localization in a map with no place to stand (for instance after loading a map file without points, which is accepted, too). From then on, whatever the node receives: every particle cloud it publishes is empty, it publishes no pose, no transform and no markers, and nothing brings particles back; a later request for particles is undefined behaviour, and so is the next cloud with which the node would have published a pose. The same holds from the start with num_particles 0. (A user would expect such a request to be refused or to be undone by the next request.)", "quantifier": "all states, all histories before and after the request, all sizes asked for later, all clouds (for the crash on a cloud: uniform sampler, no global localization under way)", "why_tests_cant": "ranges over all histories after the request; the crash is reading past the end of an empty vector, which a test need not notice", "anchors": ["src/mcl_3dl.cpp: MCL3dlNode::cbResizeParticle", "src/mcl_3dl.cpp: MCL3dlNode::cbGlobalLocalization", "src/mcl_3dl.cpp: MCL3dlNode::measure", "include/mcl_3dl/pf.h: ParticleFilter::resizeParticle", "include/mcl_3dl/pf.h: ParticleFilter::max"]}
{"id": "C173", "title": "The smoothing does not accumulate rounding errors", "statement": "Computed in machine numbers (every operation correct up to a relative error u and an absolute error below the smallest normal number), the output of a low-pass filter with time constant T of at least half a step, after any sequence of set() and in() calls with numbers of size at most M >= 1, differs from the output of the same calls in exact arithmetic by at most 20 u (1 + 2 T) M: the bound does not grow with the number of calls. So up to this error the machine's output stays in every range that holds its inputs (with float and the node's default T = 16 and positions up to 100 m: below a centimetre, for ever).", "quantifier": "all arithmetics with relative error u <= 1/100 and 16 u (1 + 2 T) <= 1, all time constants T >= 1/2, all initial values, all finite sequences of calls of any length; filters not in angle mode", "why_tests_cant": "a recursive filter feeds its rounding errors back; that they do not build up must hold for sequences of any length and every rounding", "anchors": ["include/mcl_3dl/filter.h: Filter::Filter", "include/mcl_3dl/filter.h: Filter::in", "include/mcl_3dl/filter.h: Filter::set"]}
{"id": "C174", "title": "One odometry message without a pose ruins the localization for good", "statement": "With IEEE rules for infinities and NaN: if an odometry message used for the motion prediction has the zero quaternion as orientation (as a message nobody filled in has) or a NaN in its position or orientation, every particle has lost its orientation (all four numbers NaN) afterwards, and its position with the next message; the same holds if it is the first message. No motion, measurement, resampling, added noise or change of the number of particles restores it. An estimate made from such particles has no orientation; made with the bias around the previous estimate it has no position either, and then all later estimates with the bias are NaN even if the particles have meanwhile been placed anew at a known pose. A smoothing filter once given NaN answers NaN until it is set. Messages with finite numbers and a non-zero orientation do no harm. (A user would expect such a message to be ignored, or at least that an initial pose repairs the damage.)", "quantifier": "all histories of odometry messages before and after, all particles, weights, likelihoods, draws, noise and sort results, all later particle sets", "why_tests_cant": "ranges over all continuations after the message; the unit tests feed finite unit orientations only", "anchors": ["src/mcl_3dl.cpp: MCL3dlNode::cbOdom", "src/mcl_3dl.cpp: MCL3dlNode::measure", "include/mcl_3dl/motion_prediction_models/motion_prediction_model_differential_drive.h: setOdoms, predict", "include/mcl_3dl/quat.h: Quat::normalize, Quat::inv", "include/mcl_3dl/filter.h: Filter::in"]}
{"id": "C175", "title": "The grid caster stays inside its arrays whatever the rounding", "statement": "For every monotone rounding of float and double (every IEEE-754 mode), every history of setRay and getNextCastResult on a RaycastUsingDDA whose maps have at least one point and no NaN, wherever rounding puts the end cell of the ray and whichever axis the rounded t_max_ values select in each step: once a ray has been set every further getNextCastResult is defined - it never reads outside point_exists_ and never dereferences a missing entry of points_; every map point is stored in, and found in, a cell of the grid, and cells hold no other points. setRay itself is defined if the map has fewer than 2^31 cells and the cells are within 2^28 of the corner. The exact-arithmetic caster of C58-C64 is one run of this caster. (A NaN beginning passes the within-the-map check and is then converted to int, which is undefined.)", "quantifier": "every number system with monotone subtraction, conversion and comparison, every map, every history of calls, every end cell, every sequence of axes", "why_tests_cant": "which cell a rounded coordinate falls in, and which axis a rounded comparison selects, differs from the exact result for uncountably many inputs; tests see only the roundings that happen", "anchors": ["include/mcl_3dl/raycasts/raycast_using_dda.h: setRay, getNextCastResult, updatePointCloud, incrementIndex, toIndex, getArrayIndex, setExists, hasIntersection, isPointWithinMap"]}
{"id": "C176", "title": "A small displacement changes the likelihood-field score only a little", "statement": "The likelihoods of two scans with equally many points, seen from two poses, differ by at most match_weight times the sum of the (weighted) distances between corresponding points in the map frame, whatever the map. So shifting the pose by d changes the likelihood by at most match_weight * points * |d|; turning the robot in place by an angle whose half has the sine h by at most match_weight * 2h * (sum of the ranges), times the largest axis weight; errors of at most e in each scan point by at most match_weight * points * e. The match ratio has no such bound: an arbitrarily small shift can take it from 1 to 0.", "quantifier": "all maps, scans, poses, turns, shifts and point errors, all parameters with non-negative match_weight and match_dist_min", "why_tests_cant": "a Lipschitz bound ranges over uncountably many pairs of poses; unit tests compare a few", "anchors": ["src/lidar_measurement_model_likelihood.cpp: LidarMeasurementModelLikelihood::measure", "include/mcl_3dl/state_6dof.h: transform"]}
{"id": "C177", "title": "Posterior weights and the estimate depend stably on the likelihoods", "statement": "If in each of n measurements the likelihoods of the particles are known only up to a factor between a and b, every posterior weight is determined up to the factor (b/a)^n and every coordinate of the estimate up to (b/a)^n - 1 times the width of its range over the particles, independent of the number of particles. Likelihoods of at least m with an error of at most d < m are known up to a factor between 1 - d/m and 1 + d/m; with the likelihood field, errors of the scan points give such a bound.", "quantifier": "all particle sets, weights, likelihoods with positive values, numbers of measurements and factors; all scans, maps and point errors for the last part", "why_tests_cant": "ranges over all pairs of likelihood functions and all histories of measurements", "anchors": ["include/mcl_3dl/pf.h: ParticleFilter::measure", "include/mcl_3dl/pf.h: ParticleFilter::expectation", "src/lidar_measurement_model_likelihood.cpp: LidarMeasurementModelLikelihood::measure"]}
{"id": "C178", "title": "The likelihood field looks only at the map near the scan, and more map never lowers it", "statement": "Two maps that have the same points within match_dist_min of the points of a scan give the same likelihood and match ratio for it: farther points, repetitions and the order of the map points do not matter. Adding points to the map never lowers the likelihood or the match ratio of any scan at any pose, and raises the likelihood by at most match_weight * (match_dist_min - match_dist_flat) for each scan point that has a new map point within match_dist_min.", "quantifier": "all pairs of maps, scans, poses and parameters with non-negative match_weight and match_dist_min", "why_tests_cant": "compares the results for all pairs of maps that agree near the scan; a unit test has one map", "anchors": ["src/lidar_measurement_model_likelihood.cpp: LidarMeasurementModelLikelihood::measure", "include/mcl_3dl/chunked_kdtree.h: radiusSearch"]}
{"id": "C179", "title": "The beam model on the kd-tree looks only at the map along the beams", "statement": "With the kd-tree caster, two maps that have the same labelled points near a beam, from one step before the sensor to the tolerance behind the measured point and within two steps plus the largest grid size over the square root of 2, give the beam the same status, provided no sample of the ray has two different nearest map points. If this holds for all beams of a scan, the likelihood of the scan is the same. The rest of the map, the order of its points and repetitions do not matter.", "quantifier": "all pairs of maps, beams, scans, poses, sensor origins, grid sizes and parameters", "why_tests_cant": "compares the results for all pairs of maps that agree along a beam; a unit test has one map", "anchors": ["include/mcl_3dl/raycasts/raycast_using_kdtree.h: getNextCastResult", "src/lidar_measurement_model_beam.cpp: getBeamStatus, measure"]}
{"id": "C180", "title": "A map update that the robot does not see changes nothing but the map", "statement": "Take two nodes that differ only in the map, for example because one of them received a map update. If both maps have the same points near the measured points and along the beams of the measurement that the next cloud completes, as seen from each particle and from the new estimate, then both nodes do the same with the cloud: they publish the same messages and transforms, and afterwards they still differ only in the map. (With the kd-tree caster, an exact search without ties along the beams, and no subscriber to the matched and unmatched clouds.)", "quantifier": "all histories that lead to the two nodes, all clouds, maps, parameters, transforms and random draws", "why_tests_cant": "compares two whole runs for all pairs of maps that look alike to the robot; a unit test has one map and one scan", "anchors": ["src/mcl_3dl.cpp: cbCloud, measure, cbMapcloudUpdate, publishMapCloud", "src/lidar_measurement_model_likelihood.cpp: measure", "src/lidar_measurement_model_beam.cpp: getBeamStatus, measure"]}
{"id": "C181", "title": "While the particles roughly agree about the orientation, the node does not crash", "statement": "Under the conditions of C139 (exact kd-tree search, sensible parameters, sensor mounts, events, unit quaternions) the node starts and deals with any history as long as, at each measurement, the upward directions of the particles are within some angle of a common direction and their forward directions within less than the rest of the right angle of a direction perpendicular to it. Whatever the measurement says about the weights, the mean forward and upward directions are then not parallel. On flat ground it is enough that all headings lie in an open half plane; in general it is enough that all orientations are less than 45 degrees from a common one. Two opposite headings with equal weights leave no orientation.", "quantifier": "all histories, maps, scans, numbers, poses and weights of particles, random draws and both ray casters", "why_tests_cant": "absence of crashes over all histories; the bound on the spread must hold for every set of particles and weights", "anchors": ["src/mcl_3dl.cpp: MCL3dlNode::measure", "include/mcl_3dl/state_6dof.h: ParticleWeightedMeanQuat", "include/mcl_3dl/quat.h: Quat(forward, up)"]}
{"id": "C182", "title": "What rounding costs the chunked kd-tree", "statement": "If every float operation has a relative error up to u and an absolute error up to eta, and no coordinate of the map or the query exceeds b, radiusSearch answers like a search over the whole cloud for every radius that stays below max_search_radius by 12 u (b + chunk_length) + 6 eta (chunk_length + 1): with float and the default chunk length less than a millimetre for coordinates up to 1 km. Whatever the rounding, returned ids are valid, not repeated, and name points within the radius. A search with the full max_search_radius (as when match_dist_min determines it) can miss a point at the rim. (One expects the exact result of C52 for every radius up to max_search_radius.)", "quantifier": "all clouds, queries, radii, result limits, chunk lengths, distances computed by the trees of the chunks, and all roundings with these errors", "why_tests_cant": "a loss by rounding occurs only for points within an error of a chunk border, which tests do not hit; the bound is over all roundings", "anchors": ["include/mcl_3dl/chunked_kdtree.h: ChunkedKdtree::getChunkId, setInputCloud, radiusSearch"]}
{"id": "C183", "title": "The grid caster takes from the map only its box and what is close to the line of the ray", "statement": "Two maps with the same smallest and largest coordinates that have the same labelled points, in the same order, within the half-beam width (or the map-grid threshold) of the line of a ray give RaycastUsingDDA the same answers along the ray - whether the ray can be cast, the visited cells, where it collides and with which position and label - after any casts before; so a beam gets the same status and a scan the same likelihood. With a different box it need not: one more map point 6 m beside the ray can make the ray collide with another point. (One expects far map points not to matter at all.)", "quantifier": "all pairs of maps, rays, histories of casts, numbers of calls, configurations with a positive grid size, beam parameters, poses and scans", "why_tests_cant": "a relation between two runs over arbitrary maps with unbounded numbers of points and cells", "anchors": ["include/mcl_3dl/raycasts/raycast_using_dda.h: RaycastUsingDDA::setRay, getNextCastResult, updatePointCloud, hasIntersection", "src/lidar_measurement_model_beam.cpp: LidarMeasurementModelBeam::measure, getBeamStatus"]}
{"id": "C184", "title": "The work of measuring a scan with the beam model is bounded by the parameters", "statement": "While a scan is measured for one particle, the ray caster is asked for at most (length of the beam + hit range) / smallest map grid size results per point with the kd-tree caster (at least one), and at most 3 + sqrt 3 * (length of the beam + hit range) / grid size with the grid caster, whatever the map is and whatever was cast before; the bound for the kd-tree caster is attained. With the filter of the model before it, the total for a scan is at most max(num_points, num_points_global) times that number for a beam of clip_far + max(|clip_z_min|, |clip_z_max|) + the distance of the farthest sensor from the robot, however large the map and the scan are; and while the node weighs its particles with a batch, whichever caster is configured, the total is at most particles * points * the larger of the two numbers.", "quantifier": "all maps, search results, scans, sensor origins, unit orientations and positions of the particle, states of the casters, beam parameters, samplers that return at most the requested number of the given points", "why_tests_cant": "a time bound for every map, scan, pose and history; tests measure a few", "anchors": ["src/lidar_measurement_model_beam.cpp: LidarMeasurementModelBeam::filter, measure, getBeamStatus", "include/mcl_3dl/raycasts/raycast_using_kdtree.h: setRay, getNextCastResult", "include/mcl_3dl/raycasts/raycast_using_dda.h: setRay, getNextCastResult"]}
{"id": "C185", "title": "Bounds of the published covariance", "statement": "While there are not more particles than num_particles and their weights are a distribution, the covariance published with the pose after a measurement is symmetric; its variances are not negative and no correlation exceeds 1 in magnitude; no variance of roll, pitch or yaw exceeds pi^2; and the variance of x, y or z is at most the square of half the spread of the particles in that coordinate, and it is 0 exactly if the particles that have a weight after the measurement agree in it. With more particles, when it is taken over a random subset whose weights do not sum up to 0, the same holds with the square of the whole spread.", "quantifier": "all valid histories ending with a measurement, parameters, likelihood results, particle sets and bounds of their coordinates", "why_tests_cant": "inequalities over every particle set and every likelihood that a history can produce", "anchors": ["include/mcl_3dl/pf.h: ParticleFilter::covariance", "include/mcl_3dl/state_6dof.h: State6DOF::covElement", "src/mcl_3dl.cpp: MCL3dlNode::measure"]}
{"id": "C186", "title": "What is held of the scans does not grow with the time the node runs", "statement": "With accum_cloud not 0, whatever has been received, the node collects at most total_accum_cloud_max clouds (but at least one; a negative value is read as a number near 2^64) before they are measured, so at most so many times the points of the largest cloud received; the recorded headers and sensor names are as few, and no batch is larger.", "quantifier": "all parameters with accum_cloud not 0, histories of callbacks with float coordinates, sizes of clouds and library results", "why_tests_cant": "a bound on the state after a history of any length", "anchors": ["src/mcl_3dl.cpp: MCL3dlNode::cbCloud, accumCloud, accumClear", "include/mcl_3dl/cloud_accum.h: CloudAccumulationLogic::push"]}
{"id": "C187", "title": "The number of particles is one that was asked for, or on its way down from one", "statement": "After any history of callbacks (div_yaw positive) the number of particles is num_particles, or the size of a resize request received, or div_yaw times the number of places of a global localization requested while there was a map, or it lies between num_particles and one of these; so it never exceeds all of them nor falls below all of them.", "quantifier": "all histories of callbacks, parameters, random draws and library results with an exact kd-tree", "why_tests_cant": "a bound on the state after a history of any length", "anchors": ["src/mcl_3dl.cpp: MCL3dlNode::measure, cbResizeParticle, cbGlobalLocalization", "include/mcl_3dl/pf.h: ParticleFilter::resizeParticle"]}

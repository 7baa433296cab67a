{"id": "C01", "title": "Knot times stay strictly increasing, keys stay in bijection with knots", "statement": "After any history of inserting, batch-inserting, appending at the end, removing at a time, updating by key, batch-modifying and clearing, the listed knot times are strictly increasing, there are as many keys as times, no key occurs twice, and looking up each listed key yields exactly the time and the value of the knot that lists it (and no other key resolves).", "quantifier": "every finite sequence of manager operations with every argument, that does not abort or run into undefined behaviour", "why_tests_cant": "The invariant ties two containers together over unbounded histories; a test walks a handful of histories.", "anchors": ["curves/include/curves/LocalSupport2CoefficientManager-inl.hpp insertCoefficient, insertCoefficients, addCoefficientAtEnd, removeCoefficientAtTime, updateCoefficientByKey, modifyCoefficientsValuesInBatch, clear, checkInternalConsistency"]}
{"id": "C02", "title": "Inserting at a time is a point update", "statement": "insertCoefficient(t,v) makes the knot at t carry v and leaves the value and key of every other knot untouched. If there was already a knot at t its key is returned and the number of knots is unchanged; otherwise the number of knots grows by one and the returned key was never handed out before.", "quantifier": "every manager state, every time, every value", "why_tests_cant": "Frame conditions ('nothing else changes') quantify over all other knots and all states.", "anchors": ["curves/include/curves/LocalSupport2CoefficientManager-inl.hpp insertCoefficient, hasCoefficientAtTime, updateCoefficientByKey"]}
{"id": "C03", "title": "Batch insertion: last value wins, keys line up with times", "statement": "insertCoefficients(times,values,&keys) aborts exactly when the lengths differ; otherwise afterwards each time in the list carries the value paired with its last occurrence, every time not in the list keeps its knot, one key per list entry is appended to the output in order, and the i-th appended key is the key of the knot at times[i].", "quantifier": "every manager state and all lists of times and values, including unsorted lists and repeated times", "why_tests_cant": "Orderings and repetitions of the input list are unbounded.", "anchors": ["curves/include/curves/LocalSupport2CoefficientManager-inl.hpp insertCoefficients"]}
{"id": "C04", "title": "Bracketing lookup", "statement": "getCoefficientsAt(t) succeeds exactly when there are at least two knots and minTime <= t <= maxTime. On success it returns two neighbouring knots (no knot lies strictly between them) with t0 <= t <= t1, and t < t1 unless t is maxTime, so an interior knot is always reported as the left end. On failure the state is unchanged and nothing is returned.", "quantifier": "every manager state and every query time", "why_tests_cant": "A continuum of query times and unbounded knot sets; off-by-one at knots is precisely what sampling misses.", "anchors": ["curves/include/curves/LocalSupport2CoefficientManager-inl.hpp getCoefficientsAt"]}
{"id": "C05", "title": "Removal is exact", "statement": "removeCoefficientAtTime(t) aborts exactly when there is no knot at t. Otherwise the knot and its key disappear, every other knot keeps its time, value and key, and the number of knots drops by one.", "quantifier": "every manager state and time", "why_tests_cant": "Frame condition over all other knots.", "anchors": ["curves/include/curves/LocalSupport2CoefficientManager-inl.hpp removeCoefficientAtTime"]}
{"id": "C06", "title": "Keys are stable handles", "statement": "Once a knot has a key, that key resolves to that knot's time after every later sequence of insertions, overwrites, appends, updates by key and batch modifications, and to the value last written at that time; it stops resolving only when that knot is removed or the manager is cleared, and from then on it never resolves again.", "quantifier": "every history of operations", "why_tests_cant": "History property: quantifies over all continuations after the key was handed out.", "anchors": ["curves/include/curves/LocalSupport2CoefficientManager-inl.hpp insertCoefficient, updateCoefficientByKey, getCoefficientByKey, getCoefficientTimeByKey, removeCoefficientAtTime, clear"]}
{"id": "C07", "title": "Keys are globally unique under concurrency", "statement": "Any number of threads calling getNextKey in any interleaving receive pairwise different keys, and all keys handed out after n calls are exactly 1..n, until 2^64 calls have been made; the (2^64)th call returns 0 and from then on keys repeat.", "quantifier": "every schedule of every number of threads, every number of calls", "why_tests_cant": "Schedules cannot be enumerated, and 2^64 calls cannot be made.", "anchors": ["curves/src/KeyGenerator.cpp KeyGenerator::getNextKey"]}
{"id": "C08", "title": "Extent and listing agree with contents", "statement": "getTimes lists exactly the times holding a knot, in increasing order, replacing the caller's vector; getKeys lists the keys in the same order, replacing the caller's vector, appendKeys appends them; size is the number of listed times; getMinTime/getMaxTime are the least and greatest knot time when non-empty and 0 when empty.", "quantifier": "every manager state, every previous content of the caller's vectors", "why_tests_cant": "Universally quantified over states.", "anchors": ["curves/include/curves/LocalSupport2CoefficientManager-inl.hpp getTimes, getKeys, appendKeys, size, getMinTime, getMaxTime"]}
{"id": "C09", "title": "Window listing returns the knots in the window", "statement": "getTimesInWindow(begTime,endTime) with endTime equal to maxTime and begTime >= minTime lists exactly the knot times in [begTime,endTime].", "quantifier": "every manager state with at least two knots and every admissible window", "why_tests_cant": "Universally quantified; the failing case (window starting at the very first knot) is a boundary value.", "anchors": ["curves/include/curves/LocalSupport2CoefficientManager-inl.hpp getTimesInWindow"]}
{"id": "C10", "title": "Batch modification touches exactly the named knots", "statement": "modifyCoefficientsValuesInBatch(times,values) called with a non-empty contiguous run of existing knot times sets exactly those values, keeps all keys and times and all other values. If times[0] is a knot but some times[i] is not the knot following times[i-1] while one follows, the call aborts.", "quantifier": "every manager state, every contiguous run, all values", "why_tests_cant": "Frame condition and unbounded runs.", "anchors": ["curves/include/curves/LocalSupport2CoefficientManager-inl.hpp modifyCoefficientsValuesInBatch"]}
{"id": "C11", "title": "Moving a knot keeps its key and loses nothing", "statement": "modifyCoefficient(knot,t,v) to a time holding no knot removes the knot at its old time, creates one at t with value v, the same key resolves to the new time, and all other knots are untouched. If t already holds a knot (including the moved one) the guarantee is lost: a knot or its key is corrupted.", "quantifier": "every manager state, every knot of it, every target time and value", "why_tests_cant": "Depends on coincidences of times across unbounded states.", "anchors": ["curves/include/curves/LocalSupport2CoefficientManager-inl.hpp modifyCoefficient"]}
{"id": "C12", "title": "Append-at-end accepts exactly later times", "statement": "On a non-empty manager addCoefficientAtEnd(t,v) aborts exactly when t <= maxTime; otherwise it adds one knot at t with value v under a never-used key, t becomes maxTime and all other knots are untouched.", "quantifier": "every non-empty manager state, every time and value", "why_tests_cant": "Universally quantified frame condition.", "anchors": ["curves/include/curves/LocalSupport2CoefficientManager-inl.hpp addCoefficientAtEnd"]}
{"id": "C13", "title": "Copies of a manager are independent", "statement": "After copying a knot container (and hence a curve), changing the copy through a key does not change the original, and reading the copy through a key reads the copy.", "quantifier": "every manager state and every key update", "why_tests_cant": "Aliasing bug visible only for particular histories; needs reasoning on iterator identity.", "anchors": ["curves/include/curves/LocalSupport2CoefficientManager.hpp implicit copy constructor, keyToCoefficient_", "curves/include/curves/LocalSupport2CoefficientManager-inl.hpp updateCoefficientByKey, getCoefficientByKey"]}
{"id": "C14", "title": "Sampling ratio keeps the newest measurement and thins the rest", "statement": "Feeding a slerp/discrete curve single measurements at strictly increasing times with sampling ratio m >= 1, after every extend the last knot is the newest measurement, the first two measurements and every measurement that completed a group of m are still knots with their own values, and the number of knots after n >= 2 measurements is 2 + ceil((n-2)/m). No extend in such a history aborts.", "quantifier": "every strictly increasing stream of measurements and every ratio", "why_tests_cant": "Counter-driven state machine over unbounded histories.", "anchors": ["curves/include/curves/SlerpSE3Curve.hpp SamplingPolicy::extend<SlerpSE3Curve,SE3>", "curves/include/curves/DiscreteSE3Curve.hpp SamplingPolicy::extend<DiscreteSE3Curve,SE3>", "curves/include/curves/SemiDiscreteSE3Curve.hpp", "curves/include/curves/SlerpSE2Curve.hpp"]}
{"id": "C15", "title": "clear() makes a slerp/discrete curve as good as new", "statement": "After clear(), any further sequence of extends yields the same knots (times and values) as the same sequence on a freshly constructed curve with the same sampling ratio.", "quantifier": "every history before clear and every history after it", "why_tests_cant": "Hyperproperty comparing two unbounded histories.", "anchors": ["curves/src/SlerpSE3Curve.cpp SlerpSE3Curve::clear, extend", "curves/include/curves/SlerpSE3Curve.hpp SamplingPolicy::extend", "curves/include/curves/SamplingPolicy.hpp"]}
{"id": "C16", "title": "A single spline meets its boundary conditions", "statement": "For duration tf > 0 computeCoefficients yields a spline of the given order whose start position (all orders), start velocity (order >= 2), start acceleration (order >= 4), end position (all orders), end velocity (order >= 3) and end acceleration (order 5) equal the requested ones, and it is the only polynomial of that degree doing so.", "quantifier": "all option values with tf > 0, orders 1..5", "why_tests_cant": "Real-valued parameters; a test samples a few.", "anchors": ["curves/include/curves/polynomial_splines_traits.hpp spline_rep<double,N>::compute", "curves/include/curves/PolynomialSpline.hpp computeCoefficients"]}
{"id": "C17", "title": "Velocity and acceleration are the derivatives of position", "statement": "Strictly inside (0,duration) getVelocityAtTime is the time derivative of getPositionAtTime and getAccelerationAtTime is the time derivative of getVelocityAtTime, for every order 1..5 and every coefficient vector.", "quantifier": "all coefficients, all durations, all times in the open interval", "why_tests_cant": "A limit statement over a continuum; finite differences only approximate it.", "anchors": ["curves/include/curves/polynomial_splines_traits.hpp tau, dtau, ddtau", "curves/include/curves/PolynomialSpline.hpp getPositionAtTime, getVelocityAtTime, getAccelerationAtTime"]}
{"id": "C18", "title": "Spline evaluation saturates outside its duration", "statement": "For duration >= 0: for t <= 0 the position, velocity and acceleration are the ones at 0, for t >= duration the ones at duration.", "quantifier": "all splines, all times", "why_tests_cant": "Continuum of times.", "anchors": ["curves/include/curves/PolynomialSpline.hpp getPositionAtTime, getVelocityAtTime, getAccelerationAtTime"]}
{"id": "C19", "title": "Time-vector helpers agree with evaluation", "statement": "The position/velocity/acceleration row vectors that PolynomialSpline exposes for building linear constraints, multiplied with the coefficients, give the position, velocity and acceleration polynomial at that time; the precomputed vectors for time 0 equal the vectors evaluated at 0.", "quantifier": "all coefficient vectors, all times, orders 1..5", "why_tests_cant": "Universally quantified identity; one of the helpers returns the wrong row.", "anchors": ["curves/include/curves/PolynomialSpline.hpp getTimeVector, getDiffTimeVector, getDDiffTimeVector, addTimeVector, addDiffTimeVector, addDDiffTimeVector, getTimeVectorAtZero, getDiffTimeVectorAtZero, getDDiffTimeVectorAtZero"]}
{"id": "C20", "title": "A fitted container passes through all knots", "statement": "If times are strictly increasing with at least two knots and positions has the same length, setData succeeds and afterwards getPositionAtTime(times[i]-times[0]) equals positions[i] for every i.", "quantifier": "all knot lists, all orders 1..5, all three setData variants, given a linear solver that returns a solution whenever one exists", "why_tests_cant": "Unbounded number of knots and real values; correctness depends on the assembled linear system being right for every n.", "anchors": ["curves/include/curves/PolynomialSplineContainer.tpp setData (three overloads), addInitialConditions, addFinalConditions, addJunctionsConditions, extractSplineCoefficients"]}
{"id": "C21", "title": "A fitted container is smooth at junctions and honours end derivatives", "statement": "After a successful setData with accelerations for order 5 (and order 4 with at least two segments) position, velocity and acceleration are continuous at every interior knot and the initial/final velocity and acceleration are the requested ones. For order 3, and for order 4 with one segment, velocity and acceleration are continuous at interior knots and the initial/final velocity are the requested ones.", "quantifier": "all strictly increasing knot lists, all derivative values", "why_tests_cant": "Same as C20.", "anchors": ["curves/include/curves/PolynomialSplineContainer.tpp setData, addInitialConditions, addFinalConditions, addJunctionsConditions"]}
{"id": "C22", "title": "The assembled linear system always has a solution", "statement": "For strictly increasing knots the constraint system assembled by setData is consistent for order 5 with any number of segments, for order 4 with at least two segments, and (velocity variant) for order 3, and order 4 and 5, with any number of segments, so the least-squares solve is an exact solve.", "quantifier": "all knot lists of every length", "why_tests_cant": "Solvability for every n is an induction, and near-singular cases are not reachable by sampling.", "anchors": ["curves/include/curves/PolynomialSplineContainer.tpp setData"]}
{"id": "C23", "title": "Fallback choice depends only on order and segment count", "statement": "setData with accelerations uses the acceleration formulation exactly when order = 5 or (order = 4 and at least two segments), the velocity formulation exactly when order = 3 or (order = 4 and one segment), and straight lines exactly when order is 1 or 2.", "quantifier": "all orders 1..5 and all segment counts", "why_tests_cant": "Quantifies over all segment counts.", "anchors": ["curves/include/curves/PolynomialSplineContainer.tpp setData: num_constraints > num_coefficients tests"]}
{"id": "C24", "title": "A failed setData leaves nothing behind", "statement": "If setData returns false because some segment duration is not positive, the container is empty afterwards: duration 0, position 0.", "quantifier": "all knot lists with a non-increasing pair, all orders, all previous container contents", "why_tests_cant": "Error-path state over all inputs.", "anchors": ["curves/include/curves/PolynomialSplineContainer.tpp setData"]}
{"id": "C25", "title": "Container duration is the sum of its segments", "statement": "After any sequence of addSpline, reset, advance, setContainerTime and setData the reported duration is the sum of the durations of the contained splines; after a successful setData on strictly increasing knots it is times.back()-times.front().", "quantifier": "all histories", "why_tests_cant": "Invariant over histories.", "anchors": ["curves/include/curves/PolynomialSplineContainer.hpp addSpline, getContainerDuration", "curves/include/curves/PolynomialSplineContainer.tpp reset, setData"]}
{"id": "C26", "title": "Random-access evaluation is the concatenation of the segments", "statement": "For a non-empty container getPositionAtTime(t) (velocity, acceleration) is the value of the unique segment whose half-open interval [start,end) holds t evaluated at t-start; for t < 0 it is the first segment's start value and for t >= total duration the last segment's end value. All are 0 on an empty container.", "quantifier": "all containers with positive segment durations, all times", "why_tests_cant": "Continuum of times, unbounded number of segments.", "anchors": ["curves/include/curves/PolynomialSplineContainer.tpp getActiveSplineIndexAtTime, getPositionAtTime, getVelocityAtTime, getAccelerationAtTime, getEndPosition, getEndVelocity, getEndAcceleration"]}
{"id": "C27", "title": "Playing a container forward agrees with random access", "statement": "Starting from time 0, after any sequence of advance(dt) with dt >= 0, getPosition/getVelocity/getAcceleration equal getPositionAtTime/... at getContainerTime.", "quantifier": "all containers, all sequences of step sizes", "why_tests_cant": "Depends on the relation between step sizes and segment durations along the whole history.", "anchors": ["curves/include/curves/PolynomialSplineContainer.tpp advance, getPosition, getVelocity, getAcceleration"]}
{"id": "C28", "title": "Seeking agrees with random access", "statement": "On a non-empty container, after setContainerTime(t), getContainerTime is t and getPosition/getVelocity/getAcceleration equal the random-access values at t; resetTime rewinds to the start.", "quantifier": "all non-empty containers, all times", "why_tests_cant": "Continuum of times.", "anchors": ["curves/include/curves/PolynomialSplineContainer.tpp setContainerTime, resetTime, getPosition"]}
{"id": "C29", "title": "Advance reports the end exactly", "statement": "advance returns false and changes nothing exactly when the container is empty or its time has reached the duration; otherwise it adds dt to the time and returns true.", "quantifier": "all container states reachable through the API, all dt", "why_tests_cant": "History dependent cursor state.", "anchors": ["curves/include/curves/PolynomialSplineContainer.tpp advance"]}
{"id": "C30", "title": "Scalar curve: domain and interpolation", "statement": "After fitCurve on strictly increasing times (at least two), getMinTime and getMaxTime are the first and last time, evaluate(times[i]) yields values[i], evaluateDerivative of order 1 and 2 yields the segment derivatives and any other order returns false.", "quantifier": "all data, orders 1..5", "why_tests_cant": "Unbounded data.", "anchors": ["curves/include/curves/PolynomialSplineScalarCurve.hpp fitCurve, evaluate, evaluateDerivative, getMinTime, getMaxTime"]}
{"id": "C31", "title": "Scalar curve: shifting time shifts the curve", "statement": "Fitting the same values at times shifted by s gives a curve whose value at t+s is the original curve's value at t.", "quantifier": "all data, all shifts, all times", "why_tests_cant": "Relational property over all shifts.", "anchors": ["curves/include/curves/PolynomialSplineScalarCurve.hpp fitCurve, evaluate"]}
{"id": "C32", "title": "Refitting replaces the previous fit", "statement": "Fitting a polynomial-spline scalar or vector curve again gives the same curve as fitting a fresh one.", "quantifier": "all previous histories, all new data, each fitCurve overload", "why_tests_cant": "Hyperproperty over histories.", "anchors": ["curves/include/curves/PolynomialSplineScalarCurve.hpp fitCurve (three overloads), clear", "curves/include/curves/PolynomialSplineVectorSpaceCurve.hpp fitCurve, clear", "curves/include/curves/PolynomialSplineContainer.tpp setData, reset"]}
{"id": "C33", "title": "Vector curve: domain and interpolation", "statement": "After fitCurve on strictly increasing times (at least two), getMinTime/getMaxTime are the first and last time and evaluate(times[i]) yields values[i] in every component.", "quantifier": "all data, all dimensions", "why_tests_cant": "Fails exactly when the first time is not 0; tests start at 0.", "anchors": ["curves/include/curves/PolynomialSplineVectorSpaceCurve.hpp fitCurve, evaluate, evaluateDerivative, getMinTime, getMaxTime"]}
{"id": "C34", "title": "Cubic Hermite: evaluation succeeds exactly on the domain", "statement": "evaluate(t) on a cubic Hermite curve returns true exactly when the curve has a knot and minTime <= t <= maxTime.", "quantifier": "all curves and all times", "why_tests_cant": "Continuum of times; the failing corner is the empty curve at time 0.", "anchors": ["curves/src/CubicHermiteE3Curve.cpp evaluate", "curves/src/CubicHermiteSE3Curve.cpp evaluate", "curves/include/curves/LocalSupport2CoefficientManager-inl.hpp getCoefficientsAt"]}
{"id": "C35", "title": "Cubic Hermite: interpolation at knots", "statement": "evaluate at a knot time returns the knot's position (and, on SE3, its rotation) exactly.", "quantifier": "all curves, all knots", "why_tests_cant": "All knots of unbounded curves, including the one-knot curve and both ends.", "anchors": ["curves/src/CubicHermiteE3Curve.cpp evaluate", "curves/src/CubicHermiteSE3Curve.cpp evaluate"]}
{"id": "C36", "title": "Cubic Hermite: derivative at knots and C1 continuity", "statement": "evaluateDerivative order 1 at a knot returns the knot's stored velocity; on both neighbouring segments the limit is the same, so the position curve is continuously differentiable on the whole domain.", "quantifier": "all curves with at least two knots, all times", "why_tests_cant": "Limits over a continuum.", "anchors": ["curves/src/CubicHermiteE3Curve.cpp evaluateDerivative", "curves/src/CubicHermiteSE3Curve.cpp evaluateDerivative"]}
{"id": "C37", "title": "Cubic Hermite: reported derivatives are the true ones", "statement": "Between knots the first-order derivative is the time derivative of the evaluated position, and the reported linear acceleration is the time derivative of the reported velocity.", "quantifier": "all curves, all non-knot times in the domain", "why_tests_cant": "Limit statement over a continuum.", "anchors": ["curves/src/CubicHermiteE3Curve.cpp evaluateDerivative, evaluateLinearAcceleration", "curves/src/CubicHermiteSE3Curve.cpp evaluateDerivative, evaluateLinearAcceleration"]}
{"id": "C38", "title": "Cubic Hermite fit: slopes", "statement": "fitCurve on times gives each interior knot the slope of the chord through its two neighbours, and the ends the given derivatives (zero for plain fitCurve; for the periodic fit the chord from the second-to-last to the second point with period wrap-around, equal at both ends).", "quantifier": "all data of length >= 2", "why_tests_cant": "Unbounded data.", "anchors": ["curves/src/CubicHermiteE3Curve.cpp fitCurve, fitCurveWithDerivatives, fitPeriodicCurve, calculateSlope", "curves/src/CubicHermiteSE3Curve.cpp the same"]}
{"id": "C39", "title": "Cubic Hermite fit replaces the curve", "statement": "fitCurve replaces whatever the curve held before: afterwards the knots are exactly the given ones.", "quantifier": "all previous curves, all new data", "why_tests_cant": "Hyperproperty over histories; the E3 curve keeps old knots.", "anchors": ["curves/src/CubicHermiteE3Curve.cpp fitCurveWithDerivatives", "curves/src/CubicHermiteSE3Curve.cpp fitCurveWithDerivatives"]}
{"id": "C40", "title": "Cubic Hermite: linear data is reproduced", "statement": "If all knots lie on x(t)=a+b*t and carry velocity b, evaluate returns a+b*t, the velocity b and the acceleration 0 everywhere in the domain; adding a constant vector to all positions adds it to every evaluation.", "quantifier": "all knot sets, all times", "why_tests_cant": "Continuum of times.", "anchors": ["curves/src/CubicHermiteE3Curve.cpp evaluate, evaluateDerivative, evaluateLinearAcceleration"]}
{"id": "C41", "title": "SE3 Hermite: evaluated rotations are unit and interpolate", "statement": "Given unit knot rotations the evaluated rotation is a unit quaternion at every time, and it equals the knot rotation at each knot; the reported angular velocity at a knot is the stored one.", "quantifier": "all curves, all times", "why_tests_cant": "Continuum of times and group elements.", "anchors": ["curves/src/CubicHermiteSE3Curve.cpp evaluate, evaluateDerivative"]}
{"id": "C42", "title": "Discrete curve returns the nearest knot", "statement": "DiscreteSE3Curve::evaluate(t) in the domain returns the value of a knot nearest in time to t, the earlier one on ties.", "quantifier": "all curves, all times in the domain", "why_tests_cant": "Continuum of times.", "anchors": ["curves/src/DiscreteSE3Curve.cpp evaluate"]}
{"id": "C43", "title": "Slerp interpolation hits knots and commutes with left transformation", "statement": "SemiDiscrete/SlerpSE2 evaluate returns the knot value at knots; between knots A*exp(alpha*log(A^-1 B)); transformCurve(T) followed by evaluate(t) equals T times evaluate(t) before, at every time of the domain, and keeps times and keys.", "quantifier": "all curves, all times, all transformations", "why_tests_cant": "Relational property over continuum and group.", "anchors": ["curves/src/SemiDiscreteSE3Curve.cpp evaluate, transformCurve", "curves/src/SlerpSE2Curve.cpp evaluate, transformCurve"]}
{"id": "C44", "title": "Composition curve evaluates correction after base", "statement": "evaluate(t) is correction(t)*base(t); extending with (t,v) on a curve whose correction evaluates at t makes evaluate(t)=v; folding in corrections leaves the value at every base knot unchanged and makes every correction knot the identity.", "quantifier": "all composition curves, all times and values", "why_tests_cant": "Relational property across two sub-curves and histories.", "anchors": ["curves/include/curves/SE3CompositionCurve-inl.hpp evaluate, extend, foldInCorrections, setCorrectionTimes"]}
{"id": "C45", "title": "CSV files written by the library read back unchanged", "statement": "On a file that can be written, writeCSV followed by loadCSV returns the same table of strings, for tables with no separators or newlines inside fields and no empty last field.", "quantifier": "all tables", "why_tests_cant": "All strings of unbounded length.", "anchors": ["curves/src/helpers.cpp writeCSV, loadCSV"]}
{"id": "C46", "title": "Time/vector CSV files read back as written", "statement": "writeTimeVectorCSV followed by loadTimeVectorCSV returns the same times and the same vectors (and the time/time/vector loader returns both time columns).", "quantifier": "all time and value lists", "why_tests_cant": "The loader's column offsets are wrong for all inputs; tests never round-trip.", "anchors": ["curves/src/helpers.cpp writeTimeVectorCSV, loadTimeVectorCSV, loadTimeTimeVectorCSV"]}
{"id": "C47", "title": "ROS import picks the named joint or refuses", "statement": "fromMessage(msg,name) returns false and leaves the curve untouched exactly when name is not among the message's joint names; otherwise it fits the curve to that joint's positions at the message's time stamps (first occurrence of the name).", "quantifier": "all messages and joint names", "why_tests_cant": "All joint lists, including the empty one, which is not refused.", "anchors": ["curves_ros/src/RosJointTrajectoryInterface.cpp fromMessage", "curves_ros/src/RosMultiDOFJointTrajectoryInterface.cpp", "curves_ros/src/RosMultiDOFJointTrajectoryTranslationInterface.cpp"]}
{"id": "C48", "title": "Empty inputs are rejected", "statement": "Fitting a container or curve with an empty list of knots is refused (returns false or is a no-op) without undefined behaviour.", "quantifier": "every fit entry point, every previous state", "why_tests_cant": "Unsigned wrap-around in the size arithmetic on the empty list: absence of undefined behaviour is not observable by tests.", "anchors": ["curves/include/curves/PolynomialSplineContainer.tpp setData", "curves/include/curves/PolynomialSplineScalarCurve.hpp fitCurve", "curves/include/curves/PolynomialSplineVectorSpaceCurve.hpp fitCurve", "curves/src/CubicHermiteE3Curve.cpp fitCurveWithDerivatives", "curves/src/CubicHermiteSE3Curve.cpp fitCurveWithDerivatives"]}
{"id": "C49", "title": "Cursor stays inside the container", "statement": "No sequence of public container operations makes getPosition, getVelocity, getAcceleration or advance access a segment out of bounds.", "quantifier": "all histories of addSpline, advance, setContainerTime, reset, resetTime, setData", "why_tests_cant": "Absence of out-of-bounds access over all histories.", "anchors": ["curves/include/curves/PolynomialSplineContainer.tpp setContainerTime, getPosition, advance", "curves/include/curves/PolynomialSplineContainer.hpp addSpline"]}
{"id": "C50", "title": "Unimplemented operations never return normally", "statement": "Operations documented as not implemented (extend of the polynomial and SE3 Hermite curves, evaluation of SlerpSE3Curve, setTimeRange, ...) either throw or abort for every argument and every state; they never return a made-up value.", "quantifier": "all states and arguments", "why_tests_cant": "Universally quantified over arguments.", "anchors": ["curves/src/SlerpSE3Curve.cpp evaluate, evaluateDerivative", "curves/src/CubicHermiteSE3Curve.cpp extend, evaluateDerivativeA...", "curves/include/curves/PolynomialSplineScalarCurve.hpp extend", "curves/include/curves/PolynomialSplineVectorSpaceCurve.hpp extend"]}
{"id": "C51", "title": "The expression a curve hands to the optimiser means the same as evaluate", "statement": "For every time, the expression returned by getValueExpression, evaluated with the curve's own coefficients, is the value evaluate returns at that time.", "quantifier": "all states of discrete, semi-discrete and slerp curves, all times", "why_tests_cant": "Agreement of two pieces of code on all states and times.", "anchors": ["curves/src/DiscreteSE3Curve.cpp getValueExpression, evaluate", "curves/src/SemiDiscreteSE3Curve.cpp getValueExpression, evaluate", "curves/src/SlerpSE2Curve.cpp getValueExpression, evaluate"]}
{"id": "C52", "title": "First derivative of the discrete curves is the slope of the segment", "statement": "evaluateDerivative(t,1) strictly between two neighbouring knots (ta,A), (tb,B) is log(A^-1 B)/(tb-ta).", "quantifier": "all states, all times inside a segment", "why_tests_cant": "The order of the two arguments of Local is a sign convention that shows only by comparing with the motion for arbitrary knots.", "anchors": ["curves/src/DiscreteSE3Curve.cpp evaluateDerivative", "curves/src/SemiDiscreteSE3Curve.cpp evaluateDerivative"]}
{"id": "C53", "title": "fitCurve replaces the knots, setCurve merges them", "statement": "After fitCurve the knots are exactly the given ones; after setCurve they are the given ones plus the old ones at other times, which keep their keys.", "quantifier": "all previous states, all lists of distinct times", "why_tests_cant": "All previous states and all interleavings of times.", "anchors": ["curves/src/DiscreteSE3Curve.cpp fitCurve, setCurve", "curves/src/SlerpSE2Curve.cpp fitCurve, setCurve", "curves/src/SlerpSE3Curve.cpp fitCurve, setCurve"]}
{"id": "C54", "title": "Prior factors tie exactly the two knots around the time", "statement": "addPriorFactors(t) adds one prior for each of the two neighbouring knots around t, with their present values, and is refused outside the range of the curve.", "quantifier": "all states, all times", "why_tests_cant": "Outside the range the code reads uninitialised iterators, which no test can assert on.", "anchors": ["curves/src/DiscreteSE3Curve.cpp addPriorFactors", "curves/src/SemiDiscreteSE3Curve.cpp addPriorFactors", "curves/src/SlerpSE2Curve.cpp addPriorFactors"]}
{"id": "C56", "title": "A measurement at the time of the last knot never loses the knot", "statement": "extend with one measurement at the time of an existing last knot leaves a knot at that time and leaves every key valid.", "quantifier": "all states of curves with a sampling policy", "why_tests_cant": "The failing case needs a thinning ratio, a particular phase of the counter and an exact time collision.", "anchors": ["curves/src/SlerpSE2Curve.cpp extend", "curves/include/curves/LocalSupport2CoefficientManager-inl.hpp modifyCoefficient", "curves/include/curves/SlerpSE3Curve.hpp SamplingPolicy::extend"]}
{"id": "C55", "title": "Extending a composition leaves the past alone", "statement": "extend with one measurement at t changes the value of the composition at no other time at which it had a value.", "quantifier": "all reachable states, all sampling ratios, all times", "why_tests_cant": "Whether a past value moves depends on the sampling ratio, the phase of the policy's counter and the shape of the correction; tests only look at the new sample.", "anchors": ["curves/include/curves/SE3CompositionCurve-inl.hpp extend (122-179)"]}
{"id": "C57", "title": "setCorrectionTimes resamples the correction without changing it there", "statement": "When setCorrectionTimes(times) returns, the base is untouched, the correction has knots exactly at the given times, with the values it had there, and it begins and ends with the base; it returns whenever the given times lie in the range of the base, include its ends and are reached by the correction.", "quantifier": "all reachable states, all lists of times in any order with repetitions", "why_tests_cant": "Order, repetitions and the interplay of clear, extend and the sampling policy give unboundedly many cases.", "anchors": ["curves/include/curves/SE3CompositionCurve-inl.hpp setCorrectionTimes (209-223)"]}
{"id": "C58", "title": "transformCurve multiplies every value from the left", "statement": "After transformCurve(T), the value at every time at which the curve had a value is T times the old value.", "quantifier": "all reachable states, all transformations, all times", "why_tests_cant": "The defect only shows with a correction that does not commute with T.", "anchors": ["curves/include/curves/SE3CompositionCurve-inl.hpp transformCurve (379-384)"]}
{"id": "C59", "title": "fitCurve replaces the composition", "statement": "fitCurve(times, values) clears the existing curve; afterwards the curve has knots exactly at the given times and takes the given values there.", "quantifier": "all reachable states, all inputs", "why_tests_cant": "A test that fits a fresh curve with one sample cannot see it.", "anchors": ["curves/include/curves/SE3CompositionCurve-inl.hpp fitCurve (202-207)"]}
{"id": "C60", "title": "Edits of the correction and the base do what they say", "statement": "setCorrectionCoefficientAtTime changes one correction knot and nothing else; removeCorrectionCoefficientAtTime removes one; both refuse times without a knot. resetCorrectionCurve makes the composition equal to the base over its whole range. setBaseCurve replaces the base by exactly the given knots and leaves the correction alone.", "quantifier": "all reachable states, all times and values", "why_tests_cant": "Frame conditions over all other knots and all times cannot be enumerated.", "anchors": ["curves/include/curves/SE3CompositionCurve-inl.hpp setCorrectionCoefficientAtTime (373-377)", "curves/include/curves/SE3CompositionCurve-inl.hpp removeCorrectionCoefficientAtTime (368-372)", "curves/include/curves/SE3CompositionCurve-inl.hpp resetCorrectionCurve (386-398)", "curves/include/curves/SE3CompositionCurve-inl.hpp setBaseCurve (400-405)"]}
{"id": "C61", "title": "A composition only grows forwards", "statement": "On a composition whose base has two or more knots, extend at a time not after its last knot never returns normally.", "quantifier": "all reachable states, all times and values", "why_tests_cant": "It depends on the branch the sampling policy takes in each state.", "anchors": ["curves/include/curves/SE3CompositionCurve-inl.hpp extend (122-179)"]}
{"id": "C62", "title": "Saving a curve writes its values", "statement": "saveCurveTimesAndValues and saveCurveAtTimes write one row per time, in the order given, holding the time and the value of the curve there.", "quantifier": "all curves, all lists of times, all file systems", "why_tests_cant": "It depends on whether evaluation succeeds at each of the times; a test fixes the times.", "anchors": ["curves/src/CubicHermiteSE3Curve.cpp saveCurveAtTimes", "curves/src/DiscreteSE3Curve.cpp saveCurveAtTimes", "curves/src/SlerpSE3Curve.cpp saveCurveAtTimes"]}
{"id": "C63", "title": "Updating by key is a point update", "statement": "updateCoefficientByKey(k,v) aborts exactly when no knot has key k; otherwise it replaces that knot's value and nothing else. updateCoefficients aborts exactly when one of its keys is unknown; otherwise every knot gets the last value given for its key, the others keep theirs.", "quantifier": "all reachable states, keys, values and lists", "why_tests_cant": "Frame condition over all other knots, all lists with repetitions.", "anchors": ["curves/include/curves/LocalSupport2CoefficientManager-inl.hpp updateCoefficientByKey (233-237)", "curves/include/curves/LocalSupport2CoefficientManager-inl.hpp updateCoefficients (331-339)"]}
{"id": "C64", "title": "Which manager calls abort and which are undefined behaviour", "statement": "On every reachable manager a mutating call returns normally, aborts or is undefined behaviour exactly under the listed conditions; undefined behaviour arises only from appending at a positive time to an empty manager, from a batch modification with no times, an unknown first time or more times than knots left, and from moving through an invalid iterator. A history is undefined behaviour exactly when one of its calls is.", "quantifier": "all reachable states, all operations, all histories", "why_tests_cant": "Undefined behaviour may go unnoticed in a test run; the classification covers every state.", "anchors": ["curves/include/curves/LocalSupport2CoefficientManager-inl.hpp (113-212, 233-237, 331-357)"]}
{"id": "C65", "title": "Fits without end conditions are straight lines", "statement": "For strictly increasing times the variant of setData without end derivatives (and for orders 1 and 2 every variant) joins the knots by straight lines: between two knots the position is their linear interpolation, the velocity their difference quotient, the acceleration zero.", "quantifier": "all orders, knot lists, times between knots", "why_tests_cant": "Pointwise statement over the continuum of times and all knot lists.", "anchors": ["curves/include/curves/PolynomialSplineContainer.tpp setData (400-434)", "curves/include/curves/PolynomialSplineContainer.tpp setData (245-275, 323-352)"]}
{"id": "C66", "title": "A successful fit is ready to be played", "statement": "After a successful setData the container time is 0, the cursor shows the first knot, and playing it with seeks, rewinds and forward steps no longer than any knot interval shows the random-access values, whatever the container held or had played before.", "quantifier": "all fits, all previous container states, all playback sequences", "why_tests_cant": "Depends on all of the stale cursor state being reset, for every previous history.", "anchors": ["curves/include/curves/PolynomialSplineContainer.tpp setData, reset, resetTime, advance, getPosition"]}
{"id": "C67", "title": "End queries and segment access", "statement": "getEndPosition/Velocity/Acceleration equal the random-access value at the duration and beyond; after a fit the end position is the last knot; getSpline(i) returns segment i and throws for every other index.", "quantifier": "all containers with non-negative durations, all indices", "why_tests_cant": "All indices and all containers.", "anchors": ["curves/include/curves/PolynomialSplineContainer.tpp getEndPosition, getEndVelocity, getEndAcceleration (212-243)", "curves/include/curves/PolynomialSplineContainer.tpp getSpline (26-29)"]}
{"id": "C68", "title": "checkContainer certifies a usable container", "statement": "If checkContainer accepts a container reached by any history, its time is within its duration, no segment has negative duration and reading at the cursor and advancing are defined; and it accepts every container that was used properly (segments of non-negative duration, seeks within the duration, forward steps).", "quantifier": "all histories of operations", "why_tests_cant": "Quantifies over all histories; out-of-bounds reads need not show in tests.", "anchors": ["curves/include/curves/PolynomialSplineContainer.tpp checkContainer (568-607)"]}
{"id": "C69", "title": "extend reports one key per measurement", "statement": "extend refuses lists of different lengths; otherwise it reports exactly one key per measurement, and the key names the knot holding that measurement.", "quantifier": "all reachable curves, all measurement lists", "why_tests_cant": "The policy has several branches depending on hidden counter state.", "anchors": ["curves/include/curves/SlerpSE3Curve.hpp SamplingPolicy::extend (207-237)", "curves/src/SlerpSE3Curve.cpp extend (84-92)"]}
{"id": "C70", "title": "Changing the sampling ratio takes effect", "statement": "After setSamplingRatio(m) with m > 0, feeding measurements with increasing times takes every m-th of them as a new knot, counting from where the counter stood, and the last measurement is always the last knot.", "quantifier": "all reachable curves, ratios and measurement lists", "why_tests_cant": "The failing case needs a ratio lowered to or below the hidden counter; it shows only after many measurements.", "anchors": ["curves/include/curves/SlerpSE3Curve.hpp SamplingPolicy::extend (207-237)", "curves/include/curves/SamplingPolicy.hpp setMinimumMeasurements (86-88)", "curves/src/SlerpSE3Curve.cpp setSamplingRatio (253-255)"]}
{"id": "C71", "title": "End derivatives reach the right end of the curve", "statement": "After fitCurve with end derivatives, the first and second derivative of the curve at the first time are the initial velocity and acceleration, at the last time the final ones (zeros for the overload without derivatives; first and last list element for the overload with lists); orders that ignore accelerations meet the velocities. Every component of a vector curve is the scalar curve of that component.", "quantifier": "all orders where documented, all dimensions, strictly increasing times, values, end derivatives, previous curves", "why_tests_cant": "Four numbers of the same type passed by position; tests with symmetric or zero values cannot tell a swap.", "anchors": ["curves/include/curves/PolynomialSplineScalarCurve.hpp fitCurve (114-129), evaluateDerivative (89-106)", "curves/include/curves/PolynomialSplineVectorSpaceCurve.hpp fitCurve (86-136), evaluateDerivative (63-78)"]}
{"id": "C72", "title": "A curve from spline options runs through the requested pieces", "statement": "On a new or cleared scalar curve fitCurve(optionList) with positive durations gives a curve from 0 to the sum of the durations that over piece k is one polynomial of the order of the container meeting the boundary conditions of option k; its reported derivatives are the derivatives of that polynomial.", "quantifier": "all orders, option lists, times", "why_tests_cant": "Pointwise over a continuum of times and all option lists.", "anchors": ["curves/include/curves/PolynomialSplineScalarCurve.hpp fitCurve (131-139)", "curves/include/curves/PolynomialSplineContainer.tpp addSpline (18-23)"]}
{"id": "C73", "title": "clear returns the curve to its initial state", "statement": "After clear the curve answers every query as a newly constructed one: domain [0,0], value and derivatives 0.", "quantifier": "all curves, times, dimensions", "why_tests_cant": "The leftover state of the vector curve is only visible in one query after a particular sequence of calls.", "anchors": ["curves/include/curves/PolynomialSplineScalarCurve.hpp clear (141-145)", "curves/include/curves/PolynomialSplineVectorSpaceCurve.hpp clear (146-151)"]}
{"id": "C74", "title": "writeEvalToFile writes nSamples samples from the first to the last time", "statement": "On a curve with at least two knots writeEvalToFile(name, n) returns true, changes only the named file, and leaves a header and n lines at equally spaced times from minTime to maxTime, each with the value and the first derivative of the curve at that time; a file that cannot be opened gives false and changes nothing.", "quantifier": "all reachable curves, sample numbers, file systems, printers", "why_tests_cant": "All curves and all sample numbers; the missing last line does not show in a test that only checks the return value.", "anchors": ["curves/src/CubicHermiteE3Curve.cpp writeEvalToFile (43-78)", "curves/src/CubicHermiteSE3Curve.cpp writeEvalToFile (46-82)"]}
{"id": "C75", "title": "Every line written has one number for each column named in the header", "statement": "In the file left by writeEvalToFile every line has as many fields as the first one.", "quantifier": "all reachable curves with at least two knots, sample numbers of at least two, printers", "why_tests_cant": "All curves and sample numbers; no test reads the file back.", "anchors": ["curves/src/CubicHermiteE3Curve.cpp writeEvalToFile (43-78)", "curves/src/CubicHermiteSE3Curve.cpp writeEvalToFile (46-82)"]}
{"id": "C76", "title": "The Jacobian of the SE2 logarithm is its derivative", "statement": "The matrix returned by transformationLogImplementation is the derivative of d -> log(T retracted by d) at 0: exactly for angles beyond the switch to the Taylor expansion and for pure translations, and up to 5e-12 + 3e-10 (|v0| + |v1|) in every entry for the small angles where the expansion is used.", "quantifier": "all rigid planar poses turned by less than pi, all charts that are the identity to first order", "why_tests_cant": "A matrix of functions of three real variables with a hand-written expansion around a removable singularity; numeric differentiation tests use one pose and a loose tolerance.", "anchors": ["curves/include/curves/Pose2_Expressions.hpp transformationLogImplementation (75-91), function1 (51-61), function2 (63-73)"]}
{"id": "C77", "title": "Hand-written Jacobians are the derivatives", "statement": "The Jacobians of vectorScaling, pointsSubtraction and pose2AsPoint2 are the derivatives of the values these functions return, with respect to the local coordinates of their arguments.", "quantifier": "all vectors, numbers, points, poses, charts", "why_tests_cant": "All arguments; an identity Jacobian is right at the identity, where such functions are usually tried.", "anchors": ["curves/include/curves/Pose2_Expressions.hpp vectorScalingImplementation (106-117), pointsSubtractionImplementation (155-167), pose2AsPoint2Implementation (175-180)"]}
{"id": "C78", "title": "The Hermite sampling policy keeps the newest measurement", "statement": "Extending an empty CubicHermiteSE3Curve through SamplingPolicy with any ratio n >= 1 and any minimal period by measurements at strictly increasing times succeeds; every knot is a measurement, the first measurement is the first knot, the newest is the last, and at the newest time the curve evaluates to it. A time not after the last knot is refused.", "quantifier": "all ratios >= 1, all periods, all measurement sequences", "why_tests_cant": "Each call overwrites, moves or adds a knot depending on a counter and a clock kept over the whole history.", "anchors": ["curves/include/curves/CubicHermiteSE3Curve.hpp defaultExtend (290-337), interpolationExtend (339-367), extend (369-391)", "curves/include/curves/SamplingPolicy.hpp (14-90)"]}
{"id": "C79", "title": "The sampling ratio is the distance between kept coefficients", "statement": "With setMinimumMeasurements(n) and no minimal period, the kept coefficients are the measurements 0, n, 2n, ... and the newest one.", "quantifier": "all n, all measurement sequences", "why_tests_cant": "An off-by-one in a counter is visible only in long sequences, for which the number of knots has to be predicted.", "anchors": ["curves/include/curves/CubicHermiteSE3Curve.hpp extend (369-391)", "curves/include/curves/SamplingPolicy.hpp (14-90)"]}
{"id": "C80", "title": "Sampled Hermite knots carry chord slopes", "statement": "After extending through SamplingPolicy the derivative stored at each kept knot is the slope of the chord over its neighbours among the kept knots (one-sided at the two ends), also after the newest knot has been moved any number of times.", "quantifier": "all ratios >= 1, all periods, all measurement sequences", "why_tests_cant": "Derivatives are rewritten when a later measurement arrives; a stale one changes the curve only between knots.", "anchors": ["curves/include/curves/CubicHermiteSE3Curve.hpp defaultExtend (290-337), interpolationExtend (339-367)"]}
{"id": "C81", "title": "A composition curve can be evaluated on its whole domain", "statement": "After any sequence of operations that all returned, a composition curve that is not empty can be evaluated exactly at the times from getMinTime to getMaxTime.", "quantifier": "all operation sequences, all times", "why_tests_cant": "Two curves with separate knots and sampling counters have to keep covering each other.", "anchors": ["curves/include/curves/SE3CompositionCurve-inl.hpp getMinTime, getMaxTime, isEmpty (78-91), extend (122-215), removeCorrectionCoefficientAtTime, setCorrectionTimes, setBaseCurve, evaluate"]}
{"id": "C82", "title": "isEmpty, size and clear agree", "statement": "isEmpty holds exactly when size is 0, exactly when the curve has no knot; clear makes a curve empty, and what is done next has the same effect as on a new curve.", "quantifier": "all reachable states of CubicHermiteE3Curve, CubicHermiteSE3Curve (also through SamplingPolicy) and SE3CompositionCurve", "why_tests_cant": "All histories; two members of a composite answer different questions.", "anchors": ["curves/src/CubicHermiteE3Curve.cpp isEmpty (90-94), size (97-99), clear (331-333)", "curves/src/CubicHermiteSE3Curve.cpp isEmpty (93-97), size (99-101), clear (563-565)", "curves/include/curves/SE3CompositionCurve-inl.hpp isEmpty (88-91), size (93-97), clear (362-366)"]}
{"id": "C83", "title": "Every curve the factory knows can be used", "statement": "A curve made by SE3CurveFactory from a known name accepts any measurements at increasing times one after the other through extend; it is then not empty, begins and ends with them, returns each at its time, joins neighbouring ones (the nearer one, or a point on the way), and refuses times outside. An unknown name is refused.", "quantifier": "all names, all increasing sequences of measurements, all times", "why_tests_cant": "Needs each class behind the interface to be exercised with every length of sequence; a class that is never evaluated in a test can be broken.", "anchors": ["curves/src/SE3CurveFactory.cpp create_curve (11-31)", "curves/include/curves/SE3Curve.hpp (105-130)", "curves/include/curves/SE3CompositionCurve-inl.hpp extend (122-179), evaluate (226-230)"]}
{"id": "C84", "title": "The lists of times describe the curve", "statement": "A list of times handed out by a curve (getCurveTimes, getBaseCurveTimes) has one entry for each coefficient counted by baseSize, is strictly increasing, begins at getMinTime, ends at getMaxTime, and the curve can be evaluated at each entry.", "quantifier": "all classes behind SE3Curve, all reachable states", "why_tests_cant": "All histories; the composition keeps two lists.", "anchors": ["curves/src/DiscreteSE3Curve.cpp getCurveTimes (324-326)", "curves/include/curves/DiscreteSE3Curve.hpp getBaseCurveTimes (195), getBaseCurveTimesInWindow (197), baseSize (200)", "curves/include/curves/SE3CompositionCurve-inl.hpp getBaseCurveTimes, getBaseCurveTimesInWindow, getCurveTimes (469-483)"]}
{"id": "C85", "title": "Saving through the interface writes what the curve is", "statement": "saveCurveTimesAndValues writes one row for each coefficient time with the value of the curve there; saveCorrectionCurveTimesAndValues the coefficients of the correction; saveCurves the base, the correction and the composed values in three files. No other file changes. An empty curve is refused.", "quantifier": "all reachable states, all file names, all writable file systems", "why_tests_cant": "All histories and file contents; a swapped file or list is visible only when base and correction differ.", "anchors": ["curves/include/curves/SE3CompositionCurve-inl.hpp saveCurves (39-76), saveCurveTimesAndValues, saveCurveAtTimes, saveCorrectionCurveTimesAndValues, saveCorrectionCurveAtTimes (421-467)", "curves/include/curves/DiscreteSE3Curve.hpp (158, 202)"]}
{"id": "C86", "title": "An editing function takes effect or refuses", "statement": "The functions of SE3Curve that edit the base or the correction either do what their comment says (replace, add, remove the given coefficients and leave the others) or refuse; none of them returns normally having done something else.", "quantifier": "all classes behind SE3Curve, all reachable states, all arguments", "why_tests_cant": "Silent inaction is not noticed by a test that only checks for a crash.", "anchors": ["curves/include/curves/SE3Curve.hpp (105-130)", "curves/include/curves/DiscreteSE3Curve.hpp (170-193)", "curves/include/curves/SE3CompositionCurve-inl.hpp setCorrectionTimes (209-223), setBaseCurvePart (407-412), modifyBaseCoefficientsValuesInBatch (414-419)"]}
{"id": "C87", "title": "A measurement can be replaced later", "statement": "On a composition curve built by extend, setBaseCurvePart and modifyBaseCoefficientsValuesInBatch accept a new value at the time of any measurement; the curve then has the new value there and the old ones at all other measured times.", "quantifier": "all increasing sequences of measurements", "why_tests_cant": "Whether the check at the end passes depends on where the first measurement was relative to time zero.", "anchors": ["curves/include/curves/SE3CompositionCurve-inl.hpp extend (122-179), setBaseCurvePart (407-412), modifyBaseCoefficientsValuesInBatch (414-419)"]}
{"id": "C88", "title": "The fit is determined by its requirements", "statement": "The curve built by setData is the only piecewise polynomial of its order over the given knots that meets what setData is asked for (positions, continuity, end velocities and accelerations): the result depends neither on how the linear system is solved nor on what the container held before.", "quantifier": "all orders, all numbers of knots, all data, all exact solvers of the linear system", "why_tests_cant": "A test runs with one solver; whether the system has one solution or infinitely many is not visible in its result.", "anchors": ["curves/include/curves/PolynomialSplineContainer.tpp setData (245-320, 323-397), colPivHouseholderQr().solve (314, 391)"]}
{"id": "C89", "title": "Fitting is linear in the data", "statement": "The fit of r times one set of data plus s times another over the same times is, at every time, r times the one fit plus s times the other, in position, velocity and acceleration.", "quantifier": "all orders, all numbers of knots, all data, all factors, all times", "why_tests_cant": "Needs all pairs of data sets and all factors.", "anchors": ["curves/include/curves/PolynomialSplineContainer.tpp setData (245-320, 323-397), getPositionAtTime, getVelocityAtTime, getAccelerationAtTime"]}
{"id": "C90", "title": "Thinning the correction loses no measurement", "statement": "setSamplingRatio(n) of a composition curve thins the correction only: measurements at later and later times are all accepted, the base keeps every one of them, the correction one in n, each measurement can be read back exactly at its time however many follow, and no earlier value changes.", "quantifier": "all sampling ratios, all sequences of measurements, all reachable states", "why_tests_cant": "What is read back depends on where in the sampling period each measurement falls and on the corrections made before; needs all lengths and phases.", "anchors": ["curves/include/curves/SE3CompositionCurve-inl.hpp setSamplingRatio (115-119), extend (122-179), evaluate (226-230)", "curves/include/curves/SamplingPolicy.hpp"]}
{"id": "C91", "title": "A cubic Hermite fit commutes with changes of units and with reversal", "statement": "Fitting points transformed by an affine map, at times changed to a*t+b with a positive, gives the transformed curve: every value is mapped, every derivative by the chain rule. Fitting the points backwards at the negated times gives the curve run backwards, in position, velocity and second derivative.", "quantifier": "all data, all affine maps, all changes of time, all evaluation times", "why_tests_cant": "Needs all maps, all data and all times at once; a single comparison cannot tell a commuting fit from one that merely agrees on it.", "anchors": ["curves/src/CubicHermiteE3Curve.cpp fitCurve, fitPeriodicCurve, fitCurveWithDerivatives, calculateSlope, evaluate, evaluateDerivative"]}
{"id": "C92", "title": "A cubic Hermite fit depends only on near points", "statement": "On the segment between two neighbouring points the fitted curve depends on these, on the next point at either side and, on the first and last segment, on the derivative given for that end; however many other points there are and whatever they are.", "quantifier": "all data, all other points, all times on the segment", "why_tests_cant": "All data sets that agree around a segment must be compared.", "anchors": ["curves/src/CubicHermiteE3Curve.cpp fitCurveWithDerivatives (143-179), evaluate, evaluateDerivative"]}
{"id": "C93", "title": "A cubic Hermite fit stays within the range of the data", "statement": "Every coordinate of the curve made by fitCurve stays between the smallest and the largest value it takes in the data.", "quantifier": "all data, all linear coordinates, all times", "why_tests_cant": "A bound over all data sets and all times of evaluation.", "anchors": ["curves/src/CubicHermiteE3Curve.cpp fitCurve (124-128), calculateSlope, evaluate (184-231)"]}
{"id": "C94", "title": "A SE3 Hermite fit commutes with changes of frame, of clock, and with reversal", "statement": "Fitting poses moved by one rigid motion, at times changed to a*t+b with a positive, gives the moved curve: values, twists and linear accelerations are transformed and slowed down accordingly. Fitting the poses backwards at the negated times gives the curve run backwards.", "quantifier": "all data, all rigid motions, all changes of time, all evaluation times", "why_tests_cant": "Needs all motions, all data and all times at once; comparing single fits cannot tell a frame-independent fit from one that agrees on them.", "anchors": ["curves/src/CubicHermiteSE3Curve.cpp fitCurve, fitPeriodicCurve, fitCurveWithDerivatives, calculateSlope, evaluate, evaluateDerivative, evaluateLinearAcceleration"]}
{"id": "C95", "title": "Reading a container never leaves it, whatever the arithmetic does", "statement": "Whatever the operations on double return (rounded sums, infinities, NaN durations and times, comparisons that are all false), reading a PolynomialSplineContainer at the cursor or at any time evaluates one of its segments or gives the default of an empty container, and advance returns normally.", "quantifier": "all arithmetics without any law, all histories, all times", "why_tests_cant": "Tests run one arithmetic on a few inputs; NaN and overflow take branches that ordinary values never take, and the interesting accesses are out of bounds only for particular histories.", "anchors": ["curves/include/curves/PolynomialSplineContainer.tpp advance, setContainerTime, getActiveSplineIndexAtTime, getPosition, getPositionAtTime"]}
{"id": "C96", "title": "Later times never belong to earlier segments, and the end of a container is where it says it is", "statement": "With rounded arithmetic: the segment found for a time does not decrease with the time, within a segment local times keep their order, and reading at the duration of the container gives the end of the last segment.", "quantifier": "all roundings that keep the order, all lists of durations, all times", "why_tests_cant": "The violation needs durations whose rounded sums and differences do not cancel; whether a test hits it depends on the last bit.", "anchors": ["curves/include/curves/PolynomialSplineContainer.tpp getActiveSplineIndexAtTime, getPositionAtTime, getEndPosition, getContainerDuration"]}
{"id": "C97", "title": "Interpolation hits its knots exactly in double arithmetic", "statement": "With rounded arithmetic the interpolation parameter stays between 0 and 1, and at the time of a knot a curve returns exactly the stored value (and velocity).", "quantifier": "all roundings with the laws of IEEE 754, all knots, all times", "why_tests_cant": "Tests compare with a tolerance; exactness for all doubles is a statement about every rounding step of the formulas.", "anchors": ["curves/src/CubicHermiteE3Curve.cpp evaluate, evaluateDerivative", "curves/include/curves/PolynomialSplineContainer.tpp setData"]}
{"id": "C98", "title": "Playing with equal steps ends after the expected number of steps", "statement": "A container that lasts n steps is played in exactly n calls of advance with that step; positive steps always reach the end.", "quantifier": "all step sizes, all numbers of steps, all roundings", "why_tests_cant": "Whether the last step is reached depends on accumulated rounding; a test with one step size shows nothing for another.", "anchors": ["curves/include/curves/PolynomialSplineContainer.tpp advance"]}
{"id": "C99", "title": "Knot times that do not increase are refused", "statement": "setData accepts knot times exactly if they are strictly increasing.", "quantifier": "all lists of knot times, with rounding and with NaN", "why_tests_cant": "A finite set of test vectors cannot cover all lists; NaN passes the comparison that looks like a complete check.", "anchors": ["curves/include/curves/PolynomialSplineContainer.tpp setData"]}
{"id": "C100", "title": "writeEvalToFile returns and writes the requested samples, with rounding", "statement": "For every curve with at least two knots and every number of samples, writeEvalToFile returns true after writing one line per sample, at times that start with the first knot and stay in the domain, when times are rounded to double.", "quantifier": "all roundings, all curves, all numbers of samples", "why_tests_cant": "Whether the loop t += dt ends, and after how many turns, depends on the magnitude of the times and the last bit of the step.", "anchors": ["curves/src/CubicHermiteE3Curve.cpp writeEvalToFile", "curves/src/CubicHermiteSE3Curve.cpp writeEvalToFile"]}
{"id": "C101", "title": "The sampling period separates knots", "statement": "After extending an empty SE3 curve through a SamplingPolicy, neighbouring knots are more than the sampling period apart, also when the comparison is made with rounded sums; and every measurement later than that and with enough others before it becomes a lasting knot.", "quantifier": "all periods, ratios, streams of measurements and roundings", "why_tests_cant": "A test uses a few streams with round numbers; the claim concerns every pair of neighbours of every stream and the rounding of each sum.", "anchors": ["curves/include/curves/CubicHermiteSE3Curve.hpp SamplingPolicy::extend", "curves/include/curves/SamplingPolicy.hpp"]}
{"id": "C102", "title": "The evaluation file can be read back", "statement": "The MATLAB reader of the repository recovers from a file written by CubicHermiteSE3Curve::writeEvalToFile every sample: 14 numbers per line in the order time, position, quaternion (w first), linear velocity, angular velocity, each within half a millionth, at distinct increasing times.", "quantifier": "all reachable curves with at least two knots, all numbers of samples, all values", "why_tests_cant": "A test compares one file; the claim concerns the decimal rounding of every number and every column of every file.", "anchors": ["curves/src/CubicHermiteSE3Curve.cpp writeEvalToFile", "curves/matlab/readCubicHermiteSE3Curve.m"]}
{"id": "C103", "title": "CSV files keep numbers", "statement": "A number written with writeTimeVectorCSV and read with loadTimeVectorCSV comes back unchanged: the decimal text produced by toString<double> determines the number.", "quantifier": "all numbers, times and vectors", "why_tests_cant": "Tests use short decimals, which do survive; numbers that need more than six digits, such as time stamps, are the ones lost.", "anchors": ["curves/src/helpers.cpp toString, writeTimeVectorCSV, loadTimeVectorCSV"]}
{"id": "C104", "title": "Stamps of a ROS message stay distinct and in order when imported", "statement": "Converting time_from_start to double seconds keeps different stamps different and in order, so a message with increasing stamps always gives a curve through its positions.", "quantifier": "all normalised stamps (int32 seconds, nanoseconds below 10^9), all messages, double arithmetic for the conversion", "why_tests_cant": "Tests use stamps of a few seconds; the conversion loses nanoseconds only after 2^23 seconds, and then the import reports success with a curve that is 0 everywhere.", "anchors": ["curves_ros/src/RosJointTrajectoryInterface.cpp fromMessage", "curves_ros/src/RosMultiDOFJointTrajectoryInterface.cpp fromMessage", "curves_ros/src/RosMultiDOFJointTrajectoryTranslationInterface.cpp fromMessage"]}
{"id": "C105", "title": "The value at a time depends only on the knots around it", "statement": "The value of a discrete, slerp or cubic Hermite curve at a time between two of its knots does not depend on knots before the first or after the second: setting knots elsewhere and extending the curve leave it alone.", "quantifier": "all reachable curves, all times between two knots, all other knots", "why_tests_cant": "A test checks a few edits; the claim is about every edit elsewhere, including the one that moves the last knot.", "anchors": ["curves/include/curves/LocalSupport2CoefficientManager-inl.hpp getCoefficientsAt", "curves/src/DiscreteSE3Curve.cpp evaluate", "curves/src/SlerpSE2Curve.cpp evaluate", "curves/src/CubicHermiteSE3Curve.cpp evaluate", "curves/src/CubicHermiteE3Curve.cpp evaluate"]}
{"id": "C106", "title": "Rounding errors of Hermite evaluation stay at the size of rounding", "statement": "In double arithmetic the position computed between two neighbouring knots differs from the exact Hermite polynomial by at most 2^-45 times (largest coordinate + largest velocity times distance of the knots), and the velocity by at most 2^-45 times (largest coordinate / distance + largest velocity), however large the times are.", "quantifier": "all reachable E3 Hermite curves of doubles, all pairs of neighbouring knots, all times between them", "why_tests_cant": "A test compares a few values with a tolerance somebody chose; the bound is about all inputs, and follows the errors through every operation.", "anchors": ["curves/src/CubicHermiteE3Curve.cpp evaluate", "curves/src/CubicHermiteE3Curve.cpp evaluateDerivative"]}
{"id": "C107", "title": "Fitting and evaluating in double together are exact to 2^-43", "statement": "A curve fitted to doubles by fitCurve and evaluated in double arithmetic is nowhere in its domain further than 2^-43 times the largest coordinate from the curve of exact arithmetic, whatever the times are; with given end velocities N and distances of times between g and G the bound is 2^-43 (M + N G), and 2^-43 (M/g + N) for velocities.", "quantifier": "all strictly increasing lists of double times, all lists of double values, all times in the domain", "why_tests_cant": "Tests use round numbers and short curves; the claim is about every time spacing and every magnitude.", "anchors": ["curves/src/CubicHermiteE3Curve.cpp calculateSlope", "curves/src/CubicHermiteE3Curve.cpp fitCurveWithDerivatives", "curves/src/CubicHermiteE3Curve.cpp evaluate"]}
{"id": "C108", "title": "Lists of times and values of different lengths are refused", "statement": "A function that takes a list of times and a list of values for them does not return when the lists have different lengths.", "quantifier": "all curves, all pairs of lists of different lengths", "why_tests_cant": "A test passes well-formed lists; whether every path checks, and in which builds, is a question about all of them.", "anchors": ["curves/include/curves/LocalSupport2CoefficientManager-inl.hpp insertCoefficients (136), modifyCoefficientsValuesInBatch (149)", "curves/src/SlerpSE3Curve.cpp extend, fitCurve, setCurve", "curves/src/CubicHermiteE3Curve.cpp fitCurveWithDerivatives (148)", "curves/src/CubicHermiteSE3Curve.cpp fitCurveWithDerivatives (115)", "curves/include/curves/PolynomialSplineScalarCurve.hpp fitCurve", "curves/include/curves/PolynomialSplineVectorSpaceCurve.hpp fitCurve", "curves/src/helpers.cpp writeTimeVectorCSV (84)"]}
{"id": "C109", "title": "Single segments are the motions of least energy", "statement": "The segment that PolynomialSpline::computeCoefficients makes is the motion of least energy between its end conditions: for order 1 the integral of the squared velocity, for order 3 of the squared acceleration, for order 5 of the squared jerk is the smallest among all motions with the same end conditions, and no other motion attains it.", "quantifier": "all boundary conditions, all positive durations, all competing motions (square-integrable highest derivative)", "why_tests_cant": "A test compares with a handful of other motions; the claim is about all functions.", "anchors": ["curves/include/curves/PolynomialSpline.hpp computeCoefficients", "curves/include/curves/polynomial_splines_traits.hpp"]}
{"id": "C110", "title": "Fitted curves are the motions of least energy through the knots", "statement": "The cubic fit of PolynomialSplineContainer has the least integral of the squared acceleration among all motions through the knots with the given end velocities; the fits by straight lines have the least integral of the squared velocity among all motions through the knots. No other motion attains it.", "quantifier": "all strictly increasing times, all positions, all end velocities, all competing motions", "why_tests_cant": "The competitors are functions; no finite set of them decides minimality. A wrong junction condition (for example a continuous velocity but a jump of the acceleration) gives curves that look smooth but need more.", "anchors": ["curves/include/curves/PolynomialSplineContainer.tpp setData"]}
{"id": "C111", "title": "Hermite curves are the motions of least energy with their knot velocities", "statement": "A CubicHermiteE3Curve, after any history, has the least integral of the squared acceleration among all motions that pass its knots with the velocities stored there, and no other motion attains it. The cubic fit of PolynomialSplineContainer to the same data with the same end velocities needs no more.", "quantifier": "all reachable curves with two knots or more, any dimension, all competing motions", "why_tests_cant": "The competitors are functions; no finite set of them decides minimality.", "anchors": ["curves/src/CubicHermiteE3Curve.cpp evaluate, evaluateDerivative, fitCurveWithDerivatives"]}
{"id": "C112", "title": "A curve fitted to samples of a motion stays near the motion", "statement": "Sample any motion whose acceleration is at most M at times at most h apart. The fits by straight lines stay within M h^2/8 of the motion in position and within M h/2 in velocity; the Hermite curve of fitCurveWithDerivatives stays within M h^2/4 in position and M h in velocity, where the first and the last segment need the true end velocities.", "quantifier": "all motions with Lipschitz velocity, all strictly increasing sampling times, all query times; any dimension for Hermite curves", "why_tests_cant": "The claim is about all motions and all sampling times. A wrong slope formula that is exact for straight lines passes through all knots and looks smooth, but does not converge at this rate.", "anchors": ["curves/src/CubicHermiteE3Curve.cpp fitCurveWithDerivatives, evaluate, evaluateDerivative", "curves/include/curves/PolynomialSplineContainer.tpp setData"]}
{"id": "C113", "title": "The cubic fit of samples converges to the motion", "statement": "Sample any motion with square-integrable acceleration and fit a PolynomialSplineContainer of order 3 with the end velocities of the motion. Between two samples that are d apart, the squared distance to the motion is at most d^3/4 times the integral of the squared acceleration of the motion, and the squared velocity error at most d times that integral.", "quantifier": "all motions with square-integrable acceleration, all strictly increasing sampling times, all query times", "why_tests_cant": "The claim is about all motions and sampling times; no finite set of them decides it.", "anchors": ["curves/include/curves/PolynomialSplineContainer.tpp setData, getPositionAtTime, getVelocityAtTime"]}
{"id": "C114", "title": "Rounding errors of evaluating a segment are a tiny fraction of the terms", "statement": "Computed in double, position, velocity and acceleration of a PolynomialSpline of any order differ from the exact values, at any time, by at most 2^-49 times the sum of the absolute values of the terms of the polynomial, whatever the order in which the powers are multiplied.", "quantifier": "all orders, all coefficients, durations and times (no overflow, no subnormal numbers)", "why_tests_cant": "A test compares single values; the bound is for all of them, and cancellation makes the worst cases rare.", "anchors": ["curves/include/curves/PolynomialSpline.hpp getPositionAtTime, getVelocityAtTime, getAccelerationAtTime", "curves/include/curves/polynomial_splines_traits.hpp tau, dtau, ddtau"]}
{"id": "C115", "title": "A container read in double answers as at a slightly different time", "statement": "Computed in double, a PolynomialSplineContainer of n segments and total duration D read at a time t in [0, D] answers position, velocity and acceleration as the exact curve does at one time t' with |t' - t| <= n D / 2^52, up to the error of C114, even where rounding picks another segment.", "quantifier": "all containers with positive durations and fewer than 2^31 segments, all times between the ends", "why_tests_cant": "Rounding picks the wrong segment only at single times next to knots, which no test meets by chance.", "anchors": ["curves/include/curves/PolynomialSplineContainer.tpp getActiveSplineIndexAtTime, getPositionAtTime, getVelocityAtTime, getAccelerationAtTime"]}
{"id": "C116", "title": "With an approximate linear solver a fit misses its conditions by no more than the residual", "statement": "If the answer of the linear solver misses each equation of the one system that setData (or computeCoefficients) solves by at most rho, the fit is still accepted, has the exact durations, runs within rho of every knot, jumps at junctions by at most 2 rho in position and rho in velocity and acceleration, and misses the prescribed end velocities and accelerations by at most rho.", "quantifier": "all knot lists, end conditions, orders 3 to 5 (single segments: all orders), all solvers and residuals", "why_tests_cant": "The QR solver is never exact in double; a test with one data set and tolerance does not say which tolerance is right for other data.", "anchors": ["curves/include/curves/PolynomialSplineContainer.tpp setData", "curves/include/curves/polynomial_splines_traits.hpp compute", "curves/include/curves/PolynomialSpline.hpp computeCoefficients"]}
{"id": "C117", "title": "Noise of the data and of the linear solver is not amplified by cubic fits", "statement": "Two cubic container fits through points at the same times (m to H apart), at no knot more than eps apart and with end velocities at most delta apart, stay everywhere within eps + H/4 max(delta, 6 eps/m) of each other, their velocities within 3 eps/m + max(delta, 6 eps/m), whatever the number of knots; and the fit computed by a solver with residual rho stays within a fixed multiple of rho, depending on m and H only, of the exact fit.", "quantifier": "all knot lists of any length, all end velocities, all noise, all solvers and residuals", "why_tests_cant": "The bound must hold for every number of segments; on any tested data set a fit that amplifies noise from segment to segment looks as good as one that damps it.", "anchors": ["curves/include/curves/PolynomialSplineContainer.tpp setData", "curves/include/curves/PolynomialSplineContainer.tpp getPositionAtTime", "curves/include/curves/PolynomialSplineContainer.tpp getVelocityAtTime"]}
{"id": "C118", "title": "Noise of the data is not amplified by Hermite curves and straight fits", "statement": "Two Hermite curves fitted to points at the same times (m to H apart), at no knot more than eps apart and with end velocities at most delta apart, stay everywhere within eps + H/4 max(delta, eps/m) of each other and their velocities within 3 eps/m + max(delta, eps/m); two straight container fits stay within eps of each other.", "quantifier": "all knot lists, all end velocities, all noise, any dimension", "why_tests_cant": "Tests compare a fit with its own data, not fits of neighbouring data with each other over all times and lengths.", "anchors": ["curves/src/CubicHermiteE3Curve.cpp fitCurveWithDerivatives", "curves/src/CubicHermiteE3Curve.cpp calculateSlope", "curves/include/curves/PolynomialSplineContainer.tpp setData"]}
{"id": "C119", "title": "The manager is a table ordered by time", "statement": "Every history of calls on a coefficient manager, with the keys it hands out and the way it fails, is the same history on a plain table of (time, key, value) ordered by time and a count of keys drawn; and every query is a function of that table. So the node addresses and the second container, from keys to iterators, can never be observed (as long as no knot is moved onto an occupied time).", "quantifier": "every reachable state, every call with every argument, every history until 2^64 keys have been drawn", "why_tests_cant": "Two containers holding pointers into each other agree on every tested history and can still differ on another one; equivalence with the table is a statement about all of them.", "anchors": ["curves/include/curves/LocalSupport2CoefficientManager-inl.hpp insertCoefficient", "curves/include/curves/LocalSupport2CoefficientManager-inl.hpp insertCoefficients", "curves/include/curves/LocalSupport2CoefficientManager-inl.hpp addCoefficientAtEnd", "curves/include/curves/LocalSupport2CoefficientManager-inl.hpp modifyCoefficientsValuesInBatch", "curves/include/curves/LocalSupport2CoefficientManager-inl.hpp modifyCoefficient", "curves/include/curves/LocalSupport2CoefficientManager-inl.hpp removeCoefficientAtTime", "curves/include/curves/LocalSupport2CoefficientManager-inl.hpp updateCoefficientByKey", "curves/include/curves/LocalSupport2CoefficientManager-inl.hpp updateCoefficients", "curves/include/curves/LocalSupport2CoefficientManager-inl.hpp getCoefficientsAt", "curves/include/curves/LocalSupport2CoefficientManager-inl.hpp getTimesInWindow", "curves/include/curves/LocalSupport2CoefficientManager-inl.hpp clear"]}
{"id": "C120", "title": "Curves of one process never share a key", "statement": "Whatever calls are made on whichever curves of a process in whatever order, a key handed out by one curve never belongs to another, now or later, even after its knot was removed: on every other curve looking it up or updating through it aborts. And each curve goes through exactly the calls made on it, calls on the others showing only as keys drawn meanwhile.", "quantifier": "any number of curves with any coefficient types, every interleaving of calls, until 2^64 keys have been drawn", "why_tests_cant": "A clash of keys between two curves depends on the whole history of the process.", "anchors": ["curves/src/KeyGenerator.cpp KeyGenerator::getNextKey", "curves/include/curves/LocalSupport2CoefficientManager-inl.hpp insertCoefficient", "curves/include/curves/LocalSupport2CoefficientManager-inl.hpp updateCoefficientByKey", "curves/include/curves/LocalSupport2CoefficientManager-inl.hpp getCoefficientByKey"]}
{"id": "C121", "title": "Slerp curves move steadily, and depend on neither clock, direction nor extra knots", "statement": "Between two neighbouring knots a slerp curve makes the same motion in the same time, wherever it starts; the same values at times read off another clock give the same curve on that clock, and on a clock running backwards as well (but for half turns); and setting a knot at any time to the value the curve has there changes the curve nowhere.", "quantifier": "every reachable slerp curve, every time, every clock (affine change of time), every inserted time", "why_tests_cant": "Each is a relation between whole curves, or between all pairs of times, not between finitely many sampled values.", "anchors": ["curves/src/SlerpSE3Curve.cpp evaluate", "curves/src/SlerpSE2Curve.cpp evaluate"]}
{"id": "C122", "title": "Correction times that keep the old ones change nothing", "statement": "setCorrectionTimes(ts) of a composition curve with a slerp correction does not change the curve between two neighbours of the new times unless the correction had a knot strictly between them; so if the new times include all knots of the correction within the range of the base, the curve is unchanged everywhere, including where it has no value.", "quantifier": "every reachable composition curve, every list of times for which the call returns, every time", "why_tests_cant": "The claim is about all times between the knots, where the new curve is made of different pieces from the old one.", "anchors": ["curves/include/curves/SE3CompositionCurve-inl.hpp setCorrectionTimes", "curves/src/SlerpSE2Curve.cpp evaluate"]}
{"id": "C123", "title": "The translation of an SE3 Hermite curve is an E3 Hermite curve", "statement": "CubicHermiteSE3Curve treats positions as CubicHermiteE3Curve does: fitting (with end derivatives, at rest, periodic) has the same outcome and the same keys as clearing and fitting the E3 curve to the positions, and position, translational velocity and acceleration at every time are those of that E3 curve, whatever the rotations; the same holds for every linear image of the positions (a coordinate, say). Therefore the translation of an SE3 curve has the least squared acceleration of all motions through its knots, approximates sampled motions within M h^2 / 4, and amplifies noise no more than the E3 curve does.", "quantifier": "all data, all reachable SE3 curves, all times, all linear maps, all competing motions", "why_tests_cant": "It relates two classes on all inputs, including those on which they abort, and the consequences quantify over all motions.", "anchors": ["curves/src/CubicHermiteSE3Curve.cpp evaluate", "curves/src/CubicHermiteSE3Curve.cpp fitCurveWithDerivatives", "curves/src/CubicHermiteE3Curve.cpp evaluate", "curves/src/CubicHermiteE3Curve.cpp fitCurveWithDerivatives"]}
{"id": "C124", "title": "Numbers in, numbers out", "statement": "Fitting an E3 Hermite curve to numbers at times no two of which are equal stores only numbers, and position, velocity and acceleration of a curve holding numbers are numbers at every time: no division by zero, infinity or NaN arises. The same for segments of orders 1 and 2.", "quantifier": "all times, values and end derivatives, all reachable curves, all query times, any rounding", "why_tests_cant": "NaN appears only where a divisor is zero; excluding it is a statement about all inputs.", "anchors": ["curves/src/CubicHermiteE3Curve.cpp calculateSlope", "curves/src/CubicHermiteE3Curve.cpp fitPeriodicCurve", "curves/src/CubicHermiteE3Curve.cpp evaluate", "curves/include/curves/polynomial_splines_traits.hpp compute"]}
{"id": "C125", "title": "Turning about a fixed axis is interpolated as an angle", "statement": "If the poses given to an SE3 Hermite curve are turned about one axis, the curve turns about this axis all the time: the angle and its rate are those of the E3 Hermite curve fitted to the angles, whichever of its two quaternions an attitude is given by. Hence a smooth turn is followed with the accuracy known for E3 curves.", "quantifier": "all axes, attitudes, angles, times and query times; all fits and all reachable curves", "why_tests_cant": "The rotation goes through logarithms that are only unique up to full turns; that the branch chosen is right for all inputs is not visible in samples.", "anchors": ["curves/src/CubicHermiteSE3Curve.cpp evaluate", "curves/src/CubicHermiteSE3Curve.cpp evaluateDerivative", "curves/src/CubicHermiteSE3Curve.cpp calculateSlope"]}
{"id": "C126", "title": "The attitude of an SE3 Hermite curve never runs away", "statement": "If neighbouring poses differ by an angle of at most a rate times the time between them, and the rates given for the ends are at most that rate, the fitted curve never turns faster than three times the rate, neither by the angular velocity it reports nor by the angles between the attitudes it reports. Hence, fitted to samples at most h apart of any motion that turns at most at that rate, it is never further from the motion than two times the rate times h.", "quantifier": "all poses, rates, sample times, motions and query times; all fits and all reachable curves; no condition on the size of the steps", "why_tests_cant": "A bound on the angular speed between all samples, for rotations about changing axes, is a statement about every input and every instant.", "anchors": ["curves/src/CubicHermiteSE3Curve.cpp evaluate", "curves/src/CubicHermiteSE3Curve.cpp evaluateDerivative", "curves/src/CubicHermiteSE3Curve.cpp calculateSlope", "curves/src/CubicHermiteSE3Curve.cpp fitCurveWithDerivatives"]}
{"id": "C127", "title": "Discrete and slerp curves stay near the motion they were sampled from", "statement": "If neighbouring knots of a slerp curve differ by at most a rate times the time between them, no two values of the curve differ by more than a constant kappa times that rate times the time between them (kappa is 1 for the angle and for the distance between poses of space, and for the angle between poses of the plane; pi/2 for the distance between poses of the plane, where the way is an arc). Given samples, at most h apart and each within eps, of a motion no faster than Omega, the discrete curve (nearest knot) is nowhere further from the motion than eps + Omega h / 2, and the slerp curve nowhere further than (1 + kappa) times that.", "quantifier": "all motions, sample times and values, all fits and all reachable curves, all query times, every distance that meets the contract", "why_tests_cant": "A bound on the distance to an arbitrary motion at every instant quantifies over all motions and all times.", "anchors": ["curves/src/SlerpSE3Curve.cpp evaluate", "curves/src/SlerpSE2Curve.cpp evaluate", "curves/src/DiscreteSE3Curve.cpp evaluate", "curves/src/SemiDiscreteSE3Curve.cpp evaluate", "curves/src/SlerpSE2Curve.cpp fitCurve"]}
{"id": "C128", "title": "Exactly which container calls are undefined behaviour", "statement": "On every spline container reached by any history from a new one, for lists of times and positions of any lengths and in any order, a call returns or is undefined behaviour, never anything else, and it is undefined behaviour exactly in these cases: advance and reading at the cursor, when there are segments but the cursor was left at -1 by a seek on an empty container (advance only while the time is below the duration); the straight-line setData, when it reaches a segment of positive duration with a missing position before one of non-positive duration; the constrained setData of the orders 3, 4, 5 with at least two increasing times, when there is no position or an inner time has none; of the orders 1, 2 as the straight-line one; and of the orders 1, 2, 3 with no times at all. Reading at a given time always returns. A history is undefined behaviour exactly when one of its calls is.", "quantifier": "all orders, all containers and histories (fewer than 2^31 segments, at most 2^28 times per call), all times, positions, velocities and accelerations", "why_tests_cant": "Undefined behaviour need not show when tested; the exact set of bad inputs is over all lists and histories.", "anchors": ["curves/include/curves/PolynomialSplineContainer.tpp advance", "curves/include/curves/PolynomialSplineContainer.tpp setData", "curves/include/curves/PolynomialSplineContainer.tpp getPosition", "curves/include/curves/PolynomialSplineContainer.tpp addJunctionsConditions"]}
{"id": "C129", "title": "Exactly how each call of a discrete or slerp curve ends", "statement": "On every discrete, semi-discrete, SE2 or SE3 slerp curve reached by any history, every changing call returns, aborts or is undefined behaviour, exactly as follows. A fit, set or extend by several measurements returns if the lists have equal lengths and aborts otherwise. Extending by one measurement returns with at most one knot; otherwise, when the measurement makes a new last knot, it returns if it is later than the last knot and aborts if not; when it moves the last knot it returns; it is undefined behaviour exactly when the counter of the sampling policy is 2^31-1. Updates return if all keys are known and abort otherwise. Transforming a SlerpSE3Curve aborts unless it is empty; other curves can be transformed. Evaluation returns exactly from first to last knot, aborts outside, is undefined behaviour exactly for an empty curve at time zero; a SlerpSE3Curve always aborts. Derivatives and value expressions return exactly at times covered by two knots and abort otherwise; prior factors are undefined behaviour there. The counter is never more than the number of single extends so far.", "quantifier": "all kinds of curve, all reachable curves (keys drawn below 2^64), all calls, all times and values", "why_tests_cant": "The exact set of refused and undefined calls ranges over all histories, lists and times, and undefined behaviour need not show.", "anchors": ["curves/src/SlerpSE3Curve.cpp extend", "curves/src/DiscreteSE3Curve.cpp evaluate", "curves/src/SemiDiscreteSE3Curve.cpp addPriorFactors", "curves/src/SlerpSE2Curve.cpp evaluateDerivative", "curves/include/curves/SamplingPolicy.hpp"]}
{"id": "C130", "title": "Exactly how each call of a Hermite curve ends", "statement": "On every CubicHermiteE3Curve reached by any history: a fit with assert compiled in returns exactly for lists of equal length and aborts otherwise; without it, it returns exactly if there are values for all times and is undefined behaviour otherwise. A periodic fit is undefined behaviour with fewer than two times or without a value for the second or the last but one time, with or without assert, and otherwise ends like a fit. On every CubicHermiteSE3Curve: fits return exactly for equal lengths and abort otherwise; periodic fits are undefined behaviour in the same cases. Evaluation and the first derivative are undefined behaviour exactly on an empty curve at time zero and otherwise return; everything else that is read returns. A measurement given through a sampling policy in any state aborts exactly when it is not later than all knots, and is undefined behaviour exactly when it is but the policy wants to replace a knot of a curve with only one knot or its counter is 2^31-1. From a fresh counter, a list of measurements returns exactly if it goes forwards and has a value for each time; it is undefined behaviour exactly if a value is missing and the measurements before it go forwards. Refitting the curve to one pose between two measurements of one policy leads to undefined behaviour.", "quantifier": "all reachable curves (keys drawn below 2^64), both builds, all lists of times and values, all policies and log maps", "why_tests_cant": "The exact set of refused and undefined calls ranges over all histories, lists, times and policy states; undefined behaviour need not show.", "anchors": ["curves/src/CubicHermiteE3Curve.cpp fitPeriodicCurve", "curves/src/CubicHermiteE3Curve.cpp fitCurveWithDerivatives", "curves/src/CubicHermiteSE3Curve.cpp fitPeriodicCurve", "curves/include/curves/CubicHermiteSE3Curve.hpp interpolationExtend"]}
{"id": "C131", "title": "Exactly how each call of a polynomial curve ends", "statement": "A fit of a scalar polynomial curve is undefined behaviour exactly without times or when it runs out of values, and returns otherwise, whatever the curve held before. Orders 1 and 2 run out of values when they reach a segment with a missing end value before a segment of non-positive duration; orders 3 to 5 when there are at least two increasing times and no value, or an inner time without value: a missing last value goes unnoticed. A fit of a vector-valued polynomial curve is undefined behaviour exactly without times, throws exactly when there are times and components but too few values or derivatives, and returns otherwise. Reading positions and derivatives of any order at any time always returns. The end of the domain of a vector-valued curve throws exactly when it has no components.", "quantifier": "all orders and dimensions, all curves, all lists of at most 2^28 times and any values, all solvers that meet the contract", "why_tests_cant": "The exact set of undefined and refused calls is over all lists of any lengths; reading out of bounds need not show when tested.", "anchors": ["curves/include/curves/PolynomialSplineScalarCurve.hpp fitCurve", "curves/include/curves/PolynomialSplineVectorSpaceCurve.hpp fitCurve", "curves/include/curves/PolynomialSplineContainer.tpp setData"]}
{"id": "C132", "title": "Exactly how each call of a composition curve ends", "statement": "On every composition curve reached by any history every call returns, aborts or is undefined behaviour, exactly as follows. Evaluation returns exactly at the times both curves reach, and is undefined behaviour exactly at time zero when the correction has no knots, or reaches time zero while the base has none. extend returns exactly for a single measurement when the correction is of a kind that can be evaluated and can be made to reach the new time, and the base has at most one knot or ends before it; it is undefined behaviour exactly when the counter of the sampling policy of the correction overflows. The correction can be made to reach when it has at most one knot, has to grow at its end, need not grow, or has to grow at the beginning only while the sampling policy is about to move the last knot and another knot is at or after the new time. Folding returns exactly when the base is empty or the correction reaches all of it, and is undefined behaviour exactly without correction for a base that begins at zero. New correction times are accepted exactly when the correction reaches them and they begin and end with the base. A correction can be set or removed exactly where there is a knot. Replacing the base or the correction is accepted exactly when the lists have equal lengths and the curves then begin and end together. Values of the base can be changed exactly for consecutive knots; an empty list, a list that begins at no knot and a list that runs past the last knot are undefined behaviour.", "quantifier": "all kinds of base and correction, all reachable composition curves (keys drawn below 2^64), all calls, all times and values", "why_tests_cant": "The exact set of refused and undefined calls ranges over all histories, states of two sampling policies, lists and times; the tests call extend with increasing times only.", "anchors": ["curves/include/curves/SE3CompositionCurve-inl.hpp extend", "curves/include/curves/SE3CompositionCurve-inl.hpp foldInCorrections", "curves/include/curves/SE3CompositionCurve-inl.hpp setCorrectionTimes", "curves/include/curves/SE3CompositionCurve-inl.hpp evaluate", "curves/include/curves/SE3CompositionCurve-inl.hpp modifyBaseCoefficientsValuesInBatch"]}
{"id": "C133", "title": "Printing a curve shows its knots", "statement": "Printing a curve that has been reached by any history returns, and shows the number of knots, the dimension, the first and the last time, the mean time and the mean distance between knots, and every knot in order with key, value and time.", "quantifier": "all classes of curves, all reachable states, all titles and texts", "why_tests_cant": "The failing cases (a curve without knots reads element 2^64-1 times past an empty vector; the slerp curve of space evaluates itself, which it cannot; the Hermite curve of space writes its knots into a string stream nobody reads) are in functions no test calls.", "anchors": ["curves/src/DiscreteSE3Curve.cpp print", "curves/src/SlerpSE3Curve.cpp print", "curves/src/CubicHermiteSE3Curve.cpp print", "curves/src/CubicHermiteE3Curve.cpp print", "curves/include/curves/SE3CompositionCurve-inl.hpp print", "curves/include/curves/PolynomialSplineScalarCurve.hpp print"]}
{"id": "C134", "title": "A fit that throws leaves the curve as it was", "statement": "If fitting a vector-valued polynomial curve throws because there are fewer values (or derivatives) than times, the curve afterwards is the curve before: it begins and ends when it did and has the values it had; and a later fit ends as if the failed one had not been tried.", "quantifier": "all numbers of components, all curves, all lists of times, values and derivatives, all following fits", "why_tests_cant": "The tests never let a fit throw; that the first time is overwritten before the lists are checked shows only in a caller that catches the exception and goes on.", "anchors": ["curves/include/curves/PolynomialSplineVectorSpaceCurve.hpp fitCurve"]}
{"id": "C135", "title": "A polynomial motion is reproduced", "statement": "A spline container given the positions, velocities (and accelerations) of a polynomial motion at its knots, the motion having no higher degree than the splines, is that motion: position, velocity and acceleration agree at every time of the domain.", "quantifier": "all orders, all numbers and times of knots, all polynomials of fitting degree, both setData and setDataLinear, all solvers meeting the contract", "why_tests_cant": "A test compares the curve with a few numbers at a few times; that for orders 4 and 5 with more knots the equations leave the answer to the solver, and that orders 1 and 2 fit straight lines only, is a statement about all motions and all solvers.", "anchors": ["curves/include/curves/PolynomialSplineContainer.tpp setData", "curves/include/curves/PolynomialSplineContainer.tpp setDataLinear"]}
{"id": "C136", "title": "A motion with constant acceleration is reproduced by a Hermite curve", "statement": "A cubic Hermite curve fitted to samples of a motion with constant acceleration (with the right derivatives at the two ends) is that motion: position, velocity and acceleration agree at every time of the domain.", "quantifier": "all vector spaces, all motions with constant acceleration, all increasing lists of times, all derivatives at the ends", "why_tests_cant": "A test samples one motion at equidistant times, for which it is true; that the velocity guessed at an inner knot is wrong for every other spacing, and by how much, takes a formula for all spacings.", "anchors": ["curves/src/CubicHermiteE3Curve.cpp fitCurve", "curves/src/CubicHermiteE3Curve.cpp fitCurveWithDerivatives", "curves/src/CubicHermiteE3Curve.cpp calculateSlope"]}
{"id": "C137", "title": "Imported rotations are rotations", "statement": "After a pose trajectory message has been imported, every orientation the curve answers with is a unit quaternion; a message with quaternions that are no rotations is refused.", "quantifier": "all logarithms meeting the contract, all messages with increasing stamps, all joints, all earlier states of the curve", "why_tests_cant": "Tests import messages with proper quaternions; a default-constructed transform has a quaternion of zeros, which fromMessage accepts, and the curve then answers with it.", "anchors": ["curves_ros/src/RosMultiDOFJointTrajectoryInterface.cpp fromMessage", "curves/src/CubicHermiteSE3Curve.cpp evaluate"]}
{"id": "C138", "title": "Splines can be copied", "statement": "Copying or moving a spline, as adding it to a container does, is defined behaviour and gives the same spline, whichever constructor made it and whatever was done to it since; and didEvaluateCoeffs_ is true exactly when the coefficients were computed at least once.", "quantifier": "all orders, all constructors, all sequences of changes, all containers", "why_tests_cant": "The compiled program copies whatever byte is there, so no test notices that the constructors from options leave the flag without a value and that moving it is undefined behaviour.", "anchors": ["curves/include/curves/PolynomialSpline.hpp PolynomialSpline", "curves/include/curves/PolynomialSplineContainer.hpp addSpline", "curves/include/curves/PolynomialSplineScalarCurve.hpp fitCurve"]}
{"id": "C139", "title": "The linear solver the code calls gives the best answer, and fits superpose with it", "statement": "Column-pivoting Householder QR, which setData and computeCoefficients call, returns for every matrix and right-hand side a vector whose residual is the least possible, hence a solution whenever there is one; the result is linear in the right-hand side and has no more entries different from zero than there are equations. With it, fits of every order superpose, also those whose equations leave the answer open.", "quantifier": "all matrices of all sizes and ranks, all right-hand sides; all orders, all numbers of knots, all data", "why_tests_cant": "Numerical tests compare a handful of well-conditioned systems up to a tolerance; the systems of the orders 4 and 5 have fewer equations than unknowns, so that a test cannot say which of the solutions is the right one.", "anchors": ["curves/include/curves/PolynomialSplineContainer.tpp setData", "curves/include/curves/polynomial_splines_traits.hpp compute"]}
{"id": "C140", "title": "A polynomial curve fitted to samples of a motion follows the motion", "statement": "A PolynomialSplineScalarCurve or PolynomialSplineVectorSpaceCurve fitted to the values of a motion at the knot times agrees with the motion at every time of its domain when the motion is a polynomial of the degree of the splines, and stays near it otherwise.", "quantifier": "all motions, all sampling times, all previous curves, all solvers meeting the contract, the overloads of fitCurve with and without end derivatives", "why_tests_cant": "Unit tests of the curves look at the knots, where every fit is right; between them the overload without derivatives brings every motion to a stop at both ends.", "anchors": ["curves/include/curves/PolynomialSplineScalarCurve.hpp fitCurve", "curves/include/curves/PolynomialSplineScalarCurve.hpp evaluate", "curves/include/curves/PolynomialSplineVectorSpaceCurve.hpp fitCurve"]}
{"id": "C141", "title": "An offset of the positions is an offset of the fitted curve", "statement": "Adding the same value to every position handed to a fit adds it to the position of the fitted curve at every time and leaves the velocity, the acceleration and every derivative at every time as they were.", "quantifier": "all orders, all knots, positions, end derivatives and offsets, all previous curves, both fits of the container, the scalar and the vector curve, all solvers that are linear in the right-hand side and give basic solutions, that of the code among them", "why_tests_cant": "The test invarianceUnderOffset tries one offset of one set of three knots; the answer of a fit that the equations do not determine depends on the solver, and whether the solver picks answers that move with the data cannot be seen from samples.", "anchors": ["curves/include/curves/PolynomialSplineContainer.tpp setData", "curves/include/curves/PolynomialSplineScalarCurve.hpp fitCurve", "curves/include/curves/PolynomialSplineVectorSpaceCurve.hpp fitCurve", "curves/test/PolynomialSplineQuinticScalarCurveTest.cpp:168-197"]}
{"id": "C142", "title": "The unit of time does not matter", "statement": "Measuring the time in another unit, with the end derivatives converted, gives the same fitted motion: the fit of the same positions at the times l t + b is at l t + b where the original fit is at t, with the velocity divided by l and the acceleration by the square of l.", "quantifier": "all orders, all knots, positions and end derivatives, all positive factors and all shifts, all previous curves", "why_tests_cant": "The fits the equations do not determine are decided by the pivots of the solver, which depend on how long the segments are in the unit chosen; tests use segments of about one second, for which the choice happens to be harmless.", "anchors": ["curves/include/curves/PolynomialSplineContainer.tpp setData", "curves/include/curves/PolynomialSplineScalarCurve.hpp fitCurve", "curves/include/curves/PolynomialSplineVectorSpaceCurve.hpp fitCurve"]}
{"id": "C143", "title": "What the consistency check of the knot container checks", "statement": "checkInternalConsistency passes on every manager a history of operations leads to. It passes exactly if there are as many keys as knots and the key of every knot resolves to a knot with that key and an equal value. It reports a knot moved onto a time that holds a knot, and a key handed out twice. A knot whose key is missing is reported.", "quantifier": "all reachable managers; for the exact condition all states of the two maps", "why_tests_cant": "The check is only called by tests, on managers that are consistent; whether it would notice an inconsistent one is never exercised.", "anchors": ["curves/include/curves/LocalSupport2CoefficientManager-inl.hpp checkInternalConsistency"]}
{"id": "C144", "title": "Between two knots a planar slerp curve turns about one point", "statement": "Between two neighbouring knots of a SlerpSE2Curve the heading changes at a constant rate by the smaller angle; with equal headings the position moves on the straight line, otherwise one point of the plane keeps its coordinates in the moving frame; the range to the knot it left only grows, up to the range between the knots; poses the same time apart are the same range apart. Ranges and distances do not depend on the frame the poses are given in.", "quantifier": "all reachable planar slerp curves, all pairs of neighbouring knots, all times between them", "why_tests_cant": "Tests compare a few values at a few times; the shape of the path between the knots, and that it never overshoots, is about all of them.", "anchors": ["curves/src/SlerpSE2Curve.cpp evaluate", "curves/include/curves/Pose2_Expressions.hpp poseRangeImplementation", "curves/include/curves/Pose2_Expressions.hpp pointRangeImplementation", "curves/include/curves/Pose2_Expressions.hpp transformFromCurveImplementation", "curves/include/curves/Pose2_Expressions.hpp distanceBetweenPointsImplementation"]}
{"id": "C145", "title": "Reading a table whose rows differ in length", "statement": "The first row of the file fixes the number of columns the two loaders of times and vectors expect. If every other row has at least as many, loading succeeds, row by row, and ignores the columns beyond. If any row has fewer, the loader throws std::out_of_range and delivers nothing; in particular an empty line after the table makes it throw.", "quantifier": "all files, all row lengths", "why_tests_cant": "Quantifies over all files; the tests only read files they wrote themselves, which are rectangular.", "anchors": ["curves/src/helpers.cpp loadTimeVectorCSV", "curves/src/helpers.cpp loadTimeTimeVectorCSV", "curves/src/helpers.cpp loadCSV"]}
{"id": "C146", "title": "A straight-line fit in double, from the knots to the value read", "statement": "With rounded arithmetic, setData without derivatives succeeds for strictly increasing times and makes one segment per pair of knots; its higher coefficients do not influence what is read. Between its knots a segment reads its first value at and before its beginning, moves towards the second value and never turns back, and reads a constant exactly. In double the value read differs from the line between the knots by at most 5 units of rounding of the change and one of the value, the velocity by at most 4 units of the slope; a container of n segments reads the polygon at a time that is off by at most the fraction (n+1)/2^52 of the total.", "quantifier": "all strictly increasing lists of double times, all double values, all orders, all query times", "why_tests_cant": "Quantifies over all inputs and over rounding at every step; tests compare with tolerances chosen by hand.", "anchors": ["curves/include/curves/PolynomialSplineContainer.tpp setData(knotDurations, knotPositions)", "curves/include/curves/PolynomialSpline.hpp getPositionAtTime, getVelocityAtTime", "curves/include/curves/PolynomialSplineContainer.tpp getPositionAtTime, getActiveSplineIndexAtTime"]}
{"id": "C147", "title": "A fit of data played backwards is the curve played backwards", "statement": "The fit of the positions in the opposite order at the mirrored times b - t, with the end velocities exchanged and negated and the end accelerations exchanged, is at b - t where the original fit is at t, with the opposite velocity and the same acceleration.", "quantifier": "all strictly increasing times, all positions and end derivatives, all times of evaluation, every exact solver", "why_tests_cant": "Relates two fits and reads both at every time; for quintic curves the answer depends on which column the QR decomposition leaves out, which no unit test looks at.", "anchors": ["curves/include/curves/PolynomialSplineContainer.tpp setData(knotDurations, knotPositions, initialVelocity, initialAcceleration, finalVelocity, finalAcceleration)", "curves/include/curves/PolynomialSplineScalarCurve.hpp fitCurve", "curves/include/curves/PolynomialSplineContainer.tpp addInitialConditions, addFinalConditions, addJunctionsConditions"]}
{"id": "C148", "title": "A time that is not a number reads the beginning of the last segment", "statement": "Read at NaN, a polynomial segment gives what it has at its beginning, a container of segments reads its last segment, and a fitted scalar curve gives the value of the last knot but one: a number, never NaN and never an error. A container in play whose time is NaN returns true from advance for ever and never moves.", "quantifier": "all orders, all knots and end derivatives, every solver, every rounding, all sequences of steps", "why_tests_cant": "The tests never pass NaN; the outcome depends on the argument order of std::min and std::max and on which way a false comparison falls, for every number of segments.", "anchors": ["curves/include/curves/PolynomialSpline.hpp getPositionAtTime, getVelocityAtTime, getAccelerationAtTime", "curves/include/curves/PolynomialSplineContainer.tpp advance, setContainerTime, getActiveSplineIndexAtTime, getPositionAtTime", "curves/include/curves/PolynomialSplineScalarCurve.hpp evaluate"]}
{"id": "C149", "title": "The knots in a search tree of any shape, and knot times that are not a number", "statement": "The searches of std::map (find, upper_bound, insert, insert with a hint) on a binary tree of any shape give what the list of its nodes in order gives, so that insertCoefficient, addCoefficientAtEnd, hasCoefficientAtTime, removeCoefficientAtTime and getCoefficientsAt do not depend on the shape nor on the hint. At NaN: hasCoefficientAtTime is true on every non-empty manager, removeCoefficientAtTime removes the first knot, insertCoefficient stores nothing and hands out a key to the last knot, after which the consistency check fails; a NaN inserted first keeps all other times out.", "quantifier": "all trees, all reachable managers, all times and hints, all values", "why_tests_cant": "The tests use ordinary times in a few small maps; the shape of the tree is hidden, and the fate of NaN follows from the direction of every comparison in the search.", "anchors": ["curves/include/curves/LocalSupport2CoefficientManager-inl.hpp insertCoefficient, addCoefficientAtEnd, modifyCoefficient, removeCoefficientAtTime, hasCoefficientAtTime, getCoefficientsAt", "curves/include/curves/LocalSupport2CoefficientManager.hpp TimeToKeyCoefficientMap"]}
{"id": "C150", "title": "The nearest knot in double", "statement": "Where the distances to the knots are rounded, DiscreteSE3Curve::evaluate returns the value of a knot whose rounded distance is least; with relative error u no other knot is nearer by a factor of more than (1-u)/(1+u); at the time of a knot it returns that knot; the expression for the optimiser names the knot evaluate returns. That the knot returned is the nearest one is false: in double, with knots at -1 and 3+2^-49, the time 1+5*2^-52 gives the first although the second is nearer.", "quantifier": "all reachable discrete curves, all times in their range, every monotone rounding", "why_tests_cant": "The tests ask at times whose distances to the knots differ visibly; a wrong pick needs two distances that round to one number.", "anchors": ["curves/src/DiscreteSE3Curve.cpp evaluate, getValueExpression"]}
{"id": "C151", "title": "Lists of times some of which are not a number", "statement": "insertCoefficients never fails on account of a NaN among the times: if the manager holds a knot already, or the first time is a number, entries at NaN are dropped without a word (each still yields a key) and the others are written as if the NaN were not there; if the manager is empty and the first time is NaN, that entry becomes the only knot, all others are dropped and every key returned leads to it.", "quantifier": "all reachable managers, all lists of times and values, all shapes the tree of the map takes in between", "why_tests_cant": "The tests pass ordinary times; the result for NaN depends on the order of the list and on the direction of every comparison.", "anchors": ["curves/include/curves/LocalSupport2CoefficientManager-inl.hpp insertCoefficients, insertCoefficient", "curves/include/curves/LocalSupport2CoefficientManager.hpp TimeToKeyCoefficientMap"]}
{"id": "C152", "title": "Slerp curves with the times of double", "statement": "With the interpolation parameter computed in double (values combined exactly) SlerpSE2Curve and SemiDiscreteSE3Curve still hit their knots exactly, stay on the way between neighbouring knots, never move backwards on it, are within 4*kappa*u times the distance of neighbouring knots of the exact curve on the whole domain, and fail outside it exactly like the exact curve; the expression of SlerpSE2Curve has the value evaluate returns. The motion is not steady to the last bit: with knots at -1 and 1 the curve has arrived at 1-2^-53.", "quantifier": "all reachable slerp curves with representable knot times, all times, every monotone rounding, every exponential and logarithm meeting the contract", "why_tests_cant": "The tests compare with a tolerance at a few times; that the parameter never leaves [0,1] and is exactly 1 at the next knot is a fact about rounding of all pairs of doubles.", "anchors": ["curves/src/SlerpSE2Curve.cpp evaluate, getValueExpression", "curves/src/SemiDiscreteSE3Curve.cpp evaluate"]}
{"id": "C153", "title": "Where a fitted scalar curve begins and ends, in double", "statement": "A PolynomialSplineScalarCurve fitted to increasing times begins exactly at its first knot and never ends before it begins; it ends (getMaxTime, the sum of the rounded durations plus the first time) within n+2 roundings of the length and one of the time itself of the last knot, whatever the solver answers; it ends exactly there when the differences of the times are representable. Lists of fewer than two times or of times that do not increase are refused by setData, which fitCurve does not report. In general the curve does not end at the last knot: in double, fitted to knots at 0.2 and 0.9 the curve ends before 0.9, and fitted to 0.3 and 0.9 after it.", "quantifier": "all lists of at least two increasing representable times, all values, all solver answers, every rounding of relative precision u", "why_tests_cant": "Tests use times such as 0, 1, 2.5 whose differences are exact in double; the last knot lying outside [getMinTime, getMaxTime] shows only for particular pairs of times.", "anchors": ["curves/include/curves/PolynomialSplineScalarCurve.hpp fitCurve, getMinTime, getMaxTime", "curves/include/curves/PolynomialSplineContainer.tpp setData, extractSplineCoefficients", "curves/include/curves/PolynomialSplineContainer.hpp addSpline"]}
{"id": "C154", "title": "Curves made of knots refuse a time that is not a number", "statement": "Evaluated at NaN, every curve that keeps its knots in the coefficient manager refuses, whatever its knots are: the Hermite curves return false for the value and the first derivative and write nothing, the discrete and slerp curves fail a CHECK for both; none of them reads a knot or interpolates with NaN. A curve whose first knot was given a NaN time refuses at every time. (Polynomial curves answer: see C148.)", "quantifier": "all search trees of any shape holding any knots (none, one, many, at numbers or NaN), all interpolation formulas", "why_tests_cant": "No test asks at NaN; whether the comparisons along the search fall on the refusing side depends on the direction of each one (time == max, k < node, CHECK_GE), for every shape of the tree.", "anchors": ["curves/include/curves/LocalSupport2CoefficientManager-inl.hpp getCoefficientsAt", "curves/src/CubicHermiteE3Curve.cpp evaluate, evaluateDerivative", "curves/src/CubicHermiteSE3Curve.cpp evaluate", "curves/src/DiscreteSE3Curve.cpp evaluate, evaluateDerivative", "curves/src/SlerpSE2Curve.cpp evaluate"]}
{"id": "C155", "title": "Infinite knot times", "statement": "A curve that accepts a knot at plus or minus infinity (both are ordinary times for the coefficient manager) still returns numbers inside its domain. True of DiscreteSE3Curve: next to an infinite knot it returns the finite one. True of slerp curves before a knot at plus infinity: they keep the pose of the last finite knot; after a knot at minus infinity their interpolation parameter is NaN. False of the Hermite curves: on the whole segment next to an infinite knot, up to and including the knots, evaluate returns true and every coordinate is NaN, whatever the coefficients; other segments are not affected.", "quantifier": "all reachable curves with a knot at an infinity, all times on the segment next to it, all coefficients, every rounding", "why_tests_cant": "No test passes an infinite time (\"hold until the end of time\"); the NaN comes from 0 * inf or inf / inf in the middle of the formulas, which no sample of finite times can show.", "anchors": ["curves/src/CubicHermiteE3Curve.cpp evaluate", "curves/src/CubicHermiteSE3Curve.cpp evaluate", "curves/src/DiscreteSE3Curve.cpp evaluate", "curves/src/SlerpSE2Curve.cpp evaluate", "curves/src/SemiDiscreteSE3Curve.cpp evaluate"]}
{"id": "C156", "title": "Polynomial-spline curves with an approximate linear solver", "statement": "Fitting a scalar or vector polynomial-spline curve with a linear solver whose answer misses the equations by no more than rho gives a curve whose reported domain is that of an exact fit, which at every knot time is within rho of the value there, and whose first and second derivatives at both ends are within rho of those asked for. The same for a scalar curve built from a list of segments: within rho of each segment's initial position, velocity and acceleration at the time it begins, and of the last one's final ones at the end of the domain.", "quantifier": "all knot lists (two or more, strictly increasing), values, end derivatives, dimensions, previous curves, all solvers and residuals; all lists of segments of positive duration", "why_tests_cant": "Tests compare with a tolerance that fits the handful of systems they solve; what the tolerance has to be as a function of the residual of the solver, for any knots, is not something a sample can tell.", "anchors": ["curves/include/curves/PolynomialSplineScalarCurve.hpp fitCurve", "curves/include/curves/PolynomialSplineScalarCurve.hpp evaluate", "curves/include/curves/PolynomialSplineVectorSpaceCurve.hpp fitCurve", "curves/include/curves/PolynomialSplineVectorSpaceCurve.hpp evaluate"]}
{"id": "C157", "title": "New measurements are stored relative to the latest correction", "statement": "Measurements after the end of a composition are kept in the base relative to the correction at its end, the same for all of them, so that the motions between them are the measured ones whatever corrections were made before and however the correction is thinned; and that correction is in force from its old end to the new one. The last part is false of a thinned correction in the middle of a sampling period whose last two values differ: at its old end the correction is then one on the way from the knot before.", "quantifier": "all reachable compositions whose correction reaches back to the beginning of the base, all sampling ratios and phases, all lists of measurements at increasing times", "why_tests_cant": "Tests extend curves without corrections; which correction a measurement is stored against after edits and in each phase of the sampling policy is a matter of the whole history.", "anchors": ["curves/include/curves/SE3CompositionCurve-inl.hpp extend (122-179)"]}
{"id": "C158", "title": "Rounding errors of the Hermite acceleration", "statement": "In double arithmetic the acceleration computed between two neighbouring knots differs from the second derivative of the exact Hermite polynomial by at most 2^-44 times (largest coordinate / distance of the knots squared + largest velocity / distance), however large the times are; and it is correct to a few digits. The last part is false: for a uniform motion far from the origin, whose acceleration is 0, the computed acceleration takes values as -5/8 and 3/4.", "quantifier": "all reachable E3 Hermite curves, all pairs of neighbouring knots, all times from the first of them on before the second", "why_tests_cant": "A test compares a few values with a tolerance somebody chose, mostly near the origin; the bound follows the errors through every operation for all inputs.", "anchors": ["curves/src/CubicHermiteE3Curve.cpp evaluateLinearAcceleration (294-329)"]}
{"id": "C159", "title": "Subnormal numbers", "statement": "Rounding to double with gradual underflow (below 2^-1022 the nearest multiple of 2^-1074) gives a representable number to which no other representable one is nearer, keeps exactly the representable numbers, and has all the laws that the theorems about rounded arithmetic assume, so that they hold in the presence of subnormal numbers; differences of representable times are never lost to underflow; and the error bounds for Hermite curves hold with a few multiples of the smallest number added. Without that addition they are false: a constant curve at the smallest positive number is computed to be 0 in the middle.", "quantifier": "all real numbers and all representable ones; all reachable E3 Hermite curves of doubles, all pairs of neighbouring knots, all representable times between them", "why_tests_cant": "Tests stay far from 2^-1022; that no theorem silently depends on unbounded exponents needs the whole chain of operations.", "anchors": ["curves/include/curves/Curve.hpp Time (16)", "curves/src/CubicHermiteE3Curve.cpp evaluate", "curves/src/CubicHermiteE3Curve.cpp evaluateDerivative"]}
{"id": "C160", "title": "Overflow", "statement": "Evaluating an E3 Hermite curve of doubles (position, velocity, acceleration) and fitting one never overflows in an intermediate result: as long as inputs and exact results are within the range of double, the answers are numbers, those of the model without a largest number. Proved if positions, velocities and distances of knots keep certain distances from the limits of the range (for positions: at most 2^1015); in particular if positions and velocities are at most 2^300 and knots between 2^-300 and 2^300 apart. Beyond that it is false: with knots at most 2^-1024 apart neither velocity nor acceleration is ever a number, even for a curve at rest; with large velocities a position that should be 0 is NaN; and the slope stored for a straight line can be infinite, the position at that very knot being NaN.", "quantifier": "all reachable E3 Hermite curves, all query times, all values and times in the stated ranges; for the negation all curves with two knots that close, and all times between them", "why_tests_cant": "Overflow needs numbers near 2^1024 or times near 2^-1024, which no test uses; that nothing overflows elsewhere is about every intermediate result.", "anchors": ["curves/src/CubicHermiteE3Curve.cpp evaluate", "curves/src/CubicHermiteE3Curve.cpp evaluateDerivative", "curves/src/CubicHermiteE3Curve.cpp evaluateLinearAcceleration", "curves/src/CubicHermiteE3Curve.cpp calculateSlope", "curves/src/CubicHermiteE3Curve.cpp fitCurveWithDerivatives"]}
{"id": "C161", "title": "Playing a container in double", "statement": "Computed in double (with subnormal numbers), a PolynomialSplineContainer that has been filled after a reset and is played with seeks, rewinds and forward steps shorter than half of every segment shows at the cursor, bit for bit, what random access gives at its time. After n equal steps its time is n dt up to the fraction n / 2^52. A container whose durations add up to N steps, rounded up, is played in N - 1, N or N + 1 steps, for up to 2^25 steps and segments: so many calls of advance return true, and all later ones false. advance returns false only when the time has reached the duration: this is true up to the fraction (number of segments + 1) / 2^52 only. Steps that are merely shorter than every segment, enough without rounding (C27), are not enough.", "quantifier": "all previous states of the container, all segments with positive durations, all sequences of seeks, rewinds and steps, all evaluation functions", "why_tests_cant": "The agreement depends on sums of rounded durations and on ties in the rounding of differences; a test plays a few containers for a few seconds.", "anchors": ["curves/include/curves/PolynomialSplineContainer.tpp advance", "curves/include/curves/PolynomialSplineContainer.tpp setContainerTime", "curves/include/curves/PolynomialSplineContainer.tpp resetTime", "curves/include/curves/PolynomialSplineContainer.tpp getActiveSplineIndexAtTime", "curves/include/curves/PolynomialSplineContainer.tpp getPosition", "curves/include/curves/PolynomialSplineContainer.tpp getPositionAtTime"]}
{"id": "C162", "title": "How far the composition curve moves", "statement": "The value of a composition of two interpolating curves is the correction times the base. If between neighbouring knots the base moves at most at the rate Ωb, the correction moves at most at the rate Ωc and turns at most at the rate ω, and the base stays within r of the identity, then the composition moves at most at the rate κ(Ωb + Ωc) + r κ' ω. foldInCorrections keeps the value exactly only at the knots of the base; at every other time at which there was a value there still is one, at most (1 + κ) Ω h / 2 away, if the composition moves at most at the rate Ω and the knots of the base are at most h apart. setCorrectionTimes keeps the value exactly only at the given times; elsewhere it stays within (1 + κ) κ Ωc h / 2 + r (1 + κ') κ' ω h / 2, where h is the largest gap of the given times. With discrete curves, after folding the curve shows at every time the value it had at the nearest knot of the base, and after setCorrectionTimes the correction is the former one at the nearest of the given times. Given no times at all it can return and leave a curve without any value, undefined at time zero.", "quantifier": "all histories of a composition curve, all groups with exponential maps and distances as in C127 (poses of the plane and of space among them, so the semi-discrete composition the factory makes), all times", "why_tests_cant": "How far an edited curve is from the former one between the knots is an inequality over all times, all motions and all histories; a test compares a few samples of one motion.", "anchors": ["curves/include/curves/SE3CompositionCurve-inl.hpp evaluate", "curves/include/curves/SE3CompositionCurve-inl.hpp foldInCorrections", "curves/include/curves/SE3CompositionCurve-inl.hpp setCorrectionTimes"]}
{"id": "C163", "title": "What is played in double is the curve", "statement": "A PolynomialSplineContainer that has been filled after a reset and is played in double with seeks, rewinds and forward steps shorter than half of every segment shows, at the cursor and by random access, the exact curve at a time that differs from the time of the container by at most L D / 2^52, for L segments and the duration D; before the beginning and after the end, that of the beginning and the end. Position, velocity and acceleration belong to the same time, and each is exact there up to the rounding error of one evaluation of a polynomial (C114). After n equal steps dt the position is that of the exact curve at n dt up to V (n (n dt) + L D) / 2^52 + M / 2^49, where V bounds the speed and M the sum of the absolute values of the terms of a polynomial.", "quantifier": "all previous states of the container, all segments with positive durations, all sequences of seeks, rewinds and steps, all numbers of steps up to 2^52", "why_tests_cant": "The cursor accumulates one rounding per step and one per segment and compares rounded differences at each junction; a test plays a few containers for a few seconds.", "anchors": ["curves/include/curves/PolynomialSplineContainer.tpp advance", "curves/include/curves/PolynomialSplineContainer.tpp setContainerTime", "curves/include/curves/PolynomialSplineContainer.tpp getPosition", "curves/include/curves/PolynomialSplineContainer.tpp getPositionAtTime", "curves/include/curves/PolynomialSpline.hpp getPositionAtTime"]}
{"id": "C164", "title": "A container played with steps of any size", "statement": "Played from its beginning with forward steps of any size, a PolynomialSplineContainer is, after n calls of advance, in the segment whose number is the least of n and of, for each call so far, the number of segments over at that time plus the calls made since. If that is the number of segments over by now, getPosition, getVelocity and getAcceleration are those of random access; if it is less, they are those at the end of that segment, whatever the time. So the cursor is right after every step if no step ends more than one segment; a container that has fallen behind catches up if it is advanced by zero often enough; but one that reaches its end in fewer calls than it has inner junctions stays before its last segment for ever, and its end is never shown.", "quantifier": "all containers with non-negative durations, all sequences of steps of any size", "why_tests_cant": "advance enters at most one segment per call; which segment is shown depends on the whole sequence of steps and segments.", "anchors": ["curves/include/curves/PolynomialSplineContainer.tpp advance", "curves/include/curves/PolynomialSplineContainer.tpp getPosition", "curves/include/curves/PolynomialSplineContainer.tpp getPositionAtTime", "curves/include/curves/PolynomialSplineContainer.tpp getActiveSplineIndexAtTime"]}
{"id": "C165", "title": "From one point to another", "statement": "fitCurve of two points gives a motion from rest to rest along the straight line between them: after the part x of the time, the part 3x^2-2x^3 of the way for CubicHermiteE3Curve, CubicHermiteSE3Curve and the cubic scalar curve, 10x^3-15x^4+6x^5 for the quintic scalar and vector curves, with the velocities and accelerations belonging to it. So the curve never leaves the segment and never turns back. The attitude of the SE3 curve turns about a fixed axis by the same part of the rotation between the two, with an angular velocity along this axis; if both attitudes are equal it does not turn at all. This is in exact arithmetic: in double the curve can leave the segment.", "quantifier": "all points, poses, times t0 < t1, times in between", "why_tests_cant": "The tests look at a few times of a few such motions; the statement is about all of them.", "anchors": ["curves/src/CubicHermiteE3Curve.cpp fitCurveWithDerivatives", "curves/src/CubicHermiteE3Curve.cpp evaluate", "curves/src/CubicHermiteSE3Curve.cpp fitCurveWithDerivatives", "curves/src/CubicHermiteSE3Curve.cpp evaluate", "curves/src/CubicHermiteSE3Curve.cpp evaluateDerivative", "curves/include/curves/PolynomialSplineScalarCurve.hpp fitCurve", "curves/include/curves/PolynomialSplineVectorSpaceCurve.hpp fitCurve"]}
{"id": "C166", "title": "Rising data give a rising curve", "statement": "Where the points given to a CubicHermiteE3Curve rise in some coordinate, the fitted curve rises in it all the way. (This holds if the slope over the two neighbours of every inner point is at most three times the slope of either adjacent segment, so whenever the mean speeds of neighbouring segments differ by a factor of three at most, at any times. It is false in general: for three points at equal steps it holds exactly if neither rise is more than five times the other; otherwise the curve overshoots the last point or dips below the first.)", "quantifier": "all rising data, all coordinates, all pairs of times", "why_tests_cant": "Overshooting depends on the ratios of neighbouring increments; a test sees one set of ratios.", "anchors": ["curves/src/CubicHermiteE3Curve.cpp fitCurveWithDerivatives", "curves/src/CubicHermiteE3Curve.cpp calculateSlope", "curves/src/CubicHermiteE3Curve.cpp evaluate"]}
{"id": "C167", "title": "The cubic scalar curve is a Hermite curve with other slopes", "statement": "Between two neighbouring knots a PolynomialSplineScalarCurve of order 3, fitted to any points with any end velocities, is the cubic Hermite interpolation of the two points with the slopes the curve has there. The first and last slopes are the requested ones; the others are the one solution of the tridiagonal equations of the smooth cubic. Rising data give a rising curve. (The last sentence holds if the slopes are not negative and at most three times the mean slopes on both sides. It is false in general: for three points at equal steps, at rest at both ends, it holds exactly if neither rise is more than three times the other.)", "quantifier": "all points, times, end velocities, solvers and pairs of times", "why_tests_cant": "Relates the result of a linear solve over all coefficients to another class of the project; a test compares numbers of one data set.", "anchors": ["curves/include/curves/PolynomialSplineScalarCurve.hpp fitCurve", "curves/include/curves/PolynomialSplineContainer.tpp setData", "curves/src/CubicHermiteE3Curve.cpp evaluate"]}
{"id": "C168", "title": "How far a point reaches in a cubic scalar curve", "statement": "If no two neighbouring points of a PolynomialSplineScalarCurve of order 3 differ by more than R times the time between them and the end velocities are at most 3R, the curve is nowhere faster than 3R and stays within R times the duration of each segment from the straight line. What is changed on one side of a knot changes the curve on the other side by half as much at each further knot (for points that differ by at most delta and times at least tau apart: by at most 3/2 delta / 2^j times duration/tau on the j-th segment beyond), but never by nothing before the last knot, unlike in a Hermite curve (C92).", "quantifier": "all points, times, end velocities, solvers; all pairs of data sets that agree on one side of a knot", "why_tests_cant": "The whole linear system is involved; a test sees one data set and cannot see a decay rate.", "anchors": ["curves/include/curves/PolynomialSplineScalarCurve.hpp fitCurve", "curves/include/curves/PolynomialSplineContainer.tpp setData"]}
{"id": "C169", "title": "The two cubic curves of the project", "statement": "If no two neighbouring points of a CubicHermiteE3Curve are further apart than R times the time between them and the end derivatives are at most R, the fitted curve is nowhere faster than 2R and stays within half of R times the duration of each segment from the straight line, in every coordinate and in distance. CubicHermiteE3Curve and PolynomialSplineScalarCurve of order 3, fitted to the same numbers with the same end velocities, agree at all knots and are nowhere further apart than R times the duration of the segment.", "quantifier": "all points, times, end derivatives, solvers, times of evaluation", "why_tests_cant": "Compares two classes that share no code, one of which solves a linear system; a test compares numbers of one data set.", "anchors": ["curves/src/CubicHermiteE3Curve.cpp fitCurveWithDerivatives", "curves/src/CubicHermiteE3Curve.cpp evaluate", "curves/include/curves/PolynomialSplineScalarCurve.hpp fitCurve"]}
{"id": "C170", "title": "The exact limits of a Hermite fit", "statement": "If no two neighbouring points differ by more than R times the time between them and the end derivatives are at most R, then on every segment, of duration h, a fitted CubicHermiteE3Curve evaluates successfully, stays within 8/27 R h of the straight line, reports a velocity of at most 2R and an acceleration of at most 12R/h, in every coordinate and in length; so does the translation of a fitted CubicHermiteSE3Curve. None of the three numbers can be improved: each is attained for every start, duration and rate.", "quantifier": "all points, poses, times, end derivatives, times of evaluation", "why_tests_cant": "The limits hold for data of any length and are attained only for particular slopes and times; a test sees the values of its own data.", "anchors": ["curves/src/CubicHermiteE3Curve.cpp evaluate", "curves/src/CubicHermiteE3Curve.cpp evaluateDerivative", "curves/src/CubicHermiteE3Curve.cpp evaluateLinearAcceleration", "curves/src/CubicHermiteSE3Curve.cpp evaluateDerivative", "curves/src/CubicHermiteSE3Curve.cpp evaluateLinearAcceleration"]}
{"id": "C171", "title": "Pose curves, single coordinates and equal steps: Hermite curves fitted to samples of a smooth motion", "statement": "What C112 says of the CubicHermiteE3Curve holds for each coordinate by itself and for the translation of a CubicHermiteSE3Curve: fitted to samples, at most h apart, of a motion whose acceleration in a coordinate is at most M, it stays within M h^2/4 of the motion in this coordinate and its velocity within M h, where the end velocities matter for the first and the last segment only. If the samples are at equal steps h and the acceleration changes at most at the rate J, the error of the CubicHermiteE3Curve is at most J h^3/2 and that of its velocity at most 19/12 J h^2.", "quantifier": "all motions with bounded acceleration (or rate of acceleration), sample times, attitudes, earlier contents of the pose curve, times of evaluation", "why_tests_cant": "A statement about all smooth motions and about how the error goes down with the distance of the samples; a test compares one motion at some times.", "anchors": ["curves/src/CubicHermiteE3Curve.cpp fitCurveWithDerivatives", "curves/src/CubicHermiteE3Curve.cpp evaluate", "curves/src/CubicHermiteE3Curve.cpp evaluateDerivative", "curves/src/CubicHermiteSE3Curve.cpp fitCurveWithDerivatives", "curves/src/CubicHermiteSE3Curve.cpp evaluate"]}
{"id": "C172", "title": "A cubic scalar curve fitted to samples of a smooth motion", "statement": "A PolynomialSplineScalarCurve of order 3 fitted to samples, at most h apart, of a motion whose acceleration is at most M, with the velocities of the motion at the two ends, passes through the samples, is at all times within 5/8 M h^2 of the motion, and at the samples its velocity is within 3/2 M h of that of the motion, however uneven the samples are. The accelerations given for the ends do not matter.", "quantifier": "all motions with bounded acceleration, sample times, solvers, end accelerations, earlier contents of the curve, times of evaluation", "why_tests_cant": "The slopes solve a linear system over all samples; that their error does not grow with the number of samples or their unevenness is a statement about all of them.", "anchors": ["curves/include/curves/PolynomialSplineScalarCurve.hpp fitCurve", "curves/include/curves/PolynomialSplineScalarCurve.hpp evaluate", "curves/include/curves/PolynomialSplineContainer.tpp setData"]}
{"id": "C173", "title": "The velocity and acceleration of a cubic scalar curve between its knots", "statement": "Between two neighbouring knots a fitted PolynomialSplineScalarCurve of order 3 reports as first derivative the quadratic that has the velocities of the curve at both knots and the mean slope of the data as its mean, and as second derivative the derivative of that quadratic, both knots included. If neighbouring values differ by at most R times the time between them and the end velocities are at most 3 R, every reported velocity is at most 3 R and every reported acceleration at most 24 R divided by the duration of the segment. Fitted to samples at most h apart of a motion whose acceleration is at most M, the reported velocity is at all times within 5/2 M h of that of the motion.", "quantifier": "all strictly increasing times, values, end derivatives, solvers, earlier contents, times of evaluation", "why_tests_cant": "The reported derivatives come from the segment found for the time and from the coefficients of a linear system over all knots; at a knot two segments meet and must report the same.", "anchors": ["curves/include/curves/PolynomialSplineScalarCurve.hpp evaluateDerivative", "curves/include/curves/PolynomialSplineContainer.tpp getVelocityAtTime", "curves/include/curves/PolynomialSplineContainer.tpp getAccelerationAtTime", "curves/include/curves/PolynomialSplineContainer.tpp setData"]}
{"id": "C174", "title": "More points of a cubic scalar curve do not change it", "statement": "A PolynomialSplineScalarCurve of order 3 fitted to values of a motion that is made of cubic pieces between the knots and has a continuous velocity and acceleration, with the velocities of the motion at the ends, has the value, velocity and acceleration of that motion at every time. Hence the curve, fitted again to its own values at its knots and at any further times between them, is the same curve, whatever the solver, the earlier contents and the accelerations given for the ends. For a CubicHermiteE3Curve this does not hold.", "quantifier": "all strictly increasing times, values, end velocities, refinements of the times, solvers, earlier contents, times of evaluation", "why_tests_cant": "The refitted curve solves a different, larger linear system; that it has the same solution for every choice of further times is no matter of samples.", "anchors": ["curves/include/curves/PolynomialSplineScalarCurve.hpp fitCurve", "curves/include/curves/PolynomialSplineScalarCurve.hpp evaluate", "curves/include/curves/PolynomialSplineScalarCurve.hpp evaluateDerivative", "curves/include/curves/PolynomialSplineContainer.tpp setData", "curves/src/CubicHermiteE3Curve.cpp fitCurveWithDerivatives"]}
{"id": "C175", "title": "Cutting and joining cubic scalar curves", "statement": "A stretch of a fitted PolynomialSplineScalarCurve of order 3 between two of its knots is the curve fitted to the knots of the stretch alone with the velocities of the whole curve at the two ends of the stretch: same value, velocity and acceleration at every time. Two such curves that meet at a knot with the same value, the same velocity and the same acceleration are together the curve fitted to the knots of both with the velocities at the outer ends. A stretch of a fitted CubicHermiteE3Curve is likewise the curve fitted to its knots with the velocities at its ends, in value and velocity.", "quantifier": "all strictly increasing times, values, end derivatives, stretches, solvers, earlier contents, times of evaluation", "why_tests_cant": "The stretch and the whole are solutions of linear systems of different sizes with different boundary rows.", "anchors": ["curves/include/curves/PolynomialSplineScalarCurve.hpp fitCurve", "curves/include/curves/PolynomialSplineScalarCurve.hpp evaluate", "curves/include/curves/PolynomialSplineScalarCurve.hpp evaluateDerivative", "curves/include/curves/PolynomialSplineContainer.tpp setData", "curves/src/CubicHermiteE3Curve.cpp fitCurveWithDerivatives"]}
{"id": "C176", "title": "The acceleration of a cubic scalar curve", "statement": "If at no knot of a PolynomialSplineScalarCurve of order 3 the mean slope of the data changes by more than M times the mean of the two durations around it, and the velocities given for the ends differ from the mean slopes there by at most M times half of the duration, the acceleration that the fitted curve reports is at most 3 M at every time, however close or uneven the knots are; the factor 3 is the least. Fitted to samples at most h apart of a motion whose acceleration is at most M, the curve reports at every time an acceleration of at most 3 M, a value within M h^2 / 2 of the motion and a velocity within 2 M h of that of the motion.", "quantifier": "all strictly increasing times, values, end derivatives, solvers, earlier contents, times of evaluation", "why_tests_cant": "A bound that does not depend on the number or the distance of the knots is a statement about linear systems of every size.", "anchors": ["curves/include/curves/PolynomialSplineScalarCurve.hpp fitCurve", "curves/include/curves/PolynomialSplineScalarCurve.hpp evaluateDerivative", "curves/include/curves/PolynomialSplineContainer.tpp setData", "curves/include/curves/PolynomialSplineContainer.tpp getAccelerationAtTime"]}
{"id": "C177", "title": "The acceleration of a Hermite curve fitted to samples of a smooth motion", "statement": "A CubicHermiteE3Curve fitted to samples of a motion whose acceleration in a coordinate is at most M, with the velocities of the motion at the ends, reports in that coordinate an acceleration of at most 3 rho M, if between neighbouring samples the distances in time differ at most by the factor rho; for equal steps at most 3 M. Without regard to the distances no such bound holds: of a stone falling with the acceleration 1, sampled at the times 0, N, N + 1 and N + 2, the curve reports the acceleration 2 N - 1 at time N.", "quantifier": "all motions with bounded acceleration, strictly increasing times, coordinates, times of evaluation, builds with and without assertions", "why_tests_cant": "How bad the accelerations get depends on the ratio of neighbouring distances, which no fixed set of samples explores.", "anchors": ["curves/src/CubicHermiteE3Curve.cpp fitCurveWithDerivatives", "curves/src/CubicHermiteE3Curve.cpp calculateSlope", "curves/src/CubicHermiteE3Curve.cpp evaluateLinearAcceleration"]}
{"id": "C178", "title": "When a fitted cubic scalar curve bends to one side only", "statement": "Let gamma be, at each inner knot, the change of the mean slope divided by the duration of the two segments there and, at both ends, the difference between mean slope and given velocity divided by the duration. If nowhere twice gamma is less than the mean of gamma at the neighbouring knots, weighted by the durations, then a PolynomialSplineScalarCurve of order 3 fitted to the data never reports a negative acceleration, and its velocity never decreases. For a single segment the condition is also necessary: data whose mean slope lies between the two given velocities are not enough, and the curve then starts with the acceleration 2 (2 gamma_0 - gamma_1) of the wrong sign.", "quantifier": "all strictly increasing times, values, end velocities, times of evaluation, every solver", "why_tests_cant": "The sign of the acceleration between the knots depends on all data through the solution of the linear system.", "anchors": ["curves/include/curves/PolynomialSplineScalarCurve.hpp fitCurve", "curves/include/curves/PolynomialSplineContainer.tpp setData", "curves/include/curves/PolynomialSplineScalarCurve.hpp evaluateDerivative"]}
{"id": "C179", "title": "When a Hermite curve bends to one side only, and the cubic scalar curve beside it", "statement": "On a segment of a fitted CubicHermiteE3Curve the acceleration reported in a coordinate is never negative if and only if the mean slope lies between the two velocities of the curve at the ends of the segment and one of them differs from it at most twice as much as the other. Where it is never negative the velocity never decreases, although the acceleration jumps at the knots. For values at equal steps: if the Hermite curve never reports a negative acceleration, neither does the PolynomialSplineScalarCurve of order 3 fitted to the same values and end velocities, and its velocity never decreases. The converse does not hold.", "quantifier": "all strictly increasing times (equal steps for the comparison), values, end velocities, coordinates, times of evaluation, builds with and without assertions, every solver", "why_tests_cant": "An equivalence over all data and a comparison of two different curves for all data.", "anchors": ["curves/src/CubicHermiteE3Curve.cpp fitCurveWithDerivatives", "curves/src/CubicHermiteE3Curve.cpp calculateSlope", "curves/src/CubicHermiteE3Curve.cpp evaluateLinearAcceleration", "curves/include/curves/PolynomialSplineScalarCurve.hpp fitCurve"]}
{"id": "C180", "title": "Curves that bend to one side stay below their chords", "statement": "If a fitted PolynomialSplineScalarCurve of order 3, or a fitted CubicHermiteE3Curve in a coordinate, never reports a negative acceleration, then its value at any time is not above the straight line between its values at any two times around, and not below the tangent given by its value and velocity at any other time. In particular the curve stays below the polygon through the data.", "quantifier": "all strictly increasing times, values, end velocities, coordinates, triples of times, builds with and without assertions, every solver", "why_tests_cant": "A statement about all triples of times of a curve made of any number of pieces.", "anchors": ["curves/include/curves/PolynomialSplineScalarCurve.hpp fitCurve", "curves/include/curves/PolynomialSplineScalarCurve.hpp evaluate", "curves/include/curves/PolynomialSplineScalarCurve.hpp evaluateDerivative", "curves/src/CubicHermiteE3Curve.cpp fitCurveWithDerivatives", "curves/src/CubicHermiteE3Curve.cpp evaluate", "curves/src/CubicHermiteE3Curve.cpp evaluateDerivative"]}

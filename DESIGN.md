# Formal model of ethz-asl/curves in Lean 4

Source: `/repo` (read as text, never built, never changed). All paths below are relative to `/repo`;
`$C` stands for `curves/include/curves`.

Layout: `lean/Verif/<Area>/Model.lean` is the code, `*Props.lean` are the property theorems
(`C01_...` to `C180_...`, named after `properties.jsonl`) with a concrete example beside each, every other
file is proof engineering or a small specification used by the statements. `MANIFEST.json` maps
properties to theorems, `seeded/LOG.jsonl` records the wrong programs the theorems were tried on.

## Trusted base

* Lean 4.33.0's kernel and the Mathlib that ships with the box.
* Axioms: at most `propext`, `Classical.choice`, `Quot.sound`, per theorem as listed at the end. No axioms
  are added; there is no `sorry`, `admit`, `native_decide`, `bv_decide`, `implemented_by` or `unsafe`.
* That the definitions in the model files describe the C++ code. Each cites the file and lines it models and
  says where it simplifies. This correspondence is by reading.
* That the specifications used in statements (`Interpolates`, `Meets`, `toPoly`, `Spec`, `Through`-free
  phrasing, ...) say what the English does.
* Contracts of external libraries. They are structure fields or arguments, never axioms, and each has an
  instance in Lean showing that it can be met:

| Contract | Stands for | What is assumed |
|---|---|---|
| `Spline.Solver K` | Eigen `colPivHouseholderQr().solve` | the result solves the system whenever the system has a solution (we prove that it has); nothing otherwise. Instances: `solver_exists` for every field, `Qr.solver`: the algorithm itself over the reals (C139) |
| `Qr.Superposes` | the same | the answer is linear in the right-hand side (C139 and C141 only). Instance: `Qr.solver_superposes` |
| `Qr.Basic` | the same | for every matrix the answer is zero outside a set of linearly independent columns, the same for every right-hand side (C141 only). Instance: `Qr.solver_basic` |
| `Spline.RawSolver K` | Eigen `colPivHouseholderQr().solve` | nothing: C116 bounds what the fit misses by the residual of the answer, whatever the solver |
| `Kindr.LogMap` | kindr `logarithmicMap` | on a unit quaternion `q`, the exponential of the result is `q` or `-q`; the identity goes to 0. Instance: `logMap_exists`. C94 also uses `LogMap.Turns` (the logarithm turns with the frame) and `LogMap.Inverts` (it changes sign with the inverse rotation) as hypotheses; `axisLogMap`, angle times axis, has both. C125 uses `LogMap.Near` (it inverts the exponential below half a turn; `axisLogMap` and `shortLogMap` do), C125 and C126 use `LogMap.Shortest` (never more than half a turn; `shortLogMap` is one) |
| `Discrete.ExpLog K G V` | `Expmap`/`Logmap` of gtsam, minkindr | `exp (log g) = g`, `log 1 = 0`. Instances: `se2Maps` (the plane), `so3Maps` (rotations of space), `pose3Maps` (poses of space, translation and rotation apart) |
| `Discrete.Geodesic L` | as above, used by `C121_steady` | `exp ((x + y) v) = exp (x v) exp (y v)`, `log (exp (x log g)) = x log g` for 0 ≤ x ≤ 1. Proved of `se2Maps` and `so3Maps`, refuted of `pose3Maps` |
| `Discrete.Path L` | as above, used by `C121_refine` and C122 | weaker than `Geodesic`: from a point on the way from 1 to `g`, the way on to `g` is the rest of that way. Proved of all three |
| `Discrete.Measured L d κ` | a distance `d` between values, used by C127 | a distance that does not depend on the frame, and the way from 1 to `g` is nowhere faster than `κ` times what the distance takes. Proved of the angle and the distance between poses of space (κ = 1), and of the angle (κ = 1) and the distance (κ = π/2) between poses of the plane |
| `Csv.Fmt K` | `ostringstream <<`, `atof` | printed numbers are not empty and contain no comma and no newline. That `parse` inverts `print` is *not* assumed. Instance: `Decimal.fmt`, the format `%g` written out |
| `Hermite.Lf K` | `fprintf("%lf")` | printed numbers are not empty and contain no blank and no newline. Instance: `Decimal.lf`, the format `%lf` written out |
| `Pose2.LogMap` | `gtsam::Pose2::Logmap` | `exp (log T) = T` for rigid `T`, angle in (-pi, pi] (`LogMap.std` in `Pose2/Charts.lean` is one) |
| `Pose2.Chart` | `gtsam::Pose2::retract` | multiplication from the right by a small pose that is the given vector to first order (both charts of gtsam are shown to be such) |
| `Rounding.Rounding K` | `double` arithmetic without overflow | an operation is the exact operation followed by `rnd`, which keeps the order, leaves representable numbers and integers up to 2^53 alone and does not send the difference of two different representable numbers to 0. Instances: `exact`; `double`, rounding to 53 bits, ties to even, with no smallest exponent; and `ieee`, the same with subnormal numbers. The last two are proved to satisfy all of it (`Rounding/Double.lean`, `Rounding/IeeeLemmas.lean`), and `ieee` is proved to be rounding to a nearest representable number (C159). Theorems about `Rounding K` hold for both; bounds stated for `double` are for numbers that do not underflow. Overflow is modelled for the E3 Hermite curve (`Rounding/OverModel.lean`, C160): results of 2^1024 or more after rounding become infinities; elsewhere it is assumed not to happen. The compiler is assumed to round after every operation of the source (no fused multiply-add) |
| `Rounding.Arith K` | `double` arithmetic with infinities and NaN | nothing |
| `Rounding.Pow R` | `boost::math::pow<N>` in `double` | the power is made by rounded multiplications, in any order |
| `Ros.convert` | `kindr_ros::convertFromRosGeometryMsg` | the components of translation and quaternion are copied, without check or normalisation |
| `boost::mutex` | `KeyGen` | mutual exclusion, sequential consistency |
| `std::map`, `std::vector`, `boost::unordered_map` | all areas | their specification, modelled by lists; invalid iterators, out-of-range `operator[]`, `front()`/`back()` of an empty vector are undefined behaviour |

## What numbers are

* Knot containers and policies only compare times: they are modelled over an arbitrary linear order with a
  `0`, so the theorems hold for IEEE doubles without NaN (identifying +0 and -0).
* Everything that computes is modelled over an arbitrary ordered field `K`; statements about derivatives and
  everything about rotations over `ℝ`. **In these models there is no rounding, overflow, infinity or NaN**; division
  by zero gives 0 in the model where the code gives an infinity or NaN (theorems exclude it by hypothesis, or
  it is the subject of a theorem).
* The area `Rounding` models the parts of the code again where rounding, overflow or NaN can be seen: finding
  the segment and playing a container, accepting knot times, evaluating E3 Hermite curves and straight lines. There the
  operations of `double` are parameters (`Arith`, `Rounding`), or rounding to 53 bits (`double`).
  Infinities and NaN as values of E3 Hermite curves and of segments of orders 1 and 2 are in
  `Rounding/SpecialModel.lean`, where C124 says where they come from. Times that are NaN are in
  `Rounding/NanModel.lean` (polynomial curves, C148) and in `Map` (knot containers, C149).
  `Rounding/Link.lean` shows that with exact arithmetic these are the models of the other areas.
* Keys are `size_t` modulo 2^64. `unsigned int` arithmetic of `setData` is modulo 2^32; theorems about fits
  assume at most 2^28 knots, where nothing wraps. Overflow of `int` is modelled as undefined behaviour for the
  counter of the sampling policy and not modelled for segment indices (2^31 segments).

## Outcomes

A call yields `Outcome α`: `ok a`, `abort` (glog `CHECK` failed), `throw` (C++ exception) or `ub`
(undefined behaviour). Undefined behaviour is a visible result that theorems exclude or establish. States are
reached by histories: lists of operations run from the freshly constructed object; `Reachable` quantifies
over all of them.

## What is modelled

| Area | Code | Functions |
|---|---|---|
| `Manager` | `$C/LocalSupport2CoefficientManager-inl.hpp` | everything that compiles when instantiated: copy constructor, insert (one, many, batch), add at end, modify, update by key/time (one, many), remove, bracketing lookup, lookups by key and time, listings, times, keys, extents, clear; `Abstract` is a specification with no code of its own (a table ordered by time, C119), `ProcessProps` has many managers drawing keys from one generator (C120) |
| `KeyGen` | `curves/src/KeyGenerator.cpp` | `getNextKey` as interleaved loads, stores and lock operations of any number of threads; `KeyGen/Link.lean` connects it with the key counter of the manager model |
| `Policy` | `$C/SamplingPolicy.hpp`, the four `SamplingPolicy::extend` | `extend`, `setMinimumMeasurements`; `fitCurve`, `setCurve`, `extend`, `clear` of the slerp/discrete curves |
| `Spline` | `$C/polynomial_splines_traits.hpp`, `$C/PolynomialSpline.hpp` | all of both, orders 1 to 5 (the flag `didEvaluateCoeffs_` apart, in `FlagModel`) |
| `Container` | `$C/PolynomialSplineContainer.{hpp,tpp}` | all except printing; the equation system is filled entry by entry as in the code |
| `PolyCurve` | `$C/PolynomialSplineScalarCurve.hpp`, `$C/PolynomialSplineVectorSpaceCurve.hpp` | all; `ThrowModel` adds the state a fit leaves behind when it throws |
| `Qr` | (external: Eigen) | column-pivoting Householder QR and `solve`, in exact real arithmetic, from the documentation |
| `Kindr` | (external) | the quaternion operations the SE3 curves use |
| `Hermite` | `curves/src/CubicHermiteE3Curve.cpp`, `curves/src/CubicHermiteSE3Curve.cpp` and headers | fit, periodic fit, slopes, evaluate, derivatives, velocities and accelerations, knots, clear, stubs; `writeEvalToFile`; `defaultExtend`, `interpolationExtend` and `extend` of `SamplingPolicy` for `CubicHermiteSE3Curve` |
| `Discrete` | `curves/src/DiscreteSE3Curve.cpp`, `SemiDiscreteSE3Curve.cpp`, `SlerpSE2Curve.cpp`, `SlerpSE3Curve.cpp` | evaluate, derivative, transform, knots, times, saving, and of the gtsam parts: what the expression evaluates to and which factors/values are added. Only `SlerpSE3Curve.cpp` is in the present `CMakeLists.txt`; the other three and `SE3CompositionCurve` are modelled from their text |
| `Composition` | `$C/SE3CompositionCurve-inl.hpp` | all except gtsam values |
| `Print` | the functions `print` of all curves | what is written, as a list of texts, integers, numbers and values; not how numbers become characters |
| `Interface` | `curves/src/SE3CurveFactory.cpp`, the virtual functions of `$C/SE3Curve.hpp` | `create_curve`; `extend`, `evaluate`, extents, sizes, lists of times, the eight editing functions, the saving functions and `saveCurves` of the five classes the factory makes |
| `Rounding` | `$C/PolynomialSplineContainer.{hpp,tpp}`, `curves/src/CubicHermiteE3Curve.cpp` | with rounded or arbitrary arithmetic: `addSpline`, `reset`, `resetTime`, `advance`, `setContainerTime`, the reading functions, the evaluation of segments, the check of the knot times, the straight-line `setData`; `fitCurve`, `fitCurveWithDerivatives`, `evaluate` and the first derivative of the E3 Hermite curve, the loop of its `writeEvalToFile`, the choice of times by `SamplingPolicy::extend`; `evaluate` of the discrete and slerp curves with rounded times; infinite knot times; `getMaxTime` of the scalar curve. Of the constrained `setData` (which calls a linear solver) only the durations are modelled with rounding |
| `Energy` | (no code of its own) | `Motion`, the competitors of C109-C111: any motion with square-integrable highest derivative, differentiable outside a countable set; integration by parts |
| `Accuracy` | (no code of its own) | `Gentle`, the motions sampled in C112: velocity with Lipschitz constant `M` |
| `Sensitivity` | (no code of its own) | `Close`, two containers with the same end and nowhere further apart than given bounds (C117) |
| `Pose2` | `$C/Pose2_Expressions.hpp` | the functions that compute a Jacobian of their own: `function1`, `function2`, `transformationLogImplementation`, `vectorScalingImplementation`, `pointsSubtractionImplementation`, `pose2AsPoint2Implementation`. Over the reals |
| `Map` | `std::map` as used by `$C/LocalSupport2CoefficientManager-inl.hpp` | binary trees of any shape searched as libstdc++ does (`lower_bound`, `upper_bound`, `find`, `insert`, `insert` with a hint), written down from its published source, and the operations of the manager on them; C149 shows that the list model of `Manager` is right for every shape, and what happens at NaN |
| `Replay` | the project's own tests | assertions of `test_LocalSupport2CoefficientManager.cpp` and `PolynomialSplineContainerTest.cpp`, evaluated on the models. Evidence for the models, not proofs |
| `Csv` | `curves/src/helpers.cpp` | all; the saving functions of the curves |
| `Decimal` | `curves/src/helpers.cpp`, `writeEvalToFile`, `curves/matlab/readCubicHermiteSE3Curve.m` | the decimal formats `%lf` and `%g`, `atof`, the reading of the evaluation file (lines 12-64 of the script, for files with 14 numbers per line); the plots are not modelled |
| `Ros` | `curves_ros/src/*.cpp` | `fromMessage` of the three interfaces, `toSec` of the stamps in `double`, the conversion of transforms (components copied, no check: release build of kindr) |

## What is not modelled

* Logging, messages of `PolynomialSplineContainer`, `saveCurveTimesAndValues` beyond what is listed, memory exhaustion, disk-full.
* gtsam: `Expression` objects, the Jacobians computed by gtsam itself, `initializeGTSAMValues`, `updateFromGTSAMValues`, except the parts
  behind C51 and C54.
* kindr's Taylor branch of `exponentialMap` for tiny angles; gtsam's small-angle branches.
* `LinearInterpolationVectorSpaceCurve` (entirely commented out); functions that do not compile when
  instantiated (`LocalSupport2CoefficientManager::equals`, `getCoefficients`, `getCoefficientsInRange`,
  `hasCoefficientWithKey`, `removeCoefficientWithKey`).
* Data races on anything except `KeyGenerator`; the order of static initialisation.
* In the discrete curves `updateFromGTSAMValues` is represented by the manager's `updateCoefficients`.

## Properties

`partial` means that the English statement is false of the code (or proved only under a guard): the guard theorem
has the suffix `_partial` and the negation is proved too.

| | Property | Status | Note |
|---|---|---|---|
| C01 | Knot times stay strictly increasing, keys stay in bijection with knots | proved | While fewer than 2^64-1 keys have been drawn. |
| C02 | Inserting at a time is a point update | proved |  |
| C03 | Batch insertion: last value wins, keys line up with times | proved |  |
| C04 | Bracketing lookup | proved |  |
| C05 | Removal is exact | proved |  |
| C06 | Keys are stable handles | proved |  |
| C07 | Keys are globally unique under concurrency | proved |  |
| C08 | Extent and listing agree with contents | proved |  |
| C09 | Window listing returns the knots in the window | partial | False of the code: the first knot is never listed. Proved for windows starting after the first knot. |
| C10 | Batch modification touches exactly the named knots | proved |  |
| C11 | Moving a knot keeps its key and loses nothing | proved |  |
| C12 | Append-at-end accepts exactly later times | proved |  |
| C13 | Copies of a manager are independent | partial | False of the code: the key index of a copy refers to the nodes of the original. |
| C14 | Sampling ratio keeps the newest measurement and thins the rest | proved |  |
| C15 | clear() makes a slerp/discrete curve as good as new | partial | False of the code: clear() keeps the measurement counter of the sampling policy. Proved when the counter is 0 at the time of the clear. |
| C16 | A single spline meets its boundary conditions | proved |  |
| C17 | Velocity and acceleration are the derivatives of position | proved |  |
| C18 | Spline evaluation saturates outside its duration | proved |  |
| C19 | Time-vector helpers agree with evaluation | partial | False of the code: getDDiffTimeVector returns the row of the first derivative, for every order. Proved for all other row-vector helpers. |
| C20 | A fitted container passes through all knots | proved | Up to 2^28 knots; given a linear solver that returns a solution whenever one exists. |
| C21 | A fitted container is smooth at junctions and honours end derivatives | proved |  |
| C22 | The assembled linear system always has a solution | proved |  |
| C23 | Fallback choice depends only on order and segment count | proved |  |
| C24 | A failed setData leaves nothing behind | partial | False of the code for the straight-line formulation: the segments before the bad one stay. Proved for the orders 3, 4, 5. |
| C25 | Container duration is the sum of its segments | proved |  |
| C26 | Random-access evaluation is the concatenation of the segments | proved |  |
| C27 | Playing a container forward agrees with random access | partial | False of the code: advance crosses at most one junction per call. Proved when no step is longer than a segment. |
| C28 | Seeking agrees with random access | proved |  |
| C29 | Advance reports the end exactly | partial | False of the code: a segment added after the end was reached is played with a stale offset and the end is reported early. Proved for histories that add segments before the end and do not seek on an empty container (see C49). |
| C30 | Scalar curve: domain and interpolation | proved |  |
| C31 | Scalar curve: shifting time shifts the curve | proved |  |
| C32 | Refitting replaces the previous fit | partial | False of the code for the overload taking spline options, which appends. Proved for all other overloads. |
| C33 | Vector curve: domain and interpolation | partial | False of the code when the first time is not 0: evaluate does not subtract it and getMaxTime does not add it. Proved for data starting at 0. |
| C34 | Cubic Hermite: evaluation succeeds exactly on the domain | partial | False of the code on a curve without knots at time 0 (undefined behaviour). Proved everywhere else. |
| C35 | Cubic Hermite: interpolation at knots | proved | On SE3 the quaternion may come back with the opposite sign at the last knot, which is the same rotation. |
| C36 | Cubic Hermite: derivative at knots and C1 continuity | proved |  |
| C37 | Cubic Hermite: reported derivatives are the true ones | proved |  |
| C38 | Cubic Hermite fit: slopes | partial | False of the code for fitPeriodicCurve: the slope at the joint is divided by a negative time. Proved for the other fits, for distinct times. |
| C39 | Cubic Hermite fit replaces the curve | partial | False of the code for CubicHermiteE3Curve, which does not clear. Proved there for empty curves, and for CubicHermiteSE3Curve in full. |
| C40 | Cubic Hermite: linear data is reproduced | proved |  |
| C41 | SE3 Hermite: evaluated rotations are unit and interpolate | proved |  |
| C42 | Discrete curve returns the nearest knot | proved |  |
| C43 | Slerp interpolation hits knots and commutes with left transformation | proved | For any group with exponential and logarithm maps such that exp(log g) = g and log 1 = 0. |
| C44 | Composition curve evaluates correction after base | proved |  |
| C45 | CSV files written by the library read back unchanged | proved | C45_unwritable_refuted records that a file that cannot be opened is silently not written. |
| C46 | Time/vector CSV files read back as written | partial | False of the code: the loader reads the first component of the vector as the time. Proved for the vectors. |
| C47 | ROS import picks the named joint or refuses | partial | False of the code for messages without joint names, which are read as joint 0. Proved for all others. |
| C48 | Empty inputs are rejected | partial | False of the code: setData with derivatives on an empty list is undefined behaviour for the orders 1, 2, 3, and so are fitCurve of the polynomial-spline curves and fitPeriodicCurve of the Hermite curves. |
| C49 | Cursor stays inside the container | partial | False of the code: seeking on an empty container sets the index to -1. Proved for histories that never do. |
| C50 | Unimplemented operations never return normally | partial | False of the code: CubicHermiteE3Curve::extend, CubicHermiteSE3Curve::transformCurve and SE3CompositionCurve::setTimeRange return normally having done nothing, and the velocity evaluators of SE3CompositionCurve return zero. Proved for the other unimplemented operations of the modelled classes. |
| C51 | The expression a curve hands to the optimiser means the same as evaluate | partial | Proved for DiscreteSE3Curve and SlerpSE2Curve. False of SemiDiscreteSE3Curve, whose expression is the nearest knot while evaluate interpolates. |
| C52 | First derivative of the discrete curves is the slope of the segment | partial | False of the code: the sign of the slope is reversed. Right exactly on segments between equal values. |
| C53 | fitCurve replaces the knots, setCurve merges them | proved |  |
| C54 | Prior factors tie exactly the two knots around the time | partial | False of the code outside the range and on curves with fewer than two knots: uninitialised iterators are dereferenced. |
| C56 | A measurement at the time of the last knot never loses the knot | partial | False of the code on every thinning curve in the middle of a sampling period. Proved otherwise. |
| C55 | Extending a composition leaves the past alone | partial | False of the code when the correction is thinned: its last knot is moved to the new time, which changes its value at the old one. Proved for sampling ratio 1. |
| C57 | setCorrectionTimes resamples the correction without changing it there | proved |  |
| C58 | transformCurve multiplies every value from the left | partial | False of the code at every time at which the correction does not commute with T; proved at all others. |
| C59 | fitCurve replaces the composition | partial | False of the code: fitCurve extends without clearing and refuses more than one sample. Proved for empty curves and one sample. |
| C60 | Edits of the correction and the base do what they say | proved |  |
| C61 | A composition only grows forwards | proved |  |
| C62 | Saving a curve writes its values | partial | False of CubicHermiteSE3Curve at times outside the curve, where the previous value is written again. Proved otherwise. |
| C63 | Updating by key is a point update | proved |  |
| C64 | Which manager calls abort and which are undefined behaviour | proved |  |
| C65 | Fits without end conditions are straight lines | proved |  |
| C66 | A successful fit is ready to be played | proved |  |
| C67 | End queries and segment access | proved |  |
| C68 | checkContainer certifies a usable container | partial | Sound for all histories. Not complete: a container played beyond its end by advance is rejected. |
| C69 | extend reports one key per measurement | partial | False of the code inside a sampling period: no key is reported and an earlier key changes its measurement. |
| C70 | Changing the sampling ratio takes effect | partial | False of the code when the counter has already reached the new ratio: no knot is ever added again. |
| C71 | End derivatives reach the right end of the curve | proved |  |
| C72 | A curve from spline options runs through the requested pieces | proved |  |
| C73 | clear returns the curve to its initial state | partial | Proved for the scalar curve. The vector curve keeps its minimal time. |
| C74 | writeEvalToFile writes nSamples samples from the first to the last time | partial | False of the code: n samples give n - 1 lines and the last time is never written. Proved for what is written; one sample, no sample and short curves are in C74_other. |
| C75 | Every line written has one number for each column named in the header | partial | Proved for SE3 (14 columns). False for E3: 14 names, 7 numbers. |
| C76 | The Jacobian of the SE2 logarithm is its derivative | proved | Over the reals. |
| C77 | Hand-written Jacobians are the derivatives | partial | False of pose2AsPoint2: its Jacobian is right exactly for poses without rotation. Proved for the others. |
| C78 | The Hermite sampling policy keeps the newest measurement | proved | Over the reals; up to 2^31 measurements. |
| C79 | The sampling ratio is the distance between kept coefficients | partial | False of the code for every ratio: one coefficient every n + 1 measurements, and with ratio 0 never more than one. Proved with n + 1. |
| C80 | Sampled Hermite knots carry chord slopes | proved | Over the reals. |
| C81 | A composition curve can be evaluated on its whole domain | partial | False of the code after four kinds of operations, each refuted. Proved for all histories without them. |
| C82 | isEmpty, size and clear agree | partial | Proved for the Hermite curves. False of the composition, where isEmpty looks at the base and size at the correction. |
| C83 | Every curve the factory knows can be used | partial | False for two of the five names: slerp_curve aborts at every evaluation, composition_curve at its first measurement. Proved for the other three. |
| C84 | The lists of times describe the curve | partial | False of getBaseCurveTimes of curves that are no compositions (the list is left as it was) and of getCurveTimes of a composition (lists time zero, where the curve may have no value). Proved for getCurveTimes of the former and getBaseCurveTimes of the latter (histories as in C81). |
| C85 | Saving through the interface writes what the curve is | partial | False of the functions that save the correction, on curves that are no compositions: nothing is written. Proved otherwise (histories as in C81). |
| C86 | An editing function takes effect or refuses | partial | False of curves that are no compositions, where all eight functions return having done nothing, and of setCorrectionTimes of a composition, which replaces instead of adding. Proved for the others. |
| C87 | A measurement can be replaced later | partial | False when all measurements are after time zero, or all before it: the call aborts. Proved when the curve spans time zero. |
| C88 | The fit is determined by its requirements | partial | Proved for orders 1, 2 and 3, for order 4 with three knots and order 5 with two. False otherwise: for order 5 with three or more knots the position at every time strictly between knots can take any value, depending on the solver. |
| C89 | Fitting is linear in the data | partial | Proved in the determined cases of C88 and orders 1 and 2; false in the others, where the solver decides. |
| C90 | Thinning the correction loses no measurement | partial | Proved from a new curve, and from any state whose correction has just completed a sampling period or ends with two equal values. False otherwise: the last knot of the correction is moved on and the measurement there is read back changed. |
| C91 | A cubic Hermite fit commutes with changes of units and with reversal | partial | Affine changes are proved for all data with at least one point. Reversal is proved for positions and velocities everywhere and for the second derivative except at inner knots, where it is false: the code takes the one-sided value of the later segment. Without points the two curves differ at time zero, where evaluating an empty curve is undefined. |
| C92 | A cubic Hermite fit depends only on near points | proved | The second derivative at the end of the segment belongs to the next segment, and is excluded for that time. |
| C93 | A cubic Hermite fit stays within the range of the data | partial | False: the curve overshoots whenever two equal points follow a lower one. Proved: it stays within the range widened by a quarter of its width at either side, and no smaller widening is enough. |
| C94 | A SE3 Hermite fit commutes with changes of frame, of clock, and with reversal | partial | Changes of frame and clock are proved for every logarithm of rotations that turns with the frame. Reversal is proved for the knots, for all positions and for all linear velocities, for every logarithm that changes sign with the inverse rotation; rotations between knots are not reversed: there is a fit for which both runs are half a turn apart half way. |
| C95 | Reading a container never leaves it, whatever the arithmetic does | partial | Proved for arithmetic without any law, for histories that seek only while there are segments. Seeking on an empty container and adding a segment makes the next read undefined behaviour, with every arithmetic. |
| C96 | Later times never belong to earlier segments, and the end of a container is where it says it is | partial | What the search returns is proved for every arithmetic, the order for every rounding. Reading at the duration gives the end if adding up the durations is exact; in double it is false for durations 1 and 0.9. |
| C97 | Interpolation hits its knots exactly in double arithmetic | partial | Proved for E3 Hermite curves, for every rounding. The straight-line container hits the start of its segments exactly and misses the end, for instance after 49 seconds; between knots even a constant Hermite curve is not evaluated exactly. |
| C98 | Playing with equal steps ends after the expected number of steps | partial | Proved when the multiples of the step are representable. Ten steps of 0.1 do not reach one second; steps below half a unit in the last place of the time never move it. |
| C99 | Knot times that do not increase are refused | partial | Proved with rounding. NaN knot times are accepted, and a container with a NaN duration plays forever. |
| C100 | writeEvalToFile returns and writes the requested samples, with rounding | partial | Proved for every rounding: it never fails, and if the loop ends the lines are values at ordered times in the domain; the number of lines if adding the step is exact. If the step is lost against the first time the loop never ends; over one second 6 samples give 5 lines, 11 samples give 11 lines in double. |
| C101 | The sampling period separates knots | partial | Proved for all knots chosen by the policy, with rounding. The last knot is the newest measurement however close it is; and in double a measurement later than the period after the last one can be dropped. |
| C102 | The evaluation file can be read back | partial | Proved with the decimal printing of %lf written out, for all curves; the times are ordered. Samples less than half a microsecond apart get the same time in the file. |
| C103 | CSV files keep numbers | partial | Proved with the decimal printing of ostringstream and the reading of atof written out: the error is at most five millionths of the number, the order is kept, and in double every decimal number with at most six significant digits comes back exactly. Numbers that agree in six digits become equal; stamps in seconds since 1970 within more than an hour all give the same file. |
| C104 | Stamps of a ROS message stay distinct and in order when imported | partial | The order is always kept; stamps stay distinct below 2^23 seconds, and the import then goes through the positions at the converted stamps. In every second from 2^23 on two neighbouring stamps become equal, and such a message is accepted as a curve that is 0 everywhere. |
| C105 | The value at a time depends only on the knots around it | partial | Proved for all the curves on a coefficient manager and for setCurve. Extending a thinning curve inside a sampling period moves its last knot, so the last segment changes; refuted for every such curve. |
| C106 | Rounding errors of Hermite evaluation stay at the size of rounding | proved | Error propagation through every operation, for any rounding with a relative error, instantiated with 53 bits. C106_refuted: no such bound relative to the velocity itself. |
| C107 | Fitting and evaluating in double together are exact to 2^-43 | proved | The fit is modelled with rounding in Rounding/FitModel.lean and linked to the base model. |
| C108 | Lists of times and values of different lengths are refused | partial | False of the E3 Hermite curve in release builds (surplus values ignored, missing ones read beyond the end), of the vector-valued polynomial curve (surplus values ignored) and of the scalar polynomial curve, which ends at the last of the surplus values. Proved for the other classes. |
| C109 | Single segments are the motions of least energy | proved |  |
| C110 | Fitted curves are the motions of least energy through the knots | proved |  |
| C111 | Hermite curves are the motions of least energy with their knot velocities | proved |  |
| C112 | A curve fitted to samples of a motion stays near the motion | proved |  |
| C113 | The cubic fit of samples converges to the motion | proved |  |
| C114 | Rounding errors of evaluating a segment are a tiny fraction of the terms | proved |  |
| C115 | A container read in double answers as at a slightly different time | proved |  |
| C116 | With an approximate linear solver a fit misses its conditions by no more than the residual | proved |  |
| C117 | Noise of the data and of the linear solver is not amplified by cubic fits | proved |  |
| C118 | Noise of the data is not amplified by Hermite curves and straight fits | proved |  |
| C119 | The manager is a table ordered by time | proved |  |
| C120 | Curves of one process never share a key | proved |  |
| C121 | Slerp curves move steadily, and depend on neither clock, direction nor extra knots | proved | C121_steady under the contract Discrete.Geodesic of exponential and logarithm, proved for the plane (se2_geodesic) and for rotations of space (so3_geodesic); poses of space with translation and rotation apart do not meet it (pose3_not_geodesic), hence C121_steady_space. C121_refine under the weaker contract Discrete.Path (pose3_path), C121_reversed for knots between which the way back is the way there (pose3_reversible: less than half a turn). |
| C122 | Correction times that keep the old ones change nothing | proved | Under the contract Discrete.Path of exponential and logarithm, proved for the plane (se2_geodesic) and for poses of space (pose3_path). |
| C123 | The translation of an SE3 Hermite curve is an E3 Hermite curve | proved | knotShadow and shadow are the specification: position and translational velocity seen through a linear map. |
| C124 | Numbers in, numbers out | partial | False of fitPeriodicCurve with three points: 0/0, and every value of the curve is NaN. False of segments of orders 1 and 2 with duration zero. Proved otherwise, and the values are those of the models without special values, so that the convention x/0 = 0 of those models is never used. Overflow: see C160. |
| C125 | Turning about a fixed axis is interpolated as an angle | partial | False when poses are more than a quarter turn apart: calculateSlope looks two knots ahead, takes the short way round, and the curve turns backwards at the knot (for every axis and every step between a quarter turn and half a turn, with a logarithm that returns the shortest rotation). Proved under that guard, for logarithms that invert the exponential below half a turn. |
| C126 | The attitude of an SE3 Hermite curve never runs away | proved | For logarithms that return the shortest rotation. |
| C127 | Discrete and slerp curves stay near the motion they were sampled from | proved | Under the contract Discrete.Measured of the distance; instances pose3_measured_angle, pose3_measured_dist, se2_measured_heading, se2_measured_dist, so3_measured, line_measured. |
| C128 | Exactly which container calls are undefined behaviour | proved | Undefined lists the calls. |
| C129 | Exactly how each call of a discrete or slerp curve ends | proved | Undefined and Accepted list the calls. |
| C130 | Exactly how each call of a Hermite curve ends | proved | Ends, Stuck, Later and Forward are the specification. |
| C131 | Exactly how each call of a polynomial curve ends | proved | Short is the specification of running out of values. |
| C132 | Exactly how each call of a composition curve ends | proved | Reaches, Hollow, Span, Aligned, Grows and Overflows are the specification. |
| C133 | Printing a curve shows its knots | partial | False of the code: printing a curve without knots is undefined behaviour, SlerpSE3Curve aborts with two or more knots, CubicHermiteSE3Curve shows none of its knots. Proved: exactly how every call ends, and what is shown, for every class. |
| C134 | A fit that throws leaves the curve as it was | partial | False of the code: a fit that throws has already set the time at which the curve begins. Proved: this is the only change, it is harmless exactly when the first new time is the old one, and every later fit ends as if the failed one had not been tried. |
| C135 | A polynomial motion is reproduced | partial | False of the code for orders 1 and 2 (only straight motions come out), for order 4 with other than three knots and order 5 with more than two (the equations leave the answer to the solver, and for every time between knots some solver meeting the contract misses). Proved: order 3 with any knots, order 4 with three, order 5 with two, and what comes out otherwise. |
| C136 | A motion with constant acceleration is reproduced by a Hermite curve | partial | False of the code when the knots are not equidistant: the velocity at an inner knot is off by the acceleration times half the difference of its two gaps. Proved: the exact error everywhere in terms of the errors at the knots, none for equidistant knots. |
| C137 | Imported rotations are rotations | partial | False of the code: fromMessage neither checks nor normalises the quaternions. Proved: the answer always has the length of the quaternion at the beginning of the segment, so it is a rotation exactly when that one is. |
| C138 | Splines can be copied | partial | False of the code: the constructors from options leave didEvaluateCoeffs_ uninitialised, and addSpline moves the spline, which reads it; so fitCurve from a list of options is undefined behaviour for every non-empty list. The flag says which constructor was used and nothing else. |
| C139 | The linear solver the code calls gives the best answer, and fits superpose with it | proved | In exact real arithmetic. The algorithm is written from the documentation of Eigen, whose source is not in the repository. Verif.Qr.solver is the instance of the contract Spline.Solver, Verif.Qr.solver_superposes that of Qr.Superposes. |
| C140 | A polynomial curve fitted to samples of a motion follows the motion | partial | False of fitCurve(times, values) for the orders 3, 4 and 5: the curve stands still at both ends, so every motion that moves there is missed arbitrarily close to the ends. Proved for the overload with end derivatives: exact in the determined cases of C135, near for order 3 and any motion. |
| C141 | An offset of the positions is an offset of the fitted curve | proved | Of solvers meeting Qr.Superposes and Qr.Basic; Qr.solver, the algorithm of the code in exact arithmetic, meets both. C141_refuted: that the solver solves solvable systems is not enough for order 5 with three or more knots, whatever the data. |
| C142 | The unit of time does not matter | partial | False of order 5 with three knots: with the solver of the code (Qr.solver, exact arithmetic) two segments of durations 3 and 4 meet at rest whatever the data, so a motion with constant speed comes to a stop at the middle knot; in a unit twice as long the same fit is the motion. Proved in the cases in which the equations determine the fit: orders 1 to 3, order 4 with three knots, order 5 with two. |
| C143 | What the consistency check of the knot container checks | partial | The last sentence is false of the code: the entry found for the key is read before it is compared with end(), so a missing key is undefined behaviour instead of a report (C143_missing_key_refuted). The check does not notice either that a copied manager refers to the knots of its source (C143_copy). |
| C144 | Between two knots a planar slerp curve turns about one point | proved | With the exponential and logarithm of the plane written out (se2Maps), in exact arithmetic; the ranges and the transformation of points stand for the gtsam functions the helpers call, without their Jacobians. |
| C145 | Reading a table whose rows differ in length | proved | Which column is taken for the time is the subject of C46. |
| C146 | A straight-line fit in double, from the knots to the value read | proved | Rounding as in C95-C101: to nearest, no overflow; for the bounds no underflow either. At the end of a segment the value read need not be the value of the knot, see C97_line_refuted. |
| C147 | A fit of data played backwards is the curve played backwards | partial | Proved where the equations determine the fit: order 1, 2, 3, order 4 with three knots, order 5 with two. False of quintic curves with three knots: out in one second and home in two, the curve passes the turning point with velocity 40/27 of the distance, the data played backwards with -15/28 of it (C147_refuted, with the modelled column-pivoted QR solver). |
| C148 | A time that is not a number reads the beginning of the last segment | proved | Durations, coefficients and knots are numbers; the time, and for a container in play its members, may be NaN. link_atTimeN, link_advanceN and link_positionN show that on numbers the model is that of the other properties. |
| C149 | The knots in a search tree of any shape, and knot times that are not a number | proved | The tree searches are those of libstdc++ (bits/stl_tree.h), which is not part of the repository; rebalancing, which keeps the order, is not modelled. The facts about NaN say what that implementation does; the C++ standard leaves them open. |
| C150 | The nearest knot in double | partial | That the knot returned is the nearest is false in double (C150_refuted); what holds instead is C150_nearest, and C150_exact says that nothing is lost where the two distances are representable. |
| C151 | Lists of times some of which are not a number | proved | On the tree model of std::map (C149), balanced into an arbitrary shape after every insertion. The behaviour at NaN is that of libstdc++; the C++ standard leaves it open. |
| C152 | Slerp curves with the times of double | proved | Only the arithmetic of times is rounded; the group operations, exponential and logarithm are exact (contracts ExpLog and, for the distance, Measured). |
| C153 | Where a fitted scalar curve begins and ends, in double | partial | That getMaxTime is the last knot time is false in double (C153_refuted) and proved when the differences of the times are representable (C153_exact); in general it is proved up to the stated error. |
| C154 | Curves made of knots refuse a time that is not a number | proved | The tree searches are those of libstdc++ (see C149). |
| C155 | Infinite knot times | partial | False of the Hermite curves (C155_hermite_refuted) and of slerp curves after a knot at minus infinity. Proved for the discrete curve, for slerp curves before a knot at infinity, and for the segments of a Hermite curve between knots at numbers. |
| C156 | Polynomial-spline curves with an approximate linear solver | proved | Nothing is assumed of the solver but the residual of its answers to the systems solved. The jumps inside are bounded by C116. |
| C157 | New measurements are stored relative to the latest correction | partial | What is stored is proved for all sampling ratios. That the correction is held between measurements is false in the middle of a sampling period (C157_refuted) and proved otherwise. |
| C158 | Rounding errors of the Hermite acceleration | partial | The absolute bound is proved. A relative bound is false (C158_refuted). |
| C159 | Subnormal numbers | partial | The bounds of C106 without an additional term are false near zero (C159_refuted); with it they are proved, for velocities if the knots are at most 2^1000 apart. |
| C160 | Overflow | partial | False near the limits of the range (C160_short_refuted for all curves with knots at most 2^-1024 apart, C160_refuted for large numbers). Proved under explicit bounds, which are not sharp. |
| C161 | Playing a container in double | partial | False is that the end is reported exactly when the stored duration is reached (C161_refuted); proved up to the stated fraction. C161_step_refuted shows that the guard of C161_follows cannot be relaxed to that of C27. |
| C162 | How far the composition curve moves | proved | κ is 1 for attitudes and for positions in space, π/2 for positions in the plane (C127). Lever instances: pose3_lever, se2_lever. |
| C163 | What is played in double is the curve | proved | The times are computed with subnormal numbers (ieee), the polynomials in C163_curve and C163_near without underflow (double), as in C114. The step has to be shorter than half of every segment, see C161_step_refuted. |
| C164 | A container played with steps of any size | proved | In exact arithmetic. This completes C27, whose guard (no step longer than a segment) is replaced by what happens for every sequence of steps. |
| C165 | From one point to another | proved | In exact arithmetic. E3: for a fresh curve (the E3 fit does not clear). Scalar orders 1 and 2: straight lines, C65; order 4 with two knots leaves the answer to the solver (C135). C165_refuted: in double the Hermite curve from 5 to 6 dips below 5. |
| C166 | Rising data give a rising curve | partial | False of the code for data whose rises are too unequal (C166_three gives the exact condition for three points at equal steps). Proved under explicit conditions on the ratios. In exact arithmetic, for a fresh curve. Falling data: the same with the coordinate negated; positions of CubicHermiteSE3Curve: C123. |
| C167 | The cubic scalar curve is a Hermite curve with other slopes | partial | The first two sentences are proved (C167_hermite). Rising data give a rising curve is false of the code for data whose rises are too unequal (C167_three gives the exact condition for three points at equal steps); C167_rising_partial has the guard on the slopes. In exact arithmetic, for every solver that solves the equations. |
| C168 | How far a point reaches in a cubic scalar curve | proved | In exact arithmetic, for every solver that solves the equations. Order 3 only: with order 5 the requirements leave the solver a choice (C88), so no such bound can hold of the positions between the knots. |
| C169 | The two cubic curves of the project | proved | In exact arithmetic; the Hermite curve is fresh (its fit does not clear, C39). |
| C170 | The exact limits of a Hermite fit | proved | In exact arithmetic; the vector curve is fresh (its fit does not clear, C39). At a knot between two segments the acceleration reported is that of the later one. |
| C171 | Pose curves, single coordinates and equal steps: Hermite curves fitted to samples of a smooth motion | proved | In exact arithmetic; the vector curve is fresh (its fit does not clear, C39). The attitude of pose curves: C126. At unequal steps the third power is false already for constant acceleration (C136_refuted). |
| C172 | A cubic scalar curve fitted to samples of a smooth motion | proved | In exact arithmetic, for every solver that solves the equations. The velocity is compared at the samples. |
| C173 | The velocity and acceleration of a cubic scalar curve between its knots | proved | In exact arithmetic, for every solver that solves the equations. The bounds 24 R and 5/2 M h are not claimed to be the least. |
| C174 | More points of a cubic scalar curve do not change it | proved | In exact arithmetic, for every solver that solves the equations. That the Hermite curve changes is shown by one refinement. |
| C175 | Cutting and joining cubic scalar curves | proved | In exact arithmetic, for every solver that solves the equations. |
| C176 | The acceleration of a cubic scalar curve | proved | In exact arithmetic, for every solver that solves the equations. That the factor 3 is the least is shown for the first statement, not for samples of a motion. |
| C177 | The acceleration of a Hermite curve fitted to samples of a smooth motion | proved | In exact arithmetic. The ratio enters only for the segments next to the one at hand. |
| C178 | When a fitted cubic scalar curve bends to one side only | proved | In exact arithmetic. For more than one segment the condition is sufficient; that it is necessary is shown for one segment. |
| C179 | When a Hermite curve bends to one side only, and the cubic scalar curve beside it | proved | In exact arithmetic. The comparison is for equal steps; its converse is refuted. |
| C180 | Curves that bend to one side stay below their chords | proved | In exact arithmetic. C178 and C179 say when the accelerations are not negative. |

## Axioms per theorem

**propext, Classical.choice, Quot.sound** (551 theorems):
* `Verif.Manager`: `C01_times_sorted_keys_bijective`, `C02_insert_point_update`, `C03_batch_insert`, `C04_bracketing`, `C05_remove_exact`, `C06_key_stable`, `C06_key_dead`, `C08_extent_and_listing`, `C09_window_partial`, `C09_refuted`, `C09_window_exact`, `C10_batch_modify`, `C10_batch_modify_mismatch`, `C11_move`, `C11_move_onto_itself_corrupts`, `C11_move_onto_other_corrupts`, `C12_add_at_end`, `C13_refuted`, `C63_update_by_key`, `C63_update_many`, `C64_outcomes`, `C64_history`, `C119_call`, `C119_history`, `C119_queries`, `C120_keys_apart`, `C120_alone`, `C143_passes`, `C143_reports_bad_move`, `C143_reports_reused_key`, `C143_copy`, `C143_copy_written`
* `Verif.KeyGen`: `C07_keys_unique`, `C07_per_thread_increasing`, `C07_undisturbed_caller`
* `Verif.Policy`: `C14_sampling`, `C15_clear_partial`, `C15_refuted`
* `Verif.Spline`: `C16_boundary`, `C16_unique`, `C17_derivatives`, `C18_saturates`, `C18_ends`, `C18_set`, `C19_time_vectors_partial`, `C19_refuted`, `C19_ddiff_is_first_derivative`, `C138_flag_refuted`
* `Verif.Container`: `C18_new`, `C20_interpolates`, `C21_smooth_acc`, `C21_smooth_vel`, `C21_twice_differentiable`, `C22_consistent`, `C23_choice`, `C24_failed_partial`, `C24_linear_keeps_prefix`, `C24_refuted`, `C25_duration`, `C25_duration_of_fit`, `C26_random_access`, `C27_playback_partial`, `C27_lags`, `C27_refuted`, `C28_seek`, `C28_rewind`, `C29_advance_partial`, `C29_early_end`, `C48_container_partial`, `C48_container_refuted`, `C49_cursor_partial`, `C49_refuted`, `C65_straight`, `C66_play_a_fit`, `C67_end`, `C67_end_of_fit`, `C68_check_sound`, `C68_check_complete_partial`, `C68_rejects_played_out`, `C68_refuted`, `C88_determined_partial`, `C88_same_result`, `C88_quintic_refuted`, `C88_refuted`, `C89_superposition_partial`, `C89_refuted`, `C116_segment`, `C116_velocities`, `C116_accelerations`, `C128_calls`, `C128_reads`, `C128_placed`, `C128_history`, `C135_reproduces_partial`, `C135_straight_refuted`, `C135_loose_refuted`, `C135_open_refuted`, `C164_shows`, `C164_keeps_up`, `C164_one_by_one`, `C164_catches_up`, `C164_stuck`
* `Verif.PolyCurve`: `C48_curves_refuted`, `C48_options_partial`, `C30_domain_and_interpolation`, `C30_derivatives`, `C31_time_shift`, `C32_scalar_refit_partial`, `C32_vector_refit`, `C32_options_append`, `C32_refuted`, `C32_options_after_clear`, `C33_vector_partial`, `C33_relative_time`, `C33_max_time_wrong`, `C33_refuted`, `C71_scalar_ends`, `C71_scalar_velocity`, `C71_vector_is_scalar`, `C71_vector_ends`, `C72_options`, `C73_scalar_clear`, `C73_vector_clear_partial`, `C73_refuted`, `C108_hermite_partial`, `C108_e3_release`, `C108_refuted`, `C108_vector`, `C131_scalar`, `C131_vector`, `C134_left`, `C134_refuted`, `C134_unchanged_partial`, `C134_recovers`, `C140_reproduces_partial`, `C140_near_partial`, `C140_vector_partial`, `C140_refuted`, `C156_scalar`, `C156_vector`, `C156_options`, `C165_ease5`, `C165_cubic`, `C165_quintic`, `C165_vector`, `C165_monotone`, `C165_refuted`, `C167_hermite`, `C167_rising_partial`, `C167_three`, `C168_rate`, `C168_halves`, `C168_reach`, `C169_rate`, `C169_space`, `C169_near`, `C170_limits`, `C170_space`, `C170_poses`, `C170_attained`, `C171_motion`, `C171_poses`, `C171_equal`, `C172_motion`, `C172_smooth`, `C173_velocity`, `C173_limits`, `C173_motion`, `C174_pieces`, `C174_refine`, `C174_hermite_refuted`, `C175_cut`, `C175_join`, `C175_hermite_cut`, `C176_acceleration`, `C176_attained`, `C176_motion`, `C177_acceleration`, `C177_uneven_refuted`, `C178_convex`, `C178_exact`, `C179_hermite`, `C179_velocity`, `C179_both`, `C179_converse_refuted`, `C180_scalar`, `C180_hermite`
* `Verif.Hermite.SE3`: `C48_hermite_se3`, `C34_domain_partial`, `C34_refuted`, `C34_acceleration_domain`, `C35_interpolates`, `C35_exact`, `C36_continuously_differentiable`, `C37_true_derivatives`, `C38_slopes_partial`, `C38_periodic_wrong`, `C39_replaces`, `C40_linear`, `C40_translation`, `C41_unit`, `C50_se3_partial`, `C50_transform_refuted`, `C74_samples_partial`, `C74_refuted`, `C74_other`, `C75_columns_partial`, `C82_empty`, `C82_clear`, `C92_poses`, `C94_moved`, `C94_periodic`, `C94_reversal_partial`, `C94_reversal_refuted`, `C105_SE3`, `C123_fit`, `C123_fit_other`, `C123_evaluate`, `C123_energy`, `C123_accuracy`, `C123_noise`, `C125_evaluate`, `C125_fit_partial`, `C125_accuracy`, `C125_refuted`, `C126_speed`, `C126_fit`, `C126_accuracy`, `C165_between`, `C165_attitude`
* `Verif.Hermite.E3`: `C34_domain_partial`, `C35_interpolates`, `C36_continuously_differentiable`, `C37_true_derivatives`, `C38_slopes_partial`, `C38_periodic_wrong`, `C38_refuted`, `C39_keeps_old_knots`, `C39_refuted`, `C40_linear`, `C40_translation`, `C74_samples_partial`, `C74_refuted`, `C74_other`, `C75_refuted`, `C82_empty`, `C91_affine`, `C91_periodic`, `C91_reversal_partial`, `C91_reversal_refuted`, `C92_local`, `C92_window_needed`, `C93_range_partial`, `C93_sharp`, `C93_refuted`, `C105_E3`, `C136_error`, `C136_reproduces_partial`, `C136_refuted`, `C165_between`, `C166_rising_partial`, `C166_three_times_partial`, `C166_three`
* `Verif.Discrete`: `C42_nearest`, `C42_outside`, `C43_knot`, `C43_between`, `C43_transform`, `C51_discrete_partial`, `C51_slerp_partial`, `C51_semidiscrete_refuted`, `C52_refuted`, `C52_rest_partial`, `C53_fit_replaces`, `C54_prior_partial`, `C54_refuted`, `C56_refuted`, `C56_extend_partial`, `C69_extend_partial`, `C69_moved`, `C70_ratio_change_partial`, `C70_stuck`, `C105_local`, `C105_set`, `C105_extend_partial`, `C105_refuted`, `C121_steady`, `C121_steady_space`, `C121_clock`, `C121_reversed`, `C121_refine`, `C127_pace`, `C127_discrete`, `C127_slerp`, `C127_fit`, `C129_calls`, `C129_reads`, `C129_counter`, `C144_ranges`, `C144_heading`, `C144_straight`, `C144_centre`, `C144_range_grows`, `C144_even`
* `Verif.Composition`: `C44_domain`, `C44_extend`, `C44_extend_ok`, `C44_extend_first`, `C44_fold`, `C44_fold_ok`, `C55_past_partial`, `C55_refuted`, `C57_set_times`, `C57_set_times_ok`, `C58_transform`, `C58_transform_partial`, `C58_refuted`, `C59_fit_partial`, `C59_refuted`, `C60_set`, `C60_remove`, `C60_reset`, `C60_base`, `C61_forward_only`, `C81_domain_partial`, `C81_remove_refuted`, `C81_no_correction_refuted`, `C81_times_refuted`, `C81_backward_refuted`, `C82_composition_clear`, `C82_composition_partial`, `C82_composition_refuted`, `C90_measurements_partial`, `C90_thinned`, `C90_fresh`, `C90_refuted`, `C122_local`, `C122_refine`, `C132_reads`, `C132_either_order`, `C132_extend`, `C132_fold`, `C132_times`, `C132_edit`, `C132_replace`, `C132_modify`, `C157_stored`, `C157_held_partial`, `C157_refuted`, `C162_pace`, `C162_radius`, `C162_fold`, `C162_times`, `C162_fold_discrete`, `C162_times_discrete`, `C162_no_times`
* `Verif.Csv`: `C46_loaded`, `C46_values_partial`, `C46_refuted`, `C145_ragged`, `C145_ragged_timetime`, `C145_blank_line`
* `Verif.Ros`: `C47_scalar`, `C47_translation_partial`, `C47_pose`, `C104_order`, `C104_strict_partial`, `C104_import_partial`, `C104_lost`, `C104_refuted`, `C104_lost_refuted`, `C137_length`, `C137_unit_partial`, `C137_refuted`
* `Verif.Pose2`: `C76_log_near`, `C76_log_exact`, `C77_scaling_partial`, `C77_subtraction_partial`, `C77_refuted`
* `Verif.Hermite.HPol`: `C78_newest`, `C78_forward_only`, `C78_lengths`, `C79_every_partial`, `C79_refuted`, `C79_ratio_zero`, `C80_slopes`, `C82_policy`
* `Verif.Interface`: `C83_usable_partial`, `C83_refuted`, `C84_single_partial`, `C84_composition_partial`, `C84_curve_refuted`, `C84_window_partial`, `C85_single_partial`, `C85_composition_partial`, `C86_refuted`, `C86_part_partial`, `C86_part_ok_partial`, `C86_modify_partial`, `C86_coefficient_partial`, `C86_replace_partial`, `C86_fold_partial`, `C86_add_refuted`, `C87_replace_partial`, `C87_refuted`
* `Verif.Rounding`: `C95_reads_partial`, `C95_refuted`, `C96_search`, `C96_monotone`, `C96_end_partial`, `C96_end_refuted`, `C97_alpha`, `C97_knots_partial`, `C97_line_start_partial`, `C97_line_refuted`, `C97_constant_refuted`, `C98_steps_partial`, `C98_refuted`, `C99_increasing_partial`, `C100_write_partial`, `C100_endless`, `C100_lines_refuted`, `C101_rounded`, `C101_spacing_partial`, `C101_last_refuted`, `C101_dropped_refuted`, `C106_position`, `C106_velocity`, `C106_refuted`, `C107_fit`, `C107_fitCurve`, `link_fit`, `link_fitCurve`, `C114_segment`, `C115_container`, `C124_evaluate_partial`, `C124_refuted`, `C124_segment_refuted`, `C146_monotone`, `C146_segment`, `C146_fit`, `C146_container`, `C148_container`, `C148_fit`, `C148_line`, `C150_nearest`, `C150_expression`, `C150_refuted`, `C152_knots`, `C152_between`, `C152_near`, `C152_expression`, `C152_early`, `C153_accepts`, `C153_refuses`, `C153_end_partial`, `C153_double_partial`, `C153_exact`, `C153_refuted`, `C155_discrete`, `C155_finite_partial`, `C155_hermite_refuted`, `C158_acceleration`, `C158_refuted`, `C159_nearest`, `C159_representable`, `C159_agrees`, `C159_position`, `C159_velocity`, `C159_refuted`, `C160_position_partial`, `C160_velocity_partial`, `C160_acceleration_partial`, `C160_evaluate_partial`, `C160_fit_partial`, `C160_short_refuted`, `C160_refuted`, `C161_follows`, `C161_clock`, `C161_steps`, `C161_end_partial`, `C161_refuted`, `C161_step_refuted`, `C163_read`, `C163_played`, `C163_curve`, `C163_near`
* `Verif.Decimal`: `C102_file_partial`, `C102_fixed`, `C102_order`, `C102_times_refuted`, `C103_general`, `C103_order`, `C103_exact`, `C103_values_partial`, `C103_refuted`, `C103_times_refuted`
* `Verif.Energy`: `C109_line`, `C109_cubic`, `C109_quintic`, `C110_cubic`, `C110_straight`, `C111_hermite`, `C111_compare`
* `Verif.Accuracy`: `C112_hermite`, `C112_straight`, `C113_cubic`
* `Verif.Sensitivity`: `C117_data`, `C117_solver`, `C118_hermite`, `C118_straight`
* `Verif.Hermite`: `C130_e3_fit`, `C130_e3_periodic`, `C130_e3_reads`, `C130_se3_fit`, `C130_se3_periodic`, `C130_se3_reads`, `C130_policy`, `C130_policy_many`, `C130_refit`, `C165_ease`
* `Verif.Print`: `C133_shows_partial`, `C133_refuted`, `C133_ends`, `C133_composition`, `C133_hermite`, `C133_pose_hermite`, `C133_blind_refuted`, `C133_scalar`
* `Verif.Qr`: `C139_least`, `C139_superposition`, `C141_offset`, `C141_scalar`, `C141_vector`, `C141_refuted`, `C142_scaled_partial`, `C142_stops`, `C142_passes`, `C142_refuted`, `C142_vector`, `C147_reversed_partial`, `C147_there`, `C147_hither`, `C147_refuted`
* `Verif.Map`: `C149_number`, `C149_nan`, `C151_dropped`, `C151_new`, `C154_number`, `C154_discrete`, `C154_hermite`

**propext, Quot.sound** (57 theorems):
* `Verif.KeyGen`: `C07_keys_in_order`, `C07_wraps`, `C07_no_deadlock`, `C07_mutual_exclusion`
* `Verif.Manager`: `C10_batch_modify_bad_start`, `C143_exact`, `C143_resolves`
* `Verif.Hermite.E3`: `C48_hermite_e3`, `C34_refuted`, `C34_acceleration_domain`, `C39_replaces_partial`, `C50_e3_extend_refuted`, `C82_clear`, `C91_empty_refuted`
* `Verif.Discrete`: `C50_discrete_partial`
* `Verif.Composition`: `C50_composition_refuted`
* `Verif.PolyCurve`: `C50_polynomial_partial`, `C108_others_partial`
* `Verif.Csv`: `C45_roundtrip`, `C45_exact`, `C45_refuses`, `C45_unwritable_refuted`, `C46_refuses`, `C46_timetime_refuted`, `C62_saved`, `C62_refuses`, `C62_hermite_partial`, `C62_refuted`
* `Verif.Ros`: `C47_unknown_partial`, `C47_known`, `C47_short`, `C47_refuted`
* `Verif.Container`: `C68_check_catches`
* `Verif.Interface`: `C83_unknown`, `C84_base_single_refuted`, `C84_sizes_partial`, `C85_empty`, `C85_correction_refuted`
* `Verif.Rounding`: `C98_stuck`, `C99_refuted`, `C99_never_ends`, `C124_fit_partial`, `C124_periodic_partial`, `C124_segment_partial`, `C148_segment`, `C148_stuck`, `C148_step`, `C150_exact`
* `Verif.Spline`: `C138_copies_partial`, `C138_refuted`, `C138_fit_options_refuted`, `C138_fit_coefficients`
* `Verif.Map`: `C149_insert`, `C149_alone`, `C151_first`, `C154_time`, `C154_knot`

**propext** (6 theorems):
* `Verif.Manager`: `C09_single_ub`, `C12_add_at_end_empty`, `C13_copy_by_time_partial`, `C143_missing_key_refuted`
* `Verif.Csv`: `C45_missing`
* `Verif.PolyCurve`: `C108_refused_partial`


import Verif.Composition.Model
import Verif.Hermite.E3Model
import Verif.Hermite.SE3Model
import Verif.PolyCurve.Model

/-!
# Model of `print`

The functions `print` of the curves. What is written to standard output is a list of pieces (`Tok`); how a number or a
pose is turned into characters is left out. A piece that is written to a local `std::stringstream` and never read goes
nowhere, as in the code. When a call ends the process, the pieces written before are not part of the result.
`print` of the manager (`LocalSupport2CoefficientManager-inl.hpp` 108-111) and of `PolynomialSplineVectorSpaceCurve`
(40-43) have empty bodies.
-/

set_option linter.unusedSectionVars false
set_option linter.dupNamespace false

namespace Verif.Print

open Verif.Manager Verif.Policy Verif.Discrete

/-- One piece of output. -/
inductive Tok (K G : Type) where
  /-- a text; `std::endl` is the text `"\n"` -/
  | text (s : String)
  /-- an integer -/
  | count (n : Nat)
  /-- a time or another `double` -/
  | num (x : K)
  /-- the `double` quotient of a number by an integer, which is not a number when both are zero -/
  | quot (x : K) (n : Nat)
  /-- a coefficient (`gtsam::traits<..>::Print`, Eigen's `operator<<`) -/
  | value (g : G)
  deriving DecidableEq

/-- The line between the parts. -/
def bar {K G : Type} : List (Tok K G) := [.text "=========================================", .text "\n"]

section discrete

variable {K G V : Type} [Field K] [LinearOrder K] [Group G] [AddCommGroup V] [Module K V]

/-- The first lines (`DiscreteSE3Curve.cpp` 19-30 and the same in the other classes): the title, the caller's text, the
number of knots, the dimension and the two ends. -/
def header (title : String) (dim : Nat) (str : String) (m : Mgr K G) : List (Tok K G) :=
  bar ++ [.text title, .text "\n", .text str, .text "\n",
    .text "num of coefficients: ", .count m.size, .text "\n", .text "dimension: ", .count dim, .text "\n",
    .text "curve defined between times: ", .num m.getMinTime, .text " and ", .num m.getMaxTime, .text "\n"]

/-- The loop adding up the distances (`DiscreteSE3Curve.cpp` 33-37, `SemiDiscreteSE3Curve.cpp` 33-37, `SlerpSE2Curve.cpp`
37-41, `SlerpSE3Curve.cpp` 33-37): `k` turns from number `i`. `d` is the norm of the difference of the positions of two
poses. Reading beyond the end of `times` is undefined behaviour. -/
def sumLoop (L : ExpLog K G V) (kind : Kind) (d : G → G → K) (m : Mgr K G) (times : List K) :
    Nat → Nat → K → Outcome K
  | 0, _, sum => .ok sum
  | k + 1, i, sum =>
    Outcome.deref times[i]? >>= fun t => evaluate L kind t m >>= fun p1 =>
    Outcome.deref times[i + 1]? >>= fun u => evaluate L kind u m >>= fun p2 =>
    sumLoop L kind d m times k (i + 1) (sum + d p1 p2)

/-- The loop over the knots (`DiscreteSE3Curve.cpp` 41-47, `SemiDiscreteSE3Curve.cpp` 41-47, `SlerpSE2Curve.cpp` 45-51,
`SlerpSE3Curve.cpp` 41-46): `k` turns from number `i`. `SlerpSE3Curve` writes the key to a string stream that it empties
without reading; the other classes hand that string to `gtsam::traits<..>::Print`, which writes it and the
coefficient. -/
def knotLoop (kind : Kind) (m : Mgr K G) (keys : List Key) (times : List K) : Nat → Nat → Outcome (List (Tok K G))
  | 0, _ => .ok []
  | k + 1, i =>
    Outcome.deref keys[i]? >>= fun key =>
    (if kind = .slerpSE3 then .ok []
      else m.getCoefficientByKey key >>= fun c =>
        .ok [.text "coefficient ", .count key, .text ": ", .value c]) >>= fun shown =>
    Outcome.deref times[i]? >>= fun t =>
    knotLoop kind m keys times k (i + 1) >>= fun rest =>
    .ok (shown ++ [.text " | time: ", .num t, .text "\n"] ++ rest)

/-- `print` (`DiscreteSE3Curve.cpp` 18-49, `SemiDiscreteSE3Curve.cpp` 18-49, `SlerpSE2Curve.cpp` 22-53,
`SlerpSE3Curve.cpp` 18-48). `times.size() - 1` is a `size_t` and wraps for an empty curve. -/
def print (L : ExpLog K G V) (kind : Kind) (d : G → G → K) (title : String) (dim : Nat) (str : String) (m : Mgr K G) :
    Outcome (List (Tok K G)) :=
  sumLoop L kind d m (m.getTimes []) (Container.Container.sizeMinus1 (m.getTimes []).length) 0 0 >>= fun sum =>
  knotLoop kind m (m.getKeys []) (m.getTimes []) m.size 0 >>= fun rest =>
  .ok (header title dim str m ++
    [.text "average dt between coefficients: ",
      .quot (m.getMaxTime - m.getMinTime) (Container.Container.sizeMinus1 (m.getTimes []).length), .text " ns.", .text "\n",
      .text "average distance between coefficients: ",
      .quot sum (Container.Container.sizeMinus1 (m.getTimes []).length), .text " m.", .text "\n"] ++
    bar ++ rest ++ bar)

/-- `SE3CompositionCurve::print` (`SE3CompositionCurve-inl.hpp` 30-37). -/
def printComposition (L : ExpLog K G V) (kb kc : Kind) (d : G → G → K) (tb tc : String) (str : String)
    (s : Composition.Comp K G) : Outcome (List (Tok K G)) :=
  print L kb d tb 6 "Base curve" s.base.mgr >>= fun a =>
  print L kc d tc 6 "Correction curve" s.corr.mgr >>= fun b =>
  .ok (bar ++ [.text "===== CompositionCurve SE3 CURVE ========", .text "\n", .text str, .text "\n"] ++ a ++ b)

end discrete

section hermite

variable {K V : Type} [Field K] [LinearOrder K] [AddCommGroup V] [Module K V]

/-- The loop over the knots of `CubicHermiteE3Curve::print` (`CubicHermiteE3Curve.cpp` 33-39). -/
def e3Loop (m : Mgr K (Hermite.Knot V)) (keys : List Key) (times : List K) : Nat → Nat → Outcome (List (Tok K V))
  | 0, _ => .ok []
  | k + 1, i =>
    Outcome.deref keys[i]? >>= fun key =>
    m.getCoefficientByKey key >>= fun c =>
    Outcome.deref times[i]? >>= fun t =>
    e3Loop m keys times k (i + 1) >>= fun rest =>
    .ok ([.text "coefficient ", .count key, .text ": ", .value c.position, .text "\n", .text " | time: ", .num t,
      .text "\n"] ++ rest)

/-- `CubicHermiteE3Curve::print` (`CubicHermiteE3Curve.cpp` 20-41). Title and dimension are those of the code. -/
def printE3 (str : String) (c : Hermite.E3 K V) : Outcome (List (Tok K V)) :=
  e3Loop c.m (c.m.getKeys []) (c.m.getTimes []) c.m.size 0 >>= fun rest =>
  .ok (bar ++ [.text "======= Cubic Hermite SE3 CURVE =========", .text "\n", .text str, .text "\n",
    .text "num of coefficients: ", .count c.m.size, .text "\n", .text "dimension: ", .count 6, .text "\n",
    .text "curve defined between times: ", .num c.m.getMinTime, .text " and ", .num c.m.getMaxTime, .text "\n"] ++
    bar ++ rest ++ bar)

/-- The loop over the knots of `CubicHermiteSE3Curve::print` (`CubicHermiteSE3Curve.cpp` 36-42). Everything goes to the
string stream `ss`, which is emptied at the end of every turn; the result is what it holds at the end. -/
noncomputable def ssLoop (m : Mgr ℝ Hermite.HKnot) (keys : List Key) (times : List ℝ) :
    Nat → Nat → List (Tok ℝ Kindr.Pose) → Outcome (List (Tok ℝ Kindr.Pose))
  | 0, _, ss => .ok ss
  | k + 1, i, ss =>
    Outcome.deref keys[i]? >>= fun key =>
    m.getCoefficientByKey key >>= fun c =>
    Outcome.deref times[i]? >>= fun t =>
    let _ss := ss ++ [.text "coefficient ", .count key, .text ": ", .value c.transformation, .text "\n",
      .text " | time: ", .num t, .text "\n"]
    ssLoop m keys times k (i + 1) []

/-- `CubicHermiteSE3Curve::print` (`CubicHermiteSE3Curve.cpp` 22-44). -/
noncomputable def printSE3 (str : String) (c : Hermite.SE3) : Outcome (List (Tok ℝ Kindr.Pose)) :=
  ssLoop c.m (c.m.getKeys []) (c.m.getTimes []) c.m.size 0 [] >>= fun _ss =>
  .ok (bar ++ [.text "======= Cubic Hermite SE3 CURVE =========", .text "\n", .text str, .text "\n",
    .text "num of coefficients: ", .count c.m.size, .text "\n", .text "dimension: ", .count 6, .text "\n",
    .text "curve defined between times: ", .num c.m.getMinTime, .text " and ", .num c.m.getMaxTime, .text "\n"] ++
    bar ++ bar)

end hermite

section scalar

variable {K : Type} [Field K] [LinearOrder K] [IsStrictOrderedRing K] {o : Spline.Order}

/-- The loop of `PolynomialSplineScalarCurve::print` (`PolynomialSplineScalarCurve.hpp` 56-70): `k` turns, the next line is
for the time `t`. The local variables are read after the calls that should have written them; had a call not written its
variable, reading it would be undefined behaviour. -/
def scalarLoop (timeDiff : K) (c : PolyCurve.ScalarCurve o K) : Nat → K → Outcome (List (Tok K Empty))
  | 0, _ => .ok []
  | k + 1, t =>
    c.evaluate t >>= fun value =>
    c.evaluateDerivative t 1 >>= fun first => Outcome.deref first >>= fun first =>
    c.evaluateDerivative t 2 >>= fun second => Outcome.deref second >>= fun second =>
    scalarLoop timeDiff c k (t + timeDiff) >>= fun rest =>
    .ok ([.text "t: ", .num t, .text ", x: ", .num value, .text " dx: ", .num first, .text " dxx: ", .num second,
      .text "\n"] ++ rest)

/-- `PolynomialSplineScalarCurve::print` (`PolynomialSplineScalarCurve.hpp` 48-71); `nPoints` is 15. -/
def printScalar (c : PolyCurve.ScalarCurve o K) : Outcome (List (Tok K Empty)) :=
  scalarLoop ((c.getMaxTime - c.getMinTime) / (15 - 1)) c 15 c.getMinTime

end scalar

end Verif.Print

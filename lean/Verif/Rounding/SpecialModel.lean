import Verif.Rounding.FitModel
import Verif.Rounding.SplineModel

/-!
# Infinities and NaN

The places of the code that divide, with the special values of IEEE 754. The other models compute in a field, where a
division by zero gives 0. Here a division of two numbers by zero gives an infinity or NaN, and these propagate.
Numbers are rounded by a `Rounding`; they do not overflow. A zero counts as positive, which is what the difference of two
equal numbers is.
-/

set_option linter.unusedSectionVars false
set_option linter.dupNamespace false

namespace Verif.Rounding

variable {K : Type} [Field K] [LinearOrder K] [IsStrictOrderedRing K]

/-- A `double`: a number, an infinity (negative or positive) or NaN. -/
inductive Fl (K : Type) where
  | num (x : K)
  | inf (neg : Bool)
  | nan
  deriving DecidableEq

namespace Fl

/-- `x + y` -/
def add (R : Rounding K) : Fl K → Fl K → Fl K
  | num x, num y => num (R.rnd (x + y))
  | num _, inf b => inf b
  | inf a, num _ => inf a
  | inf a, inf b => if a = b then inf a else nan
  | _, _ => nan

/-- `x - y` -/
def sub (R : Rounding K) : Fl K → Fl K → Fl K
  | num x, num y => num (R.rnd (x - y))
  | num _, inf b => inf !b
  | inf a, num _ => inf a
  | inf a, inf b => if a = b then nan else inf a
  | _, _ => nan

/-- `x * y` -/
def mul (R : Rounding K) : Fl K → Fl K → Fl K
  | num x, num y => num (R.rnd (x * y))
  | num x, inf b => if x = 0 then nan else inf (b != decide (x < 0))
  | inf a, num y => if y = 0 then nan else inf (a != decide (y < 0))
  | inf a, inf b => inf (a != b)
  | _, _ => nan

/-- `x / y` -/
def div (R : Rounding K) : Fl K → Fl K → Fl K
  | num x, num y =>
    if y = 0 then if x = 0 then nan else inf (decide (x < 0)) else num (R.rnd (x / y))
  | num _, inf _ => num 0
  | inf a, num y => inf (a != decide (y < 0))
  | inf _, inf _ => nan
  | _, _ => nan

end Fl

open Verif.Manager Verif.Hermite Fl

/-! ## `CubicHermiteE3Curve` -/

/-- A curve whose knots hold `double`s. Times are numbers. -/
abbrev E3s (K : Type) := St K (Knot (Vec3 (Fl K)))

/-- `calculateSlope` (CubicHermiteE3Curve.cpp:102-114). -/
def slopeS (R : Rounding K) (timeA timeB : K) (positionA positionB : Vec3 (Fl K)) : Vec3 (Fl K) :=
  let inverse_dt_sec := div R (num 1) (sub R (num timeB) (num timeA))
  fun x => mul R (sub R (positionB x) (positionA x)) inverse_dt_sec

/-- The derivative chosen for knot `i` (CubicHermiteE3Curve.cpp:155-173). -/
def knotDerivativeS (R : Rounding K) (ts : List K) (vs : List (Vec3 (Fl K))) (d0 dT : Vec3 (Fl K)) (i : Nat) :
    Outcome (Vec3 (Fl K)) :=
  if i = 0 then .ok d0
  else if i = ts.length - 1 then .ok dT
  else
    Outcome.deref ts[i - 1]? >>= fun ta => Outcome.deref ts[i + 1]? >>= fun tb =>
    Outcome.deref vs[i - 1]? >>= fun va => Outcome.deref vs[i + 1]? >>= fun vb =>
    .ok (slopeS R ta tb va vb)

/-- The loop of `fitCurveWithDerivatives` (CubicHermiteE3Curve.cpp:154-176): the knots `i, i+1, ...` (`n` of
them). -/
def fitLoopS (R : Rounding K) (ts : List K) (vs : List (Vec3 (Fl K))) (d0 dT : Vec3 (Fl K)) :
    Nat → Nat → Outcome (List (Knot (Vec3 (Fl K))))
  | 0, _ => .ok []
  | n + 1, i =>
    knotDerivativeS R ts vs d0 dT i >>= fun d => Outcome.deref vs[i]? >>= fun v =>
    fitLoopS R ts vs d0 dT n (i + 1) >>= fun r => .ok (⟨v, d⟩ :: r)

/-- `fitCurveWithDerivatives` (CubicHermiteE3Curve.cpp:143-179). `debug` says whether `assert` is compiled in (148). -/
def fitWithDerivativesS (R : Rounding K) (debug : Bool) (ts : List K) (vs : List (Vec3 (Fl K)))
    (d0 dT : Vec3 (Fl K)) (c : E3s K) : Outcome (E3s K × List Key) :=
  if debug ∧ ts.length ≠ vs.length then .abort
  else
    fitLoopS R ts vs d0 dT ts.length 0 >>= fun cs =>
    c.m.insertCoefficients c.w ts cs >>= fun r => .ok (⟨r.1, r.2.1⟩, r.2.2)

/-- `fitPeriodicCurve` (CubicHermiteE3Curve.cpp:130-141). -/
def fitPeriodicS (R : Rounding K) (debug : Bool) (ts : List K) (vs : List (Vec3 (Fl K))) (c : E3s K) :
    Outcome (E3s K × List Key) :=
  if ts.length < 2 then .ub
  else
    Outcome.deref ts[ts.length - 2]? >>= fun ta => Outcome.deref ts[1]? >>= fun tb =>
    Outcome.deref vs[ts.length - 2]? >>= fun va => Outcome.deref vs[1]? >>= fun vb =>
    let derivative := slopeS R ta tb va vb
    fitWithDerivativesS R debug ts vs derivative derivative c

/-- `alpha` (CubicHermiteE3Curve.cpp:207-208). -/
def alphaS (R : Rounding K) (a b t : K) : Fl K :=
  div R (sub R (num t) (num a)) (sub R (num b) (num a))

/-- The formulas of `evaluate` (CubicHermiteE3Curve.cpp:206-227). -/
def interpolateS (R : Rounding K) (a b : Node K (Knot (Vec3 (Fl K)))) (time : K) : Vec3 (Fl K) :=
  let dt_sec := sub R (num b.time) (num a.time)
  let al := alphaS R a.time b.time time
  let alpha2 := mul R al al
  let alpha3 := mul R alpha2 al
  let beta0 := add R (sub R (mul R (num 2) alpha3) (mul R (num 3) alpha2)) (num 1)
  let beta1 := add R (mul R (num (-2)) alpha3) (mul R (num 3) alpha2)
  let beta2 := add R (sub R alpha3 (mul R (num 2) alpha2)) al
  let beta3 := sub R alpha3 alpha2
  fun x => add R (add R (add R (mul R (a.coef.position x) beta0) (mul R (b.coef.position x) beta1))
    (mul R (a.coef.velocity x) (mul R beta2 dt_sec))) (mul R (b.coef.velocity x) (mul R beta3 dt_sec))

/-- `evaluate` (CubicHermiteE3Curve.cpp:184-231). -/
def evaluateS (R : Rounding K) (time : K) (m : Mgr K (Knot (Vec3 (Fl K)))) : Outcome (Option (Vec3 (Fl K))) :=
  if m.getMaxTime = time ∧ m.getMinTime = time then
    Outcome.deref m.nodes.head? >>= fun n => .ok (some n.coef.position)
  else
    match m.getCoefficientsAt time with
    | none => .ok none
    | some (a, b) => .ok (some (interpolateS R a b time))

/-- The formulas of `evaluateDerivative` of order 1 (CubicHermiteE3Curve.cpp:259-279). -/
def interpolateVelocityS (R : Rounding K) (a b : Node K (Knot (Vec3 (Fl K)))) (time : K) : Vec3 (Fl K) :=
  let dt_sec := sub R (num b.time) (num a.time)
  let one_over_dt_sec := div R (num 1) dt_sec
  let al := alphaS R a.time b.time time
  let alpha2 := mul R al al
  let gamma0 := mul R (num 6) (sub R alpha2 al)
  let gamma1 := add R (sub R (mul R (num 3) alpha2) (mul R (num 4) al)) (num 1)
  let gamma2 := mul R (num 6) (sub R al alpha2)
  let gamma3 := sub R (mul R (num 3) alpha2) (mul R (num 2) al)
  fun x => add R (add R (add R (mul R (a.coef.position x) (mul R gamma0 one_over_dt_sec))
    (mul R (a.coef.velocity x) gamma1)) (mul R (b.coef.position x) (mul R gamma2 one_over_dt_sec)))
    (mul R (b.coef.velocity x) gamma3)

/-- `evaluateDerivative(time, 1)` (CubicHermiteE3Curve.cpp:234-281). -/
def evaluateVelocityS (R : Rounding K) (time : K) (m : Mgr K (Knot (Vec3 (Fl K)))) :
    Outcome (Option (Vec3 (Fl K))) :=
  if m.getMaxTime = time ∧ m.getMinTime = time then
    Outcome.deref m.nodes.head? >>= fun n => .ok (some n.coef.velocity)
  else
    match m.getCoefficientsAt time with
    | none => .ok none
    | some (a, b) => .ok (some (interpolateVelocityS R a b time))

/-- The formulas of `evaluateLinearAcceleration` (CubicHermiteE3Curve.cpp:310-326). -/
def interpolateAccelerationS (R : Rounding K) (a b : Node K (Knot (Vec3 (Fl K)))) (time : K) : Vec3 (Fl K) :=
  let dt_sec := sub R (num b.time) (num a.time)
  let one_over_dt_sec := div R (num 1) dt_sec
  let al := alphaS R a.time b.time time
  let d_gamma0 := mul R (mul R (num 6) (sub R (mul R (num 2) al) (num 1))) one_over_dt_sec
  let d_gamma1 := mul R (sub R (mul R (num 6) al) (num 4)) one_over_dt_sec
  let d_gamma2 := mul R (mul R (num 6) (sub R (num 1) (mul R (num 2) al))) one_over_dt_sec
  let d_gamma3 := mul R (sub R (mul R (num 6) al) (num 2)) one_over_dt_sec
  fun x => add R (add R (add R (mul R (mul R (a.coef.position x) d_gamma0) one_over_dt_sec)
    (mul R (a.coef.velocity x) d_gamma1)) (mul R (mul R (b.coef.position x) d_gamma2) one_over_dt_sec))
    (mul R (b.coef.velocity x) d_gamma3)

/-- `evaluateLinearAcceleration` (CubicHermiteE3Curve.cpp:294-329). -/
def evaluateAccelerationS (R : Rounding K) (time : K) (m : Mgr K (Knot (Vec3 (Fl K)))) :
    Outcome (Option (Vec3 (Fl K))) :=
  match m.getCoefficientsAt time with
  | none => .ok none
  | some (a, b) => .ok (some (interpolateAccelerationS R a b time))

/-! ## `spline_rep` -/

/-- The coefficient of the highest power that `compute` makes for order 1
(polynomial_splines_traits.hpp:115-120). -/
def compute1S (R : Rounding K) (pos0 posT tf : Fl K) : Fl K := div R (sub R posT pos0) tf

/-- The coefficient of the highest power that `compute` makes for order 2
(polynomial_splines_traits.hpp:150-157). -/
def compute2S (R : Rounding K) (pos0 vel0 posT tf : Fl K) : Fl K :=
  div R (sub R (sub R posT pos0) (mul R vel0 tf)) (mul R tf tf)

/-- `getPositionAtTime` (PolynomialSpline.hpp:104-107) of a segment of order 1 with the coefficients `c0`, `c1`:
`std::inner_product` adds the products to `0.0` one by one. -/
def position1S (R : Rounding K) (c0 c1 : Fl K) (duration t : K) : Fl K :=
  add R (add R (num 0) (mul R c0 (num (clamp t duration)))) (mul R c1 (num 1))

/-- The same for order 2 (`boost::math::pow<2>` is one multiplication). -/
def position2S (R : Rounding K) (c0 c1 c2 : Fl K) (duration t : K) : Fl K :=
  let tk := num (clamp t duration)
  add R (add R (add R (num 0) (mul R c0 (mul R tk tk))) (mul R c1 tk)) (mul R c2 (num 1))

end Verif.Rounding

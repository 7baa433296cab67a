import Verif.Rounding.SpecialModel

/-!
# Overflow

`Verif.Rounding.SpecialModel` has infinities and NaN, but its numbers can be as large as they like. Here a result that
would be `Ω` or more after rounding becomes an infinity, as IEEE 754 has it (`Ω` is 2¹⁰²⁴ for `double`). The formulas of
`CubicHermiteE3Curve` are written down once more with these operations.
-/

set_option linter.unusedSectionVars false
set_option linter.dupNamespace false

namespace Verif.Rounding

variable {K : Type} [Field K] [LinearOrder K] [IsStrictOrderedRing K]

namespace Fl

/-- The result of an operation whose exact result is `x`: rounded as if exponents had no limit, and an infinity if that is
`Ω` or more. -/
def fin (R : Rounding K) (Ω x : K) : Fl K := if |R.rnd x| < Ω then num (R.rnd x) else inf (decide (x < 0))

/-- `x + y` -/
def addO (R : Rounding K) (Ω : K) : Fl K → Fl K → Fl K
  | num x, num y => fin R Ω (x + y)
  | x, y => add R x y

/-- `x - y` -/
def subO (R : Rounding K) (Ω : K) : Fl K → Fl K → Fl K
  | num x, num y => fin R Ω (x - y)
  | x, y => sub R x y

/-- `x * y` -/
def mulO (R : Rounding K) (Ω : K) : Fl K → Fl K → Fl K
  | num x, num y => fin R Ω (x * y)
  | x, y => mul R x y

/-- `x / y` -/
def divO (R : Rounding K) (Ω : K) : Fl K → Fl K → Fl K
  | num x, num y => if y = 0 then div R (num x) (num y) else fin R Ω (x / y)
  | x, y => div R x y

end Fl

open Verif.Manager Verif.Hermite Fl

variable (R : Rounding K) (Ω : K)

/-- `calculateSlope` (CubicHermiteE3Curve.cpp:102-114). -/
def slopeO (timeA timeB : K) (positionA positionB : Vec3 (Fl K)) : Vec3 (Fl K) :=
  let inverse_dt_sec := divO R Ω (num 1) (subO R Ω (num timeB) (num timeA))
  fun x => mulO R Ω (subO R Ω (positionB x) (positionA x)) inverse_dt_sec

/-- The derivative chosen for knot `i` (CubicHermiteE3Curve.cpp:155-173). -/
def knotDerivativeO (ts : List K) (vs : List (Vec3 (Fl K))) (d0 dT : Vec3 (Fl K)) (i : Nat) :
    Outcome (Vec3 (Fl K)) :=
  if i = 0 then .ok d0
  else if i = ts.length - 1 then .ok dT
  else
    Outcome.deref ts[i - 1]? >>= fun ta => Outcome.deref ts[i + 1]? >>= fun tb =>
    Outcome.deref vs[i - 1]? >>= fun va => Outcome.deref vs[i + 1]? >>= fun vb =>
    .ok (slopeO R Ω ta tb va vb)

/-- The loop of `fitCurveWithDerivatives` (CubicHermiteE3Curve.cpp:154-176): the knots `i, i+1, ...` (`n` of
them). -/
def fitLoopO (ts : List K) (vs : List (Vec3 (Fl K))) (d0 dT : Vec3 (Fl K)) :
    Nat → Nat → Outcome (List (Knot (Vec3 (Fl K))))
  | 0, _ => .ok []
  | n + 1, i =>
    knotDerivativeO R Ω ts vs d0 dT i >>= fun d => Outcome.deref vs[i]? >>= fun v =>
    fitLoopO ts vs d0 dT n (i + 1) >>= fun r => .ok (⟨v, d⟩ :: r)

/-- `fitCurveWithDerivatives` (CubicHermiteE3Curve.cpp:143-179). `debug` says whether `assert` is compiled in (148). -/
def fitWithDerivativesO (debug : Bool) (ts : List K) (vs : List (Vec3 (Fl K)))
    (d0 dT : Vec3 (Fl K)) (c : E3s K) : Outcome (E3s K × List Key) :=
  if debug ∧ ts.length ≠ vs.length then .abort
  else
    fitLoopO R Ω ts vs d0 dT ts.length 0 >>= fun cs =>
    c.m.insertCoefficients c.w ts cs >>= fun r => .ok (⟨r.1, r.2.1⟩, r.2.2)

/-- `alpha` (CubicHermiteE3Curve.cpp:207-208). -/
def alphaO (a b t : K) : Fl K := divO R Ω (subO R Ω (num t) (num a)) (subO R Ω (num b) (num a))

/-- The formulas of `evaluate` (CubicHermiteE3Curve.cpp:206-227). -/
def interpolateO (a b : Node K (Knot (Vec3 (Fl K)))) (time : K) : Vec3 (Fl K) :=
  let dt_sec := subO R Ω (num b.time) (num a.time)
  let al := alphaO R Ω a.time b.time time
  let alpha2 := mulO R Ω al al
  let alpha3 := mulO R Ω alpha2 al
  let beta0 := addO R Ω (subO R Ω (mulO R Ω (num 2) alpha3) (mulO R Ω (num 3) alpha2)) (num 1)
  let beta1 := addO R Ω (mulO R Ω (num (-2)) alpha3) (mulO R Ω (num 3) alpha2)
  let beta2 := addO R Ω (subO R Ω alpha3 (mulO R Ω (num 2) alpha2)) al
  let beta3 := subO R Ω alpha3 alpha2
  fun x => addO R Ω (addO R Ω (addO R Ω (mulO R Ω (a.coef.position x) beta0) (mulO R Ω (b.coef.position x) beta1))
    (mulO R Ω (a.coef.velocity x) (mulO R Ω beta2 dt_sec))) (mulO R Ω (b.coef.velocity x) (mulO R Ω beta3 dt_sec))

/-- `evaluate` (CubicHermiteE3Curve.cpp:184-231). -/
def evaluateO (time : K) (m : Mgr K (Knot (Vec3 (Fl K)))) : Outcome (Option (Vec3 (Fl K))) :=
  if m.getMaxTime = time ∧ m.getMinTime = time then
    Outcome.deref m.nodes.head? >>= fun n => .ok (some n.coef.position)
  else
    match m.getCoefficientsAt time with
    | none => .ok none
    | some (a, b) => .ok (some (interpolateO R Ω a b time))

/-- The formulas of `evaluateDerivative` of order 1 (CubicHermiteE3Curve.cpp:259-279). -/
def interpolateVelocityO (a b : Node K (Knot (Vec3 (Fl K)))) (time : K) : Vec3 (Fl K) :=
  let dt_sec := subO R Ω (num b.time) (num a.time)
  let one_over_dt_sec := divO R Ω (num 1) dt_sec
  let al := alphaO R Ω a.time b.time time
  let alpha2 := mulO R Ω al al
  let gamma0 := mulO R Ω (num 6) (subO R Ω alpha2 al)
  let gamma1 := addO R Ω (subO R Ω (mulO R Ω (num 3) alpha2) (mulO R Ω (num 4) al)) (num 1)
  let gamma2 := mulO R Ω (num 6) (subO R Ω al alpha2)
  let gamma3 := subO R Ω (mulO R Ω (num 3) alpha2) (mulO R Ω (num 2) al)
  fun x => addO R Ω (addO R Ω (addO R Ω (mulO R Ω (a.coef.position x) (mulO R Ω gamma0 one_over_dt_sec))
    (mulO R Ω (a.coef.velocity x) gamma1)) (mulO R Ω (b.coef.position x) (mulO R Ω gamma2 one_over_dt_sec)))
    (mulO R Ω (b.coef.velocity x) gamma3)

/-- `evaluateDerivative(time, 1)` (CubicHermiteE3Curve.cpp:234-281). -/
def evaluateVelocityO (time : K) (m : Mgr K (Knot (Vec3 (Fl K)))) :
    Outcome (Option (Vec3 (Fl K))) :=
  if m.getMaxTime = time ∧ m.getMinTime = time then
    Outcome.deref m.nodes.head? >>= fun n => .ok (some n.coef.velocity)
  else
    match m.getCoefficientsAt time with
    | none => .ok none
    | some (a, b) => .ok (some (interpolateVelocityO R Ω a b time))

/-- The formulas of `evaluateLinearAcceleration` (CubicHermiteE3Curve.cpp:303-326). -/
def interpolateAccelerationO (a b : Node K (Knot (Vec3 (Fl K)))) (time : K) : Vec3 (Fl K) :=
  let dt_sec := subO R Ω (num b.time) (num a.time)
  let one_over_dt_sec := divO R Ω (num 1) dt_sec
  let al := alphaO R Ω a.time b.time time
  let d_gamma0 := mulO R Ω (mulO R Ω (num 6) (subO R Ω (mulO R Ω (num 2) al) (num 1))) one_over_dt_sec
  let d_gamma1 := mulO R Ω (subO R Ω (mulO R Ω (num 6) al) (num 4)) one_over_dt_sec
  let d_gamma2 := mulO R Ω (mulO R Ω (num 6) (subO R Ω (num 1) (mulO R Ω (num 2) al))) one_over_dt_sec
  let d_gamma3 := mulO R Ω (subO R Ω (mulO R Ω (num 6) al) (num 2)) one_over_dt_sec
  fun x => addO R Ω (addO R Ω (addO R Ω (mulO R Ω (mulO R Ω (a.coef.position x) d_gamma0) one_over_dt_sec)
    (mulO R Ω (a.coef.velocity x) d_gamma1)) (mulO R Ω (mulO R Ω (b.coef.position x) d_gamma2) one_over_dt_sec))
    (mulO R Ω (b.coef.velocity x) d_gamma3)

/-- `evaluateLinearAcceleration` (CubicHermiteE3Curve.cpp:294-329). -/
def evaluateAccelerationO (time : K) (m : Mgr K (Knot (Vec3 (Fl K)))) : Outcome (Option (Vec3 (Fl K))) :=
  match m.getCoefficientsAt time with
  | none => .ok none
  | some (a, b) => .ok (some (interpolateAccelerationO R Ω a b time))

end Verif.Rounding

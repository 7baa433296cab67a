import Verif.Manager.History
import Mathlib.Algebra.Order.Field.Basic
import Mathlib.Algebra.Module.Defs

/-!
# Model of `CubicHermiteE3Curve`

All line numbers refer to `curves/src/CubicHermiteE3Curve.cpp` unless another file is named.

* `K` is `double` (and `Time`), an ordered field; `V` is `Eigen::Vector3d`, any vector space over `K`.
* A division by zero gives 0 here; in the code it gives an infinity or NaN. Properties that depend on
  a quotient assume that the divisor is not zero.
* `print` is in `Verif/Print/Model.lean`.
-/

set_option linter.unusedSectionVars false
set_option linter.dupNamespace false

namespace Verif.Hermite

open Verif.Manager

/-- `struct HermiteE3Knot` (`curves/include/curves/CubicHermiteE3Curve.hpp` 16-46). -/
structure Knot (V : Type) where
  /-- `position_` -/
  position : V
  /-- `velocity_` -/
  velocity : V
  deriving Repr, DecidableEq

/-- `class CubicHermiteE3Curve`: its only member is the manager `manager_`
(`CubicHermiteE3Curve.hpp` 134); `w` is the state of the process the manager depends on. -/
abbrev E3 (K V : Type) := St K (Knot V)

variable {K V : Type} [Field K] [LinearOrder K] [IsStrictOrderedRing K] [AddCommGroup V] [Module K V]

namespace E3

/-- Constructor (12-14). -/
def fresh (w : World) : E3 K V := ⟨w, Mgr.empty⟩

/-- `getMinTime` (81-83). -/
def getMinTime (c : E3 K V) : K := c.m.getMinTime

/-- `getMaxTime` (86-88). -/
def getMaxTime (c : E3 K V) : K := c.m.getMaxTime

/-- `isEmpty` (90-94). -/
def isEmpty (c : E3 K V) : Bool := (c.m.getTimes []).isEmpty

/-- `size` (97-99). Simplification: the conversion from `size_t` to `int` is left out. -/
def size (c : E3 K V) : Nat := c.m.size

/-- `calculateSlope` (102-114). -/
def calculateSlope (timeA timeB : K) (positionA positionB : V) : V :=
  let inverse_dt_sec := 1 / (timeB - timeA)
  inverse_dt_sec • (positionB - positionA)

/-- `extend` (117-121): an empty body. -/
def extend (_ts : List K) (_vs : List V) (c : E3 K V) : Outcome (E3 K V) := .ok c

/-- The derivative chosen for knot `i` (155-173). Reading `times` or `values` out of bounds is
undefined behaviour. -/
def knotDerivative (ts : List K) (vs : List V) (d0 dT : V) (i : Nat) : Outcome V :=
  if i = 0 then .ok d0
  else if i = ts.length - 1 then .ok dT
  else
    Outcome.deref ts[i - 1]? >>= fun ta => Outcome.deref ts[i + 1]? >>= fun tb =>
    Outcome.deref vs[i - 1]? >>= fun va => Outcome.deref vs[i + 1]? >>= fun vb =>
    .ok (calculateSlope ta tb va vb)

/-- The loop of `fitCurveWithDerivatives` (154-176): the knots `i, i+1, ...` (`n` of them). -/
def fitLoop (ts : List K) (vs : List V) (d0 dT : V) : Nat → Nat → Outcome (List (Knot V))
  | 0, _ => .ok []
  | n + 1, i =>
    knotDerivative ts vs d0 dT i >>= fun d => Outcome.deref vs[i]? >>= fun v =>
    fitLoop ts vs d0 dT n (i + 1) >>= fun r => .ok (⟨v, d⟩ :: r)

/-- `fitCurveWithDerivatives` (143-179). `debug` says whether `assert` is compiled in (148). The second
component of the result is what is appended to `*outKeys`. -/
def fitCurveWithDerivatives (debug : Bool) (ts : List K) (vs : List V) (d0 dT : V) (c : E3 K V) :
    Outcome (E3 K V × List Key) :=
  if debug ∧ ts.length ≠ vs.length then .abort
  else
    fitLoop ts vs d0 dT ts.length 0 >>= fun cs =>
    c.m.insertCoefficients c.w ts cs >>= fun r => .ok (⟨r.1, r.2.1⟩, r.2.2)

/-- `fitCurve` (124-128). -/
def fitCurve (debug : Bool) (ts : List K) (vs : List V) (c : E3 K V) : Outcome (E3 K V × List Key) :=
  fitCurveWithDerivatives debug ts vs 0 0 c

/-- `fitPeriodicCurve` (130-141). With fewer than two points `times[nPoints-2]` or `times[1]` is out
of bounds. -/
def fitPeriodicCurve (debug : Bool) (ts : List K) (vs : List V) (c : E3 K V) :
    Outcome (E3 K V × List Key) :=
  if ts.length < 2 then .ub
  else
    Outcome.deref ts[ts.length - 2]? >>= fun ta => Outcome.deref ts[1]? >>= fun tb =>
    Outcome.deref vs[ts.length - 2]? >>= fun va => Outcome.deref vs[1]? >>= fun vb =>
    let derivative := calculateSlope ta tb va vb
    fitCurveWithDerivatives debug ts vs derivative derivative c

/-- The formulas of `evaluate` for a time between the knots `a` and `b` (199-227). -/
def interpolate (a b : Node K (Knot V)) (time : K) : V :=
  let dt_sec := b.time - a.time
  let alpha := (time - a.time) / (b.time - a.time)
  let alpha2 := alpha * alpha
  let alpha3 := alpha2 * alpha
  let beta0 := 2 * alpha3 - 3 * alpha2 + 1
  let beta1 := -2 * alpha3 + 3 * alpha2
  let beta2 := alpha3 - 2 * alpha2 + alpha
  let beta3 := alpha3 - alpha2
  beta0 • a.coef.position + beta1 • b.coef.position + (beta2 * dt_sec) • a.coef.velocity +
    (beta3 * dt_sec) • b.coef.velocity

/-- `evaluate` (184-231). `none`: the call returns `false` and writes nothing. -/
def evaluate (time : K) (c : E3 K V) : Outcome (Option V) :=
  if c.m.getMaxTime = time ∧ c.m.getMinTime = time then
    Outcome.deref c.m.nodes.head? >>= fun n => .ok (some n.coef.position)
  else
    match c.m.getCoefficientsAt time with
    | none => .ok none
    | some (a, b) => .ok (some (interpolate a b time))

/-- The formulas of `evaluateDerivative` of order 1 between the knots `a` and `b` (252-281). -/
def interpolateVelocity (a b : Node K (Knot V)) (time : K) : V :=
  let dt_sec := b.time - a.time
  let one_over_dt_sec := 1 / dt_sec
  let alpha := (time - a.time) / dt_sec
  let alpha2 := alpha * alpha
  let gamma0 := 6 * (alpha2 - alpha)
  let gamma1 := 3 * alpha2 - 4 * alpha + 1
  let gamma2 := 6 * (alpha - alpha2)
  let gamma3 := 3 * alpha2 - 2 * alpha
  (gamma0 * one_over_dt_sec) • a.coef.position + gamma1 • a.coef.velocity +
    (gamma2 * one_over_dt_sec) • b.coef.position + gamma3 • b.coef.velocity

/-- The formulas of `evaluateLinearAcceleration` between the knots `a` and `b` (303-326). -/
def interpolateAcceleration (a b : Node K (Knot V)) (time : K) : V :=
  let dt_sec := b.time - a.time
  let one_over_dt_sec := 1 / dt_sec
  let alpha := (time - a.time) / dt_sec
  let d_alpha := one_over_dt_sec
  let d_gamma0 := 6 * (2 * alpha - 1) * d_alpha
  let d_gamma1 := (6 * alpha - 4) * d_alpha
  let d_gamma2 := 6 * (1 - 2 * alpha) * d_alpha
  let d_gamma3 := (6 * alpha - 2) * d_alpha
  one_over_dt_sec • d_gamma0 • a.coef.position + d_gamma1 • a.coef.velocity +
    one_over_dt_sec • d_gamma2 • b.coef.position + d_gamma3 • b.coef.velocity

/-- `evaluateLinearAcceleration` (294-329). -/
def evaluateLinearAcceleration (time : K) (c : E3 K V) : Outcome (Option V) :=
  match c.m.getCoefficientsAt time with
  | none => .ok none
  | some (a, b) => .ok (some (interpolateAcceleration a b time))

/-- `evaluateDerivative` (234-292). -/
def evaluateDerivative (time : K) (derivativeOrder : Nat) (c : E3 K V) : Outcome (Option V) :=
  if derivativeOrder = 1 then
    if c.m.getMaxTime = time ∧ c.m.getMinTime = time then
      Outcome.deref c.m.nodes.head? >>= fun n => .ok (some n.coef.velocity)
    else
      match c.m.getCoefficientsAt time with
      | none => .ok none
      | some (a, b) => .ok (some (interpolateVelocity a b time))
  else if derivativeOrder = 2 then evaluateLinearAcceleration time c
  else .ok none

/-- `clear` (331-333). -/
def clear (c : E3 K V) : E3 K V := ⟨c.w, c.m.clear⟩

/-- The operations that change a curve. -/
inductive Op (K V : Type) where
  | fit (ts : List K) (vs : List V)
  | fitDerivatives (ts : List K) (vs : List V) (d0 dT : V)
  | fitPeriodic (ts : List K) (vs : List V)
  | extend (ts : List K) (vs : List V)
  | clear

/-- One operation. -/
def step (debug : Bool) (c : E3 K V) : Op K V → Outcome (E3 K V)
  | .fit ts vs => fitCurve debug ts vs c >>= fun r => .ok r.1
  | .fitDerivatives ts vs d0 dT => fitCurveWithDerivatives debug ts vs d0 dT c >>= fun r => .ok r.1
  | .fitPeriodic ts vs => fitPeriodicCurve debug ts vs c >>= fun r => .ok r.1
  | .extend ts vs => extend ts vs c
  | .clear => .ok c.clear

/-- A history of operations. -/
def run (debug : Bool) (c : E3 K V) : List (Op K V) → Outcome (E3 K V)
  | [] => .ok c
  | op :: rest => step debug c op >>= fun c' => run debug c' rest

/-- The curves that a program can hold: reached from a new curve by a history of operations. -/
def Reachable (c : E3 K V) : Prop :=
  ∃ debug w ops, run debug (fresh w) ops = .ok c

end E3

end Verif.Hermite

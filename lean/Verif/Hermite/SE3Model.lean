import Verif.Manager.History
import Verif.Kindr.Model

/-!
# Model of `CubicHermiteSE3Curve`

All line numbers refer to `curves/src/CubicHermiteSE3Curve.cpp` unless another file is named.

* `double` (and `Time`) is ℝ. A division by zero gives 0 here; in the code it gives an infinity or NaN.
  Properties that depend on a quotient assume that the divisor is not zero.
* The kindr types are those of `Verif/Kindr/Model.lean`; `L` is the library's `logarithmicMap`.
* kindr checks in debug builds that a `RotationQuaternion` is a unit quaternion; `evaluateDerivative`
  builds ones that are not (341-350). This model is of release builds, where the check is left out.
* `print` is in `Verif/Print/Model.lean`; `writeEvalToFile` is in `Verif/Hermite/WriteModel.lean`, the saving functions are in
  `Verif/Csv/Model.lean`. The `hermitePolicy_` member is left out: nothing but the setters touch it, since
  `extend` throws. The functions of the policy are in `Verif/Hermite/ExtendModel.lean`.
-/

set_option linter.unusedSectionVars false
set_option linter.dupNamespace false

namespace Verif.Hermite

open Verif.Manager Verif.Kindr

/-- `kindr::HermiteTransformation<double>` (`curves/include/curves/CubicHermiteSE3Curve.hpp` 19-65). -/
structure HKnot where
  transformation : Pose
  derivative : Twist

/-- `class CubicHermiteSE3Curve`: the manager `manager_` and the state of the process it depends on. -/
abbrev SE3 := St ℝ HKnot

namespace SE3

/-- Constructor (16-18). -/
def fresh (w : World) : SE3 := ⟨w, Mgr.empty⟩

/-- `getMinTime` (88-90). -/
noncomputable def getMinTime (c : SE3) : ℝ := c.m.getMinTime

/-- `getMaxTime` (84-86). -/
noncomputable def getMaxTime (c : SE3) : ℝ := c.m.getMaxTime

/-- `isEmpty` (92-96). -/
def isEmpty (c : SE3) : Bool := (c.m.getTimes []).isEmpty

/-- `size` (98-100). Simplification: the conversion from `size_t` to `int` is left out. -/
def size (c : SE3) : Nat := c.m.size

/-- `clear` (563-565). -/
def clear (c : SE3) : SE3 := ⟨c.w, c.m.clear⟩

/-- `calculateSlope` (160-172). -/
noncomputable def calculateSlope (L : LogMap) (timeA timeB : ℝ) (T_W_A T_W_B : Pose) : Twist :=
  let inverse_dt_sec := 1 / (timeB - timeA)
  ⟨inverse_dt_sec • (T_W_B.position - T_W_A.position),
    inverse_dt_sec • boxMinus L T_W_B.rotation T_W_A.rotation⟩

/-- The derivative chosen for knot `i` (124-142). -/
noncomputable def knotDerivative (L : LogMap) (ts : List ℝ) (vs : List Pose) (d0 dT : Twist) (i : Nat) :
    Outcome Twist :=
  if i = 0 then .ok d0
  else if i = ts.length - 1 then .ok dT
  else
    Outcome.deref ts[i - 1]? >>= fun ta => Outcome.deref ts[i + 1]? >>= fun tb =>
    Outcome.deref vs[i - 1]? >>= fun va => Outcome.deref vs[i + 1]? >>= fun vb =>
    .ok (calculateSlope L ta tb va vb)

/-- The loop of `fitCurveWithDerivatives` (122-144): the knots `i, i+1, ...` (`n` of them). -/
noncomputable def fitLoop (L : LogMap) (ts : List ℝ) (vs : List Pose) (d0 dT : Twist) :
    Nat → Nat → Outcome (List HKnot)
  | 0, _ => .ok []
  | n + 1, i =>
    knotDerivative L ts vs d0 dT i >>= fun d => Outcome.deref vs[i]? >>= fun v =>
    fitLoop L ts vs d0 dT n (i + 1) >>= fun r => .ok (⟨v, d⟩ :: r)

/-- `fitCurveWithDerivatives` (109-147). The second component of the result is what is appended to
`*outKeys`. -/
noncomputable def fitCurveWithDerivatives (L : LogMap) (ts : List ℝ) (vs : List Pose) (d0 dT : Twist)
    (c : SE3) : Outcome (SE3 × List Key) :=
  if ts.length ≠ vs.length then .abort
  else
    let c := c.clear
    fitLoop L ts vs d0 dT ts.length 0 >>= fun cs =>
    c.m.insertCoefficients c.w ts cs >>= fun r => .ok (⟨r.1, r.2.1⟩, r.2.2)

/-- `fitCurve` (103-107). -/
noncomputable def fitCurve (L : LogMap) (ts : List ℝ) (vs : List Pose) (c : SE3) :
    Outcome (SE3 × List Key) :=
  fitCurveWithDerivatives L ts vs Twist.zero Twist.zero c

/-- `fitPeriodicCurve` (149-158). With fewer than two points `times[nPoints-2]` or `times[1]` is out of
bounds. -/
noncomputable def fitPeriodicCurve (L : LogMap) (ts : List ℝ) (vs : List Pose) (c : SE3) :
    Outcome (SE3 × List Key) :=
  if ts.length < 2 then .ub
  else
    Outcome.deref ts[ts.length - 2]? >>= fun ta => Outcome.deref ts[1]? >>= fun tb =>
    Outcome.deref vs[ts.length - 2]? >>= fun va => Outcome.deref vs[1]? >>= fun vb =>
    let derivative := calculateSlope L ta tb va vb
    fitCurveWithDerivatives L ts vs derivative derivative c

/-- `extend` (174-192): throws. -/
def extend (_ts : List ℝ) (_vs : List Pose) (_c : SE3) : Outcome SE3 := .throw

/-- `w1`, `w2`, `w3` for the segment from `a` to `b` (242-252, and again 324-338 with the factors in
another order). -/
noncomputable def controlVectors (L : LogMap) (a b : Node ℝ HKnot) : Vec3 × Vec3 × Vec3 :=
  let T_W_A := a.coef.transformation
  let T_W_B := b.coef.transformation
  let dt_sec := b.time - a.time
  let dt_sec_third := dt_sec / 3
  let scaled_d_W_A := dt_sec_third • a.coef.derivative.rotationalVelocity
  let scaled_d_W_B := dt_sec_third • b.coef.derivative.rotationalVelocity
  let w1 := inverseRotate T_W_A.rotation scaled_d_W_A
  let w3 := inverseRotate T_W_B.rotation scaled_d_W_B
  let expW1_inv := exponentialMap (-w1)
  let expW3_inv := exponentialMap (-w3)
  let expW1_Inv_qWB_expW3 := expW1_inv * inverted T_W_A.rotation * T_W_B.rotation * expW3_inv
  (w1, L.log expW1_Inv_qWB_expW3, w3)

/-- The formulas of `evaluate` for a time between the knots `a` and `b` (210-265). -/
noncomputable def interpolate (L : LogMap) (a b : Node ℝ HKnot) (time : ℝ) : Pose :=
  let T_W_A := a.coef.transformation
  let T_W_B := b.coef.transformation
  let d_W_A := a.coef.derivative
  let d_W_B := b.coef.derivative
  let dt_sec := b.time - a.time
  let alpha := (time - a.time) / (b.time - a.time)
  let alpha2 := alpha * alpha
  let alpha3 := alpha2 * alpha
  let beta0 := 2 * alpha3 - 3 * alpha2 + 1
  let beta1 := -2 * alpha3 + 3 * alpha2
  let beta2 := alpha3 - 2 * alpha2 + alpha
  let beta3 := alpha3 - alpha2
  let translation := beta0 • T_W_A.position + beta1 • T_W_B.position +
    (beta2 * dt_sec) • d_W_A.translationalVelocity + (beta3 * dt_sec) • d_W_B.translationalVelocity
  let w := controlVectors L a b
  let dBeta1 := alpha3 - 3 * alpha2 + 3 * alpha
  let dBeta2 := -2 * alpha3 + 3 * alpha2
  let dBeta3 := alpha3
  let rotation := T_W_A.rotation * exponentialMap (dBeta1 • w.1) * exponentialMap (dBeta2 • w.2.1) *
    exponentialMap (dBeta3 • w.2.2)
  ⟨translation, rotation⟩

/-- `evaluate` (195-269). `none`: the call returns `false` and writes nothing. -/
noncomputable def evaluate (L : LogMap) (time : ℝ) (c : SE3) : Outcome (Option Pose) :=
  if c.m.getMaxTime = time ∧ c.m.getMinTime = time then
    Outcome.deref c.m.nodes.head? >>= fun n => .ok (some n.coef.transformation)
  else
    match c.m.getCoefficientsAt time with
    | none => .ok none
    | some (a, b) => .ok (some (interpolate L a b time))

/-- The linear velocity and the quaternion `qDiff` of `evaluateDerivative` between the knots `a` and `b`
(289-354). -/
noncomputable def interpolateDerivative (L : LogMap) (a b : Node ℝ HKnot) (time : ℝ) : Vec3 × Quat :=
  let T_W_A := a.coef.transformation
  let T_W_B := b.coef.transformation
  let d_W_A := a.coef.derivative
  let d_W_B := b.coef.derivative
  let dt_sec := b.time - a.time
  let one_over_dt_sec := 1 / dt_sec
  let alpha := (time - a.time) / dt_sec
  let alpha2 := alpha * alpha
  let alpha3 := alpha2 * alpha
  let gamma0 := 6 * (alpha2 - alpha)
  let gamma1 := 3 * alpha2 - 4 * alpha + 1
  let gamma2 := 6 * (alpha - alpha2)
  let gamma3 := 3 * alpha2 - 2 * alpha
  let velocity_m_s := (gamma0 * one_over_dt_sec) • T_W_A.position + gamma1 • d_W_A.translationalVelocity +
    (gamma2 * one_over_dt_sec) • T_W_B.position + gamma3 • d_W_B.translationalVelocity
  let one_minus_alpha := 1 - alpha
  let one_minus_alpha_2 := one_minus_alpha * one_minus_alpha
  let one_minus_alpha_3 := one_minus_alpha * one_minus_alpha_2
  let beta1 := 1 - one_minus_alpha_3
  let dbeta1 := 3 * one_minus_alpha_2
  let beta2 := 3 * alpha2 - 2 * alpha3
  let dbeta2 := 6 * alpha * one_minus_alpha
  let beta3 := alpha3
  let dbeta3 := 3 * alpha2
  let w := controlVectors L a b
  let w1_beta1_exp := exponentialMap (beta1 • w.1)
  let w2_beta2_exp := exponentialMap (beta2 • w.2.1)
  let w3_beta3_exp := exponentialMap (beta3 • w.2.2)
  let w1_dbeta1 := quat 0 (dbeta1 • w.1)
  let w2_dbeta2 := quat 0 (dbeta2 • w.2.1)
  let w3_dbeta3 := quat 0 (dbeta3 • w.2.2)
  let diff := one_over_dt_sec •
    (T_W_A.rotation * w1_beta1_exp * w1_dbeta1 * w2_beta2_exp * w3_beta3_exp +
      T_W_A.rotation * w1_beta1_exp * w2_beta2_exp * w2_dbeta2 * w3_beta3_exp +
      T_W_A.rotation * w1_beta1_exp * w2_beta2_exp * w3_beta3_exp * w3_dbeta3)
  (velocity_m_s, diff)

/-- `evaluateDerivative` (271-376). -/
noncomputable def evaluateDerivative (L : LogMap) (time : ℝ) (derivativeOrder : Nat) (c : SE3) :
    Outcome (Option Twist) :=
  if derivativeOrder = 1 then
    if c.m.getMaxTime = time ∧ c.m.getMinTime = time then
      Outcome.deref c.m.nodes.head? >>= fun n => .ok (some n.coef.derivative)
    else
      match c.m.getCoefficientsAt time with
      | none => .ok none
      | some (a, b) =>
        let d := interpolateDerivative L a b time
        evaluate L time c >>= fun r =>
        match r with
        | none => .ok none
        | some q => .ok (some ⟨d.1, rotate q.rotation (imaginary (inverted q.rotation * d.2))⟩)
  else .ok none

/-- The formulas of `evaluateLinearAcceleration` (387-412). -/
noncomputable def interpolateAcceleration (a b : Node ℝ HKnot) (time : ℝ) : Vec3 :=
  let T_W_A := a.coef.transformation
  let T_W_B := b.coef.transformation
  let d_W_A := a.coef.derivative
  let d_W_B := b.coef.derivative
  let dt_sec := b.time - a.time
  let one_over_dt_sec := 1 / dt_sec
  let alpha := (time - a.time) / dt_sec
  let d_alpha := one_over_dt_sec
  let d_gamma0 := 6 * (2 * alpha - 1) * d_alpha
  let d_gamma1 := (6 * alpha - 4) * d_alpha
  let d_gamma2 := 6 * (1 - 2 * alpha) * d_alpha
  let d_gamma3 := (6 * alpha - 2) * d_alpha
  one_over_dt_sec • d_gamma0 • T_W_A.position + d_gamma1 • d_W_A.translationalVelocity +
    one_over_dt_sec • d_gamma2 • T_W_B.position + d_gamma3 • d_W_B.translationalVelocity

/-- `evaluateLinearAcceleration` (378-416). -/
noncomputable def evaluateLinearAcceleration (time : ℝ) (c : SE3) : Outcome (Option Vec3) :=
  match c.m.getCoefficientsAt time with
  | none => .ok none
  | some (a, b) => .ok (some (interpolateAcceleration a b time))

/-- `setTimeRange` (492-495), a failing `CHECK`. -/
def setTimeRange (_minTime _maxTime : ℝ) (_c : SE3) : Outcome SE3 := .abort

/-- The functions `evaluateAngularVelocityA` to `evaluateDerivativeB` (497-551): all of them are a failing
`CHECK` and nothing else. -/
inductive Unimplemented where
  | angularVelocityA | angularVelocityB | linearVelocityA | linearVelocityB | twistA | twistB
  | angularDerivativeA (order : Nat) | angularDerivativeB (order : Nat)
  | linearDerivativeA (order : Nat) | linearDerivativeB (order : Nat)
  | derivativeA (order : Nat) | derivativeB (order : Nat)

/-- Calling one of them (497-551). -/
def callUnimplemented (_f : Unimplemented) (_time : ℝ) (_c : SE3) : Outcome (List ℝ) := .abort

/-- `transformCurve` (567-569): an empty body. -/
def transformCurve (_T : Pose) (c : SE3) : Outcome SE3 := .ok c

end SE3

end Verif.Hermite

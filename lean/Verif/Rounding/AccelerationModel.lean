import Verif.Rounding.Model

/-!
# The acceleration of the Hermite position curve, computed in rounded arithmetic

`CubicHermiteE3Curve::evaluateLinearAcceleration`, with a rounding after every operation, as `evaluate` and
`evaluateVelocity` in `Verif.Rounding.Model`.
-/

set_option linter.unusedSectionVars false
set_option linter.dupNamespace false

namespace Verif.Rounding

section
variable {K : Type} [Field K] [LinearOrder K] [IsStrictOrderedRing K]

open Verif.Manager Verif.Hermite

/-- The formulas of `evaluateLinearAcceleration` (CubicHermiteE3Curve.cpp:303-326). Eigen does the operations
coordinate by coordinate. -/
def interpolateAcceleration (R : Rounding K) (a b : Node K (Knot (Vec3 K))) (time : K) : Vec3 K :=
  let dt_sec := R.rnd (b.time - a.time)
  let one_over_dt_sec := R.rnd (1 / dt_sec)
  let al := alpha R a.time b.time time
  let d_alpha := one_over_dt_sec
  let d_gamma0 := R.rnd (R.rnd (6 * R.rnd (R.rnd (2 * al) - 1)) * d_alpha)
  let d_gamma1 := R.rnd (R.rnd (R.rnd (6 * al) - 4) * d_alpha)
  let d_gamma2 := R.rnd (R.rnd (6 * R.rnd (1 - R.rnd (2 * al))) * d_alpha)
  let d_gamma3 := R.rnd (R.rnd (R.rnd (6 * al) - 2) * d_alpha)
  fun x => R.rnd (R.rnd (R.rnd (R.rnd (R.rnd (a.coef.position x * d_gamma0) * one_over_dt_sec) +
    R.rnd (a.coef.velocity x * d_gamma1)) + R.rnd (R.rnd (b.coef.position x * d_gamma2) * one_over_dt_sec)) +
    R.rnd (b.coef.velocity x * d_gamma3))

/-- `evaluateLinearAcceleration` (CubicHermiteE3Curve.cpp:294-329), called by `evaluateDerivative(time, 2)`
(CubicHermiteE3Curve.cpp:282-286). -/
def evaluateAcceleration (R : Rounding K) (time : K) (m : Mgr K (Knot (Vec3 K))) : Outcome (Option (Vec3 K)) :=
  match m.getCoefficientsAt time with
  | none => .ok none
  | some (a, b) => .ok (some (interpolateAcceleration R a b time))

end

end Verif.Rounding

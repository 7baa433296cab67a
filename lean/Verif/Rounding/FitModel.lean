import Verif.Rounding.Model
import Verif.Hermite.E3Model

/-!
# Fitting Hermite curves with rounded arithmetic

`CubicHermiteE3Curve::fitCurve` and its relatives, with a rounding after every operation. The manager only compares
times. The base model with exact arithmetic is in `Verif.Hermite.E3Model`; `Verif.Rounding.FitProps` proves that the
definitions here are the same when nothing is rounded.
-/

set_option linter.unusedSectionVars false
set_option linter.dupNamespace false

namespace Verif.Rounding

variable {K : Type} [Field K] [LinearOrder K] [IsStrictOrderedRing K]

open Verif.Manager Verif.Hermite

/-- `calculateSlope` (CubicHermiteE3Curve.cpp:102-114). Eigen does the operations coordinate by coordinate. -/
def calculateSlope (R : Rounding K) (timeA timeB : K) (positionA positionB : Vec3 K) : Vec3 K :=
  let inverse_dt_sec := R.rnd (1 / R.rnd (timeB - timeA))
  fun x => R.rnd (R.rnd (positionB x - positionA x) * inverse_dt_sec)

/-- The derivative chosen for knot `i` (CubicHermiteE3Curve.cpp:155-173). Reading `times` or `values` out of bounds
is undefined behaviour. -/
def knotDerivative (R : Rounding K) (ts : List K) (vs : List (Vec3 K)) (d0 dT : Vec3 K) (i : Nat) :
    Outcome (Vec3 K) :=
  if i = 0 then .ok d0
  else if i = ts.length - 1 then .ok dT
  else
    Outcome.deref ts[i - 1]? >>= fun ta => Outcome.deref ts[i + 1]? >>= fun tb =>
    Outcome.deref vs[i - 1]? >>= fun va => Outcome.deref vs[i + 1]? >>= fun vb =>
    .ok (calculateSlope R ta tb va vb)

/-- The loop of `fitCurveWithDerivatives` (CubicHermiteE3Curve.cpp:154-176): the knots `i, i+1, ...` (`n` of
them). -/
def fitLoop (R : Rounding K) (ts : List K) (vs : List (Vec3 K)) (d0 dT : Vec3 K) :
    Nat → Nat → Outcome (List (Knot (Vec3 K)))
  | 0, _ => .ok []
  | n + 1, i =>
    knotDerivative R ts vs d0 dT i >>= fun d => Outcome.deref vs[i]? >>= fun v =>
    fitLoop R ts vs d0 dT n (i + 1) >>= fun r => .ok (⟨v, d⟩ :: r)

/-- `fitCurveWithDerivatives` (CubicHermiteE3Curve.cpp:143-179). `debug` says whether `assert` is compiled in (148).
The second component of the result is what is appended to `*outKeys`. -/
def fitCurveWithDerivatives (R : Rounding K) (debug : Bool) (ts : List K) (vs : List (Vec3 K)) (d0 dT : Vec3 K)
    (c : E3 K (Vec3 K)) : Outcome (E3 K (Vec3 K) × List Key) :=
  if debug ∧ ts.length ≠ vs.length then .abort
  else
    fitLoop R ts vs d0 dT ts.length 0 >>= fun cs =>
    c.m.insertCoefficients c.w ts cs >>= fun r => .ok (⟨r.1, r.2.1⟩, r.2.2)

/-- `fitCurve` (CubicHermiteE3Curve.cpp:124-128). -/
def fitCurve (R : Rounding K) (debug : Bool) (ts : List K) (vs : List (Vec3 K)) (c : E3 K (Vec3 K)) :
    Outcome (E3 K (Vec3 K) × List Key) :=
  fitCurveWithDerivatives R debug ts vs 0 0 c

end Verif.Rounding

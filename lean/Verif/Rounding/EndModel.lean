import Verif.Rounding.LineModel

/-!
# Where a fitted scalar curve begins and ends, with rounded arithmetic
-/

set_option linter.unusedSectionVars false
set_option linter.dupNamespace false

namespace Verif.Rounding

open Verif.Spline (Order Spline Vec)

variable {K : Type} [Field K] [LinearOrder K] (R : Rounding K)

/-- The loop of `extractSplineCoefficients` (PolynomialSplineContainer.tpp:553-557), from segment number `i` on. The
coefficients `cs i` are whatever the linear solver has answered: nothing is assumed about them. -/
def extract {o : Order} (cs : ℕ → Vec o K) : List K → ℕ → Box (Spline o K) K → Box (Spline o K) K
  | [], _, c => c
  | d :: ds, i, c => extract cs ds (i + 1) (c.addSpline R.arith Spline.duration ⟨cs i, d⟩)

/-- `setData` with boundary conditions (PolynomialSplineContainer.tpp:245-320 and 323-397) as far as the durations go:
`reset`, the check of the number of knots, the loop computing the durations, the solver (its answer is `cs`) and
`extractSplineCoefficients`. The empty list of knots, where `knotDurations.size()-1u` wraps round, is left out here (see
`Verif/Container/Model.lean`): it counts as one knot. -/
def setDataSolved {o : Order} (cs : ℕ → Vec o K) (ts : List K) (c : Box (Spline o K) K) :
    Outcome (Bool × Box (Spline o K) K) :=
  if ts.length < 2 then .ok (false, c.reset R.arith)
  else
    segDurations R.arith ts (ts.length - 1) 0 >>= fun r =>
      match r with
      | none => .ok (false, c.reset R.arith)
      | some ds => .ok (true, extract R cs ds 0 (c.reset R.arith))

/-- What the times of a scalar curve depend on (PolynomialSplineScalarCurve.hpp:153-154): the container and
`minTime_`. -/
structure ScalarCurve (o : Order) (K : Type) where
  container : Box (Spline o K) K
  minTime : K

/-- `fitCurve` (PolynomialSplineScalarCurve.hpp:114-119 and 121-129): the answer of `setData` is dropped and the first
time becomes `minTime_`; `times.front()` of an empty list is undefined behaviour. -/
def ScalarCurve.fitCurve {o : Order} (cs : ℕ → Vec o K) (ts : List K) (s : ScalarCurve o K) :
    Outcome (ScalarCurve o K) :=
  setDataSolved R cs ts s.container >>= fun r => Outcome.deref ts.head? >>= fun t0 => .ok ⟨r.2, t0⟩

/-- `fitCurve` when there are fewer coefficients than conditions (orders 1 and 2): `setData` falls back to the
straight-line version (PolynomialSplineContainer.tpp:273-276, 350-353). -/
def ScalarCurve.fitLines {o : Order} (ts ps : List K) (s : ScalarCurve o K) : Outcome (ScalarCurve o K) :=
  setDataLinear R ts ps s.container >>= fun r => Outcome.deref ts.head? >>= fun t0 => .ok ⟨r.2, t0⟩

/-- `getMinTime` (PolynomialSplineScalarCurve.hpp:72-75). -/
def ScalarCurve.getMinTime {o : Order} (s : ScalarCurve o K) : K := s.minTime

/-- `getMaxTime` (PolynomialSplineScalarCurve.hpp:77-80): `container_.getContainerDuration() + minTime_`. -/
def ScalarCurve.getMaxTime {o : Order} (s : ScalarCurve o K) : K := R.rnd (s.container.duration + s.minTime)

end Verif.Rounding

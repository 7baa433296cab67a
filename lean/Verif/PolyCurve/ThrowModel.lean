import Verif.PolyCurve.Model

/-!
# The state a fit of `PolynomialSplineVectorSpaceCurve` leaves behind

`Verif.PolyCurve.Model` forgets the curve when a call does not return. A C++ exception can be caught, and the curve used
again. Here the same functions return the outcome and the curve as it is when the call is left.
-/

set_option linter.unusedSectionVars false
set_option linter.dupNamespace false

namespace Verif.PolyCurve

open Verif.Spline Verif.Container

variable {K : Type} [Field K] [LinearOrder K] [IsStrictOrderedRing K] {N : ℕ}

/-- `for (i = 0; i < N; ++i) containers_.at(i) = ...` over the remaining indices
(PolynomialSplineVectorSpaceCurve.hpp:90-95, 106-112, 121-135), with the containers as they are when the loop is left. The
only call of the body that changes a container is `setData`, which does not throw. -/
def loopKeep (f : Fin N → Container .o5 K → Outcome (Container .o5 K)) :
    List (Fin N) → (Fin N → Container .o5 K) → Outcome Unit × (Fin N → Container .o5 K)
  | [], cs => (.ok (), cs)
  | i :: is, cs =>
    match f i (cs i) with
    | .ok d => loopKeep f is (Function.update cs i d)
    | .abort => (.abort, cs)
    | .throw => (.throw, cs)
    | .ub => (.ub, cs)

/-- `fitCurve(times, values, initialVelocity, initialAcceleration, finalVelocity, finalAcceleration)`
(PolynomialSplineVectorSpaceCurve.hpp:98-113): `minTime_` is set first. -/
def VectorCurve.fitCurveKeep (S : RawSolver K) (ts : List K) (vs : List (Fin N → K)) (v0 a0 vT aT : Fin N → K)
    (c : VectorCurve N K) : Outcome Unit × VectorCurve N K :=
  match ts with
  | [] => (.ub, c)
  | t0 :: _ =>
    let r := loopKeep (fun i d => VectorCurve.collect vs i ts.length 0 >>= fun ps =>
      Container.setDataAcc S ts ps (v0 i) (a0 i) (vT i) (aT i) d >>= fun r => .ok r.2) (List.finRange N) c.containers
    (r.1, ⟨r.2, t0⟩)

/-- `fitCurve(times, values, firstDerivatives, secondDerivatives)` (PolynomialSplineVectorSpaceCurve.hpp:115-136):
`minTime_` is set first. -/
def VectorCurve.fitDerivativesKeep (S : RawSolver K) (ts : List K) (vs ds es : List (Fin N → K))
    (c : VectorCurve N K) : Outcome Unit × VectorCurve N K :=
  match ts with
  | [] => (.ub, c)
  | t0 :: _ =>
    let r := loopKeep (fun i d => VectorCurve.collect vs i ts.length 0 >>= fun ps =>
      VectorCurve.collect ds i ts.length 0 >>= fun d1 => VectorCurve.collect es i ts.length 0 >>= fun d2 =>
      Outcome.deref d1.head? >>= fun v0 => Outcome.deref d2.head? >>= fun a0 =>
      Outcome.deref d1.getLast? >>= fun vT => Outcome.deref d2.getLast? >>= fun aT =>
      Container.setDataAcc S ts ps v0 a0 vT aT d >>= fun r => .ok r.2) (List.finRange N) c.containers
    (r.1, ⟨r.2, t0⟩)

end Verif.PolyCurve

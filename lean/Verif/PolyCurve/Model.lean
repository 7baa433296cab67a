import Verif.Container.Model

/-!
# Model of `PolynomialSplineScalarCurve.hpp` and `PolynomialSplineVectorSpaceCurve.hpp`

`double` and `Time` are an ordered field `K`. `print` is in `Verif/Print/Model.lean`. The parameter `outKeys` is not used
by the code and left out.
-/

set_option linter.unusedSectionVars false
set_option linter.dupNamespace false

namespace Verif.PolyCurve

open Verif.Spline Verif.Container

variable {K : Type} [Field K] [LinearOrder K] [IsStrictOrderedRing K] {o : Order}

/-- `class PolynomialSplineScalarCurve` (PolynomialSplineScalarCurve.hpp:27-155). The library only
instantiates it with the quintic container (line 157); the model allows every order. -/
structure ScalarCurve (o : Order) (K : Type) where
  /-- `container_` -/
  container : Container o K
  /-- `minTime_` -/
  minTime : K

namespace ScalarCurve

/-- Constructor (PolynomialSplineScalarCurve.hpp:37-42). -/
def fresh : ScalarCurve o K := ⟨Container.fresh, 0⟩

/-- `getMinTime` (PolynomialSplineScalarCurve.hpp:72-75). -/
def getMinTime (c : ScalarCurve o K) : K := c.minTime

/-- `getMaxTime` (PolynomialSplineScalarCurve.hpp:77-80). -/
def getMaxTime (c : ScalarCurve o K) : K := c.container.duration + c.minTime

/-- `evaluate` (PolynomialSplineScalarCurve.hpp:82-87). It always returns `true`; the result here is
the value written. -/
def evaluate (t : K) (c : ScalarCurve o K) : Outcome K :=
  c.container.getPositionAtTime (t - c.minTime)

/-- `evaluateDerivative` (PolynomialSplineScalarCurve.hpp:89-106). `none`: the call returns `false`
and writes nothing. -/
def evaluateDerivative (t : K) (derivativeOrder : ℕ) (c : ScalarCurve o K) : Outcome (Option K) :=
  if derivativeOrder = 1 then c.container.getVelocityAtTime (t - c.minTime) >>= fun x => .ok (some x)
  else if derivativeOrder = 2 then
    c.container.getAccelerationAtTime (t - c.minTime) >>= fun x => .ok (some x)
  else .ok none

/-- `extend` (PolynomialSplineScalarCurve.hpp:108-112). -/
def extend (_ts _vs : List K) (_c : ScalarCurve o K) : Outcome (ScalarCurve o K) := .throw

/-- `fitCurve(times, values, initialVelocity, initialAcceleration, finalVelocity, finalAcceleration)`
(PolynomialSplineScalarCurve.hpp:121-129). The result of `setData` is ignored. `times.front()` on an
empty vector is undefined behaviour. -/
def fitCurveWith (S : RawSolver K) (ts vs : List K) (v0 a0 vT aT : K) (c : ScalarCurve o K) :
    Outcome (ScalarCurve o K) :=
  Container.setDataAcc S ts vs v0 a0 vT aT c.container >>= fun r =>
  Outcome.deref ts.head? >>= fun t0 => .ok ⟨r.2, t0⟩

/-- `fitCurve(times, values)` (PolynomialSplineScalarCurve.hpp:114-119). -/
def fitCurve (S : RawSolver K) (ts vs : List K) (c : ScalarCurve o K) : Outcome (ScalarCurve o K) :=
  c.fitCurveWith S ts vs 0 0 0 0

/-- `fitCurve(optionList)` (PolynomialSplineScalarCurve.hpp:131-139): appends one spline per element.
In the code this only compiles for the quintic container. -/
def fitCurveOptions (S : RawSolver K) (l : List (Options K)) (c : ScalarCurve o K) : ScalarCurve o K :=
  ⟨l.foldl (fun d p => d.addSpline ((Spline.empty o).computeCoefficients S p).2) c.container, 0⟩

/-- `clear` (PolynomialSplineScalarCurve.hpp:141-145). -/
def clear (c : ScalarCurve o K) : ScalarCurve o K := ⟨c.container.reset, 0⟩

/-- `transformCurve` (PolynomialSplineScalarCurve.hpp:147-150). -/
def transformCurve (_T : K) (_c : ScalarCurve o K) : Outcome (ScalarCurve o K) := .abort

end ScalarCurve

/-- `class PolynomialSplineVectorSpaceCurve<SplineType, N>`
(PolynomialSplineVectorSpaceCurve.hpp:23-162). `containers_` is a vector of `N` quintic containers
whatever `SplineType` is (lines 34, 159). -/
structure VectorCurve (N : ℕ) (K : Type) where
  /-- `containers_` -/
  containers : Fin N → Container .o5 K
  /-- `minTime_` -/
  minTime : K

namespace VectorCurve

variable {N : ℕ}

/-- Constructor (PolynomialSplineVectorSpaceCurve.hpp:30-35). -/
def fresh : VectorCurve N K := ⟨fun _ => Container.fresh, 0⟩

/-- `getMinTime` (PolynomialSplineVectorSpaceCurve.hpp:45-48). -/
def getMinTime (c : VectorCurve N K) : K := c.minTime

/-- `getMaxTime` (PolynomialSplineVectorSpaceCurve.hpp:50-53). `at(0)` throws for `N = 0`. -/
def getMaxTime (c : VectorCurve N K) : Outcome K :=
  if h : 0 < N then .ok (c.containers ⟨0, h⟩).duration else .throw

/-- `evaluate` (PolynomialSplineVectorSpaceCurve.hpp:55-61), component `i`. The call returns `true`. -/
def evaluate (t : K) (c : VectorCurve N K) (i : Fin N) : Outcome K :=
  (c.containers i).getPositionAtTime t

/-- `evaluateDerivative` (PolynomialSplineVectorSpaceCurve.hpp:63-78), component `i`; `none`: the call
returns `false` (for `N > 0`). -/
def evaluateDerivative (t : K) (derivativeOrder : ℕ) (c : VectorCurve N K) (i : Fin N) :
    Outcome (Option K) :=
  if derivativeOrder = 1 then (c.containers i).getVelocityAtTime t >>= fun x => .ok (some x)
  else if derivativeOrder = 2 then
    (c.containers i).getAccelerationAtTime t >>= fun x => .ok (some x)
  else .ok none

/-- `extend` (PolynomialSplineVectorSpaceCurve.hpp:80-84). -/
def extend (_ts : List K) (_vs : List (Fin N → K)) (_c : VectorCurve N K) :
    Outcome (VectorCurve N K) := .throw

/-- `values.at(t)(i)` for `t` from `t` on, `k` values
(PolynomialSplineVectorSpaceCurve.hpp:93, 109, 127-129). `at` throws beyond the end. -/
def collect (vs : List (Fin N → K)) (i : Fin N) : ℕ → ℕ → Outcome (List K)
  | 0, _ => .ok []
  | k + 1, t =>
    (match vs[t]? with
      | some v => .ok (v i)
      | none => .throw) >>= fun x => collect vs i k (t + 1) >>= fun r => .ok (x :: r)

/-- `for (i = 0; i < N; ++i) containers_.at(i) = ...` over the remaining indices
(PolynomialSplineVectorSpaceCurve.hpp:90-95, 106-112, 121-135); `f i` is the loop body. -/
def loop (f : Fin N → Container .o5 K → Outcome (Container .o5 K)) :
    List (Fin N) → (Fin N → Container .o5 K) → Outcome (Fin N → Container .o5 K)
  | [], cs => .ok cs
  | i :: is, cs => f i (cs i) >>= fun d => loop f is (Function.update cs i d)

/-- `fitCurve(times, values, initialVelocity, initialAcceleration, finalVelocity, finalAcceleration)`
(PolynomialSplineVectorSpaceCurve.hpp:98-113). -/
def fitCurveWith (S : RawSolver K) (ts : List K) (vs : List (Fin N → K)) (v0 a0 vT aT : Fin N → K)
    (c : VectorCurve N K) : Outcome (VectorCurve N K) :=
  Outcome.deref ts.head? >>= fun t0 =>
  loop (fun i d => collect vs i ts.length 0 >>= fun ps =>
    Container.setDataAcc S ts ps (v0 i) (a0 i) (vT i) (aT i) d >>= fun r => .ok r.2)
    (List.finRange N) c.containers >>= fun cs => .ok ⟨cs, t0⟩

/-- `fitCurve(times, values)` (PolynomialSplineVectorSpaceCurve.hpp:86-96). -/
def fitCurve (S : RawSolver K) (ts : List K) (vs : List (Fin N → K)) (c : VectorCurve N K) :
    Outcome (VectorCurve N K) :=
  c.fitCurveWith S ts vs (fun _ => 0) (fun _ => 0) (fun _ => 0) (fun _ => 0)

/-- `fitCurve(times, values, firstDerivatives, secondDerivatives)`
(PolynomialSplineVectorSpaceCurve.hpp:115-136). Only the first and last derivatives are used. The code
reads the three lists in one loop; reading them one after the other has the same outcome. -/
def fitCurveDerivatives (S : RawSolver K) (ts : List K) (vs ds es : List (Fin N → K))
    (c : VectorCurve N K) : Outcome (VectorCurve N K) :=
  Outcome.deref ts.head? >>= fun t0 =>
  loop (fun i d => collect vs i ts.length 0 >>= fun ps => collect ds i ts.length 0 >>= fun d1 =>
    collect es i ts.length 0 >>= fun d2 =>
    Outcome.deref d1.head? >>= fun v0 => Outcome.deref d2.head? >>= fun a0 =>
    Outcome.deref d1.getLast? >>= fun vT => Outcome.deref d2.getLast? >>= fun aT =>
    Container.setDataAcc S ts ps v0 a0 vT aT d >>= fun r => .ok r.2)
    (List.finRange N) c.containers >>= fun cs => .ok ⟨cs, t0⟩

/-- `fitCurve(optionList)` (PolynomialSplineVectorSpaceCurve.hpp:139-144). -/
def fitCurveOptions (_l : List (Options K)) (_c : VectorCurve N K) : Outcome (VectorCurve N K) :=
  .throw

/-- `clear` (PolynomialSplineVectorSpaceCurve.hpp:146-151). `minTime_` stays. -/
def clear (c : VectorCurve N K) : VectorCurve N K :=
  { c with containers := fun i => (c.containers i).reset }

/-- `transformCurve` (PolynomialSplineVectorSpaceCurve.hpp:153-156). -/
def transformCurve (_T : Fin N → K) (_c : VectorCurve N K) : Outcome (VectorCurve N K) := .abort

end VectorCurve

end Verif.PolyCurve

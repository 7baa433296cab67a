import Verif.Map.Model

/-!
# Evaluating a curve whose knots are in a search tree, at a time that may not be a number

As in `Verif/Map/Model.lean`, `Cmp` collects the comparisons of `double`. What is computed from two neighbouring knots is a
parameter (`f`): only which knots are taken matters here.
-/

set_option linter.unusedSectionVars false
set_option linter.dupNamespace false

namespace Verif.Map

open Verif.Manager

variable {T C X : Type} (c : Cmp T)

/-- `getMinTime` (LocalSupport2CoefficientManager-inl.hpp:359-365). -/
def minTime (zero : T) (t : Nodes T C) : T :=
  match t.toList.head? with
  | none => zero
  | some n => n.time

/-- `evaluate` (CubicHermiteE3Curve.cpp:184-231, CubicHermiteSE3Curve.cpp:195-269) and `evaluateDerivative` of order 1
(CubicHermiteE3Curve.cpp:236-281) of the Hermite curves: `single` is what is read from the knot of a curve with one knot, `f`
the interpolation between two. `none`: the call returns `false` and writes nothing. -/
def evaluateHermite (zero : T) (single : C → X) (f : Node T C → Node T C → T → X) (time : T) (t : Nodes T C) :
    Outcome (Option X) :=
  if c.eq (maxTime zero t) time ∧ c.eq (minTime zero t) time then
    Outcome.deref t.toList.head? >>= fun n => .ok (some (single n.coef))
  else
    match getCoefficientsAt c zero t time with
    | none => .ok none
    | some (a, b) => .ok (some (f a b time))

/-- `evaluate` of the discrete and slerp curves (DiscreteSE3Curve.cpp:148-173, SemiDiscreteSE3Curve.cpp:146-172,
SlerpSE2Curve.cpp:155-179). -/
def evaluateKnots (zero : T) (f : Node T C → Node T C → T → C) (time : T) (t : Nodes T C) : Outcome C :=
  if c.eq (maxTime zero t) time ∧ c.eq (minTime zero t) time then
    Outcome.deref t.toList.head? >>= fun n => .ok n.coef
  else if c.eq time (maxTime zero t) then
    Outcome.deref t.toList.getLast? >>= fun n => .ok n.coef
  else
    match getCoefficientsAt c zero t time with
    | none => .abort
    | some (a, b) => .ok (f a b time)

/-- `evaluateDerivative` of the discrete curves (DiscreteSE3Curve.cpp:94-118, SemiDiscreteSE3Curve.cpp:92-116):
`CHECK_GE(time, getMinTime())`, `CHECK_LE(time, getMaxTime())`, then the knots around the time. -/
def evaluateKnotsDerivative (zero : T) (f : Node T C → Node T C → T → X) (time : T) (t : Nodes T C) : Outcome X :=
  if ¬ c.le (minTime zero t) time then .abort
  else if ¬ c.le time (maxTime zero t) then .abort
  else
    match getCoefficientsAt c zero t time with
    | none => .abort
    | some (a, b) => .ok (f a b time)

end Verif.Map

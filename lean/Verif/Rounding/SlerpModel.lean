import Verif.Rounding.Model
import Verif.Discrete.Model

/-!
# Slerp curves with rounded times

The interpolation parameter is computed in rounded arithmetic; the values are combined exactly, by the exponential and
logarithm `L`.
-/

set_option linter.unusedSectionVars false
set_option linter.dupNamespace false

namespace Verif.Rounding

open Verif.Manager Verif.Discrete

variable {K G V : Type} [Field K] [LinearOrder K] [Group G] [AddCommGroup V] [Module K V] (R : Rounding K)

/-- The end of `SlerpSE2Curve::evaluate` (SlerpSE2Curve.cpp:167-176) and of `SemiDiscreteSE3Curve::evaluate`
(SemiDiscreteSE3Curve.cpp:159-169); `alpha` is `double(time - a->first)/double(b->first - a->first)`. -/
def slerpAt (L : ExpLog K G V) (a b : Node K G) (t : K) : G :=
  a.coef * L.exp (alpha R a.time b.time t • L.log (a.coef⁻¹ * b.coef))

/-- `evaluate` (SlerpSE2Curve.cpp:155-179, SemiDiscreteSE3Curve.cpp:146-172). -/
def evaluateSlerp (L : ExpLog K G V) (t : K) (m : Mgr K G) : Outcome G :=
  if m.getMaxTime = t ∧ m.getMinTime = t then
    Outcome.deref m.nodes.head? >>= fun n => .ok n.coef
  else if t = m.getMaxTime then
    Outcome.deref m.nodes.getLast? >>= fun n => .ok n.coef
  else
    match m.getCoefficientsAt t with
    | none => .abort
    | some (a, b) => .ok (slerpAt R L a b t)

/-- `getValueExpression` of `SlerpSE2Curve` (SlerpSE2Curve.cpp:121-147), with the two evaluations of its debug print. -/
def slerpExpr (L : ExpLog K G V) (t : K) (m : Mgr K G) : Outcome (Expr K) :=
  match m.getCoefficientsAt t with
  | none => .abort
  | some (a, b) =>
    if alpha R a.time b.time t = 0 then .ok (.leaf a.key)
    else if alpha R a.time b.time t = 1 then .ok (.leaf b.key)
    else
      evaluateSlerp R L a.time m >>= fun _ =>
      evaluateSlerp R L b.time m >>= fun _ =>
      .ok (.slerp a.key b.key (alpha R a.time b.time t))

end Verif.Rounding

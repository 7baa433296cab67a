import Verif.Rounding.Model
import Verif.Discrete.Model

/-!
# The discrete curve in rounded arithmetic
-/

set_option linter.unusedSectionVars false
set_option linter.dupNamespace false

namespace Verif.Rounding

open Verif.Manager

variable {K G : Type} [Field K] [LinearOrder K] (R : Rounding K)

/-- `b->first - time >= time - a->first` (DiscreteSE3Curve.cpp:165, 136). -/
def nearFirst (a b t : K) : Bool := decide (R.rnd (t - a) ≤ R.rnd (b - t))

/-- `DiscreteSE3Curve::evaluate` (DiscreteSE3Curve.cpp:148-172). -/
def evaluateDiscrete (t : K) (m : Mgr K G) : Outcome G :=
  if m.getMaxTime = t ∧ m.getMinTime = t then
    Outcome.deref m.nodes.head? >>= fun n => .ok n.coef
  else if t = m.getMaxTime then
    Outcome.deref m.nodes.getLast? >>= fun n => .ok n.coef
  else
    match m.getCoefficientsAt t with
    | none => .abort
    | some (a, b) => .ok (if nearFirst R a.time b.time t then a.coef else b.coef)

/-- `getValueExpression` of the discrete curve (DiscreteSE3Curve.cpp:123-141): the key of the leaf. -/
def discreteLeaf (t : K) (m : Mgr K G) : Outcome Nat :=
  match m.getCoefficientsAt t with
  | none => .abort
  | some (a, b) => .ok (if nearFirst R a.time b.time t then a.key else b.key)

end Verif.Rounding

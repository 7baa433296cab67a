import Verif.Rounding.SpecialModel
import Verif.Rounding.SlerpModel
import Mathlib.Algebra.Order.Monoid.Unbundled.WithTop

/-!
# Infinite knot times

`double` has two infinities, which the coefficient manager takes for times like others: they can be compared. Times are here
`WithBot (WithTop K)`, and the formulas are those of `Verif/Rounding/SpecialModel.lean` with such times.
-/

set_option linter.unusedSectionVars false
set_option linter.dupNamespace false

namespace Verif.Rounding

open Verif.Manager Verif.Hermite Verif.Discrete Fl

variable {K : Type} [Field K] [LinearOrder K]

/-- A `double` other than NaN as a time. -/
abbrev Ti (K : Type) := WithBot (WithTop K)

/-- A number as a time. -/
def Ti.num (x : K) : Ti K := ((x : WithTop K) : WithBot (WithTop K))

/-- A time as a `double`. -/
def Ti.toFl : Ti K → Fl K
  | ⊥ => inf true
  | ((⊤ : WithTop K) : WithBot (WithTop K)) => inf false
  | ((x : K) : WithTop K) => Fl.num x

/-- `x <= y` of `double`. -/
def Fl.le : Fl K → Fl K → Bool
  | nan, _ => false
  | _, nan => false
  | inf true, _ => true
  | _, inf false => true
  | Fl.num x, Fl.num y => decide (x ≤ y)
  | _, _ => false

variable [IsStrictOrderedRing K] (R : Rounding K)

/-- `alpha` (CubicHermiteE3Curve.cpp:207-208, SlerpSE2Curve.cpp:169, SemiDiscreteSE3Curve.cpp:161). -/
def alphaI (a b t : Ti K) : Fl K := div R (sub R t.toFl a.toFl) (sub R b.toFl a.toFl)

/-- The formulas of `evaluate` (CubicHermiteE3Curve.cpp:206-227). -/
def interpolateI (a b : Node (Ti K) (Knot (Vec3 (Fl K)))) (time : Ti K) : Vec3 (Fl K) :=
  let dt_sec := sub R b.time.toFl a.time.toFl
  let al := alphaI R a.time b.time time
  let alpha2 := mul R al al
  let alpha3 := mul R alpha2 al
  let beta0 := add R (sub R (mul R (num 2) alpha3) (mul R (num 3) alpha2)) (num 1)
  let beta1 := add R (mul R (num (-2)) alpha3) (mul R (num 3) alpha2)
  let beta2 := add R (sub R alpha3 (mul R (num 2) alpha2)) al
  let beta3 := sub R alpha3 alpha2
  fun x => add R (add R (add R (mul R (a.coef.position x) beta0) (mul R (b.coef.position x) beta1))
    (mul R (a.coef.velocity x) (mul R beta2 dt_sec))) (mul R (b.coef.velocity x) (mul R beta3 dt_sec))

/-- `evaluate` (CubicHermiteE3Curve.cpp:184-231). -/
def evaluateI (time : Ti K) (m : Mgr (Ti K) (Knot (Vec3 (Fl K)))) : Outcome (Option (Vec3 (Fl K))) :=
  if m.getMaxTime = time ∧ m.getMinTime = time then
    Outcome.deref m.nodes.head? >>= fun n => .ok (some n.coef.position)
  else
    match m.getCoefficientsAt time with
    | none => .ok none
    | some (a, b) => .ok (some (interpolateI R a b time))

/-- `DiscreteSE3Curve::evaluate` (DiscreteSE3Curve.cpp:148-172): `b->first - time >= time - a->first`. -/
def evaluateDiscreteI {G : Type} (t : Ti K) (m : Mgr (Ti K) G) : Outcome G :=
  if m.getMaxTime = t ∧ m.getMinTime = t then
    Outcome.deref m.nodes.head? >>= fun n => .ok n.coef
  else if t = m.getMaxTime then
    Outcome.deref m.nodes.getLast? >>= fun n => .ok n.coef
  else
    match m.getCoefficientsAt t with
    | none => .abort
    | some (a, b) =>
      .ok (if Fl.le (sub R t.toFl a.time.toFl) (sub R b.time.toFl t.toFl) then a.coef else b.coef)

variable {G V : Type} [Group G] [AddCommGroup V] [Module K V] (L : ExpLog K G V)

/-- The end of `SlerpSE2Curve::evaluate` and of `SemiDiscreteSE3Curve::evaluate` (SlerpSE2Curve.cpp:167-176,
SemiDiscreteSE3Curve.cpp:159-169): `none` stands for a pose computed from a parameter that is no number. -/
def slerpAtI (a b : Node (Ti K) G) (t : Ti K) : Option G :=
  match alphaI R a.time b.time t with
  | Fl.num x => some (a.coef * L.exp (x • L.log (a.coef⁻¹ * b.coef)))
  | _ => none

/-- `evaluate` (SlerpSE2Curve.cpp:155-179, SemiDiscreteSE3Curve.cpp:146-172). -/
def evaluateSlerpI (t : Ti K) (m : Mgr (Ti K) G) : Outcome (Option G) :=
  if m.getMaxTime = t ∧ m.getMinTime = t then
    Outcome.deref m.nodes.head? >>= fun n => .ok (some n.coef)
  else if t = m.getMaxTime then
    Outcome.deref m.nodes.getLast? >>= fun n => .ok (some n.coef)
  else
    match m.getCoefficientsAt t with
    | none => .abort
    | some (a, b) => .ok (slerpAtI R L a b t)

end Verif.Rounding

import Verif.Hermite.SE3Model

/-!
# Model of the sampling policy of `CubicHermiteSE3Curve`

`SamplingPolicy::defaultExtend`, `interpolationExtend` and `extend`, specialised for
`CubicHermiteSE3Curve` (`curves/include/curves/CubicHermiteSE3Curve.hpp` 289-391), and the class
`SamplingPolicy` (`curves/include/curves/SamplingPolicy.hpp`). The member function
`CubicHermiteSE3Curve::extend` throws instead of calling them (`SE3.extend`), but they are public
functions of `SamplingPolicy`, a friend of the curve: a client with a policy of its own can call them.

Line numbers without a file refer to `CubicHermiteSE3Curve.hpp`.
-/

set_option linter.unusedSectionVars false
set_option linter.dupNamespace false

namespace Verif.Hermite

open Verif.Manager Verif.Kindr

/-- `SamplingPolicy` (`SamplingPolicy.hpp` 14-20). -/
structure HPol where
  /-- `measurementsSinceLastExtend_` -/
  since : Int
  /-- `minimumMeasurements_` -/
  minMeas : Int
  /-- `minSamplingPeriod_` -/
  period : ℝ
  /-- `lastExtend_` -/
  lastExtend : ℝ

namespace HPol

/-- Default constructor (`SamplingPolicy.hpp` 24-28). -/
noncomputable def fresh : HPol := ⟨0, 1, 0, 0⟩

/-- `SamplingPolicy(minimumMeasurements, minSamplingPeriod)` (`SamplingPolicy.hpp` 30-34). -/
noncomputable def make (minMeas : Int) (period : ℝ) : HPol := ⟨0, minMeas, period, 0⟩

/-- Process state, curve and policy after an insertion; the key the two functions return is dropped by
`extend`. -/
noncomputable def insert (p : HPol) (c : SE3) (t : ℝ) (k : HKnot) : Outcome (HPol × SE3) :=
  c.m.insertCoefficient c.w t k >>= fun r => .ok (p, ⟨r.1, r.2.1⟩)

/-- `defaultExtend` (290-337). The result of `getCoefficientsAt` is ignored (319-321); if it fails,
uninitialised iterators are dereferenced. -/
noncomputable def defaultExtend (L : LogMap) (p : HPol) (c : SE3) (t : ℝ) (v : Pose) :
    Outcome (HPol × SE3) :=
  let p' : HPol := { p with since := 0, lastExtend := t }
  if c.m.size = 0 then insert p' c t ⟨v, Twist.zero⟩
  else if c.m.size = 1 then
    Outcome.deref c.m.nodes.head? >>= fun last =>
    let derivative := SE3.calculateSlope L last.time t last.coef.transformation v
    c.m.updateCoefficientByKey last.key ⟨last.coef.transformation, derivative⟩ >>= fun m =>
    insert p' ⟨c.w, m⟩ t ⟨v, derivative⟩
  else
    Outcome.deref c.m.nodes.getLast? >>= fun last =>
    Outcome.deref (c.m.getCoefficientsAt last.time) >>= fun r =>
    let derivative0 := SE3.calculateSlope L r.1.time t r.1.coef.transformation v
    c.m.updateCoefficientByKey r.2.key ⟨r.2.coef.transformation, derivative0⟩ >>= fun m =>
    insert p' ⟨c.w, m⟩ t ⟨v, SE3.calculateSlope L r.2.time t r.2.coef.transformation v⟩

/-- `interpolationExtend` (339-367). `--coefficientEnd()` of an empty map and dereferencing the
uninitialised iterators after a failed `getCoefficientsAt` are undefined behaviour, and so is the
increment of an `int` equal to `2^31 - 1`. -/
noncomputable def interpolationExtend (L : LogMap) (p : HPol) (c : SE3) (t : ℝ) (v : Pose) :
    Outcome (HPol × SE3) :=
  let p' : HPol := { p with since := p.since + 1 }
  if p.since = 0 then
    Outcome.deref c.m.nodes.getLast? >>= fun last =>
    insert p' c t ⟨v, last.coef.derivative⟩
  else
    Outcome.deref c.m.nodes.getLast? >>= fun last =>
    Outcome.deref (c.m.getCoefficientsAt last.time) >>= fun r =>
    c.m.removeCoefficientAtTime r.2.time >>= fun m =>
    if p.since = 2 ^ 31 - 1 then .ub
    else insert p' ⟨c.w, m⟩ t ⟨v, SE3.calculateSlope L r.1.time t r.1.coef.transformation v⟩

/-- One round of the loop of `extend` (374-390). -/
noncomputable def extendOne (L : LogMap) (p : HPol) (c : SE3) (t : ℝ) (v : Pose) :
    Outcome (HPol × SE3) :=
  if ¬(c.m.getMaxTime < t ∨ c.m.size = 0) then .abort
  else if c.m.size = 0 then defaultExtend L p c t v
  else if p.since ≥ p.minMeas ∧ p.lastExtend + p.period < t then
    Outcome.deref c.m.nodes.getLast? >>= fun last =>
    c.m.removeCoefficientAtTime last.time >>= fun m =>
    defaultExtend L p ⟨c.w, m⟩ t v
  else interpolationExtend L p c t v

/-- `extend` (369-391): `times[i]` and `values[i]` for every `i < times.size()`; nothing is written to
`*outKeys`. A `values` that is too short is read out of bounds. -/
noncomputable def extend (L : LogMap) (p : HPol) (c : SE3) : List ℝ → List Pose → Outcome (HPol × SE3)
  | [], _ => .ok (p, c)
  | _ :: _, [] => .ub
  | t :: ts, v :: vs => extendOne L p c t v >>= fun r => extend L r.1 r.2 ts vs

end HPol

end Verif.Hermite

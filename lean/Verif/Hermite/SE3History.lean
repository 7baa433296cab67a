import Verif.Hermite.ExtendModel

/-!
# Histories of a `CubicHermiteSE3Curve`
-/

set_option linter.unusedSectionVars false
set_option linter.dupNamespace false

namespace Verif.Hermite

open Verif.Manager Verif.Kindr

namespace SE3

/-- The operations that change a curve. `extendWith` is a call of `SamplingPolicy::extend` on the curve
with a policy, in any state, that belongs to the client. -/
inductive Op where
  | fit (ts : List ℝ) (vs : List Pose)
  | fitDerivatives (ts : List ℝ) (vs : List Pose) (d0 dT : Twist)
  | fitPeriodic (ts : List ℝ) (vs : List Pose)
  | extend (ts : List ℝ) (vs : List Pose)
  | extendWith (p : HPol) (ts : List ℝ) (vs : List Pose)
  | transform (T : Pose)
  | clear

/-- One operation. -/
noncomputable def step (L : LogMap) (c : SE3) : Op → Outcome SE3
  | .fit ts vs => fitCurve L ts vs c >>= fun r => .ok r.1
  | .fitDerivatives ts vs d0 dT => fitCurveWithDerivatives L ts vs d0 dT c >>= fun r => .ok r.1
  | .fitPeriodic ts vs => fitPeriodicCurve L ts vs c >>= fun r => .ok r.1
  | .extend ts vs => extend ts vs c
  | .extendWith p ts vs => p.extend L c ts vs >>= fun r => .ok r.2
  | .transform T => transformCurve T c
  | .clear => .ok c.clear

/-- A history of operations. -/
noncomputable def run (L : LogMap) (c : SE3) : List Op → Outcome SE3
  | [] => .ok c
  | op :: rest => step L c op >>= fun c' => run L c' rest

/-- The rotations passed to an operation are unit quaternions. -/
def Op.UnitRotations : Op → Prop
  | .fit _ vs | .fitDerivatives _ vs _ _ | .fitPeriodic _ vs | .extend _ vs | .extendWith _ _ vs =>
    ∀ v ∈ vs, Quaternion.normSq v.rotation = 1
  | .transform T => Quaternion.normSq T.rotation = 1
  | .clear => True

/-- The curves that a program can hold: reached from a new curve by a history of operations that are
given unit quaternions. -/
def Reachable (L : LogMap) (c : SE3) : Prop :=
  ∃ w ops, (∀ op ∈ ops, Op.UnitRotations op) ∧ run L (fresh w) ops = .ok c

end SE3

end Verif.Hermite

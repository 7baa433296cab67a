import Verif.Ros.Model
import Verif.Rounding.Double

/-!
# Time stamps of ROS messages

`ros::Duration(point.time_from_start).toSec()` (`curves_ros/src/RosJointTrajectoryInterface.cpp` 41,
`RosMultiDOFJointTrajectoryInterface.cpp` 44, `RosMultiDOFJointTrajectoryTranslationInterface.cpp` 41).
-/

set_option linter.unusedSectionVars false
set_option linter.dupNamespace false

namespace Verif.Ros

open Verif.Rounding

/-- A `ros::Duration`: seconds and nanoseconds. -/
structure Stamp where
  sec : ℤ
  nsec : ℕ

/-- `ros::Duration::toSec` (called in RosJointTrajectoryInterface.cpp:41, RosMultiDOFJointTrajectoryInterface.cpp:44,
RosMultiDOFJointTrajectoryTranslationInterface.cpp:41): `(double)sec + 1e-9 * (double)nsec`. The two
conversions to `double` are exact. -/
def toSec {K : Type} [Field K] [LinearOrder K] (R : Rounding K) (d : Stamp) : K :=
  R.rnd (d.sec + R.rnd (R.rnd (1 / 10 ^ 9) * d.nsec))

/-- A message with the stamps converted (RosJointTrajectoryInterface.cpp:41). -/
def Msg.seconds {K P : Type} [Field K] [LinearOrder K] (R : Rounding K) (m : Msg Stamp P) : Msg K P :=
  ⟨m.names, m.points.map fun p => (toSec R p.1, p.2)⟩

end Verif.Ros

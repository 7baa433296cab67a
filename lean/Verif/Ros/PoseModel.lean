import Verif.Ros.Model

/-!
# Pose messages as they come

`curves_ros/src/RosMultiDOFJointTrajectoryInterface.cpp` with the conversion of the transforms.
-/

set_option linter.unusedSectionVars false
set_option linter.dupNamespace false

namespace Verif.Ros

open Verif.Kindr Verif.Hermite

/-- `geometry_msgs/Transform`: the translation, and a quaternion nothing is known about. -/
structure Transform where
  translation : Vec3
  x : ℝ
  y : ℝ
  z : ℝ
  w : ℝ

/-- `kindr_ros::convertFromRosGeometryMsg` (external; called in RosMultiDOFJointTrajectoryInterface.cpp:46): the components
are copied. In a debug build kindr asserts that the quaternion is roughly of unit length; not modelled (release build). -/
noncomputable def convert (g : Transform) : Pose := ⟨g.translation, quat g.w ![g.x, g.y, g.z]⟩

/-- The message with the transforms converted. The loop (RosMultiDOFJointTrajectoryInterface.cpp:43-48) converts only the
transform of the joint; the others are not looked at, so converting all makes no difference. -/
noncomputable def Msg.converted (m : Msg ℝ Transform) : Msg ℝ Pose :=
  ⟨m.names, m.points.map fun p => (p.1, p.2.map convert)⟩

/-- `RosMultiDOFJointTrajectoryInterface::fromMessage` (RosMultiDOFJointTrajectoryInterface.cpp:30-55). -/
noncomputable def poseFromRos (L : LogMap) (m : Msg ℝ Transform) (name : String) (c : SE3) : Outcome (Bool × SE3) :=
  poseFromMessage L m.converted name c

end Verif.Ros

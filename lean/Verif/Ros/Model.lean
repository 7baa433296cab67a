import Verif.PolyCurve.Model
import Verif.Hermite.SE3Model

/-!
# Model of the ROS interfaces

`curves_ros/src/RosJointTrajectoryInterface.cpp`, `RosMultiDOFJointTrajectoryInterface.cpp` and
`RosMultiDOFJointTrajectoryTranslationInterface.cpp`. The three `fromMessage` have the same text up to the
type of the joint values and the curve they fit; `fromMessage` below is that text.

Time stamps are numbers; `ros::Duration::toSec` is in `Verif/Ros/StampModel.lean`. For the pose interface the
message is taken to hold the converted poses; the conversion is in `Verif/Ros/PoseModel.lean`.
-/

set_option linter.unusedSectionVars false
set_option linter.dupNamespace false

namespace Verif.Ros

/-- A joint trajectory message: `joint_names`, and for each point its `time_from_start` and the values of
the joints (`positions`, or `transforms`). -/
structure Msg (K P : Type) where
  names : List String
  points : List (K × List P)

/-- The search for the joint (RosJointTrajectoryInterface.cpp:30-35,
RosMultiDOFJointTrajectoryInterface.cpp:33-38, RosMultiDOFJointTrajectoryTranslationInterface.cpp:30-35) from
index `j` on; `n` is `nJoints`. `none`: `return false`. -/
def search (name : String) (n : Nat) : List String → Nat → Option Nat
  | [], j => some j
  | x :: rest, j =>
    if x = name then some j
    else if j = n - 1 then none
    else search name n rest (j + 1)

/-- The loop over `message.points` (RosJointTrajectoryInterface.cpp:40-43,
RosMultiDOFJointTrajectoryInterface.cpp:43-48, RosMultiDOFJointTrajectoryTranslationInterface.cpp:40-46).
`positions[j]` beyond the end is undefined behaviour. -/
def collect {K P : Type} (j : Nat) : List (K × List P) → Outcome (List K × List P)
  | [] => .ok ([], [])
  | (t, l) :: rest =>
    Outcome.deref l[j]? >>= fun p => collect j rest >>= fun r => .ok (t :: r.1, p :: r.2)

/-- `fromMessage` (RosJointTrajectoryInterface.cpp:27-50, RosMultiDOFJointTrajectoryInterface.cpp:30-55,
RosMultiDOFJointTrajectoryTranslationInterface.cpp:27-53) for a curve with state `S` and `fitCurve` `fit`. -/
def fromMessage {K P S : Type} (fit : List K → List P → S → Outcome S) (m : Msg K P) (name : String)
    (s : S) : Outcome (Bool × S) :=
  match search name m.names.length m.names 0 with
  | none => .ok (false, s)
  | some j => collect j m.points >>= fun r => fit r.1 r.2 s >>= fun s' => .ok (true, s')

open Verif.Spline Verif.PolyCurve Verif.Hermite Verif.Kindr

/-- `RosJointTrajectoryInterface::fromMessage`. -/
def scalarFromMessage {K : Type} [Field K] [LinearOrder K] [IsStrictOrderedRing K] (S : Solver K)
    (m : Msg K K) (name : String) (c : ScalarCurve .o5 K) : Outcome (Bool × ScalarCurve .o5 K) :=
  fromMessage (fun ts vs c => c.fitCurve S ts vs) m name c

/-- `RosMultiDOFJointTrajectoryTranslationInterface::fromMessage`. -/
def translationFromMessage {K : Type} [Field K] [LinearOrder K] [IsStrictOrderedRing K] (S : Solver K)
    (m : Msg K (Fin 3 → K)) (name : String) (c : VectorCurve 3 K) : Outcome (Bool × VectorCurve 3 K) :=
  fromMessage (fun ts vs c => c.fitCurve S ts vs) m name c

/-- `RosMultiDOFJointTrajectoryInterface::fromMessage`. -/
noncomputable def poseFromMessage (L : LogMap) (m : Msg ℝ Pose) (name : String) (c : SE3) :
    Outcome (Bool × SE3) :=
  fromMessage (fun ts vs c => SE3.fitCurve L ts vs c >>= fun r => .ok r.1) m name c

end Verif.Ros

import Verif.Discrete.SE2

/-!
# Points and ranges of planar poses

`curves/include/curves/Pose2_Expressions.hpp`: the functions that pass on to gtsam. Points of the plane
are complex numbers, poses are those of `Verif.Discrete.SE2`. The Jacobians these functions hand on come
from gtsam and are not modelled; `transformFromCurve`, `distanceBetweenPoints`, `poseRange` and
`pointRange` wrap the same calls into expressions.
-/

namespace Verif.Discrete

/-- `transformFromCurveImplementation` (131-135): `gtsam::Pose2::transform_from`, a point given in the
frame of the pose, in the world. -/
noncomputable def transformFromCurve (P : Pose2) (z : ℂ) : ℂ := P.pos + P.rot * z

/-- `distanceBetweenPointsImplementation` (143-147): `gtsam::Point2::distance`. -/
noncomputable def distanceBetweenPoints (p q : ℂ) : ℝ := ‖q - p‖

/-- `pointsSubtractionImplementation` (155-168), the value. -/
noncomputable def pointsSubtraction (p q : ℂ) : ℂ := ⟨p.re - q.re, p.im - q.im⟩

/-- `pose2AsPoint2Implementation` (176-181), the value. -/
noncomputable def pose2AsPoint2 (P : Pose2) : ℂ := ⟨P.pos.re, P.pos.im⟩

/-- `poseRangeImplementation` (187-191): `gtsam::Pose2::range(Pose2)`. -/
noncomputable def poseRange (P Q : Pose2) : ℝ := ‖Q.pos - P.pos‖

/-- `pointRangeImplementation` (198-202): `gtsam::Pose2::range(Point2)`, the length of the point in the
frame of the pose. -/
noncomputable def pointRange (P : Pose2) (z : ℂ) : ℝ := ‖((P.rot⁻¹ : Circle) : ℂ) * (z - P.pos)‖

end Verif.Discrete

import Mathlib.Analysis.Quaternion
import Mathlib.Analysis.SpecialFunctions.Trigonometric.Basic

/-!
# The kindr types the SE(3) curves are made of

kindr is an external library (not in `/repo`); its types reach the code through
`curves/include/curves/SE3Curve.hpp` 17-38 and `kindr/Core`. What is written down here is what the curves
use:

* `kindr::RotationQuaternion<double>` is a quaternion (Hamilton product) that callers keep at unit norm;
* `exponentialMap` and `rotate`, `inverseRotate`, `inverted`, `imaginary` by their formulas. kindr replaces
  the formula of `exponentialMap` by its Taylor polynomial for very small angles; this is not modelled;
* `logarithmicMap` by the contract in `LogMap`: on a unit quaternion `q` it returns a vector whose
  exponential is `q` or `-q` (the same rotation), and it maps the identity to 0. `logMap_exists` in
  `Verif/Kindr/Lemmas.lean` shows that such a function exists.

`double` is ℝ here: rounding is not modelled.
-/

namespace Verif.Kindr

/-- `Eigen::Vector3d`. -/
abbrev Vec3 := Fin 3 → ℝ

/-- `kindr::RotationQuaternion<double>`. -/
abbrev Quat := Quaternion ℝ

/-- Constructor `RotationQuaternion(Scalar real, const Imaginary& imag)`. -/
noncomputable def quat (real : ℝ) (imag : Vec3) : Quat := ⟨real, imag 0, imag 1, imag 2⟩

/-- The quaternion `(0, v)`. -/
noncomputable def vec (v : Vec3) : Quat := quat 0 v

/-- `imaginary()`. -/
noncomputable def imaginary (q : Quat) : Vec3 := ![q.imI, q.imJ, q.imK]

/-- `Eigen::Vector3d::norm()`. -/
noncomputable def vecNorm (v : Vec3) : ℝ := √(v 0 ^ 2 + v 1 ^ 2 + v 2 ^ 2)

/-- `RotationQuaternion().exponentialMap(v)`: the rotation by the angle `|v|` about `v`. -/
noncomputable def exponentialMap (v : Vec3) : Quat :=
  let n := vecNorm v
  if n = 0 then 1
  else quat (Real.cos (n / 2)) ((Real.sin (n / 2) / n) • v)

/-- `inverted()` of a unit quaternion: the conjugate. -/
noncomputable def inverted (q : Quat) : Quat := star q

/-- `q.rotate(v)` of a unit quaternion. -/
noncomputable def rotate (q : Quat) (v : Vec3) : Vec3 := imaginary (q * vec v * star q)

/-- `q.inverseRotate(v)` of a unit quaternion. -/
noncomputable def inverseRotate (q : Quat) (v : Vec3) : Vec3 := imaginary (star q * vec v * q)

/-- What is assumed of `logarithmicMap()`. -/
structure LogMap where
  log : Quat → Vec3
  exp_log : ∀ q : Quat, Quaternion.normSq q = 1 →
    exponentialMap (log q) = q ∨ exponentialMap (log q) = -q
  log_one : log 1 = 0

/-- `qB.boxMinus(qA)`: the logarithm of `qB * qA⁻¹`. -/
noncomputable def boxMinus (L : LogMap) (qB qA : Quat) : Vec3 := L.log (qB * inverted qA)

/-- `SE3Curve::ValueType`, `kindr::HomTransformQuatD`. -/
structure Pose where
  position : Vec3
  rotation : Quat

/-- `SE3Curve::DerivativeType`, `kindr::TwistGlobalD`: linear and (global) angular velocity. -/
structure Twist where
  translationalVelocity : Vec3
  rotationalVelocity : Vec3

/-- `DerivativeType()`. -/
noncomputable def Twist.zero : Twist := ⟨0, 0⟩

end Verif.Kindr

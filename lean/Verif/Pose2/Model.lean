import Mathlib.Analysis.SpecialFunctions.Trigonometric.Basic
import Mathlib.Analysis.SpecialFunctions.Pow.Real
import Mathlib.Analysis.Calculus.FDeriv.Basic
import Mathlib.LinearAlgebra.Matrix.Notation

/-!
# Model of `Pose2_Expressions.hpp`

`curves/include/curves/Pose2_Expressions.hpp`: the functions with Jacobians that `SlerpSE2Curve` hands to
gtsam. Modelled are the functions whose Jacobian is written down in this file; those that pass the Jacobian
on to gtsam (`inverseImplementation`, `composeImplementation`, `transformationExpImplementation`,
`transformFromCurveImplementation`, the distances and ranges, 32-49, 97-104, 131-153, 186-206) have no
Jacobian of their own. `double` is modelled by the reals.
-/

set_option linter.unusedSectionVars false
set_option linter.dupNamespace false

namespace Verif.Pose2

/-- `gtsam::Pose2`: cosine and sine of the rotation (`Rot2`), and the translation. -/
@[ext] structure SE2 where
  c : ℝ
  s : ℝ
  x : ℝ
  y : ℝ

/-- A vector of three numbers, `gtsam::Vector3`: two for the translation, the last for the rotation. -/
abbrev Vec3 := Fin 3 → ℝ

namespace SE2

/-- The rotation is one. -/
def Valid (T : SE2) : Prop := T.c ^ 2 + T.s ^ 2 = 1

/-- `gtsam::Pose2(x, y, theta)`. -/
noncomputable def ofXYT (w : Vec3) : SE2 := ⟨Real.cos (w 2), Real.sin (w 2), w 0, w 1⟩

/-- `gtsam::Pose2::compose`. -/
def compose (A B : SE2) : SE2 :=
  ⟨A.c * B.c - A.s * B.s, A.s * B.c + A.c * B.s,
    A.x + (A.c * B.x - A.s * B.y), A.y + (A.s * B.x + A.c * B.y)⟩

/-- The pose reached after unit time when moving with the constant body velocity `v`,
`gtsam::Pose2::Expmap` without its switch for angles below 1e-10. -/
noncomputable def exp (v : Vec3) : SE2 :=
  if v 2 = 0 then ⟨1, 0, v 0, v 1⟩
  else ⟨Real.cos (v 2), Real.sin (v 2),
    (Real.sin (v 2) * v 0 - (1 - Real.cos (v 2)) * v 1) / v 2,
    ((1 - Real.cos (v 2)) * v 0 + Real.sin (v 2) * v 1) / v 2⟩

end SE2

/-- `gtsam::Pose2::Logmap` (external): a velocity that leads to the given pose, with the angle in
`(-pi, pi]`. Not modelled: the switch for angles below 1e-10. -/
structure LogMap where
  log : SE2 → Vec3
  exp_log : ∀ T : SE2, T.Valid → SE2.exp (log T) = T
  angle : ∀ T : SE2, T.Valid → -Real.pi < log T 2 ∧ log T 2 ≤ Real.pi

/-- Local coordinates (external): how gtsam moves a pose by three small numbers. `coords d` is the small
pose, as `x, y, theta`, that is multiplied from the right; to first order it is `d`. Which chart gtsam uses
for `Pose2` depends on a compile-time option; see `Chart.plain` and `Chart.expmap` in `Props.lean`. -/
structure Chart where
  coords : Vec3 → Vec3
  zero : coords 0 = 0
  deriv : HasFDerivAt coords (ContinuousLinearMap.id ℝ Vec3) 0

/-- `retract(d)` of gtsam. -/
noncomputable def Chart.retract (ch : Chart) (T : SE2) (d : Vec3) : SE2 := T.compose (SE2.ofXYT (ch.coords d))

/-- `std::numeric_limits<double>::epsilon()`. -/
noncomputable def epsilon : ℝ := 2⁻¹ ^ 52

/-- The threshold of `function1` (52-53). -/
noncomputable def threshold1 : ℝ := (epsilon / (0.0000330688 / 0.0833333)) ^ (0.25 : ℝ) * 10

/-- The threshold of `function2` (64-65). -/
noncomputable def threshold2 : ℝ := (epsilon / 0.00138889) ^ (0.25 : ℝ) * 10

/-- `function1` (51-61). -/
noncomputable def function1 (alpha : ℝ) : ℝ :=
  if |alpha| > threshold1 then 1 / alpha - 0.5 * Real.sin alpha / (1 - Real.cos alpha)
  else 0.0833333 * alpha + 0.00138889 * alpha ^ 3

/-- `function2` (63-73). -/
noncomputable def function2 (alpha : ℝ) : ℝ :=
  if |alpha| > threshold2 then alpha * 0.5 * Real.sin alpha / (1 - Real.cos alpha)
  else 1 - 0.0833333 * alpha ^ 2

/-- The Jacobian of `transformationLogImplementation` (75-91), as a function of the logarithm `v`. -/
noncomputable def logJacobian (v : Vec3) : Matrix (Fin 3) (Fin 3) ℝ :=
  let alpha := v 2
  let v1 := v 0
  let v2 := v 1
  !![function2 alpha, -0.5 * alpha, v1 * function1 alpha + 0.5 * v2;
     0.5 * alpha, function2 alpha, v2 * function1 alpha - 0.5 * v1;
     0, 0, 1]

/-- `vectorScalingImplementation` (106-117): the value. -/
def scale {n : ℕ} (v : Fin n → ℝ) (alpha : ℝ) : Fin n → ℝ := fun i => v i * alpha

/-- `vectorScalingImplementation` (110-112): the Jacobian with respect to the vector. -/
def scaleH1 (n : ℕ) (alpha : ℝ) : Matrix (Fin n) (Fin n) ℝ := alpha • 1

/-- `vectorScalingImplementation` (113-115): the Jacobian with respect to the number. -/
def scaleH2 {n : ℕ} (v : Fin n → ℝ) : Matrix (Fin n) (Fin 1) ℝ := Matrix.of fun i _ => v i

/-- `pointsSubtractionImplementation` (155-167): the value. -/
def subtract (p1 p2 : Fin 2 → ℝ) : Fin 2 → ℝ := ![p1 0 - p2 0, p1 1 - p2 1]

/-- `pointsSubtractionImplementation` (158-160). -/
def subtractH1 : Matrix (Fin 2) (Fin 2) ℝ := !![1, 0; 0, 1]

/-- `pointsSubtractionImplementation` (162-164). -/
def subtractH2 : Matrix (Fin 2) (Fin 2) ℝ := !![-1, 0; 0, -1]

/-- `pose2AsPoint2Implementation` (175-180): the value. -/
def asPoint (T : SE2) : Fin 2 → ℝ := ![T.x, T.y]

/-- `pose2AsPoint2Implementation` (176-178): the Jacobian. -/
def asPointH : Matrix (Fin 2) (Fin 3) ℝ := !![1, 0, 0; 0, 1, 0]

end Verif.Pose2

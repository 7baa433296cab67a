import Verif.Discrete.SE3Maps
import Mathlib.Analysis.Complex.Angle
import Mathlib.Geometry.Euclidean.Angle.Unoriented.TriangleInequality
import Mathlib.Analysis.SpecialFunctions.Trigonometric.Bounds

/-!
# Distances between values of discrete and slerp curves

What is asked of them, and that the angle between rotations, the angle and the distance between poses of space, and the
angle and the distance between poses of the plane meet it.
-/

set_option linter.unusedSectionVars false
set_option linter.dupNamespace false

namespace Verif.Discrete

open Verif.Kindr Verif.Hermite.SE3

section
variable {K G V : Type} [Field K] [LinearOrder K] [IsStrictOrderedRing K] [Group G]
  [AddCommGroup V] [Module K V]

/-- A way to measure how far two values are apart, that does not depend on the frame and for which the way from one
value to another is nowhere faster than `κ` times what their distance takes. -/
structure Measured (L : ExpLog K G V) (d : G → G → K) (κ : K) : Prop where
  one_le : 1 ≤ κ
  self : ∀ g, d g g = 0
  symm : ∀ g h, d g h = d h g
  triangle : ∀ f g h, d f h ≤ d f g + d g h
  left : ∀ f g h, d (f * g) (f * h) = d g h
  way : ∀ (g : G) (x y : K), 0 ≤ x → x ≤ y → y ≤ 1 → d (L.exp (x • L.log g)) (L.exp (y • L.log g)) ≤ κ * ((y - x) * d 1 g)

end

/-! ## The line -/

theorem line_measured {K : Type} [Field K] [LinearOrder K] [IsStrictOrderedRing K] :
    Measured (lineMaps K) (fun g h => |h.toAdd - g.toAdd|) 1 where
  one_le := le_rfl
  self g := by simp
  symm g h := abs_sub_comm _ _
  triangle f g h := by
    rw [add_comm]
    exact abs_sub_le _ _ _
  left f g h := by simp
  way g x y h0 h1 h2 := by
    change |y • g.toAdd - x • g.toAdd| ≤ _
    rw [← sub_smul, smul_eq_mul, abs_mul, abs_of_nonneg (sub_nonneg.2 h1), one_mul]
    simp

/-! ## Rotations of space -/

theorem SO3.angle_self (g : SO3) : SO3.angle g g = 0 := Kindr.angle_self g.isUnit

theorem SO3.angle_symm (g h : SO3) : SO3.angle g h = SO3.angle h g := Kindr.angle_symm _ _

theorem SO3.angle_triangle (f g h : SO3) : SO3.angle f h ≤ SO3.angle f g + SO3.angle g h :=
  Kindr.angle_triangle f.isUnit g.isUnit h.isUnit

theorem SO3.angle_left (f g h : SO3) : SO3.angle (f * g) (f * h) = SO3.angle g h := by
  unfold SO3.angle
  rcases SO3.quat_mul f g with e | e <;> rcases SO3.quat_mul f h with e' | e' <;> rw [e, e'] <;>
    simp only [angle_neg_left, angle_neg_right, Kindr.angle_mul_left f.isUnit]

/-- The angle of a rotation is the length of its logarithm. -/
theorem SO3.angle_one (g : SO3) : SO3.angle 1 g = vecNorm (so3Maps.log g) := by
  have h := shortLogMap_shortest.norm g.isUnit isUnit_one
  rw [star_one, mul_one] at h
  change _ = vecNorm (shortLogMap.log g.quat)
  rw [h]
  conv_lhs => rw [← SO3.mk_one, ← SO3.mk_quat g]
  exact SO3.angle_mk _ _

theorem SO3.angle_way (g : SO3) {x y : ℝ} (h : x ≤ y) :
    SO3.angle (so3Maps.exp (x • so3Maps.log g)) (so3Maps.exp (y • so3Maps.log g)) ≤ (y - x) * SO3.angle 1 g := by
  rw [SO3.angle_one]
  change SO3.angle (SO3.mk _ (isUnit_exp _)) (SO3.mk _ (isUnit_exp _)) ≤ _
  rw [SO3.angle_mk]
  refine (angle_exps _ _ _).trans ?_
  rw [abs_of_nonneg (sub_nonneg.2 h)]

theorem so3_measured : Measured so3Maps SO3.angle 1 where
  one_le := le_rfl
  self := SO3.angle_self
  symm := SO3.angle_symm
  triangle := SO3.angle_triangle
  left := SO3.angle_left
  way g x y _ h1 _ := by rw [one_mul]; exact SO3.angle_way g h1

/-! ## Poses of space -/

theorem vecNorm_add_le (v w : Vec3) : vecNorm (v + w) ≤ vecNorm v + vecNorm w := by
  rw [← norm_vec, ← norm_vec, ← norm_vec, vec_add]
  exact norm_add_le _ _

theorem vecNorm_neg (v : Vec3) : vecNorm (-v) = vecNorm v := by
  have := vecNorm_smul (-1) v
  rwa [neg_one_smul, abs_neg, abs_one, one_mul] at this

/-- The angle between two poses. -/
theorem pose3_measured_angle : Measured pose3Maps (fun g h => SO3.angle g.rot h.rot) 1 where
  one_le := le_rfl
  self _ := SO3.angle_self _
  symm _ _ := SO3.angle_symm _ _
  triangle _ _ _ := SO3.angle_triangle _ _ _
  left _ _ _ := SO3.angle_left _ _ _
  way g x y _ h1 _ := by rw [one_mul]; exact SO3.angle_way g.rot h1

/-- The distance between two poses. -/
theorem pose3_measured_dist : Measured pose3Maps (fun g h => vecNorm (h.pos - g.pos)) 1 where
  one_le := le_rfl
  self g := by simp [vecNorm]
  symm g h := by rw [← vecNorm_neg, neg_sub]
  triangle f g h := by
    rw [show h.pos - f.pos = (g.pos - f.pos) + (h.pos - g.pos) by abel]
    exact vecNorm_add_le _ _
  left f g h := by
    simp only [Pose3.mul_def, add_sub_add_left_eq_sub]
    rw [sub_eq_add_neg, ← SO3.act_neg, ← SO3.act_add, SO3.vecNorm_act, ← sub_eq_add_neg]
  way g x y _ h1 _ := by
    change vecNorm (y • g.pos - x • g.pos) ≤ 1 * ((y - x) * vecNorm (g.pos - 0))
    rw [← sub_smul, vecNorm_smul, abs_of_nonneg (sub_nonneg.2 h1), one_mul, sub_zero]

/-! ## Poses of the plane -/

/-- The angle between two poses of the plane. -/
noncomputable def Pose2.heading (g h : Pose2) : ℝ := InnerProductGeometry.angle (g.rot : ℂ) (h.rot : ℂ)

theorem Pose2.exp_rot (v : ℂ × ℝ) : (Pose2.exp v).rot = Circle.exp v.2 := by
  unfold Pose2.exp
  split
  · next h => rw [h, Circle.exp_zero]
  · rfl

theorem Pose2.log_snd (g : Pose2) : (Pose2.log g).2 = Complex.arg g.rot := by
  unfold Pose2.log
  split
  · next h => rw [h]
  · rfl

theorem circle_angle {a b : ℝ} (h0 : 0 ≤ b - a) (h1 : b - a ≤ Real.pi) :
    InnerProductGeometry.angle (Circle.exp b : ℂ) (Circle.exp a : ℂ) = b - a := by
  rw [Complex.angle_eq_abs_arg (Circle.coe_ne_zero _) (Circle.coe_ne_zero _), ← Circle.coe_div, ← Circle.exp_sub,
    Circle.arg_exp (by linarith [Real.pi_pos]) h1, abs_of_nonneg h0]

theorem se2_measured_heading : Measured se2Maps Pose2.heading 1 where
  one_le := le_rfl
  self g := InnerProductGeometry.angle_self (Circle.coe_ne_zero _)
  symm _ _ := InnerProductGeometry.angle_comm _ _
  triangle _ _ _ := InnerProductGeometry.angle_le_angle_add_angle _ _ _
  left f g h := by
    simp only [Pose2.heading, Pose2.mul_def, Circle.coe_mul]
    exact Complex.angle_mul_left (Circle.coe_ne_zero _) _ _
  way g x y h0 h1 h2 := by
    have e1 : Pose2.heading 1 g = |Complex.arg g.rot| := by
      simp only [Pose2.heading, Pose2.one_def, Circle.coe_one]
      exact Complex.angle_one_left (Circle.coe_ne_zero _)
    rw [e1, one_mul]
    simp only [se2Maps, Pose2.heading, Pose2.exp_rot, Prod.smul_snd, Pose2.log_snd, smul_eq_mul]
    set θ := Complex.arg g.rot
    have hle : |θ| ≤ Real.pi := Complex.abs_arg_le_pi _
    have hpi := Real.pi_pos
    rcases le_total 0 θ with hθ | hθ
    · rw [abs_of_nonneg hθ] at hle ⊢
      rw [InnerProductGeometry.angle_comm, circle_angle (by nlinarith) (by nlinarith)]
      linarith
    · rw [abs_of_nonpos hθ] at hle ⊢
      rw [circle_angle (by nlinarith) (by nlinarith)]
      linarith

/-- The distance between two poses of the plane. Between them the way is an arc, up to a half circle. -/
theorem se2_measured_dist : Measured se2Maps (fun g h => ‖h.pos - g.pos‖) (Real.pi / 2) where
  one_le := by linarith [Real.two_le_pi]
  self g := by simp
  symm g h := norm_sub_rev _ _
  triangle f g h := by
    rw [add_comm]
    exact norm_sub_le_norm_sub_add_norm_sub _ _ _
  left f g h := by
    simp only [Pose2.mul_def, add_sub_add_left_eq_sub]
    rw [← mul_sub, norm_mul, Circle.norm_coe, one_mul]
  way g x y h0 h1 h2 := by
    have hpi := Real.pi_pos
    simp only [se2Maps, Pose2.one_def, sub_zero]
    by_cases hθ : Complex.arg g.rot = 0
    · have e : Pose2.log g = (g.pos, 0) := by rw [Pose2.log, if_pos hθ]
      have ex : ∀ z : ℝ, Pose2.exp (z • Pose2.log g) = ⟨z • g.pos, 1⟩ := by
        intro z; rw [e]; simp [Pose2.exp]
      rw [ex, ex, ← sub_smul, norm_smul, Real.norm_of_nonneg (sub_nonneg.2 h1)]
      have := mul_nonneg (sub_nonneg.2 h1) (norm_nonneg g.pos)
      nlinarith [Real.two_le_pi]
    · set θ := Complex.arg g.rot with hθd
      have hle : |θ| ≤ Real.pi := Complex.abs_arg_le_pi _
      have hrot : (g.rot : ℂ) = Complex.exp (Complex.I * θ) := by
        conv_lhs => rw [← Circle.exp_arg g.rot]
        rw [Circle.coe_exp, mul_comm]
      have hv : (Pose2.log g).1 = g.pos * (Complex.I * θ) / ((g.rot : ℂ) - 1) := by
        rw [Pose2.log, if_neg hθ]
      have hn : 2 / Real.pi * |θ| ≤ ‖(g.rot : ℂ) - 1‖ := by
        rw [hrot, Complex.norm_exp_I_mul_ofReal_sub_one, norm_mul, Real.norm_two, Real.norm_eq_abs]
        have hh : |Real.sin (θ / 2)| = Real.sin (|θ| / 2) := by
          rcases le_total 0 θ with h | h
          · rw [abs_of_nonneg h, abs_of_nonneg (Real.sin_nonneg_of_nonneg_of_le_pi (by linarith) (by
              rw [abs_of_nonneg h] at hle; linarith))]
          · rw [abs_of_nonpos h, neg_div, Real.sin_neg, abs_of_nonpos (Real.sin_nonpos_of_nonpos_of_neg_pi_le (by linarith) (by
              rw [abs_of_nonpos h] at hle; linarith))]
        rw [hh]
        have := Real.mul_le_sin (x := |θ| / 2) (by positivity) (by linarith)
        linarith
      have hr1 : (g.rot : ℂ) - 1 ≠ 0 := by
        intro e
        rw [e, norm_zero] at hn
        have : 0 < 2 / Real.pi * |θ| := by positivity
        linarith
      have hvn : ‖(Pose2.log g).1‖ ≤ Real.pi / 2 * ‖g.pos‖ := by
        rw [hv, norm_div, norm_mul, norm_mul, Complex.norm_I, one_mul, Complex.norm_real, Real.norm_eq_abs,
          div_le_iff₀ (norm_pos_iff.2 hr1)]
        have := mul_le_mul_of_nonneg_left hn (mul_nonneg (show 0 ≤ Real.pi / 2 by positivity) (norm_nonneg g.pos))
        refine le_trans (le_of_eq ?_) this
        field_simp
      have hpos : ∀ z : ℝ, (Pose2.exp (z • Pose2.log g)).pos =
          (Pose2.log g).1 * (Complex.exp (Complex.I * (z * θ : ℝ)) - 1) / (Complex.I * θ) := by
        intro z
        have hθc : (θ : ℂ) ≠ 0 := by exact_mod_cast hθ
        rcases eq_or_ne z 0 with rfl | hz
        · simp [Pose2.exp]
        · have hzc : (z : ℂ) ≠ 0 := by exact_mod_cast hz
          have : ¬(z • Pose2.log g).2 = 0 := by
            rw [Prod.smul_snd, Pose2.log_snd, smul_eq_mul]
            exact mul_ne_zero hz hθ
          rw [Pose2.exp, if_neg this]
          simp only [Prod.smul_fst, Prod.smul_snd, Pose2.log_snd, smul_eq_mul, Circle.coe_exp, Complex.real_smul]
          rw [← hθd, mul_comm (Complex.I) ((z * θ : ℝ) : ℂ)]
          push_cast
          field_simp
      rw [hpos, hpos]
      have hdiff : (Pose2.log g).1 * (Complex.exp (Complex.I * (y * θ : ℝ)) - 1) / (Complex.I * θ) -
          (Pose2.log g).1 * (Complex.exp (Complex.I * (x * θ : ℝ)) - 1) / (Complex.I * θ) =
          (Pose2.log g).1 * (Complex.exp (Complex.I * (x * θ : ℝ)) * (Complex.exp (Complex.I * ((y - x) * θ : ℝ)) - 1)) /
            (Complex.I * θ) := by
        rw [mul_sub (Complex.exp _), ← Complex.exp_add, ← mul_add, ← Complex.ofReal_add,
          show x * θ + (y - x) * θ = y * θ by ring]
        ring
      rw [hdiff, norm_div, norm_mul, norm_mul, mul_comm Complex.I ((x * θ : ℝ) : ℂ), Complex.norm_exp_ofReal_mul_I, one_mul,
        norm_mul, Complex.norm_I, one_mul, Complex.norm_real, Real.norm_eq_abs, div_le_iff₀ (abs_pos.2 hθ)]
      have hc := Real.norm_exp_I_mul_ofReal_sub_one_le (x := (y - x) * θ)
      rw [Real.norm_eq_abs, abs_mul, abs_of_nonneg (sub_nonneg.2 h1)] at hc
      have := mul_le_mul hvn hc (norm_nonneg _) (by positivity)
      linarith

end Verif.Discrete

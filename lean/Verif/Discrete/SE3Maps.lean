import Verif.Discrete.SO3

/-!
# Rigid motions of space

A third group with concrete exponential and logarithm satisfying `ExpLog`: poses of space, with maps that take the
translation and the rotation apart, as minkindr's `QuatTransformation` does. They are not `Geodesic`.
-/

set_option linter.unusedSectionVars false
set_option linter.dupNamespace false

namespace Verif.Discrete

open Verif.Kindr Verif.Hermite.SE3 Quaternion

/-- What a rotation does to a vector. -/
noncomputable def SO3.act (g : SO3) (v : Vec3) : Vec3 := rotate g.quat v

theorem SO3.act_mk {q : Quat} (h : IsUnit' q) (v : Vec3) : (SO3.mk q h).act v = rotate q v := by
  unfold SO3.act
  rcases SO3.quat_mk h with e | e <;> rw [e]
  rw [rotate_neg]

theorem SO3.act_mul (g h : SO3) (v : Vec3) : (g * h).act v = g.act (h.act v) := by
  unfold SO3.act
  rw [← rotate_mul]
  rcases SO3.quat_mul g h with e | e <;> rw [e]
  rw [rotate_neg]

theorem SO3.act_one (v : Vec3) : (1 : SO3).act v = v := by
  rw [← SO3.mk_one, SO3.act_mk]
  simp [rotate]

theorem SO3.act_add (g : SO3) (v w : Vec3) : g.act (v + w) = g.act v + g.act w := by
  apply vec_injective
  simp only [SO3.act, vec_add, vec_rotate, mul_add, add_mul]

theorem SO3.act_smul (g : SO3) (r : ℝ) (v : Vec3) : g.act (r • v) = r • g.act v := rotate_smul _ _ _

theorem SO3.act_neg (g : SO3) (v : Vec3) : g.act (-v) = -g.act v := by
  have := g.act_smul (-1) v
  rwa [neg_one_smul, neg_one_smul] at this

theorem SO3.act_inv_act (g : SO3) (v : Vec3) : (g⁻¹).act (g.act v) = v := by
  rw [← SO3.act_mul, inv_mul_cancel, SO3.act_one]

theorem SO3.act_act_inv (g : SO3) (v : Vec3) : g.act ((g⁻¹).act v) = v := by
  rw [← SO3.act_mul, mul_inv_cancel, SO3.act_one]

theorem SO3.vecNorm_act (g : SO3) (v : Vec3) : vecNorm (g.act v) = vecNorm v := by
  unfold SO3.act
  rw [← norm_vec, vec_rotate, norm_mul, norm_mul, norm_unit g.isUnit, norm_unit (isUnit_star g.isUnit), one_mul, mul_one, norm_vec]

/-- A rigid motion of space: rotate by `rot`, then translate by `pos`. -/
@[ext] structure Pose3 where
  pos : Vec3
  rot : SO3

namespace Pose3

noncomputable instance : Mul Pose3 := ⟨fun a b => ⟨a.pos + a.rot.act b.pos, a.rot * b.rot⟩⟩
noncomputable instance : One Pose3 := ⟨⟨0, 1⟩⟩
noncomputable instance : Inv Pose3 := ⟨fun a => ⟨-(a.rot⁻¹.act a.pos), a.rot⁻¹⟩⟩

theorem mul_def (a b : Pose3) : a * b = ⟨a.pos + a.rot.act b.pos, a.rot * b.rot⟩ := rfl
theorem one_def : (1 : Pose3) = ⟨0, 1⟩ := rfl
theorem inv_def (a : Pose3) : a⁻¹ = ⟨-(a.rot⁻¹.act a.pos), a.rot⁻¹⟩ := rfl

noncomputable instance : Group Pose3 :=
  Group.ofLeftAxioms
    (fun a b c => by
      simp only [mul_def, mul_assoc, SO3.act_mul, SO3.act_add, add_assoc])
    (fun a => by simp [mul_def, one_def, SO3.act_one])
    (fun a => by simp [mul_def, one_def, inv_def])

end Pose3

/-- Exponential and logarithm of poses, translation and rotation apart. -/
noncomputable def pose3Maps : ExpLog ℝ Pose3 (Vec3 × Vec3) where
  exp v := ⟨v.1, so3Maps.exp v.2⟩
  log g := (g.pos, so3Maps.log g.rot)
  exp_log g := by simp [so3Maps.exp_log]
  log_one := by simp [Pose3.one_def, so3Maps.log_one]

end Verif.Discrete

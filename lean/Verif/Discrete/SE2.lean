import Verif.Discrete.Model
import Mathlib.Algebra.Group.MinimalAxioms
import Mathlib.Analysis.SpecialFunctions.Complex.Circle

/-!
# Rigid motions of the plane

A concrete group with concrete exponential and logarithm satisfying `ExpLog`: poses of the plane with
the textbook maps (those of `gtsam::Pose2`, without its small-angle branch). It shows that the contract
assumed of the external library can be met, and serves in examples.
-/

namespace Verif.Discrete

/-- A rigid motion of the plane: rotate by `rot`, then translate by `pos`. -/
@[ext] structure Pose2 where
  pos : ℂ
  rot : Circle

namespace Pose2

noncomputable instance : Mul Pose2 := ⟨fun a b => ⟨a.pos + a.rot * b.pos, a.rot * b.rot⟩⟩
noncomputable instance : One Pose2 := ⟨⟨0, 1⟩⟩
noncomputable instance : Inv Pose2 := ⟨fun a => ⟨-((a.rot⁻¹ : Circle) * a.pos), a.rot⁻¹⟩⟩

theorem mul_def (a b : Pose2) : a * b = ⟨a.pos + a.rot * b.pos, a.rot * b.rot⟩ := rfl
theorem one_def : (1 : Pose2) = ⟨0, 1⟩ := rfl
theorem inv_def (a : Pose2) : a⁻¹ = ⟨-((a.rot⁻¹ : Circle) * a.pos), a.rot⁻¹⟩ := rfl

noncomputable instance : Group Pose2 :=
  Group.ofLeftAxioms
    (fun a b c => by
      simp only [mul_def, Pose2.mk.injEq, Circle.coe_mul, mul_assoc, and_true]; ring)
    (fun a => by simp [mul_def, one_def])
    (fun a => by simp [mul_def, one_def, inv_def])

/-- The exponential map (`gtsam::Pose2::Expmap`). -/
noncomputable def exp (x : ℂ × ℝ) : Pose2 :=
  if x.2 = 0 then ⟨x.1, 1⟩
  else ⟨x.1 * (((Circle.exp x.2 : Circle) : ℂ) - 1) / (Complex.I * x.2), Circle.exp x.2⟩

/-- The logarithm (`gtsam::Pose2::Logmap`). -/
noncomputable def log (a : Pose2) : ℂ × ℝ :=
  if Complex.arg a.rot = 0 then (a.pos, 0)
  else (a.pos * (Complex.I * (Complex.arg a.rot : ℝ)) / ((a.rot : ℂ) - 1), Complex.arg a.rot)

theorem exp_log (a : Pose2) : exp (log a) = a := by
  unfold log
  split
  · rename_i h
    have : a.rot = 1 := by
      rw [← Circle.exp_arg a.rot, h, Circle.exp_zero]
    ext <;> simp [exp, this]
  · rename_i h
    have h1 : ((a.rot : ℂ) - 1) ≠ 0 := by
      intro e
      apply h
      rw [sub_eq_zero.1 e, Complex.arg_one]
    have h2 : ((Complex.arg a.rot : ℝ) : ℂ) ≠ 0 := by exact_mod_cast h
    simp only [exp, if_neg h, Circle.exp_arg]
    ext
    · simp only
      field_simp
    · rfl

end Pose2

/-- The maps of the plane satisfy the contract. -/
noncomputable def se2Maps : ExpLog ℝ Pose2 (ℂ × ℝ) where
  exp := Pose2.exp
  log := Pose2.log
  exp_log := Pose2.exp_log
  log_one := by
    have h1 : (1 : Pose2).rot = 1 := rfl
    have h2 : (1 : Pose2).pos = 0 := rfl
    simp [Pose2.log, h1, h2]

/-- Translations of the line: the smallest example, for computations. -/
def lineMaps (K : Type) [Field K] : ExpLog K (Multiplicative K) K where
  exp := Multiplicative.ofAdd
  log := Multiplicative.toAdd
  exp_log _ := rfl
  log_one := rfl

end Verif.Discrete

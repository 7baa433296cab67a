import Verif.Discrete.GeodesicProps
import Verif.Hermite.SpeedLemmas
import Mathlib.Algebra.Star.Unitary
import Mathlib.GroupTheory.QuotientGroup.Basic

/-!
# Rotations of space

A second group with concrete exponential and logarithm satisfying `ExpLog`, and `Geodesic`: unit quaternions up to sign,
with the maps of the kindr model.
-/

set_option linter.unusedSectionVars false
set_option linter.dupNamespace false

namespace Verif.Discrete

open Verif.Kindr Verif.Hermite.SE3 Quaternion

/-- Unit quaternions. -/
abbrev UQ : Type := unitary Quat

theorem UQ.isUnit (q : UQ) : IsUnit' (q : Quat) := by
  have h := (Unitary.mem_iff.1 q.2).2
  have : ((normSq (q : Quat) : ℝ) : Quat) = ((1 : ℝ) : Quat) := by rw [← self_mul_star, h]; simp
  exact coe_injective this

theorem mem_unitary {q : Quat} (h : IsUnit' q) : q ∈ unitary Quat :=
  Unitary.mem_iff.2 ⟨star_mul_self' h, self_mul_star' h⟩

/-- The two quaternions of the identity. -/
def signs : Subgroup UQ where
  carrier := {q | (q : Quat) = 1 ∨ (q : Quat) = -1}
  one_mem' := Or.inl rfl
  mul_mem' := by
    rintro a b (ha | ha) (hb | hb) <;> simp only [Set.mem_ofPred_eq, Submonoid.coe_mul, ha, hb, one_mul, mul_one,
      neg_mul_neg, true_or, or_true]
  inv_mem' := by
    have e : ∀ a : UQ, ((a⁻¹ : UQ) : Quat) = star (a : Quat) := fun _ => rfl
    rintro a (ha | ha) <;> simp only [Set.mem_ofPred_eq, e, ha, star_one, star_neg, true_or, or_true]

instance : signs.Normal where
  conj_mem := by
    rintro n (h | h) g
    · left
      have : (g : Quat) * ((g⁻¹ : UQ) : Quat) = 1 := by
        rw [← Submonoid.coe_mul, mul_inv_cancel]; rfl
      simp [h, this]
    · right
      have : (g : Quat) * ((g⁻¹ : UQ) : Quat) = 1 := by
        rw [← Submonoid.coe_mul, mul_inv_cancel]; rfl
      rw [Submonoid.coe_mul, Submonoid.coe_mul, h]
      simp [this]

/-- Rotations of space: unit quaternions up to sign. -/
abbrev SO3 : Type := UQ ⧸ signs

/-- The rotation of a unit quaternion. -/
noncomputable def SO3.mk (q : Quat) (h : IsUnit' q) : SO3 := QuotientGroup.mk ⟨q, mem_unitary h⟩

/-- A quaternion of a rotation. -/
noncomputable def SO3.quat (g : SO3) : Quat := ((Quotient.out g : UQ) : Quat)

theorem SO3.isUnit (g : SO3) : IsUnit' g.quat := UQ.isUnit _

theorem SO3.mk_eq {p q : Quat} {hp : IsUnit' p} {hq : IsUnit' q} : SO3.mk p hp = SO3.mk q hq ↔ p = q ∨ p = -q := by
  unfold SO3.mk
  rw [QuotientGroup.eq]
  change ((_ : UQ) : Quat) = 1 ∨ ((_ : UQ) : Quat) = -1 ↔ _
  have e : (((⟨p, mem_unitary hp⟩ : UQ)⁻¹ * ⟨q, mem_unitary hq⟩ : UQ) : Quat) = star p * q := rfl
  rw [e]
  constructor
  · rintro (h | h)
    · left
      rw [← mul_one p, ← h, ← mul_assoc, self_mul_star' hp, one_mul]
    · right
      have : p * (star p * q) = p * -1 := by rw [h]
      rw [← mul_assoc, self_mul_star' hp, one_mul, mul_neg, mul_one] at this
      rw [this, neg_neg]
  · rintro (rfl | rfl)
    · exact Or.inl (star_mul_self' hp)
    · right
      rw [star_neg, neg_mul, star_mul_self' hq]

theorem SO3.mk_quat (g : SO3) : SO3.mk g.quat g.isUnit = g := by
  have : (QuotientGroup.mk (Quotient.out g : UQ) : SO3) = g := Quotient.out_eq g
  exact this

theorem SO3.quat_mk {q : Quat} (h : IsUnit' q) : (SO3.mk q h).quat = q ∨ (SO3.mk q h).quat = -q :=
  SO3.mk_eq.1 (SO3.mk_quat (SO3.mk q h))

theorem SO3.mk_mul {p q : Quat} (hp : IsUnit' p) (hq : IsUnit' q) : SO3.mk p hp * SO3.mk q hq = SO3.mk (p * q) (isUnit_mul hp hq) :=
  rfl

theorem SO3.mk_one : SO3.mk 1 isUnit_one = 1 := rfl

theorem SO3.quat_mul (g h : SO3) : (g * h).quat = g.quat * h.quat ∨ (g * h).quat = -(g.quat * h.quat) := by
  have := SO3.mk_mul g.isUnit h.isUnit
  rw [SO3.mk_quat, SO3.mk_quat] at this
  rw [this]
  exact SO3.quat_mk _

/-- The logarithm of a rotation does not depend on the quaternion, but for half turns. -/
theorem SO3.log_quat {v : Vec3} (hv : vecNorm v < Real.pi) {g : SO3} (h : g = SO3.mk (exponentialMap v) (isUnit_exp v)) :
    shortLogMap.log g.quat = v := by
  subst h
  exact shortLogMap_shortest.eq hv (SO3.quat_mk _)

/-- Exponential and logarithm of rotations. -/
noncomputable def so3Maps : ExpLog ℝ SO3 Vec3 where
  exp v := SO3.mk (exponentialMap v) (isUnit_exp v)
  log g := shortLogMap.log g.quat
  exp_log g := by
    conv_rhs => rw [← SO3.mk_quat g]
    exact SO3.mk_eq.2 (shortLogMap.exp_log _ g.isUnit)
  log_one := SO3.log_quat (v := 0) (by simpa [vecNorm] using Real.pi_pos) (by
    rw [← SO3.mk_one]
    exact SO3.mk_eq.2 (Or.inl exponentialMap_zero.symm))

theorem so3_geodesic : Geodesic so3Maps where
  exp_add v x y := by
    change SO3.mk _ (isUnit_exp _) = SO3.mk _ (isUnit_exp _) * SO3.mk _ (isUnit_exp _)
    rw [SO3.mk_mul]
    exact SO3.mk_eq.2 (Or.inl (exponentialMap_add_smul x y v))
  log_exp g x h0 h1 := by
    rcases h1.eq_or_lt with rfl | h1
    · rw [one_smul, so3Maps.exp_log]
    · refine SO3.log_quat ?_ rfl
      have hle : vecNorm (so3Maps.log g) ≤ Real.pi := shortLogMap_shortest _ g.isUnit
      have h := vecNorm_nonneg (so3Maps.log g)
      rw [vecNorm_smul, abs_of_nonneg h0]
      have hpi := Real.pi_pos
      nlinarith

/-- The angle between two rotations. -/
noncomputable def SO3.angle (g h : SO3) : ℝ := Kindr.angle g.quat h.quat

theorem SO3.angle_mk {p q : Quat} (hp : IsUnit' p) (hq : IsUnit' q) : SO3.angle (SO3.mk p hp) (SO3.mk q hq) = Kindr.angle p q := by
  unfold SO3.angle
  rcases SO3.quat_mk hp with e | e <;> rcases SO3.quat_mk hq with e' | e' <;> rw [e, e'] <;>
    simp only [angle_neg_left, angle_neg_right]

end Verif.Discrete

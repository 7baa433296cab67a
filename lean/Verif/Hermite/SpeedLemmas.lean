import Verif.Kindr.AngleLemmas
import Verif.Hermite.SE3Lemmas

/-!
# How fast a segment of an SE3 Hermite curve turns
-/

set_option linter.unusedSectionVars false
set_option linter.dupNamespace false

namespace Verif.Hermite.SE3

open Verif.Manager Verif.Kindr Quaternion

theorem norm_unit {q : Quat} (h : IsUnit' q) : ‖q‖ = 1 := by
  have h1 : ‖q‖ * ‖q‖ = 1 := by rw [← normSq_eq_norm_mul_self]; exact h
  nlinarith [norm_nonneg q]

theorem vecNorm_inverseRotate {q : Quat} (h : IsUnit' q) (v : Vec3) : vecNorm (inverseRotate q v) = vecNorm v := by
  rw [← norm_vec, ← norm_vec, vec_inverseRotate, norm_mul, norm_mul, norm_unit h, norm_unit (isUnit_star h), one_mul, mul_one]

theorem isUnit_one : IsUnit' (1 : Quat) := by simp [IsUnit']

/-- The angle between products is at most the sum of the angles between the factors. -/
theorem angle_mul_mul {p p' q q' : Quat} (hp : IsUnit' p) (hp' : IsUnit' p') (hq : IsUnit' q) (hq' : IsUnit' q') :
    angle (p * q) (p' * q') ≤ angle p p' + angle q q' := by
  have h := angle_triangle (isUnit_mul hp hq) (isUnit_mul hp' hq) (isUnit_mul hp' hq')
  rwa [angle_mul_right hq, angle_mul_left hp'] at h

theorem angle_exps (r s : ℝ) (v : Vec3) : angle (exponentialMap (r • v)) (exponentialMap (s • v)) ≤ |s - r| * vecNorm v := by
  have := angle_exp_smul isUnit_one r s v
  rwa [one_mul, one_mul] at this

section
variable {L : LogMap} {a b : Node ℝ HKnot}

/-- Lengths of the control vectors of a segment. -/
theorem control_norms (hL : L.Shortest) (hab : a.time < b.time) (ha : IsUnit' a.coef.transformation.rotation)
    (hb : IsUnit' b.coef.transformation.rotation) :
    let w := controlVectors L a b
    vecNorm w.1 = (b.time - a.time) / 3 * vecNorm a.coef.derivative.rotationalVelocity ∧
    vecNorm w.2.2 = (b.time - a.time) / 3 * vecNorm b.coef.derivative.rotationalVelocity ∧
    vecNorm w.2.1 ≤ vecNorm w.1 + angle a.coef.transformation.rotation b.coef.transformation.rotation + vecNorm w.2.2 := by
  intro w
  have hd := sub_pos.2 hab
  refine ⟨?_, ?_, ?_⟩
  · rw [show w.1 = inverseRotate a.coef.transformation.rotation
      (((b.time - a.time) / 3) • a.coef.derivative.rotationalVelocity) from rfl, vecNorm_inverseRotate ha, vecNorm_smul,
      abs_of_pos (by positivity)]
  · rw [show w.2.2 = inverseRotate b.coef.transformation.rotation
      (((b.time - a.time) / 3) • b.coef.derivative.rotationalVelocity) from rfl, vecNorm_inverseRotate hb, vecNorm_smul,
      abs_of_pos (by positivity)]
  · set qA := a.coef.transformation.rotation
    set qB := b.coef.transformation.rotation
    have hw : w.2.1 = L.log (exponentialMap (-w.1) * star qA * qB * exponentialMap (-w.2.2)) := rfl
    have hu : IsUnit' (exponentialMap (-w.1) * star qA * qB) := isUnit_mul (isUnit_mul (isUnit_exp _) (isUnit_star ha)) hb
    have hn := hL.norm (isUnit_mul hu (isUnit_exp (-w.2.2))) isUnit_one
    rw [star_one, mul_one] at hn
    rw [hw, hn]
    have neg : ∀ v : Vec3, vecNorm (-v) = vecNorm v := fun v => by
      have := vecNorm_smul (-1) v
      rwa [neg_one_smul, abs_neg, abs_one, one_mul] at this
    have t1 := angle_triangle isUnit_one hu (isUnit_mul hu (isUnit_exp (-w.2.2)))
    have t2 := angle_triangle isUnit_one (isUnit_exp (-w.1)) hu
    have e1 := angle_exp' isUnit_one (-w.1)
    have e2 := angle_exp' hu (-w.2.2)
    have e3 : angle (exponentialMap (-w.1)) (exponentialMap (-w.1) * star qA * qB) = angle qA qB := by
      have h1 := angle_mul_left (isUnit_exp (-w.1)) 1 (star qA * qB)
      have h2 := angle_mul_left ha 1 (star qA * qB)
      rw [mul_one, ← mul_assoc] at h1 h2
      rw [self_mul_star' ha, one_mul] at h2
      rw [h1, ← h2]
    rw [neg, one_mul] at e1
    rw [neg] at e2
    linarith

/-- A segment whose ends turn at most at the rate `Ω`, and differ by at most `Ω` times its duration. -/
structure Paced (Ω : ℝ) (a b : Node ℝ HKnot) : Prop where
  time : a.time < b.time
  unitA : IsUnit' a.coef.transformation.rotation
  unitB : IsUnit' b.coef.transformation.rotation
  rateA : vecNorm a.coef.derivative.rotationalVelocity ≤ Ω
  rateB : vecNorm b.coef.derivative.rotationalVelocity ≤ Ω
  step : angle a.coef.transformation.rotation b.coef.transformation.rotation ≤ Ω * (b.time - a.time)

theorem Paced.norms {Ω : ℝ} (h : Paced Ω a b) (hL : L.Shortest) :
    let w := controlVectors L a b
    vecNorm w.1 ≤ (b.time - a.time) * Ω / 3 ∧ vecNorm w.2.1 ≤ 5 * ((b.time - a.time) * Ω) / 3 ∧
    vecNorm w.2.2 ≤ (b.time - a.time) * Ω / 3 := by
  intro w
  obtain ⟨h1, h3, h2⟩ := control_norms hL h.time h.unitA h.unitB
  have hd := sub_pos.2 h.time
  have k1 : vecNorm w.1 ≤ (b.time - a.time) * Ω / 3 := by
    rw [h1]
    have := mul_le_mul_of_nonneg_left h.rateA hd.le
    linarith
  have k3 : vecNorm w.2.2 ≤ (b.time - a.time) * Ω / 3 := by
    rw [h3]
    have := mul_le_mul_of_nonneg_left h.rateB hd.le
    linarith
  refine ⟨k1, ?_, k3⟩
  have := h.step
  have h2' : vecNorm w.2.1 ≤ _ := h2
  linarith

/-- Within such a segment the attitude changes at most three times as fast. -/
theorem Paced.angle {Ω : ℝ} (h : Paced Ω a b) (hL : L.Shortest) {s t : ℝ} (hs : a.time ≤ s) (hst : s ≤ t) (ht : t ≤ b.time) :
    angle (interpolate L a b s).rotation (interpolate L a b t).rotation ≤ 3 * Ω * (t - s) := by
  have hd := sub_pos.2 h.time
  obtain ⟨n1, n2, n3⟩ := h.norms hL
  rw [rotation_eq, rotation_eq]
  set w := controlVectors L a b
  set x := (s - a.time) / (b.time - a.time) with hx
  set y := (t - a.time) / (b.time - a.time) with hy
  have hx0 : 0 ≤ x := div_nonneg (by linarith) hd.le
  have hxy : x ≤ y := div_le_div_of_nonneg_right (by linarith) hd.le
  have hy1 : y ≤ 1 := by rw [hy, div_le_one hd]; linarith
  have hu1 : ∀ r : ℝ, IsUnit' (a.coef.transformation.rotation * exponentialMap (r • w.1)) := fun r =>
    isUnit_mul h.unitA (isUnit_exp _)
  have hu2 : ∀ r s : ℝ, IsUnit' (a.coef.transformation.rotation * exponentialMap (r • w.1) * exponentialMap (s • w.2.1)) :=
    fun r s => isUnit_mul (hu1 r) (isUnit_exp _)
  refine (angle_mul_mul (hu2 _ _) (hu2 _ _) (isUnit_exp _) (isUnit_exp _)).trans ?_
  refine (add_le_add_left (angle_mul_mul (hu1 _) (hu1 _) (isUnit_exp _) (isUnit_exp _)) _).trans ?_
  rw [angle_mul_left h.unitA]
  refine (add_le_add (add_le_add (angle_exps _ _ _) (angle_exps _ _ _)) (angle_exps _ _ _)).trans ?_
  have m1 : 0 ≤ 1 - (1 - y) * ((1 - y) * (1 - y)) - (1 - (1 - x) * ((1 - x) * (1 - x))) := by
    have : 0 ≤ (y - x) * ((1 - x) * (1 - x) + (1 - x) * (1 - y) + (1 - y) * (1 - y)) :=
      mul_nonneg (by linarith) (by
        have := mul_nonneg (show 0 ≤ 1 - x by linarith) (show 0 ≤ 1 - y by linarith)
        nlinarith [sq_nonneg (1 - x), sq_nonneg (1 - y)])
    linarith [this]
  have m2 : 0 ≤ 3 * (y * y) - 2 * (y * y * y) - (3 * (x * x) - 2 * (x * x * x)) := by
    have : 0 ≤ (y - x) * (3 * (y + x) - 2 * (y * y + y * x + x * x)) := mul_nonneg (by linarith) (by
      nlinarith [mul_nonneg hx0 (show 0 ≤ 1 - x by linarith), mul_nonneg (show 0 ≤ y by linarith) (show 0 ≤ 1 - y by linarith),
        mul_nonneg (show 0 ≤ y by linarith) (show 0 ≤ 1 - x by linarith), mul_nonneg hx0 (show 0 ≤ 1 - y by linarith)])
    linarith [this]
  have m3 : 0 ≤ y * y * y - x * x * x := by
    have : 0 ≤ (y - x) * (y * y + y * x + x * x) := mul_nonneg (by linarith) (by
      have := mul_nonneg hx0 (show 0 ≤ y by linarith)
      nlinarith [sq_nonneg x, sq_nonneg y])
    linarith [this]
  rw [abs_of_nonneg m1, abs_of_nonneg m2, abs_of_nonneg m3]
  refine (add_le_add (add_le_add (mul_le_mul_of_nonneg_left n1 m1) (mul_le_mul_of_nonneg_left n2 m2))
    (mul_le_mul_of_nonneg_left n3 m3)).trans ?_
  have hΩ : 0 ≤ Ω := (vecNorm_nonneg _).trans h.rateA
  have hts : t - s = (b.time - a.time) * (y - x) := by rw [hx, hy]; field_simp; ring
  rw [hts]
  set D := (b.time - a.time) * Ω with hD
  have hD0 : 0 ≤ D := mul_nonneg hd.le hΩ
  have key : 0 ≤ (y - x) * ((1 - 2 * x) ^ 2 + (1 - 2 * x) * (1 - 2 * y) + (1 - 2 * y) ^ 2) :=
    mul_nonneg (by linarith) (by nlinarith [sq_nonneg (1 - 2 * x + (1 - 2 * y)), sq_nonneg (1 - 2 * x), sq_nonneg (1 - 2 * y)])
  have := mul_nonneg hD0 key
  have e : 3 * Ω * ((b.time - a.time) * (y - x)) = 3 * D * (y - x) := by rw [hD]; ring
  rw [e]
  nlinarith [this]

/-- The reported angular velocity within such a segment. -/
theorem Paced.rate {Ω : ℝ} (h : Paced Ω a b) (hL : L.Shortest) {t : ℝ} (hs : a.time ≤ t) (ht : t ≤ b.time) :
    vecNorm (interpolateTwist L a b t).rotationalVelocity ≤ 3 * Ω := by
  have hd := sub_pos.2 h.time
  obtain ⟨n1, n2, n3⟩ := h.norms hL
  rw [← norm_vec, vec_angular h.unitA, norm_mul, norm_unit (isUnit_star (isUnit_interpolate h.unitA t)), mul_one]
  simp only [interpolateDerivative]
  set w := controlVectors L a b
  set y := (t - a.time) / (b.time - a.time) with hy
  have hy0 : 0 ≤ y := div_nonneg (by linarith) hd.le
  have hy1 : y ≤ 1 := by rw [hy, div_le_one hd]; linarith
  have hv : ∀ v : Vec3, ‖quat 0 v‖ = vecNorm v := norm_vec
  have hA := norm_unit h.unitA
  have hE : ∀ v : Vec3, ‖exponentialMap v‖ = 1 := fun v => norm_unit (isUnit_exp v)
  have hΩ : 0 ≤ Ω := (vecNorm_nonneg _).trans h.rateA
  rw [norm_smul, Real.norm_eq_abs, abs_of_pos (by positivity), one_div, inv_mul_le_iff₀ hd]
  refine (norm_add_le _ _).trans ((add_le_add_left (norm_add_le _ _) _).trans ?_)
  simp only [norm_mul, hv, hA, hE, one_mul, mul_one, vecNorm_smul]
  rw [abs_of_nonneg (by nlinarith [sq_nonneg (1 - y)]), abs_of_nonneg (mul_nonneg (by linarith) (by linarith)),
    abs_of_nonneg (by nlinarith [sq_nonneg y])]
  have m1 : 0 ≤ 3 * ((1 - y) * (1 - y)) := by nlinarith [sq_nonneg (1 - y)]
  have m2 : 0 ≤ 6 * y * (1 - y) := mul_nonneg (by linarith) (by linarith)
  have m3 : 0 ≤ 3 * (y * y) := by nlinarith [sq_nonneg y]
  refine (add_le_add (add_le_add (mul_le_mul_of_nonneg_left n1 m1) (mul_le_mul_of_nonneg_left n2 m2))
    (mul_le_mul_of_nonneg_left n3 m3)).trans ?_
  have := mul_nonneg (mul_nonneg hd.le hΩ) (sq_nonneg (1 - 2 * y))
  nlinarith [this]

end

end Verif.Hermite.SE3

import Verif.Hermite.SE3Lemmas
import Verif.Hermite.EquivLemmas

/-!
# `CubicHermiteSE3Curve`: data moved rigidly, time changed or run backwards
-/

set_option linter.unusedSectionVars false
set_option linter.dupNamespace false

namespace Verif.Kindr

open Quaternion

/-- What kindr's formula for the logarithm (angle times axis) has beyond `LogMap`: turning the axis turns
the logarithm. -/
def LogMap.Turns (L : LogMap) : Prop :=
  ∀ Q q : Quat, normSq Q = 1 → normSq q = 1 → L.log (Q * q * star Q) = rotate Q (L.log q)

/-- The inverse rotation has the negative logarithm. -/
def LogMap.Inverts (L : LogMap) : Prop := ∀ q : Quat, normSq q = 1 → L.log (star q) = -L.log q

theorem rotate_add (q : Quat) (v w : Vec3) : rotate q (v + w) = rotate q v + rotate q w := by
  apply vec_injective
  rw [vec_add, vec_rotate, vec_rotate, vec_rotate, vec_add]
  noncomm_ring

/-- `rotate` as a linear map. -/
noncomputable def rotateL (q : Quat) : Vec3 →ₗ[ℝ] Vec3 where
  toFun := rotate q
  map_add' := rotate_add q
  map_smul' r v := rotate_smul q r v

@[simp] theorem rotateL_apply (q : Quat) (v : Vec3) : rotateL q v = rotate q v := rfl

theorem rotate_mul (p q : Quat) (v : Vec3) : rotate (p * q) v = rotate p (rotate q v) := by
  apply vec_injective
  rw [vec_rotate, vec_rotate, vec_rotate, star_mul]
  noncomm_ring

theorem inverseRotate_mul {Q : Quat} (hQ : IsUnit' Q) (q : Quat) (v : Vec3) :
    inverseRotate (Q * q) (rotate Q v) = inverseRotate q v := by
  apply vec_injective
  rw [vec_inverseRotate, vec_inverseRotate, vec_rotate, star_mul,
    show star q * star Q * (Q * vec v * star Q) * (Q * q) =
      star q * (star Q * Q) * vec v * (star Q * Q) * q by noncomm_ring, star_mul_self' hQ]
  simp

theorem inverseRotate_neg (q : Quat) (v : Vec3) : inverseRotate q (-v) = -inverseRotate q v := by
  have := inverseRotate_smul q (-1) v
  simpa using this

/-- kindr's formula: twice the arc cosine of the real part, along the imaginary part. -/
noncomputable def axisLog (q : Quat) : Vec3 :=
  (2 * Real.arccos q.re / vecNorm (imaginary q)) • imaginary q

theorem axisLog_exp {q : Quat} (hq : normSq q = 1) :
    exponentialMap (axisLog q) = q ∨ exponentialMap (axisLog q) = -q := by
  rw [normSq_def'] at hq
  set n := vecNorm (imaginary q) with hn
  have hn2 : n ^ 2 = q.imI ^ 2 + q.imJ ^ 2 + q.imK ^ 2 := by
    rw [hn, vecNorm, Real.sq_sqrt (by positivity)]
    simp [imaginary]
  have hn0 : 0 ≤ n := Real.sqrt_nonneg _
  rcases hn0.lt_or_eq with hpos | h0
  · left
    have hre : q.re ^ 2 + n ^ 2 = 1 := by rw [hn2]; linarith
    have hle : -1 ≤ q.re ∧ q.re ≤ 1 := by
      constructor <;> nlinarith [sq_nonneg n, sq_nonneg (q.re - 1), sq_nonneg (q.re + 1)]
    have hth : 0 < Real.arccos q.re := by
      rw [Real.arccos_pos]
      nlinarith
    have hnorm : vecNorm (axisLog q) = 2 * Real.arccos q.re := by
      have : axisLog q = (2 * Real.arccos q.re / n) • imaginary q := rfl
      rw [← norm_vec, this, vec_smul, norm_smul, norm_vec, ← hn, Real.norm_eq_abs,
        abs_of_pos (by positivity)]
      field_simp
    have hsin : Real.sin (Real.arccos q.re) = n := by
      rw [Real.sin_arccos, show 1 - q.re ^ 2 = n ^ 2 by linarith, Real.sqrt_sq hn0]
    simp only [exponentialMap]
    rw [hnorm, if_neg (by positivity), show 2 * Real.arccos q.re / 2 = Real.arccos q.re by ring,
      Real.cos_arccos hle.1 hle.2, hsin]
    have : (n / (2 * Real.arccos q.re)) • axisLog q = imaginary q := by
      show (n / (2 * Real.arccos q.re)) • (2 * Real.arccos q.re / n) • imaginary q = _
      rw [smul_smul]
      have : n / (2 * Real.arccos q.re) * (2 * Real.arccos q.re / n) = 1 := by field_simp
      rw [this, one_smul]
    rw [this]
    ext <;> simp [imaginary]
  · have hz : axisLog q = 0 := by
      have : imaginary q = 0 := vecNorm_eq_zero h0.symm
      rw [axisLog, this, smul_zero]
    rw [hz, exponentialMap_zero]
    rw [← h0] at hn2
    have h1 : q.imI = 0 := by nlinarith [sq_nonneg q.imI, sq_nonneg q.imJ, sq_nonneg q.imK]
    have h2 : q.imJ = 0 := by nlinarith [sq_nonneg q.imI, sq_nonneg q.imJ, sq_nonneg q.imK]
    have h3 : q.imK = 0 := by nlinarith [sq_nonneg q.imI, sq_nonneg q.imJ, sq_nonneg q.imK]
    rw [h1, h2, h3] at hq
    have h4 : q.re = 1 ∨ q.re = -1 := sq_eq_one_iff.1 (by linarith)
    rcases h4 with h4 | h4
    · left; ext <;> simp [h1, h2, h3, h4]
    · right; ext <;> simp [h1, h2, h3, h4]

/-- The formula meets the contract of `LogMap` and both further assumptions. -/
noncomputable def axisLogMap : LogMap where
  log := axisLog
  exp_log _ hq := axisLog_exp hq
  log_one := by
    rw [axisLog]
    have : imaginary (1 : Quat) = 0 := by ext i; fin_cases i <;> simp [imaginary]
    rw [this, smul_zero]

theorem re_conj {Q : Quat} (hQ : IsUnit' Q) (q : Quat) : (Q * q * star Q).re = q.re := by
  have h1 : (Q * q * star Q).re = (star Q * (Q * q)).re := by
    simp only [re_mul, re_star, imI_star, imJ_star, imK_star]
    ring
  rw [h1, ← mul_assoc, star_mul_self' hQ, one_mul]

theorem imaginary_conj {Q : Quat} (hQ : IsUnit' Q) (q : Quat) :
    imaginary (Q * q * star Q) = rotate Q (imaginary q) := by
  have h1 : q = (q.re : Quat) + vec (imaginary q) := by ext <;> simp [imaginary]
  have h2 : Q * q * star Q = (q.re : Quat) + Q * vec (imaginary q) * star Q := by
    conv_lhs => rw [h1]
    rw [mul_add, add_mul, ← Quaternion.coe_commutes, mul_assoc, self_mul_star' hQ, mul_one]
  rw [h2, rotate]
  ext i; fin_cases i <;> simp [imaginary]

theorem vecNorm_rotate {Q : Quat} (hQ : IsUnit' Q) (v : Vec3) : vecNorm (rotate Q v) = vecNorm v := by
  have h : ‖Q‖ = 1 := by
    have := Quaternion.normSq_eq_norm_mul_self Q
    rw [show normSq Q = 1 from hQ] at this
    nlinarith [norm_nonneg Q]
  rw [← norm_vec, ← norm_vec, vec_rotate, norm_mul, norm_mul, norm_star, h]
  simp

theorem axisLogMap_turns : axisLogMap.Turns := by
  intro Q q hQ _
  show axisLog _ = rotate Q (axisLog q)
  rw [axisLog, axisLog, re_conj hQ, imaginary_conj hQ, vecNorm_rotate hQ, rotate_smul]

theorem axisLogMap_inverts : axisLogMap.Inverts := by
  intro q _
  show axisLog _ = -axisLog q
  have h : imaginary (star q) = -imaginary q := by ext i; fin_cases i <;> simp [imaginary]
  have hn : vecNorm (-imaginary q) = vecNorm (imaginary q) := by simp [vecNorm]
  rw [axisLog, axisLog, h, hn, re_star, smul_neg]

end Verif.Kindr

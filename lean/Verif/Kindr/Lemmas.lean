import Verif.Kindr.Model
import Mathlib.Analysis.Normed.Algebra.QuaternionExponential
import Mathlib.Analysis.SpecialFunctions.Exponential
import Mathlib.Analysis.SpecialFunctions.Trigonometric.Inverse
import Mathlib.LinearAlgebra.CrossProduct
import Mathlib.Analysis.Calculus.Deriv.Mul
import Mathlib.Analysis.Calculus.Deriv.Star
import Mathlib.Analysis.Calculus.Deriv.Comp
import Mathlib.Tactic.NoncommRing

/-!
# Facts about the kindr types
-/

namespace Verif.Kindr

open Quaternion
open scoped Matrix

/-- Unit quaternions. -/
def IsUnit' (q : Quat) : Prop := normSq q = 1

theorem isUnit_mul {p q : Quat} (hp : IsUnit' p) (hq : IsUnit' q) : IsUnit' (p * q) := by
  unfold IsUnit' at *; rw [map_mul, hp, hq, one_mul]

theorem isUnit_star {q : Quat} (hq : IsUnit' q) : IsUnit' (star q) := by
  unfold IsUnit' at *; rw [normSq_star, hq]

theorem isUnit_neg {q : Quat} (hq : IsUnit' q) : IsUnit' (-q) := by
  unfold IsUnit' at *; rw [normSq_neg, hq]

theorem star_mul_self' {q : Quat} (hq : IsUnit' q) : star q * q = 1 := by
  rw [star_mul_self, hq]; rfl

theorem self_mul_star' {q : Quat} (hq : IsUnit' q) : q * star q = 1 := by
  rw [self_mul_star, hq]; rfl

@[simp] theorem quat_re (w : ℝ) (v : Vec3) : (quat w v).re = w := rfl
@[simp] theorem quat_imI (w : ℝ) (v : Vec3) : (quat w v).imI = v 0 := rfl
@[simp] theorem quat_imJ (w : ℝ) (v : Vec3) : (quat w v).imJ = v 1 := rfl
@[simp] theorem quat_imK (w : ℝ) (v : Vec3) : (quat w v).imK = v 2 := rfl
@[simp] theorem vec_re (v : Vec3) : (vec v).re = 0 := rfl
@[simp] theorem vec_imI (v : Vec3) : (vec v).imI = v 0 := rfl
@[simp] theorem vec_imJ (v : Vec3) : (vec v).imJ = v 1 := rfl
@[simp] theorem vec_imK (v : Vec3) : (vec v).imK = v 2 := rfl

@[simp] theorem imaginary_vec (v : Vec3) : imaginary (vec v) = v := by
  ext i; fin_cases i <;> rfl

/-- Pure quaternions are those with conjugate the negative. -/
theorem vec_imaginary {q : Quat} (h : star q = -q) : vec (imaginary q) = q := by
  have h0 : q.re = 0 := by
    have := congrArg QuaternionAlgebra.re h
    simp at this
    linarith
  ext <;> simp [imaginary, h0]

theorem star_vec (v : Vec3) : star (vec v) = -vec v := by
  ext <;> simp

theorem star_conj {p : Quat} (h : star p = -p) (x : Quat) : star (x * p * star x) = -(x * p * star x) := by
  simp [star_mul, h, mul_assoc]

theorem star_conj' {p : Quat} (h : star p = -p) (x : Quat) : star (star x * p * x) = -(star x * p * x) := by
  simp [star_mul, h, mul_assoc]

theorem vec_rotate (q : Quat) (v : Vec3) : vec (rotate q v) = q * vec v * star q :=
  vec_imaginary (star_conj (star_vec v) q)

theorem vec_inverseRotate (q : Quat) (v : Vec3) : vec (inverseRotate q v) = star q * vec v * q :=
  vec_imaginary (star_conj' (star_vec v) q)

theorem vec_injective {v w : Vec3} (h : vec v = vec w) : v = w := by
  rw [← imaginary_vec v, h, imaginary_vec]

theorem rotate_inverseRotate {q : Quat} (hq : IsUnit' q) (v : Vec3) : rotate q (inverseRotate q v) = v := by
  apply vec_injective
  rw [vec_rotate, vec_inverseRotate, show q * (star q * vec v * q) * star q =
    (q * star q) * vec v * (q * star q) by noncomm_ring, self_mul_star' hq]
  simp

theorem rotate_neg (q : Quat) (v : Vec3) : rotate (-q) v = rotate q v := by
  simp [rotate]

theorem vec_smul (r : ℝ) (v : Vec3) : vec (r • v) = r • vec v := by
  ext <;> simp

theorem vec_add (v w : Vec3) : vec (v + w) = vec v + vec w := by
  ext <;> simp

theorem rotate_smul (q : Quat) (r : ℝ) (v : Vec3) : rotate q (r • v) = r • rotate q v := by
  apply vec_injective
  rw [vec_smul, vec_rotate, vec_rotate, vec_smul]
  simp

theorem inverseRotate_smul (q : Quat) (r : ℝ) (v : Vec3) :
    inverseRotate q (r • v) = r • inverseRotate q v := by
  apply vec_injective
  rw [vec_smul, vec_inverseRotate, vec_inverseRotate, vec_smul]
  simp

/-- `imaginary` as a continuous linear map. -/
noncomputable def imaginaryL : Quat →L[ℝ] Vec3 :=
  LinearMap.toContinuousLinearMap
    { toFun := imaginary
      map_add' := fun p q => by ext i; fin_cases i <;> simp [imaginary]
      map_smul' := fun r q => by ext i; fin_cases i <;> simp [imaginary] }

theorem imaginaryL_apply (q : Quat) : imaginaryL q = imaginary q := rfl

/-- Conjugation as a continuous linear map. -/
noncomputable def starL : Quat →L[ℝ] Quat :=
  LinearMap.toContinuousLinearMap
    { toFun := star
      map_add' := fun p q => star_add p q
      map_smul' := fun r q => Quaternion.star_smul r q }

theorem continuous_star' : Continuous (star : Quat → Quat) := starL.continuous

theorem continuous_imaginary : Continuous imaginary := imaginaryL.continuous

theorem hasDerivAt_star {f : ℝ → Quat} {f' : Quat} {t : ℝ} (h : HasDerivAt f f' t) :
    HasDerivAt (fun s => star (f s)) (star f') t :=
  starL.hasFDerivAt.comp_hasDerivAt t h

/-! ## The exponential -/

theorem norm_vec (v : Vec3) : ‖vec v‖ = vecNorm v := by
  have h : ‖vec v‖ ^ 2 = v 0 ^ 2 + v 1 ^ 2 + v 2 ^ 2 := by
    rw [sq, ← normSq_eq_norm_mul_self, normSq_def']
    simp
  rw [vecNorm, ← h, Real.sqrt_sq (norm_nonneg _)]

theorem exponentialMap_eq (v : Vec3) :
    exponentialMap v = NormedSpace.exp ((1 / 2 : ℝ) • vec v) := by
  have hn : ‖(1 / 2 : ℝ) • vec v‖ = vecNorm v / 2 := by
    rw [norm_smul, norm_vec]; norm_num; ring
  rw [exp_of_re_eq_zero _ (by simp), hn, exponentialMap]
  by_cases h : vecNorm v = 0
  · rw [if_pos h, h]; simp
  · rw [if_neg h]
    ext <;> simp <;> field_simp

theorem isUnit_exp (v : Vec3) : IsUnit' (exponentialMap v) := by
  rw [IsUnit', exponentialMap_eq, normSq_exp]
  simp

theorem exponentialMap_zero : exponentialMap 0 = 1 := by
  rw [exponentialMap_eq]
  have : vec 0 = 0 := by ext <;> simp
  rw [this, smul_zero, NormedSpace.exp_zero]

theorem exponentialMap_neg (v : Vec3) : exponentialMap (-v) = star (exponentialMap v) := by
  have hv : vec (-v) = -vec v := by ext <;> simp
  rw [exponentialMap_eq, exponentialMap_eq, hv, NormedSpace.star_exp]
  congr 1
  rw [Quaternion.star_smul, star_vec]

theorem exp_neg_mul (v : Vec3) : exponentialMap (-v) * exponentialMap v = 1 := by
  rw [exponentialMap_neg]; exact star_mul_self' (isUnit_exp v)

theorem exp_mul_neg (v : Vec3) : exponentialMap v * exponentialMap (-v) = 1 := by
  rw [exponentialMap_neg]; exact self_mul_star' (isUnit_exp v)

theorem exponentialMap_add_smul (r s : ℝ) (v : Vec3) :
    exponentialMap ((r + s) • v) = exponentialMap (r • v) * exponentialMap (s • v) := by
  rw [exponentialMap_eq, exponentialMap_eq, exponentialMap_eq, vec_smul, vec_smul, vec_smul, add_smul,
    smul_add]
  let _ : NormedAlgebra ℚ Quat := NormedAlgebra.restrictScalars ℚ ℝ Quat
  refine NormedSpace.exp_add_of_commute ?_
  simp [Commute, SemiconjBy, smul_smul, mul_comm, mul_left_comm]

/-- Derivative of `s ↦ exp(β(s) w)`. -/
theorem hasDerivAt_exp {β : ℝ → ℝ} {β' t : ℝ} (hβ : HasDerivAt β β' t) (w : Vec3) :
    HasDerivAt (fun s => exponentialMap (β s • w))
      (exponentialMap (β t • w) * ((1 / 2 : ℝ) • vec (β' • w))) t := by
  have h := HasDerivAt.scomp t (hasDerivAt_exp_smul_const (𝕂 := ℝ) ((1 / 2 : ℝ) • vec w) (β t)) hβ
  have e : ∀ s, exponentialMap (β s • w) = NormedSpace.exp (β s • ((1 / 2 : ℝ) • vec w)) := by
    intro s
    rw [exponentialMap_eq, vec_smul, smul_comm]
  refine (h.congr_deriv ?_).congr_of_eventuallyEq ?_
  · rw [e t, vec_smul]
    simp [smul_smul, mul_comm]
  · exact Filter.Eventually.of_forall e

/-! ## The logarithm -/

theorem vecNorm_eq_zero {v : Vec3} (h : vecNorm v = 0) : v = 0 := by
  rw [← norm_vec, norm_eq_zero] at h
  rw [← imaginary_vec v, h]
  ext i; fin_cases i <;> rfl

/-- There is a logarithm as assumed. -/
theorem logMap_exists : Nonempty LogMap := by
  classical
  have key : ∀ q : Quat, normSq q = 1 → ∃ v, exponentialMap v = q := by
    intro q hq
    rw [normSq_def'] at hq
    by_cases hi : q.im = 0
    · have h1 : q.imI = 0 := by simpa using congrArg QuaternionAlgebra.imI hi
      have h2 : q.imJ = 0 := by simpa using congrArg QuaternionAlgebra.imJ hi
      have h3 : q.imK = 0 := by simpa using congrArg QuaternionAlgebra.imK hi
      rw [h1, h2, h3] at hq
      have h4 : q.re = 1 ∨ q.re = -1 := by
        have : q.re ^ 2 = 1 := by linarith
        exact sq_eq_one_iff.1 this
      rcases h4 with h4 | h4
      · exact ⟨0, by rw [exponentialMap_zero]; ext <;> simp [h1, h2, h3, h4]⟩
      · refine ⟨![2 * Real.pi, 0, 0], ?_⟩
        have hn : vecNorm ![2 * Real.pi, 0, 0] = 2 * Real.pi := by
          simp only [vecNorm]
          simp [Real.sqrt_sq, Real.pi_pos.le]
        have hne : (2 * Real.pi : ℝ) ≠ 0 := by positivity
        simp only [exponentialMap]
        rw [hn, if_neg hne]
        have hh : 2 * Real.pi / 2 = Real.pi := by ring
        rw [hh]
        ext <;> simp [h1, h2, h3, h4]
    · set n := √(q.imI ^ 2 + q.imJ ^ 2 + q.imK ^ 2) with hn
      have hnn : n ^ 2 = q.imI ^ 2 + q.imJ ^ 2 + q.imK ^ 2 := Real.sq_sqrt (by positivity)
      have hn0 : 0 < n := by
        refine Real.sqrt_pos.2 (lt_of_le_of_ne (by positivity) fun h => hi ?_)
        have h1 : q.imI = 0 := by nlinarith [sq_nonneg q.imI, sq_nonneg q.imJ, sq_nonneg q.imK]
        have h2 : q.imJ = 0 := by nlinarith [sq_nonneg q.imI, sq_nonneg q.imJ, sq_nonneg q.imK]
        have h3 : q.imK = 0 := by nlinarith [sq_nonneg q.imI, sq_nonneg q.imJ, sq_nonneg q.imK]
        ext <;> simp [h1, h2, h3]
      have hre : q.re ^ 2 + n ^ 2 = 1 := by rw [hnn]; linarith
      have hle : -1 ≤ q.re ∧ q.re ≤ 1 := by
        constructor <;> nlinarith [sq_nonneg n, sq_nonneg (q.re - 1), sq_nonneg (q.re + 1)]
      set th := Real.arccos q.re with hth
      have hcos : Real.cos th = q.re := Real.cos_arccos hle.1 hle.2
      have hsin : Real.sin th = n := by
        rw [hth, Real.sin_arccos, show 1 - q.re ^ 2 = n ^ 2 by linarith, Real.sqrt_sq hn0.le]
      have hth0 : th ≠ 0 := by
        intro h
        rw [h, Real.sin_zero] at hsin
        exact hn0.ne hsin
      have hthp : 0 ≤ th := Real.arccos_nonneg _
      refine ⟨(2 * th / n) • imaginary q, ?_⟩
      have hv : vecNorm ((2 * th / n) • imaginary q) = 2 * th := by
        rw [vecNorm]
        have : ((2 * th / n) • imaginary q) 0 ^ 2 + ((2 * th / n) • imaginary q) 1 ^ 2 +
            ((2 * th / n) • imaginary q) 2 ^ 2 = (2 * th) ^ 2 := by
          simp only [imaginary, Pi.smul_apply, smul_eq_mul, Matrix.cons_val_zero, Matrix.cons_val_one,
            Matrix.cons_val]
          rw [mul_pow, mul_pow, mul_pow, ← mul_add, ← mul_add, ← hnn]
          field_simp
        rw [this, Real.sqrt_sq (by positivity)]
      have hne : 2 * th ≠ 0 := by simpa using hth0
      simp only [exponentialMap]
      rw [hv, if_neg hne, show 2 * th / 2 = th by ring, hcos, hsin]
      ext <;> simp [imaginary] <;> field_simp
  choose! l hl using key
  refine ⟨⟨fun q => if q = 1 then 0 else l q, fun q hq => ?_, by simp⟩⟩
  left
  by_cases h : q = 1
  · rw [if_pos h, h, exponentialMap_zero]
  · rw [if_neg h]; exact hl q hq

end Verif.Kindr

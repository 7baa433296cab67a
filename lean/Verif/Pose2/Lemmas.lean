import Verif.Pose2.Model
import Mathlib.Analysis.SpecialFunctions.Trigonometric.Bounds
import Mathlib.Analysis.SpecialFunctions.Trigonometric.Deriv
import Mathlib.Analysis.Complex.Exponential
import Mathlib.Analysis.Calculus.FDeriv.Mul
import Mathlib.Analysis.Calculus.Deriv.Inv
import Mathlib.Analysis.Calculus.FDeriv.Pi
import Mathlib.LinearAlgebra.Matrix.ToLin
import Mathlib.Topology.Algebra.Module.FiniteDimension
import Mathlib.Tactic.FieldSimp
import Mathlib.Tactic.LinearCombination

/-! # Lemmas about `Pose2_Expressions.hpp` -/

set_option linter.unusedSectionVars false
set_option linter.dupNamespace false

namespace Verif.Pose2
open Real

/-! ## The cotangent near zero -/

theorem taylor (x : ℝ) (hx : |x| ≤ 1) :
    |sin x - (x - x ^ 3 / 6 + x ^ 5 / 120)| ≤ |x| ^ 7 / 4410 ∧
    |cos x - (1 - x ^ 2 / 2 + x ^ 4 / 24 - x ^ 6 / 720)| ≤ |x| ^ 7 / 4410 := by
  have h := Complex.exp_bound (x := (x : ℂ) * Complex.I) (by simpa using hx) (n := 7) (by norm_num)
  have hn : ‖(x : ℂ) * Complex.I‖ = |x| := by simp
  rw [hn] at h
  have he : Complex.exp (x * Complex.I) - ∑ m ∈ Finset.range 7, ((x : ℂ) * Complex.I) ^ m / m.factorial
      = ((cos x - (1 - x ^ 2 / 2 + x ^ 4 / 24 - x ^ 6 / 720) : ℝ) : ℂ) +
        ((sin x - (x - x ^ 3 / 6 + x ^ 5 / 120) : ℝ) : ℂ) * Complex.I := by
    rw [Complex.exp_mul_I]
    have h2 : Complex.I ^ 2 = -1 := Complex.I_sq
    have h3 : Complex.I ^ 3 = -Complex.I := Complex.I_pow_three
    have h4 : Complex.I ^ 4 = 1 := Complex.I_pow_four
    have h5 : Complex.I ^ 5 = Complex.I := by rw [pow_succ, h4, one_mul]
    have h6 : Complex.I ^ 6 = -1 := by rw [pow_succ, h5, ← sq, h2]
    simp only [Finset.sum_range_succ, Finset.sum_range_zero, mul_pow, h2, h3, h4, h5, h6, Nat.factorial]
    push_cast
    ring
  have hb : |x| ^ 7 * (((7 : ℕ).succ : ℝ) * ((7 : ℕ).factorial * (7 : ℕ) : ℝ)⁻¹) = |x| ^ 7 / 4410 := by
    norm_num [Nat.factorial]; ring
  rw [he, hb] at h
  constructor
  · refine le_trans ?_ h
    have := Complex.abs_im_le_norm (((cos x - (1 - x ^ 2 / 2 + x ^ 4 / 24 - x ^ 6 / 720) : ℝ) : ℂ) +
        ((sin x - (x - x ^ 3 / 6 + x ^ 5 / 120) : ℝ) : ℂ) * Complex.I)
    rwa [Complex.add_im, Complex.ofReal_im, Complex.im_ofReal_mul, Complex.I_im, mul_one, zero_add] at this
  · refine le_trans ?_ h
    have := Complex.abs_re_le_norm (((cos x - (1 - x ^ 2 / 2 + x ^ 4 / 24 - x ^ 6 / 720) : ℝ) : ℂ) +
        ((sin x - (x - x ^ 3 / 6 + x ^ 5 / 120) : ℝ) : ℂ) * Complex.I)
    rwa [Complex.add_re, Complex.ofReal_re, Complex.re_ofReal_mul, Complex.I_re, mul_zero, add_zero] at this

/-- Half the angle times the cotangent of half the angle. -/
noncomputable def halfCot (a : ℝ) : ℝ := if a = 0 then 1 else a * 0.5 * sin a / (1 - cos a)

theorem halfCot_eq {a : ℝ} (h : sin (a / 2) ≠ 0) : halfCot a = a / 2 * cos (a / 2) / sin (a / 2) := by
  have h0 : a ≠ 0 := by rintro rfl; simp at h
  rw [halfCot, if_neg h0]
  have e1 : sin a = 2 * sin (a / 2) * cos (a / 2) := by rw [← sin_two_mul]; congr 1; ring
  have e2 : 1 - cos a = 2 * sin (a / 2) ^ 2 := by
    have := cos_sq' (a / 2)
    have e : cos a = 2 * cos (a / 2) ^ 2 - 1 := by rw [← cos_two_mul]; congr 1; ring
    rw [e, this]; ring
  rw [e1, e2]
  field_simp
  norm_num

theorem halfCot_neg (a : ℝ) : halfCot (-a) = halfCot a := by
  simp [halfCot]

theorem halfCot_near_pos {x : ℝ} (h0 : 0 < x) (h1 : x ≤ 1 / 2) :
    |x * cos x / sin x - (1 - x ^ 2 / 3 - x ^ 4 / 45)| ≤ x ^ 6 * (64 / 10000) := by
  obtain ⟨hs, hc⟩ := taylor x (by rw [abs_of_pos h0]; linarith)
  rw [abs_of_pos h0] at hs hc
  rw [abs_le] at hs hc
  have hx2 : x ^ 2 ≤ 1 / 4 := by nlinarith
  have hx3 : 0 < x ^ 3 := by positivity
  have hx7 : 0 < x ^ 7 := by positivity
  have hS : x * (9 / 10) ≤ sin x := by
    have h5 : x ^ 7 ≤ x ^ 5 := by
      have : x ^ 7 = x ^ 5 * x ^ 2 := by ring
      rw [this]; have : 0 < x ^ 5 := by positivity
      nlinarith
    have : x ^ 3 ≤ x / 4 := by nlinarith
    have h5' : 0 < x ^ 5 := by positivity
    linarith [hs.1]
  have hS0 : 0 < sin x := lt_of_lt_of_le (by positivity) hS
  have hp0 : 0 ≤ 1 - x ^ 2 / 3 - x ^ 4 / 45 := by nlinarith
  have hp1 : 1 - x ^ 2 / 3 - x ^ 4 / 45 ≤ 1 := by nlinarith [sq_nonneg (x ^ 2)]
  have key : |x * cos x - sin x * (1 - x ^ 2 / 3 - x ^ 4 / 45)| ≤ x ^ 7 * (55 / 10000) := by
    have e : x * cos x - sin x * (1 - x ^ 2 / 3 - x ^ 4 / 45) =
        x * (cos x - (1 - x ^ 2 / 2 + x ^ 4 / 24 - x ^ 6 / 720)) -
        (sin x - (x - x ^ 3 / 6 + x ^ 5 / 120)) * (1 - x ^ 2 / 3 - x ^ 4 / 45) +
        (x ^ 9 / 5400 - x ^ 7 * (1 / 720 + 1 / 270 - 1 / 360)) := by ring
    have a1 : |x * (cos x - (1 - x ^ 2 / 2 + x ^ 4 / 24 - x ^ 6 / 720))| ≤ x ^ 7 / 4410 := by
      rw [abs_mul, abs_of_pos h0]
      have := abs_le.2 hc
      nlinarith [abs_nonneg (cos x - (1 - x ^ 2 / 2 + x ^ 4 / 24 - x ^ 6 / 720))]
    have a2 : |(sin x - (x - x ^ 3 / 6 + x ^ 5 / 120)) * (1 - x ^ 2 / 3 - x ^ 4 / 45)| ≤ x ^ 7 / 4410 := by
      rw [abs_mul, abs_of_nonneg hp0]
      have := abs_le.2 hs
      nlinarith [abs_nonneg (sin x - (x - x ^ 3 / 6 + x ^ 5 / 120))]
    have a3 : |x ^ 9 / 5400 - x ^ 7 * (1 / 720 + 1 / 270 - 1 / 360)| ≤ x ^ 7 * (25 / 10000) := by
      have : x ^ 9 = x ^ 7 * x ^ 2 := by ring
      rw [this, abs_le]
      constructor <;> nlinarith [sq_nonneg x]
    rw [e]
    refine (abs_add_le _ _).trans ?_
    have := abs_sub (x * (cos x - (1 - x ^ 2 / 2 + x ^ 4 / 24 - x ^ 6 / 720)))
      ((sin x - (x - x ^ 3 / 6 + x ^ 5 / 120)) * (1 - x ^ 2 / 3 - x ^ 4 / 45))
    linarith
  have e : x * cos x / sin x - (1 - x ^ 2 / 3 - x ^ 4 / 45) =
      (x * cos x - sin x * (1 - x ^ 2 / 3 - x ^ 4 / 45)) / sin x := by
    field_simp
  rw [e, abs_div, abs_of_pos hS0, div_le_iff₀ hS0]
  refine key.trans ?_
  have : x ^ 7 = x ^ 6 * x := by ring
  rw [this]
  have h6 : 0 < x ^ 6 := by positivity
  nlinarith

theorem halfCot_near {a : ℝ} (ha : |a| ≤ 1) :
    |halfCot a - (1 - a ^ 2 / 12 - a ^ 4 / 720)| ≤ a ^ 6 / 10000 := by
  have pos : ∀ a : ℝ, 0 < a → a ≤ 1 → |halfCot a - (1 - a ^ 2 / 12 - a ^ 4 / 720)| ≤ a ^ 6 / 10000 := by
    intro a h0 h1
    have hs : 0 < sin (a / 2) := sin_pos_of_pos_of_lt_pi (by linarith) (by linarith [two_le_pi])
    have := halfCot_near_pos (x := a / 2) (by linarith) (by linarith)
    rw [halfCot_eq hs.ne']
    convert this using 1
    · congr 1; ring
    · ring
  rcases lt_trichotomy a 0 with h | rfl | h
  · have := pos (-a) (by linarith) (by rw [abs_of_neg h] at ha; exact ha)
    rw [halfCot_neg] at this
    convert this using 1
    · congr 1; ring
    · ring
  · simp [halfCot]
  · exact pos a h (by rwa [abs_of_pos h] at ha)

/-- The same for `function1`. -/
noncomputable def rest (a : ℝ) : ℝ := if a = 0 then 0 else 1 / a - 0.5 * sin a / (1 - cos a)

theorem rest_eq {a : ℝ} (h : a ≠ 0) : rest a = (1 - halfCot a) / a := by
  rw [rest, if_neg h, halfCot, if_neg h]
  field_simp

theorem rest_near {a : ℝ} (ha : |a| ≤ 1) : |rest a - (a / 12 + a ^ 3 / 720)| ≤ |a| ^ 5 / 10000 := by
  by_cases h : a = 0
  · simp [rest, h]
  · have := halfCot_near ha
    rw [rest_eq h]
    have e : (1 - halfCot a) / a - (a / 12 + a ^ 3 / 720) =
        -(halfCot a - (1 - a ^ 2 / 12 - a ^ 4 / 720)) / a := by field_simp; ring
    rw [e, abs_div, abs_neg, div_le_iff₀ (abs_pos.2 h)]
    refine this.trans (le_of_eq ?_)
    have : a ^ 6 = |a| ^ 6 := (Even.pow_abs (by decide) a).symm
    rw [this]; ring

theorem one_sub_cos_ne {a : ℝ} (h0 : a ≠ 0) (h1 : -(2 * π) < a) (h2 : a < 2 * π) : 1 - cos a ≠ 0 := by
  intro h
  exact h0 ((cos_eq_one_iff_of_lt_of_lt h1 h2).1 (by linarith))

/-- The derivative of `halfCot`. -/
noncomputable def halfCot' (a : ℝ) : ℝ :=
  if a = 0 then 0 else 0.5 * sin a / (1 - cos a) - a * 0.5 / (1 - cos a)

theorem halfCot_deriv {a : ℝ} (h1 : -π < a) (h2 : a < π) : HasDerivAt halfCot (halfCot' a) a := by
  by_cases h : a = 0
  · subst h
    rw [halfCot', if_pos rfl, hasDerivAt_iff_isLittleO]
    have e0 : halfCot 0 = 1 := by simp [halfCot]
    simp only [e0, sub_zero, smul_zero]
    have hO : (fun x => halfCot x - 1) =O[nhds 0] fun x : ℝ => x ^ 2 := by
      refine Asymptotics.IsBigO.of_bound 1 ?_
      filter_upwards [Metric.ball_mem_nhds (0 : ℝ) one_pos] with x hx
      have hx' : |x| ≤ 1 := by
        rw [Metric.mem_ball, dist_zero_right, Real.norm_eq_abs] at hx; exact hx.le
      have hb := abs_le.1 (halfCot_near hx')
      have hx2 : x ^ 2 ≤ 1 := by rw [← sq_abs]; nlinarith [abs_nonneg x]
      rw [Real.norm_eq_abs, Real.norm_eq_abs, abs_of_nonneg (sq_nonneg x), abs_le]
      have h4 : x ^ 4 ≤ x ^ 2 := by nlinarith [sq_nonneg x]
      have h6 : x ^ 6 ≤ x ^ 2 := by
        have : x ^ 6 = x ^ 4 * x ^ 2 := by ring
        nlinarith [sq_nonneg x, sq_nonneg (x ^ 2)]
      have h40 : 0 ≤ x ^ 4 := by positivity
      constructor <;> nlinarith [sq_nonneg x]
    refine hO.trans_isLittleO ?_
    have := Asymptotics.isLittleO_pow_pow (𝕜 := ℝ) (m := 1) (n := 2) (by norm_num)
    simpa using this
  · have hc := one_sub_cos_ne h (by linarith [pi_pos]) (by linarith [pi_pos])
    have hd : HasDerivAt (fun b => b * 0.5 * sin b / (1 - cos b)) (halfCot' a) a := by
      have h3 := (((hasDerivAt_id a).mul_const (0.5 : ℝ)).mul (hasDerivAt_sin a)).div
        ((hasDerivAt_const a (1 : ℝ)).sub (hasDerivAt_cos a)) hc
      refine HasDerivAt.congr_deriv h3 ?_
      rw [halfCot', if_neg h]
      have hs := sin_sq_add_cos_sq a
      simp only [id, Pi.mul_apply, Pi.sub_apply]
      field_simp
      linear_combination (-a) * hs
    refine hd.congr_of_eventuallyEq ?_
    filter_upwards [isOpen_ne.mem_nhds h] with b hb
    rw [halfCot, if_neg hb]

/-! ## The logarithm -/

theorem exp_rot (v : Vec3) : (SE2.exp v).c = cos (v 2) ∧ (SE2.exp v).s = sin (v 2) := by
  by_cases h : v 2 = 0 <;> simp [SE2.exp, h]

variable {L : LogMap}

theorem log_rot {T : SE2} (hT : T.Valid) : T.c = cos (L.log T 2) ∧ T.s = sin (L.log T 2) := by
  have h := exp_rot (L.log T)
  rwa [L.exp_log T hT] at h

theorem angle_eq {T : SE2} (hT : T.Valid) {b : ℝ} (hc : T.c = cos b) (hs : T.s = sin b) (h1 : -π < b)
    (h2 : b < π) : L.log T 2 = b := by
  obtain ⟨h3, h4⟩ := log_rot (L := L) hT
  have ⟨h5, h6⟩ := L.angle T hT
  have : cos (L.log T 2 - b) = 1 := by
    rw [cos_sub, ← h3, ← h4, hc, hs, ← sq, ← sq]; exact cos_sq_add_sin_sq b
  have := (cos_eq_one_iff_of_lt_of_lt (by linarith) (by linarith)).1 this
  linarith

theorem log_trans {T : SE2} (hT : T.Valid) :
    L.log T 0 = halfCot (L.log T 2) * T.x + L.log T 2 / 2 * T.y ∧
    L.log T 1 = halfCot (L.log T 2) * T.y - L.log T 2 / 2 * T.x := by
  have e := L.exp_log T hT
  have ⟨h5, h6⟩ := L.angle T hT
  by_cases h : L.log T 2 = 0
  · rw [SE2.exp, if_pos h] at e
    have hx := congrArg SE2.x e
    have hy := congrArg SE2.y e
    simp only at hx hy
    simp [halfCot, h, ← hx, ← hy]
  · rw [SE2.exp, if_neg h] at e
    have hx := congrArg SE2.x e
    have hy := congrArg SE2.y e
    simp only at hx hy
    have hc := one_sub_cos_ne h (by linarith [pi_pos]) (by linarith [pi_pos])
    have hs := sin_sq_add_cos_sq (L.log T 2)
    rw [halfCot, if_neg h, ← hx, ← hy]
    constructor
    · field_simp
      linear_combination (-(L.log T 0)) * hs
    · field_simp
      linear_combination (-(L.log T 1)) * hs

/-! ## The Jacobian -/

/-- Multiplication by a matrix. -/
noncomputable def linear {m n : ℕ} (J : Matrix (Fin m) (Fin n) ℝ) : (Fin n → ℝ) →L[ℝ] (Fin m → ℝ) :=
  LinearMap.toContinuousLinearMap (Matrix.toLin' J)

theorem linear_apply {m n : ℕ} (J : Matrix (Fin m) (Fin n) ℝ) (d : Fin n → ℝ) (i : Fin m) :
    linear J d i = ∑ j, J i j * d j := by
  simp [linear, Matrix.toLin'_apply, Matrix.mulVec, dotProduct]

/-- The exact Jacobian of the logarithm. -/
noncomputable def exactJacobian (v : Vec3) : Matrix (Fin 3) (Fin 3) ℝ :=
  !![halfCot (v 2), -(v 2 / 2), v 0 * rest (v 2) + v 1 / 2;
     v 2 / 2, halfCot (v 2), v 1 * rest (v 2) - v 0 / 2;
     0, 0, 1]

/-- The logarithm of `T` times the pose with coordinates `w`, near `w = 0`. -/
noncomputable def logNear (a : ℝ) (T : SE2) (w : Vec3) : Vec3 :=
  ![halfCot (a + w 2) * (T.x + (T.c * w 0 - T.s * w 1)) + (a + w 2) / 2 * (T.y + (T.s * w 0 + T.c * w 1)),
    halfCot (a + w 2) * (T.y + (T.s * w 0 + T.c * w 1)) - (a + w 2) / 2 * (T.x + (T.c * w 0 - T.s * w 1)),
    a + w 2]

theorem logNear_eq {T : SE2} (hT : T.Valid) {w : Vec3} (h1 : -π < L.log T 2 + w 2)
    (h2 : L.log T 2 + w 2 < π) : L.log (T.compose (SE2.ofXYT w)) = logNear (L.log T 2) T w := by
  have hv : (T.compose (SE2.ofXYT w)).Valid := by
    have := sin_sq_add_cos_sq (w 2)
    simp only [SE2.Valid, SE2.compose, SE2.ofXYT] at hT ⊢
    linear_combination hT * (sin (w 2) ^ 2 + cos (w 2) ^ 2) + this
  obtain ⟨hc, hs⟩ := log_rot (L := L) hT
  have ha : L.log (T.compose (SE2.ofXYT w)) 2 = L.log T 2 + w 2 := by
    refine angle_eq hv ?_ ?_ h1 h2
    · rw [cos_add, ← hc, ← hs]; rfl
    · rw [sin_add, ← hc, ← hs]; rfl
  obtain ⟨h0, h1⟩ := log_trans (L := L) hv
  rw [ha] at h0 h1
  funext i
  fin_cases i
  · exact h0
  · exact h1
  · exact ha

theorem halfCot_identities {a : ℝ} (h1 : -π < a) (h2 : a < π) :
    halfCot a * cos a + a / 2 * sin a = halfCot a ∧ halfCot a * sin a - a / 2 * cos a = a / 2 ∧
    ∀ x y, halfCot' a * x + y / 2 =
      (halfCot a * x + a / 2 * y) * rest a + (halfCot a * y - a / 2 * x) / 2 := by
  by_cases h : a = 0
  · subst h
    simp only [halfCot, halfCot', rest, if_true]
    simp
  · have hc := one_sub_cos_ne h (by linarith [pi_pos]) (by linarith [pi_pos])
    have hs := sin_sq_add_cos_sq a
    rw [halfCot, if_neg h, halfCot', if_neg h, rest, if_neg h]
    refine ⟨?_, ?_, fun x y => ?_⟩
    · field_simp
      ring
    · field_simp
      linear_combination hs
    · obtain ⟨k, hk⟩ : ∃ k, k = sin a / (1 - cos a) := ⟨_, rfl⟩
      have hq : 1 / (1 - cos a) = (k ^ 2 + 1) / 2 := by
        rw [hk]; field_simp; linear_combination (-1 : ℝ) * hs
      have e1 : a * 0.5 * sin a / (1 - cos a) = a * k / 2 := by rw [hk]; ring
      have e2 : 0.5 * sin a / (1 - cos a) = k / 2 := by rw [hk]; ring
      have e3 : a * 0.5 / (1 - cos a) = a / 2 * (1 / (1 - cos a)) := by ring
      rw [e1, e2, e3, hq]
      field_simp
      ring

theorem logNear_deriv {T : SE2} (hT : T.Valid) (h1 : -π < L.log T 2) (h2 : L.log T 2 < π) :
    HasFDerivAt (logNear (L.log T 2) T) (linear (exactJacobian (L.log T))) 0 := by
  obtain ⟨hc, hs⟩ := log_rot (L := L) hT
  obtain ⟨h3, h4⟩ := log_trans (L := L) hT
  set a := L.log T 2 with ha
  let pr (i : Fin 3) : Vec3 →L[ℝ] ℝ := ContinuousLinearMap.proj i
  have p (i : Fin 3) : HasFDerivAt (fun w : Vec3 => w i) (pr i) 0 := (pr i).hasFDerivAt
  have pa := (p 2).const_add a
  have pA : HasFDerivAt (fun w : Vec3 => halfCot (a + w 2)) (halfCot' a • pr 2) 0 := by
    have hd : HasDerivAt halfCot (halfCot' a) (a + (0 : Vec3) 2) := by simpa using halfCot_deriv h1 h2
    exact hd.comp_hasFDerivAt (0 : Vec3) pa
  have pX := (((p 0).const_mul T.c).sub ((p 1).const_mul T.s)).const_add T.x
  have pY := (((p 0).const_mul T.s).add ((p 1).const_mul T.c)).const_add T.y
  have ph := pa.mul_const (2⁻¹ : ℝ)
  obtain ⟨i1, i2, i3⟩ := halfCot_identities h1 h2
  rw [hasFDerivAt_pi']
  intro i
  fin_cases i
  · refine ((pA.mul pX).add (ph.mul pY)).congr_fderiv ?_
    ext d
    simp [pr, linear_apply, Fin.sum_univ_three, exactJacobian]
    rw [← ha, h3, h4, hc, hs]
    linear_combination d 0 * i1 - d 1 * i2 + d 2 * i3 T.x T.y
  · refine ((pA.mul pY).sub (ph.mul pX)).congr_fderiv ?_
    ext d
    simp [pr, linear_apply, Fin.sum_univ_three, exactJacobian]
    rw [← ha, h3, h4, hc, hs]
    linear_combination d 0 * i2 + d 1 * i1 + d 2 * i3 T.y (-T.x)
  · refine pa.congr_fderiv ?_
    ext d
    simp [pr, linear_apply, Fin.sum_univ_three, exactJacobian]

theorem log_deriv (ch : Chart) {T : SE2} (hT : T.Valid) (h1 : -π < L.log T 2) (h2 : L.log T 2 < π) :
    HasFDerivAt (fun d => L.log (ch.retract T d)) (linear (exactJacobian (L.log T))) 0 := by
  have hd : HasFDerivAt (fun d => logNear (L.log T 2) T (ch.coords d))
      (linear (exactJacobian (L.log T))) 0 := by
    have h0 := logNear_deriv hT h1 h2
    rw [← ch.zero] at h0
    exact h0.comp (0 : Vec3) ch.deriv
  refine hd.congr_of_eventuallyEq ?_
  have hcont : ContinuousAt (fun d => L.log T 2 + ch.coords d 2) 0 :=
    continuousAt_const.add ((continuous_apply (2 : Fin 3)).continuousAt.comp ch.deriv.continuousAt)
  have h0 : L.log T 2 + ch.coords 0 2 = L.log T 2 := by rw [ch.zero]; simp
  have hev := hcont.eventually (isOpen_Ioo.mem_nhds (show L.log T 2 + ch.coords 0 2 ∈ Set.Ioo (-π) π by
    rw [h0]; exact ⟨h1, h2⟩))
  filter_upwards [hev] with d hd
  exact logNear_eq hT hd.1 hd.2

/-! ## The thresholds and the errors below them -/

theorem root_le {e b : ℝ} (he : 0 ≤ e) (hb : 0 ≤ b) (h : e ≤ b ^ 4) : e ^ (0.25 : ℝ) ≤ b := by
  have h1 : e ^ (0.25 : ℝ) ≤ (b ^ 4) ^ (0.25 : ℝ) := rpow_le_rpow he h (by norm_num)
  have h2 : (b ^ 4) ^ (0.25 : ℝ) = b := by
    rw [← rpow_natCast b 4, ← rpow_mul hb]; norm_num
  rwa [h2] at h1

theorem threshold1_le : threshold1 ≤ 0.0087 := by
  have : (epsilon / (0.0000330688 / 0.0833333)) ^ (0.25 : ℝ) ≤ 0.00087 :=
    root_le (by norm_num [epsilon]) (by norm_num) (by norm_num [epsilon])
  rw [threshold1]; linarith

theorem threshold2_le : threshold2 ≤ 0.0064 := by
  have : (epsilon / 0.00138889) ^ (0.25 : ℝ) ≤ 0.00064 :=
    root_le (by norm_num [epsilon]) (by norm_num) (by norm_num [epsilon])
  rw [threshold2]; linarith

theorem function2_near (a : ℝ) (h : ¬ |a| > threshold2) : |function2 a - halfCot a| ≤ 5e-12 := by
  rw [function2, if_neg h]
  have ha : |a| ≤ 0.0064 := (not_lt.1 h).trans threshold2_le
  have hb := abs_le.1 (halfCot_near (show |a| ≤ 1 by linarith))
  have h2 : a ^ 2 ≤ 0.0064 ^ 2 := by rw [← sq_abs]; gcongr
  have h4 : a ^ 4 ≤ 0.0064 ^ 4 := by
    have : a ^ 4 = (a ^ 2) ^ 2 := by ring
    rw [this]; nlinarith [sq_nonneg a]
  have h6 : a ^ 6 ≤ 0.0064 ^ 6 := by
    have : a ^ 6 = a ^ 4 * a ^ 2 := by ring
    have h40 : 0 ≤ a ^ 4 := by positivity
    rw [this]; nlinarith [sq_nonneg a]
  have h20 := sq_nonneg a
  have h40 : 0 ≤ a ^ 4 := by positivity
  norm_num at h2 h4 h6 ⊢
  rw [abs_le]
  constructor <;> linarith [hb.1, hb.2]

theorem function1_near (a : ℝ) (h : ¬ |a| > threshold1) : |function1 a - rest a| ≤ 3e-10 := by
  rw [function1, if_neg h]
  have ha : |a| ≤ 0.0087 := (not_lt.1 h).trans threshold1_le
  have hb := abs_le.1 (rest_near (show |a| ≤ 1 by linarith))
  have h3 : |a ^ 3| ≤ 0.0087 ^ 3 := by rw [abs_pow]; gcongr
  have h5 : |a| ^ 5 ≤ 0.0087 ^ 5 := by gcongr
  rw [abs_le] at ha h3
  norm_num at ha h3 h5 ⊢
  rw [abs_le]
  constructor <;> linarith [hb.1, hb.2, ha.1, ha.2, h3.1, h3.2]

theorem function2_exact (a : ℝ) (h : |a| > threshold2 ∨ a = 0) : function2 a = halfCot a := by
  have h0 : (0 : ℝ) ≤ threshold2 := by
    have : 0 ≤ (epsilon / 0.00138889) ^ (0.25 : ℝ) := rpow_nonneg (by norm_num [epsilon]) _
    rw [threshold2]; linarith
  rcases h with h | rfl
  · have : a ≠ 0 := by rintro rfl; rw [abs_zero] at h; linarith
    rw [function2, if_pos h, halfCot, if_neg this]
  · rw [function2, if_neg (by rw [abs_zero]; exact not_lt.2 h0)]
    simp [halfCot]

theorem function1_exact (a : ℝ) (h : |a| > threshold1 ∨ a = 0) : function1 a = rest a := by
  have h0 : (0 : ℝ) ≤ threshold1 := by
    have : 0 ≤ (epsilon / (0.0000330688 / 0.0833333)) ^ (0.25 : ℝ) := rpow_nonneg (by norm_num [epsilon]) _
    rw [threshold1]; linarith
  rcases h with h | rfl
  · have : a ≠ 0 := by rintro rfl; rw [abs_zero] at h; linarith
    rw [function1, if_pos h, rest, if_neg this]
  · rw [function1, if_neg (by rw [abs_zero]; exact not_lt.2 h0)]
    simp [rest]

end Verif.Pose2

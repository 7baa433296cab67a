import Verif.Kindr.ShortLemmas

/-!
# The angle between two attitudes
-/

set_option linter.unusedSectionVars false
set_option linter.dupNamespace false

namespace Verif.Kindr

open Quaternion

/-- The angle of the shortest rotation from one attitude to the other (unit quaternions, up to sign). -/
noncomputable def angle (p q : Quat) : ℝ := 2 * Real.arccos |(q * star p).re|

theorem re_mul_comm (p q : Quat) : (p * q).re = (q * p).re := by
  simp only [re_mul]; ring

theorem angle_symm (p q : Quat) : angle p q = angle q p := by
  unfold angle
  have : p * star q = star (q * star p) := by rw [star_mul, star_star]
  rw [this, re_star]

theorem angle_nonneg (p q : Quat) : 0 ≤ angle p q := by
  unfold angle
  have := Real.arccos_nonneg |(q * star p).re|
  positivity

theorem angle_le_pi (p q : Quat) : angle p q ≤ Real.pi := by
  unfold angle
  have := Real.arccos_le_pi_div_two.2 (abs_nonneg (q * star p).re)
  linarith

theorem angle_neg_right (p q : Quat) : angle p (-q) = angle p q := by
  unfold angle
  rw [neg_mul, re_neg, abs_neg]

theorem angle_neg_left (p q : Quat) : angle (-p) q = angle p q := by
  rw [angle_symm, angle_neg_right, angle_symm]

theorem angle_self {p : Quat} (hp : IsUnit' p) : angle p p = 0 := by
  unfold angle
  rw [self_mul_star' hp, show (1 : Quat).re = 1 from rfl, abs_one, Real.arccos_one, mul_zero]

theorem angle_mul_right {r : Quat} (hr : IsUnit' r) (p q : Quat) : angle (p * r) (q * r) = angle p q := by
  unfold angle
  rw [star_mul, show q * r * (star r * star p) = q * (r * star r) * star p by noncomm_ring, self_mul_star' hr, mul_one]

theorem angle_mul_left {r : Quat} (hr : IsUnit' r) (p q : Quat) : angle (r * p) (r * q) = angle p q := by
  unfold angle
  rw [star_mul, show r * q * (star p * star r) = r * (q * star p) * star r by noncomm_ring, re_conj hr]

/-- The angle of a product, for quaternions with non-negative real part. -/
theorem arccos_re_mul {x y : Quat} (hx : IsUnit' x) (hy : IsUnit' y) (hx0 : 0 ≤ x.re) (hy0 : 0 ≤ y.re) :
    Real.arccos |(x * y).re| ≤ Real.arccos x.re + Real.arccos y.re := by
  have ux : x.re ^ 2 + (x.imI ^ 2 + x.imJ ^ 2 + x.imK ^ 2) = 1 := by
    have := hx; rw [IsUnit', normSq_def'] at this; linarith
  have uy : y.re ^ 2 + (y.imI ^ 2 + y.imJ ^ 2 + y.imK ^ 2) = 1 := by
    have := hy; rw [IsUnit', normSq_def'] at this; linarith
  have h1 : Real.cos (Real.arccos x.re + Real.arccos y.re) ≤ |(x * y).re| := by
    refine le_trans ?_ (le_abs_self _)
    rw [Real.cos_add, Real.cos_arccos (by linarith) (by nlinarith [sq_nonneg x.imI, sq_nonneg x.imJ, sq_nonneg x.imK]),
      Real.cos_arccos (by linarith) (by nlinarith [sq_nonneg y.imI, sq_nonneg y.imJ, sq_nonneg y.imK]), Real.sin_arccos,
      Real.sin_arccos, re_mul, ← Real.sqrt_mul (by nlinarith [sq_nonneg x.imI, sq_nonneg x.imJ, sq_nonneg x.imK])]
    have h2 : x.imI * y.imI + x.imJ * y.imJ + x.imK * y.imK ≤ √((1 - x.re ^ 2) * (1 - y.re ^ 2)) := by
      refine Real.le_sqrt_of_sq_le ?_
      rw [show 1 - x.re ^ 2 = x.imI ^ 2 + x.imJ ^ 2 + x.imK ^ 2 by linarith,
        show 1 - y.re ^ 2 = y.imI ^ 2 + y.imJ ^ 2 + y.imK ^ 2 by linarith]
      nlinarith [sq_nonneg (x.imI * y.imJ - x.imJ * y.imI), sq_nonneg (x.imI * y.imK - x.imK * y.imI),
        sq_nonneg (x.imJ * y.imK - x.imK * y.imJ)]
    linarith
  have ha := Real.arccos_le_pi_div_two.2 hx0
  have hb := Real.arccos_le_pi_div_two.2 hy0
  have h3 := Real.arccos_le_arccos h1
  rwa [Real.arccos_cos (add_nonneg (Real.arccos_nonneg _) (Real.arccos_nonneg _)) (by linarith)] at h3

theorem angle_triangle {p q r : Quat} (hp : IsUnit' p) (hq : IsUnit' q) (hr : IsUnit' r) :
    angle p r ≤ angle p q + angle q r := by
  have key : ∀ x y : Quat, IsUnit' x → IsUnit' y → Real.arccos |(x * y).re| ≤ Real.arccos |x.re| + Real.arccos |y.re| := by
    intro x y hx hy
    rcases le_total 0 x.re with h1 | h1 <;> rcases le_total 0 y.re with h2 | h2
    · rw [abs_of_nonneg h1, abs_of_nonneg h2]
      exact arccos_re_mul hx hy h1 h2
    · have := arccos_re_mul hx (isUnit_neg hy) h1 (by rw [re_neg]; linarith)
      rw [mul_neg, re_neg, re_neg, abs_neg] at this
      rwa [abs_of_nonneg h1, abs_of_nonpos h2]
    · have := arccos_re_mul (isUnit_neg hx) hy (by rw [re_neg]; linarith) h2
      rw [neg_mul, re_neg, re_neg, abs_neg] at this
      rwa [abs_of_nonpos h1, abs_of_nonneg h2]
    · have := arccos_re_mul (isUnit_neg hx) (isUnit_neg hy) (by rw [re_neg]; linarith) (by rw [re_neg]; linarith)
      rw [neg_mul_neg, re_neg, re_neg] at this
      rwa [abs_of_nonpos h1, abs_of_nonpos h2]
  have h := key (r * star q) (q * star p) (isUnit_mul hr (isUnit_star hq)) (isUnit_mul hq (isUnit_star hp))
  rw [show r * star q * (q * star p) = r * (star q * q) * star p by noncomm_ring, star_mul_self' hq, mul_one] at h
  unfold angle
  linarith

/-- The angle of an exponential is at most its length. -/
theorem angle_exp {p : Quat} (hp : IsUnit' p) (v : Vec3) : angle p (exponentialMap v * p) ≤ vecNorm v := by
  unfold angle
  rw [mul_assoc, self_mul_star' hp, mul_one, re_exp]
  have h0 := vecNorm_nonneg v
  by_cases h : vecNorm v / 2 ≤ Real.pi
  · have h1 := Real.arccos_le_arccos (le_abs_self (Real.cos (vecNorm v / 2)))
    rw [Real.arccos_cos (by positivity) h] at h1
    linarith
  · have := Real.arccos_le_pi |Real.cos (vecNorm v / 2)|
    linarith

theorem angle_exp' {p : Quat} (hp : IsUnit' p) (v : Vec3) : angle p (p * exponentialMap v) ≤ vecNorm v := by
  have h := angle_exp (p := 1) (by simp [IsUnit']) v
  have := angle_mul_left hp 1 (exponentialMap v)
  rw [mul_one] at this
  rw [this]
  rwa [mul_one] at h

/-- Two turns about the same axis. -/
theorem angle_exp_smul {p : Quat} (hp : IsUnit' p) (r s : ℝ) (v : Vec3) :
    angle (p * exponentialMap (r • v)) (p * exponentialMap (s • v)) ≤ |s - r| * vecNorm v := by
  have h := angle_exp' (isUnit_mul hp (isUnit_exp (r • v))) ((s - r) • v)
  rw [mul_assoc, ← exponentialMap_add_smul, show r + (s - r) = s by ring, vecNorm_smul] at h
  exact h

/-- A shortest logarithm has the length of the angle. -/
theorem LogMap.Shortest.norm {L : LogMap} (h : L.Shortest) {q p : Quat} (hq : IsUnit' q) (hp : IsUnit' p) :
    vecNorm (L.log (q * star p)) = angle p q := by
  have hu := isUnit_mul hq (isUnit_star hp)
  have hle := h _ hu
  have h0 := vecNorm_nonneg (L.log (q * star p))
  have hc : 0 ≤ Real.cos (vecNorm (L.log (q * star p)) / 2) :=
    Real.cos_nonneg_of_mem_Icc ⟨by linarith [Real.pi_pos], by linarith⟩
  have key : |(q * star p).re| = Real.cos (vecNorm (L.log (q * star p)) / 2) := by
    rcases L.exp_log _ hu with e | e
    · have := congrArg (fun x : Quat => x.re) e
      simp only [re_exp] at this
      rw [← this, abs_of_nonneg hc]
    · have := congrArg (fun x : Quat => x.re) e
      simp only [re_exp, re_neg] at this
      rw [this] at hc ⊢
      rw [abs_of_nonpos (by linarith)]
  unfold angle
  rw [key, Real.arccos_cos (by positivity) (by linarith [Real.pi_pos])]
  ring

/-- What the angle is: there is a rotation vector of that length, and none shorter, from one attitude to the other. -/
theorem angle_spec {p q : Quat} (hp : IsUnit' p) (hq : IsUnit' q) :
    (∃ v, vecNorm v = angle p q ∧ ∀ x, rotate q x = rotate (exponentialMap v) (rotate p x)) ∧
    ∀ v, (q = exponentialMap v * p ∨ q = -(exponentialMap v * p)) → angle p q ≤ vecNorm v := by
  refine ⟨⟨shortLogMap.log (q * star p), shortLogMap_shortest.norm hq hp, fun x => ?_⟩, fun v h => ?_⟩
  · rw [← rotate_mul]
    rcases shortLogMap.exp_log _ (isUnit_mul hq (isUnit_star hp)) with e | e
    · rw [e, mul_assoc, star_mul_self' hp, mul_one]
    · rw [e, neg_mul, mul_assoc, star_mul_self' hp, mul_one, rotate_neg]
  · rcases h with rfl | rfl
    · exact angle_exp hp v
    · rw [angle_neg_right]
      exact angle_exp hp v

end Verif.Kindr

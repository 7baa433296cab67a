import Verif.Accuracy.Lemmas
import Verif.Hermite.E3Props

/-!
# Lemmas: accuracy of Hermite interpolation
-/

set_option linter.unusedSectionVars false
set_option linter.dupNamespace false

namespace Verif.Accuracy

open Set Verif.Manager Verif.Hermite Verif.Hermite.E3

variable {V : Type} [NormedAddCommGroup V] [InnerProductSpace ℝ V]

theorem interpolate_split {a b : Node ℝ (Knot V)} (h : a.time < b.time) (t : ℝ) :
    let α := (t - a.time) / (b.time - a.time)
    let s := (1 / (b.time - a.time)) • (b.coef.position - a.coef.position)
    interpolate a b t = (a.coef.position + α • (b.coef.position - a.coef.position)) +
      ((α * (1 - α) ^ 2 * (b.time - a.time)) • (a.coef.velocity - s) -
        (α ^ 2 * (1 - α) * (b.time - a.time)) • (b.coef.velocity - s)) := by
  have hd : b.time - a.time ≠ 0 := (sub_pos.2 h).ne'
  intro α s
  have hα : (t - a.time) / (b.time - a.time) = α := rfl
  simp only [interpolate, hα, s]
  match_scalars <;> field_simp <;> ring

theorem velocity_split {a b : Node ℝ (Knot V)} (h : a.time < b.time) (t : ℝ) :
    let α := (t - a.time) / (b.time - a.time)
    let s := (1 / (b.time - a.time)) • (b.coef.position - a.coef.position)
    interpolateVelocity a b t = s + (((1 - α) * (1 - 3 * α)) • (a.coef.velocity - s) +
        (α * (3 * α - 2)) • (b.coef.velocity - s)) := by
  have hd : b.time - a.time ≠ 0 := (sub_pos.2 h).ne'
  intro α s
  have hα : (t - a.time) / (b.time - a.time) = α := rfl
  simp only [interpolateVelocity, hα, s]
  match_scalars <;> field_simp <;> ring

/-- Between two knots that lie on the motion, with velocities near the slope of the chord. -/
theorem hermite_near {M ε : ℝ} {f v : ℝ → V} {a b : Node ℝ (Knot V)} (h : a.time < b.time)
    (hf : Gentle M a.time b.time f v) (ha : a.coef.position = f a.time) (hb : b.coef.position = f b.time)
    (hva : ‖a.coef.velocity - (1 / (b.time - a.time)) • (f b.time - f a.time)‖ ≤ ε)
    (hvb : ‖b.coef.velocity - (1 / (b.time - a.time)) • (f b.time - f a.time)‖ ≤ ε) {t : ℝ} (ht : t ∈ Icc a.time b.time) :
    ‖interpolate a b t - f t‖ ≤ M / 8 * (b.time - a.time) ^ 2 + ε / 4 * (b.time - a.time) ∧
      ‖interpolateVelocity a b t - v t‖ ≤ M / 2 * (b.time - a.time) + ε := by
  have hM := hf.nonneg h
  have hε : 0 ≤ ε := (norm_nonneg _).trans hva
  have hd : 0 < b.time - a.time := sub_pos.2 h
  have key := interpolate_split h t
  have key2 := velocity_split h t
  have hc := chord h hf ht
  have hsl := slope_near h hf ht
  rw [ha, hb] at key key2
  simp only at key key2
  set α := (t - a.time) / (b.time - a.time) with hα
  set s := (1 / (b.time - a.time)) • (f b.time - f a.time) with hs
  have h0 : 0 ≤ α := div_nonneg (by linarith [ht.1]) hd.le
  have h1 : α ≤ 1 := (div_le_one hd).2 (by linarith [ht.2])
  have hq : α * (1 - α) ≤ 1 / 4 := by nlinarith [sq_nonneg (α - 1 / 2)]
  have hq0 : 0 ≤ α * (1 - α) := mul_nonneg h0 (by linarith)
  have hprod : (t - a.time) * (b.time - t) = α * (1 - α) * (b.time - a.time) ^ 2 := by
    rw [hα]; field_simp; ring
  constructor
  · have e : interpolate a b t - f t = -(f t - (f a.time + α • (f b.time - f a.time))) +
        ((α * (1 - α) ^ 2 * (b.time - a.time)) • (a.coef.velocity - s) -
          (α ^ 2 * (1 - α) * (b.time - a.time)) • (b.coef.velocity - s)) := by rw [key]; abel
    have n1 : ‖(α * (1 - α) ^ 2 * (b.time - a.time)) • (a.coef.velocity - s)‖ ≤ α * (1 - α) ^ 2 * (b.time - a.time) * ε := by
      rw [norm_smul, Real.norm_of_nonneg (by positivity)]
      exact mul_le_mul_of_nonneg_left hva (by positivity)
    have n2 : ‖(α ^ 2 * (1 - α) * (b.time - a.time)) • (b.coef.velocity - s)‖ ≤ α ^ 2 * (1 - α) * (b.time - a.time) * ε := by
      have : 0 ≤ 1 - α := by linarith
      rw [norm_smul, Real.norm_of_nonneg (by positivity)]
      exact mul_le_mul_of_nonneg_left hvb (by positivity)
    rw [e]
    refine (norm_add_le _ _).trans ?_
    rw [norm_neg]
    have n3 := norm_sub_le ((α * (1 - α) ^ 2 * (b.time - a.time)) • (a.coef.velocity - s))
      ((α ^ 2 * (1 - α) * (b.time - a.time)) • (b.coef.velocity - s))
    have n4 : α * (1 - α) ^ 2 * (b.time - a.time) * ε + α ^ 2 * (1 - α) * (b.time - a.time) * ε =
        α * (1 - α) * ((b.time - a.time) * ε) := by ring
    have n5 : α * (1 - α) * ((b.time - a.time) * ε) ≤ 1 / 4 * ((b.time - a.time) * ε) :=
      mul_le_mul_of_nonneg_right hq (by positivity)
    rw [hprod] at hc
    have n6 : α * (1 - α) * (M / 2 * (b.time - a.time) ^ 2) ≤ 1 / 4 * (M / 2 * (b.time - a.time) ^ 2) :=
      mul_le_mul_of_nonneg_right hq (by positivity)
    linarith
  · have e : interpolateVelocity a b t - v t = (s - v t) + (((1 - α) * (1 - 3 * α)) • (a.coef.velocity - s) +
        (α * (3 * α - 2)) • (b.coef.velocity - s)) := by rw [key2]; abel
    have hw : |(1 - α) * (1 - 3 * α)| + |α * (3 * α - 2)| ≤ 1 := by
      rw [abs_mul, abs_mul, abs_of_nonneg h0, abs_of_nonneg (show 0 ≤ 1 - α by linarith)]
      rcases abs_cases (1 - 3 * α) with ⟨e1, c1⟩ | ⟨e1, c1⟩ <;> rcases abs_cases (3 * α - 2) with ⟨e2, c2⟩ | ⟨e2, c2⟩ <;>
        rw [e1, e2] <;> nlinarith [sq_nonneg (α - 1 / 2)]
    rw [e]
    refine (norm_add_le _ _).trans ?_
    have n1 : ‖((1 - α) * (1 - 3 * α)) • (a.coef.velocity - s)‖ ≤ |(1 - α) * (1 - 3 * α)| * ε := by
      rw [norm_smul, Real.norm_eq_abs]
      exact mul_le_mul_of_nonneg_left hva (abs_nonneg _)
    have n2 : ‖(α * (3 * α - 2)) • (b.coef.velocity - s)‖ ≤ |α * (3 * α - 2)| * ε := by
      rw [norm_smul, Real.norm_eq_abs]
      exact mul_le_mul_of_nonneg_left hvb (abs_nonneg _)
    have n3 := norm_add_le (((1 - α) * (1 - 3 * α)) • (a.coef.velocity - s)) ((α * (3 * α - 2)) • (b.coef.velocity - s))
    have n4 : (|(1 - α) * (1 - 3 * α)| + |α * (3 * α - 2)|) * ε ≤ 1 * ε := mul_le_mul_of_nonneg_right hw hε
    linarith

/-- The velocity given to an inner knot, against the slope of the chord on its right. -/
theorem slope_right {M x y z : ℝ} (hxy : x < y) (hyz : y < z) {f v : ℝ → V} (h : Gentle M x z f v) :
    ‖calculateSlope x z (f x) (f z) - (1 / (z - y)) • (f z - f y)‖ ≤ M / 2 * (y - x) := by
  have h1 := slope_near hxy (h.mono le_rfl hyz.le) (right_mem_Icc.2 hxy.le)
  have h2 := slope_near hyz (h.mono hxy.le le_rfl) (left_mem_Icc.2 hyz.le)
  have d1 : 0 < y - x := sub_pos.2 hxy
  have d2 : 0 < z - y := sub_pos.2 hyz
  have d3 : 0 < z - x := by linarith
  have e : calculateSlope x z (f x) (f z) - (1 / (z - y)) • (f z - f y) =
      ((y - x) / (z - x)) • (((1 / (y - x)) • (f y - f x) - v y) - ((1 / (z - y)) • (f z - f y) - v y)) := by
    simp only [calculateSlope]
    match_scalars <;> field_simp <;> ring
  have h3 := norm_sub_le ((1 / (y - x)) • (f y - f x) - v y) ((1 / (z - y)) • (f z - f y) - v y)
  rw [e, norm_smul, Real.norm_of_nonneg (by positivity)]
  calc _ ≤ (y - x) / (z - x) * (M / 2 * (z - x)) := mul_le_mul_of_nonneg_left (by linarith) (by positivity)
    _ = _ := by field_simp

/-- The same for the chord on its left. -/
theorem slope_left {M x y z : ℝ} (hxy : x < y) (hyz : y < z) {f v : ℝ → V} (h : Gentle M x z f v) :
    ‖calculateSlope x z (f x) (f z) - (1 / (y - x)) • (f y - f x)‖ ≤ M / 2 * (z - y) := by
  have h1 := slope_near hxy (h.mono le_rfl hyz.le) (right_mem_Icc.2 hxy.le)
  have h2 := slope_near hyz (h.mono hxy.le le_rfl) (left_mem_Icc.2 hyz.le)
  have d1 : 0 < y - x := sub_pos.2 hxy
  have d2 : 0 < z - y := sub_pos.2 hyz
  have d3 : 0 < z - x := by linarith
  have e : calculateSlope x z (f x) (f z) - (1 / (y - x)) • (f y - f x) =
      ((z - y) / (z - x)) • (((1 / (z - y)) • (f z - f y) - v y) - ((1 / (y - x)) • (f y - f x) - v y)) := by
    simp only [calculateSlope]
    match_scalars <;> field_simp <;> ring
  have h3 := norm_sub_le ((1 / (z - y)) • (f z - f y) - v y) ((1 / (y - x)) • (f y - f x) - v y)
  rw [e, norm_smul, Real.norm_of_nonneg (by positivity)]
  calc _ ≤ (z - y) / (z - x) * (M / 2 * (z - x)) := mul_le_mul_of_nonneg_left (by linarith) (by positivity)
    _ = _ := by field_simp

end Verif.Accuracy

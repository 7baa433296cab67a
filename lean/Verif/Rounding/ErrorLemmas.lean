import Verif.Rounding.Lemmas
import Verif.Decimal.Props

/-!
# Propagation of rounding errors
-/

set_option linter.unusedSectionVars false
set_option linter.dupNamespace false

namespace Verif.Rounding

section
variable {K : Type} [Field K] [LinearOrder K] [IsStrictOrderedRing K] {R : Rounding K} {u : K}

/-- Rounding changes a number by at most the fraction `u` of it. -/
def Precise (R : Rounding K) (u : K) : Prop := ∀ x, |R.rnd x - x| ≤ u * |x|

/-- `double` arithmetic is precise to 2⁻⁵³ (the model has no limit on exponents, see `double`). -/
theorem precise_double [FloorRing K] : Precise (double K) (1 / 2 ^ 53) := by
  intro x
  change |toDouble x - x| ≤ 1 / 2 ^ 53 * |x|
  rcases lt_trichotomy x 0 with h | rfl | h
  · have h1 := Decimal.roundPos_near (neg_pos.2 h)
    rw [toDouble_neg h, abs_of_neg h, show -roundPos (-x) - x = -(roundPos (-x) - -x) by ring, abs_neg]
    linarith
  · rw [toDouble_zero]
    simp
  · have h1 := Decimal.roundPos_near h
    rw [toDouble_pos h, abs_of_pos h]
    linarith

theorem rnd_near (hP : Precise R u) (hu : 0 ≤ u) {x' x e m : K} (h : |x' - x| ≤ e) (hm : |x| ≤ m) :
    |R.rnd x' - x| ≤ e + u * (m + e) := by
  have h1 := hP x'
  have h2 : |x'| ≤ m + e := by
    have := abs_add_le x (x' - x)
    rw [add_sub_cancel] at this
    linarith
  have h3 := abs_add_le (R.rnd x' - x') (x' - x)
  rw [sub_add_sub_cancel] at h3
  have h4 := mul_le_mul_of_nonneg_left h2 hu
  linarith

theorem add_near {x' x e y' y f : K} (h : |x' - x| ≤ e) (h' : |y' - y| ≤ f) :
    |x' + y' - (x + y)| ≤ e + f := by
  have := abs_add_le (x' - x) (y' - y)
  rw [show x' + y' - (x + y) = x' - x + (y' - y) by ring]
  linarith

theorem sub_near {x' x e y' y f : K} (h : |x' - x| ≤ e) (h' : |y' - y| ≤ f) :
    |x' - y' - (x - y)| ≤ e + f := by
  have := abs_sub (x' - x) (y' - y)
  rw [show x' - y' - (x - y) = x' - x - (y' - y) by ring]
  linarith

theorem mul_near {x' x e y' y f m n : K} (h : |x' - x| ≤ e) (h' : |y' - y| ≤ f) (hm : |x| ≤ m) (hn : |y| ≤ n) :
    |x' * y' - x * y| ≤ e * n + m * f + e * f := by
  have he := (abs_nonneg _).trans h
  have hf := (abs_nonneg _).trans h'
  have h1 : |(x' - x) * y| ≤ e * n := by rw [abs_mul]; exact mul_le_mul h hn (abs_nonneg _) he
  have h2 : |x * (y' - y)| ≤ m * f := by
    rw [abs_mul]; exact mul_le_mul hm h' (abs_nonneg _) ((abs_nonneg _).trans hm)
  have h3 : |(x' - x) * (y' - y)| ≤ e * f := by rw [abs_mul]; exact mul_le_mul h h' (abs_nonneg _) he
  rw [show x' * y' - x * y = (x' - x) * y + x * (y' - y) + (x' - x) * (y' - y) by ring]
  linarith [abs_add_le ((x' - x) * y + x * (y' - y)) ((x' - x) * (y' - y)), abs_add_le ((x' - x) * y) (x * (y' - y))]

theorem const_near {y' y f : K} (c : K) (hc : 0 ≤ c) (h : |y' - y| ≤ f) : |c * y' - c * y| ≤ c * f := by
  rw [← mul_sub, abs_mul, abs_of_nonneg hc]
  exact mul_le_mul_of_nonneg_left h hc

theorem abs_le_of {x m : K} (h0 : -m ≤ x) (h1 : x ≤ m) : |x| ≤ m := abs_le.2 ⟨h0, h1⟩

/-- Multiplication by a number that is given, with a rounding. -/
theorem scale_near (hP : Precise R u) (hu : 0 ≤ u) {p y' y f m n : K} (hp : |p| ≤ m) (h : |y' - y| ≤ f)
    (hn : |y| ≤ n) : |R.rnd (p * y') - p * y| ≤ m * f + u * (m * n + m * f) := by
  have hm := (abs_nonneg _).trans hp
  refine rnd_near hP hu ?_ ?_
  · rw [← mul_sub, abs_mul]
    exact mul_le_mul hp h (abs_nonneg _) hm
  · rw [abs_mul]
    exact mul_le_mul hp hn (abs_nonneg _) hm

/-- The parameter of an interpolation. -/
theorem alpha_near (hP : Precise R u) (hu : 0 ≤ u) (hu1 : u ≤ 1 / 2 ^ 20) {a b t : K} (hab : a < b) (h0 : a ≤ t)
    (h1 : t ≤ b) : |alpha R a b t - (t - a) / (b - a)| ≤ 4 * u := by
  have hD : 0 < b - a := sub_pos.2 hab
  have hN : 0 ≤ t - a := sub_nonneg.2 h0
  have e1 := hP (t - a)
  have e2 := hP (b - a)
  rw [abs_of_nonneg hN] at e1
  rw [abs_of_pos hD] at e2
  generalize hn : R.rnd (t - a) = n at *
  generalize hd : R.rnd (b - a) = d at *
  have hd0 : (b - a) * (1 - u) ≤ d := by have := (abs_le.1 e2).1; linarith
  have hu2 : u * u ≤ u / 2 ^ 20 := by
    have := mul_le_mul_of_nonneg_left hu1 hu
    linarith
  have hd1 : 0 < d := lt_of_lt_of_le (mul_pos hD (by norm_num at hu1; linarith)) hd0
  have h2 : |n / d - (t - a) / (b - a)| ≤ (2 + 1 / 2) * u := by
    rw [div_sub_div _ _ hd1.ne' hD.ne', abs_div, abs_of_pos (mul_pos hd1 hD), div_le_iff₀ (mul_pos hd1 hD)]
    have h3 : n * (b - a) - d * (t - a) = (n - (t - a)) * (b - a) - (d - (b - a)) * (t - a) := by ring
    have h4 : |(n - (t - a)) * (b - a)| ≤ u * (b - a) * (b - a) := by
      rw [abs_mul, abs_of_pos hD]
      refine mul_le_mul_of_nonneg_right (e1.trans ?_) hD.le
      exact mul_le_mul_of_nonneg_left (by linarith) hu
    have h5 : |(d - (b - a)) * (t - a)| ≤ u * (b - a) * (b - a) := by
      rw [abs_mul, abs_of_nonneg hN]
      exact mul_le_mul e2 (by linarith) hN (mul_nonneg hu hD.le)
    rw [h3]
    refine (abs_sub _ _).trans ?_
    have h6 : (b - a) * (1 - u) * (b - a) ≤ d * (b - a) := mul_le_mul_of_nonneg_right hd0 hD.le
    have h7 := mul_le_mul_of_nonneg_left h6 (mul_nonneg (by norm_num : (0 : K) ≤ 2 + 1 / 2) hu)
    have h8 := mul_le_mul_of_nonneg_right hu2 (mul_nonneg hD.le hD.le)
    have h9 : 0 ≤ u * ((b - a) * (b - a)) := mul_nonneg hu (mul_nonneg hD.le hD.le)
    generalize (b - a) = D at *
    norm_num at h8
    nlinarith
  have h3 : |(t - a) / (b - a)| ≤ 1 := by
    rw [abs_of_nonneg (div_nonneg hN hD.le), div_le_one hD]
    linarith
  have h4 := rnd_near hP hu h2 h3
  rw [alpha, hn, hd]
  refine h4.trans ?_
  norm_num at hu2
  linarith

end

end Verif.Rounding

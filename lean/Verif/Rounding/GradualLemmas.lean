import Verif.Rounding.IeeeLemmas
import Verif.Rounding.ErrorProps

/-!
# Propagation of rounding errors with gradual underflow

The lemmas behind C106 again, for a rounding that is precise to the fraction `u` or to the fixed `η`, whichever is worse.
-/

set_option linter.unusedSectionVars false
set_option linter.dupNamespace false

namespace Verif.Rounding

section
variable {K : Type} [Field K] [LinearOrder K] [IsStrictOrderedRing K] {R : Rounding K} {u η : K}

open Verif.Manager Verif.Hermite

/-- Rounding changes a number by at most the fraction `u` of it and `η`; differences of representable numbers by at most
the fraction `u`. -/
structure Gradual (R : Rounding K) (u η : K) : Prop where
  near : ∀ x, |R.rnd x - x| ≤ u * |x| + η
  sub : ∀ {x y}, R.rnd x = x → R.rnd y = y → |R.rnd (x - y) - (x - y)| ≤ u * |x - y|

theorem Gradual.nonneg (hP : Gradual R u η) : 0 ≤ η := by
  have := hP.near 0
  rw [rnd_zero] at this
  simpa using this

theorem rnd_nearG (hP : Gradual R u η) (hu : 0 ≤ u) {x' x e m : K} (h : |x' - x| ≤ e) (hm : |x| ≤ m) :
    |R.rnd x' - x| ≤ e + u * (m + e) + η := by
  have h1 := hP.near x'
  have h2 : |x'| ≤ m + e := by
    have := abs_add_le x (x' - x)
    rw [add_sub_cancel] at this
    linarith
  have h3 := abs_add_le (R.rnd x' - x') (x' - x)
  rw [sub_add_sub_cancel] at h3
  have h4 := mul_le_mul_of_nonneg_left h2 hu
  linarith

/-- Multiplication by a number that is given, with a rounding. -/
theorem scale_nearG (hP : Gradual R u η) (hu : 0 ≤ u) {p y' y f m n : K} (hp : |p| ≤ m) (h : |y' - y| ≤ f)
    (hn : |y| ≤ n) : |R.rnd (p * y') - p * y| ≤ m * f + u * (m * n + m * f) + η := by
  have hm := (abs_nonneg _).trans hp
  refine rnd_nearG hP hu ?_ ?_
  · rw [← mul_sub, abs_mul]
    exact mul_le_mul hp h (abs_nonneg _) hm
  · rw [abs_mul]
    exact mul_le_mul hp hn (abs_nonneg _) hm

/-- The parameter of an interpolation. -/
theorem alpha_nearG (hP : Gradual R u η) (hu : 0 ≤ u) (hu1 : u ≤ 1 / 2 ^ 20) (hη : η ≤ u / 1048576) {a b t : K} (ra : R.rnd a = a)
    (rb : R.rnd b = b) (rt : R.rnd t = t) (hab : a < b) (h0 : a ≤ t) (h1 : t ≤ b) : |alpha R a b t - (t - a) / (b - a)| ≤ 4 * u := by
  have hD : 0 < b - a := sub_pos.2 hab
  have hN : 0 ≤ t - a := sub_nonneg.2 h0
  have e1 := hP.sub rt ra
  have e2 := hP.sub rb ra
  rw [abs_of_nonneg hN] at e1
  rw [abs_of_pos hD] at e2
  generalize hn : R.rnd (t - a) = n at *
  generalize hd : R.rnd (b - a) = d at *
  have hd0 : (b - a) * (1 - u) ≤ d := by have := (abs_le.1 e2).1; linarith
  have hu2 : u * u ≤ u / 2 ^ 20 := by
    have := mul_le_mul_of_nonneg_left hu1 hu
    linarith
  have hd1 : 0 < d := lt_of_lt_of_le (mul_pos hD (by norm_num at hu1; linarith)) hd0
  have h2 : |n / d - (t - a) / (b - a)| ≤ (2 + 1 / 2) * u := by
    rw [div_sub_div _ _ hd1.ne' hD.ne', abs_div, abs_of_pos (mul_pos hd1 hD), div_le_iff₀ (mul_pos hd1 hD)]
    have h3 : n * (b - a) - d * (t - a) = (n - (t - a)) * (b - a) - (d - (b - a)) * (t - a) := by ring
    have h4 : |(n - (t - a)) * (b - a)| ≤ u * (b - a) * (b - a) := by
      rw [abs_mul, abs_of_pos hD]
      refine mul_le_mul_of_nonneg_right (e1.trans ?_) hD.le
      exact mul_le_mul_of_nonneg_left (by linarith) hu
    have h5 : |(d - (b - a)) * (t - a)| ≤ u * (b - a) * (b - a) := by
      rw [abs_mul, abs_of_nonneg hN]
      exact mul_le_mul e2 (by linarith) hN (mul_nonneg hu hD.le)
    rw [h3]
    refine (abs_sub _ _).trans ?_
    have h6 : (b - a) * (1 - u) * (b - a) ≤ d * (b - a) := mul_le_mul_of_nonneg_right hd0 hD.le
    have h7 := mul_le_mul_of_nonneg_left h6 (mul_nonneg (by norm_num : (0 : K) ≤ 2 + 1 / 2) hu)
    have h8 := mul_le_mul_of_nonneg_right hu2 (mul_nonneg hD.le hD.le)
    have h9 : 0 ≤ u * ((b - a) * (b - a)) := mul_nonneg hu (mul_nonneg hD.le hD.le)
    generalize (b - a) = D at *
    norm_num at h8
    nlinarith
  have h3 : |(t - a) / (b - a)| ≤ 1 := by
    rw [abs_of_nonneg (div_nonneg hN hD.le), div_le_one hD]
    linarith
  have h4 := rnd_nearG hP hu h2 h3
  rw [alpha, hn, hd]
  refine h4.trans ?_
  norm_num at hu2
  linarith

theorem powers_nearG (hP : Gradual R u η) (hu : 0 ≤ u) (hu1 : u ≤ 1 / 2 ^ 20) (hη : η ≤ u / 1048576) {al α : K} (h0 : 0 ≤ α) (h1 : α ≤ 1)
    (h : |al - α| ≤ 4 * u) :
    |R.rnd (al * al) - α * α| ≤ 10 * u ∧ |R.rnd (R.rnd (al * al) * al) - α * α * α| ≤ 16 * u := by
  have hs := square_small hu hu1
  have hη0 := hP.nonneg
  have ha : |α| ≤ 1 := abs_le_of (by linarith) h1
  have ha2 : |α * α| ≤ 1 := by rw [abs_mul]; exact mul_le_one₀ ha (abs_nonneg _) ha
  have ha3 : |α * α * α| ≤ 1 := by rw [abs_mul]; exact mul_le_one₀ ha2 (abs_nonneg _) ha
  have e2 : |R.rnd (al * al) - α * α| ≤ 10 * u :=
    (rnd_nearG hP hu (mul_near h h ha ha) ha2).trans (by nlinarith)
  exact ⟨e2, (rnd_nearG hP hu (mul_near e2 h ha2 ha) ha3).trans (by nlinarith)⟩

theorem betas_nearG (hP : Gradual R u η) (hu : 0 ≤ u) (hu1 : u ≤ 1 / 2 ^ 20) (hη : η ≤ u / 1048576) {al α : K} (h0 : 0 ≤ α) (h1 : α ≤ 1)
    (h : |al - α| ≤ 4 * u) {a2 a3 : K} (ha2 : a2 = R.rnd (al * al)) (ha3 : a3 = R.rnd (a2 * al)) :
    |R.rnd (R.rnd (R.rnd (2 * a3) - R.rnd (3 * a2)) + 1) - (2 * (α * α * α) - 3 * (α * α) + 1)| ≤ 80 * u ∧
    |R.rnd (R.rnd (-2 * a3) + R.rnd (3 * a2)) - (-2 * (α * α * α) + 3 * (α * α))| ≤ 80 * u ∧
    |R.rnd (R.rnd (a3 - R.rnd (2 * a2)) + al) - (α * α * α - 2 * (α * α) + α)| ≤ 60 * u ∧
    |R.rnd (a3 - a2) - (α * α * α - α * α)| ≤ 30 * u := by
  have hs := square_small hu hu1
  have hη0 := hP.nonneg
  obtain ⟨e2, e3⟩ := powers_nearG hP hu hu1 hη h0 h1 h
  rw [← ha2] at e2 e3
  rw [← ha3] at e3
  have b2 : α * α ≤ 1 := mul_le_one₀ h1 h0 h1
  have b2' : 0 ≤ α * α := mul_nonneg h0 h0
  have b3 : α * α * α ≤ α * α := mul_le_of_le_one_right b2' h1
  have b3' : 0 ≤ α * α * α := mul_nonneg b2' h0
  generalize α * α * α = q3 at *
  generalize α * α = q2 at *
  have f1 : |R.rnd (2 * a3) - 2 * q3| ≤ 35 * u :=
    (rnd_nearG hP hu (const_near 2 (by norm_num) e3) (abs_le_of (m := 2) (by linarith) (by linarith))).trans
      (by nlinarith)
  have f1' : |R.rnd (-2 * a3) - -2 * q3| ≤ 35 * u := by
    refine (rnd_nearG hP hu (e := 32 * u) (m := 2) ?_ (abs_le_of (by linarith) (by linarith))).trans (by nlinarith)
    have := const_near 2 (by norm_num) e3
    rw [show -2 * a3 - -2 * q3 = -(2 * a3 - 2 * q3) by ring, abs_neg]
    linarith
  have f2 : |R.rnd (3 * a2) - 3 * q2| ≤ 34 * u :=
    (rnd_nearG hP hu (const_near 3 (by norm_num) e2) (abs_le_of (m := 3) (by linarith) (by linarith))).trans
      (by nlinarith)
  have f3 : |R.rnd (2 * a2) - 2 * q2| ≤ 23 * u :=
    (rnd_nearG hP hu (const_near 2 (by norm_num) e2) (abs_le_of (m := 2) (by linarith) (by linarith))).trans
      (by nlinarith)
  have f4 : |R.rnd (R.rnd (2 * a3) - R.rnd (3 * a2)) - (2 * q3 - 3 * q2)| ≤ 73 * u :=
    (rnd_nearG hP hu (sub_near f1 f2) (abs_le_of (m := 3) (by linarith) (by linarith))).trans (by nlinarith)
  have f5 : |R.rnd (a3 - R.rnd (2 * a2)) - (q3 - 2 * q2)| ≤ 42 * u :=
    (rnd_nearG hP hu (sub_near e3 f3) (abs_le_of (m := 2) (by linarith) (by linarith))).trans (by nlinarith)
  have one : |(1 : K) - 1| ≤ 0 := by simp
  refine ⟨?_, ?_, ?_, ?_⟩
  · exact (rnd_nearG hP hu (add_near f4 one) (abs_le_of (m := 2) (by linarith) (by linarith))).trans (by nlinarith)
  · exact (rnd_nearG hP hu (add_near f1' f2) (abs_le_of (m := 3) (by linarith) (by linarith))).trans (by nlinarith)
  · exact (rnd_nearG hP hu (add_near f5 h) (abs_le_of (m := 2) (by linarith) (by linarith))).trans (by nlinarith)
  · exact (rnd_nearG hP hu (sub_near e3 e2) (abs_le_of (m := 1) (by linarith) (by linarith))).trans (by nlinarith)

/-- The sum of a position, for coefficients that are close to the true ones. -/
theorem sum_nearG (hP : Gradual R u η) (hu : 0 ≤ u) (hu1 : u ≤ 1 / 2 ^ 20) {pa pb va vb M N D D' : K}
    (hpa : |pa| ≤ M) (hpb : |pb| ≤ M) (hva : |va| ≤ N) (hvb : |vb| ≤ N) (hD : 0 < D) (hd : |D' - D| ≤ u * D)
    {B0 B1 B2 B3 q0 q1 q2 q3 : K} (g0 : |B0 - q0| ≤ 80 * u) (g1 : |B1 - q1| ≤ 80 * u) (g2 : |B2 - q2| ≤ 60 * u)
    (g3 : |B3 - q3| ≤ 30 * u) (c0 : |q0| ≤ 2) (c1 : |q1| ≤ 2) (c2 : |q2| ≤ 1) (c3 : |q3| ≤ 1) :
    |R.rnd (R.rnd (R.rnd (R.rnd (pa * B0) + R.rnd (pb * B1)) + R.rnd (va * R.rnd (B2 * D'))) +
      R.rnd (vb * R.rnd (B3 * D'))) - (pa * q0 + pb * q1 + va * (q2 * D) + vb * (q3 * D))| ≤
      256 * u * (M + N * D) + η * (8 + 3 * N) := by
  have hs := square_small hu hu1
  have hη0 := hP.nonneg
  have hM : 0 ≤ M := (abs_nonneg _).trans hpa
  have hN : 0 ≤ N := (abs_nonneg _).trans hva
  have hND : 0 ≤ N * D := mul_nonneg hN hD.le
  have hDD : |D| ≤ D := (abs_of_pos hD).le
  have uM := mul_nonneg hu hM
  have uD := mul_nonneg hu hD.le
  have uND := mul_nonneg hu hND
  have sM := mul_le_mul_of_nonneg_right hs hM
  have sD := mul_le_mul_of_nonneg_right hs hD.le
  have sDD := mul_le_mul_of_nonneg_left sD hu
  have sND := mul_le_mul_of_nonneg_right hs hND
  have ηu : u * η ≤ η / 1048576 := by
    have := mul_le_mul_of_nonneg_right hu1 hη0
    norm_num at this
    linarith
  have ηN := mul_nonneg hη0 hN
  have ηuN := mul_le_mul_of_nonneg_right ηu hN
  have p0 : |R.rnd (pa * B0) - pa * q0| ≤ 84 * u * M + η :=
    (scale_nearG hP hu hpa g0 c0).trans (by linarith)
  have p1 : |R.rnd (pb * B1) - pb * q1| ≤ 84 * u * M + η :=
    (scale_nearG hP hu hpb g1 c1).trans (by linarith)
  have d2 : |R.rnd (B2 * D') - q2 * D| ≤ 64 * u * D + η :=
    (rnd_nearG hP hu (m := D) (mul_near g2 hd c2 hDD) (by
      rw [abs_mul, abs_of_pos hD]; exact mul_le_of_le_one_left hD.le c2)).trans (by linarith)
  have d3 : |R.rnd (B3 * D') - q3 * D| ≤ 34 * u * D + η :=
    (rnd_nearG hP hu (m := D) (mul_near g3 hd c3 hDD) (by
      rw [abs_mul, abs_of_pos hD]; exact mul_le_of_le_one_left hD.le c3)).trans (by linarith)
  have n2 : |q2 * D| ≤ D := by rw [abs_mul, abs_of_pos hD]; exact mul_le_of_le_one_left hD.le c2
  have n3 : |q3 * D| ≤ D := by rw [abs_mul, abs_of_pos hD]; exact mul_le_of_le_one_left hD.le c3
  have v2 : |R.rnd (va * R.rnd (B2 * D')) - va * (q2 * D)| ≤ 66 * u * (N * D) + η * (1 + 5 / 4 * N) :=
    (scale_nearG hP hu hva d2 n2).trans (by linarith)
  have v3 : |R.rnd (vb * R.rnd (B3 * D')) - vb * (q3 * D)| ≤ 36 * u * (N * D) + η * (1 + 5 / 4 * N) :=
    (scale_nearG hP hu hvb d3 n3).trans (by linarith)
  have mp0 : |pa * q0| ≤ 2 * M := by
    rw [abs_mul, mul_comm]; exact mul_le_mul c0 hpa (abs_nonneg _) (by norm_num)
  have mp1 : |pb * q1| ≤ 2 * M := by
    rw [abs_mul, mul_comm]; exact mul_le_mul c1 hpb (abs_nonneg _) (by norm_num)
  have mv2 : |va * (q2 * D)| ≤ N * D := by
    rw [abs_mul]; exact mul_le_mul hva n2 (abs_nonneg _) hN
  have mv3 : |vb * (q3 * D)| ≤ N * D := by
    rw [abs_mul]; exact mul_le_mul hvb n3 (abs_nonneg _) hN
  generalize pa * q0 = r0 at *
  generalize pb * q1 = r1 at *
  generalize va * (q2 * D) = r2 at *
  generalize vb * (q3 * D) = r3 at *
  have s1 := (rnd_nearG hP hu (m := 4 * M) (add_near p0 p1) ((abs_add_le _ _).trans (by linarith))).trans
    (show _ ≤ 176 * u * M + 13 / 4 * η by linarith)
  have m1 : |r0 + r1| ≤ 4 * M := (abs_add_le _ _).trans (by linarith)
  have s2 := (rnd_nearG hP hu (m := 4 * M + N * D) (add_near s1 v2) ((abs_add_le _ _).trans (by linarith))).trans
    (show _ ≤ 184 * u * M + 70 * u * (N * D) + η * (11 / 2 + 4 / 3 * N) by linarith)
  have m2 : |r0 + r1 + r2| ≤ 4 * M + N * D := (abs_add_le _ _).trans (by linarith)
  refine (rnd_nearG hP hu (m := 4 * M + 2 * (N * D)) (add_near s2 v3) ((abs_add_le _ _).trans (by linarith))).trans ?_
  linarith

/-- One segment, one coordinate. -/
theorem interpolate_nearG (hP : Gradual R u η) (hu : 0 ≤ u) (hu1 : u ≤ 1 / 2 ^ 20) (hη : η ≤ u / 1048576) {a b : Node K (Knot (Vec3 K))} {t : K}
    (ra : R.rnd a.time = a.time) (rb : R.rnd b.time = b.time) (rt : R.rnd t = t)
    (hab : a.time < b.time) (h0 : a.time ≤ t) (h1 : t ≤ b.time) {x : Fin 3} {M N : K}
    (hpa : |a.coef.position x| ≤ M) (hpb : |b.coef.position x| ≤ M) (hva : |a.coef.velocity x| ≤ N)
    (hvb : |b.coef.velocity x| ≤ N) :
    |interpolate R a b t x - E3.interpolate a b t x| ≤
      256 * u * (M + N * (b.time - a.time)) + η * (8 + 3 * N) := by
  have hD : 0 < b.time - a.time := sub_pos.2 hab
  have al := alpha_nearG hP hu hu1 hη ra rb rt hab h0 h1
  have a0 : 0 ≤ (t - a.time) / (b.time - a.time) := div_nonneg (by linarith) hD.le
  have a1 : (t - a.time) / (b.time - a.time) ≤ 1 := by rw [div_le_one hD]; linarith
  obtain ⟨g0, g1, g2, g3⟩ := betas_nearG hP hu hu1 hη a0 a1 al rfl rfl
  rw [← link_interpolate]
  simp only [interpolate, alpha, exact] at *
  generalize R.rnd (R.rnd (t - a.time) / R.rnd (b.time - a.time)) = al' at *
  generalize (t - a.time) / (b.time - a.time) = α at *
  have hd := hP.sub rb ra
  rw [abs_of_pos hD] at hd
  generalize b.time - a.time = D at *
  generalize R.rnd D = D' at *
  have b2 : α * α ≤ 1 := mul_le_one₀ a1 a0 a1
  have b2'' : α * α ≤ α := mul_le_of_le_one_right a0 a1
  have b2' : 0 ≤ α * α := mul_nonneg a0 a0
  have b3 : α * α * α ≤ α * α := mul_le_of_le_one_right b2' a1
  have b3' : 0 ≤ α * α * α := mul_nonneg b2' a0
  generalize R.rnd (R.rnd (R.rnd (2 * R.rnd (R.rnd (al' * al') * al')) - R.rnd (3 * R.rnd (al' * al'))) + 1) = B0 at *
  generalize R.rnd (R.rnd (-2 * R.rnd (R.rnd (al' * al') * al')) + R.rnd (3 * R.rnd (al' * al'))) = B1 at *
  generalize R.rnd (R.rnd (R.rnd (R.rnd (al' * al') * al') - R.rnd (2 * R.rnd (al' * al'))) + al') = B2 at *
  generalize R.rnd (R.rnd (R.rnd (al' * al') * al') - R.rnd (al' * al')) = B3 at *
  have c0 : |2 * (α * α * α) - 3 * (α * α) + 1| ≤ 2 := abs_le_of (by linarith) (by linarith)
  have hq : 0 ≤ (1 - α) * (1 - α) * (1 + 2 * α) :=
    mul_nonneg (mul_nonneg (by linarith) (by linarith)) (by linarith)
  rw [show (1 - α) * (1 - α) * (1 + 2 * α) = 2 * (α * α * α) - 3 * (α * α) + 1 by ring] at hq
  have c1 : |-2 * (α * α * α) + 3 * (α * α)| ≤ 2 := abs_le_of (by linarith) (by linarith)
  have c2 : |α * α * α - 2 * (α * α) + α| ≤ 1 := abs_le_of (by linarith) (by linarith)
  have c3 : |α * α * α - α * α| ≤ 1 := abs_le_of (by linarith) (by linarith)
  generalize 2 * (α * α * α) - 3 * (α * α) + 1 = q0 at *
  generalize -2 * (α * α * α) + 3 * (α * α) = q1 at *
  generalize α * α * α - 2 * (α * α) + α = q2 at *
  generalize α * α * α - α * α = q3 at *
  exact sum_nearG hP hu hu1 hpa hpb hva hvb hD hd g0 g1 g2 g3 c0 c1 c2 c3

theorem gammas_nearG (hP : Gradual R u η) (hu : 0 ≤ u) (hu1 : u ≤ 1 / 2 ^ 20) (hη : η ≤ u / 1048576) {al α : K} (h0 : 0 ≤ α) (h1 : α ≤ 1)
    (h : |al - α| ≤ 4 * u) {a2 : K} (ha2 : a2 = R.rnd (al * al)) :
    |R.rnd (6 * R.rnd (a2 - al)) - 6 * (α * α - α)| ≤ 100 * u ∧
    |R.rnd (R.rnd (R.rnd (3 * a2) - R.rnd (4 * al)) + 1) - (3 * (α * α) - 4 * α + 1)| ≤ 66 * u ∧
    |R.rnd (6 * R.rnd (al - a2)) - 6 * (α - α * α)| ≤ 100 * u ∧
    |R.rnd (R.rnd (3 * a2) - R.rnd (2 * al)) - (3 * (α * α) - 2 * α)| ≤ 50 * u := by
  have hs := square_small hu hu1
  have hη0 := hP.nonneg
  obtain ⟨e2, -⟩ := powers_nearG hP hu hu1 hη h0 h1 h
  rw [← ha2] at e2
  have b2 : α * α ≤ α := mul_le_of_le_one_right h0 h1
  have b2' : 0 ≤ α * α := mul_nonneg h0 h0
  have b2q : 4 * (α - α * α) ≤ 1 := by nlinarith [mul_self_nonneg (1 - 2 * α)]
  generalize α * α = q2 at *
  have f1 : |R.rnd (3 * a2) - 3 * q2| ≤ 34 * u :=
    (rnd_nearG hP hu (const_near 3 (by norm_num) e2) (abs_le_of (m := 3) (by linarith) (by linarith))).trans
      (by linarith)
  have f2 : |R.rnd (4 * al) - 4 * α| ≤ 21 * u :=
    (rnd_nearG hP hu (const_near 4 (by norm_num) h) (abs_le_of (m := 4) (by linarith) (by linarith))).trans
      (by linarith)
  have f3 : |R.rnd (2 * al) - 2 * α| ≤ 11 * u :=
    (rnd_nearG hP hu (const_near 2 (by norm_num) h) (abs_le_of (m := 2) (by linarith) (by linarith))).trans
      (by linarith)
  have f4 : |R.rnd (R.rnd (3 * a2) - R.rnd (4 * al)) - (3 * q2 - 4 * α)| ≤ 60 * u :=
    (rnd_nearG hP hu (sub_near f1 f2) (abs_le_of (m := 4) (by linarith) (by linarith))).trans (by linarith)
  have f5 : |R.rnd (a2 - al) - (q2 - α)| ≤ 15 * u :=
    (rnd_nearG hP hu (sub_near e2 h) (abs_le_of (m := 1 / 2) (by linarith) (by linarith))).trans (by linarith)
  have f6 : |R.rnd (al - a2) - (α - q2)| ≤ 15 * u :=
    (rnd_nearG hP hu (sub_near h e2) (abs_le_of (m := 1 / 2) (by linarith) (by linarith))).trans (by linarith)
  have one : |(1 : K) - 1| ≤ 0 := by simp
  refine ⟨?_, ?_, ?_, ?_⟩
  · exact (rnd_nearG hP hu (const_near 6 (by norm_num) f5) (abs_le_of (m := 2) (by linarith) (by linarith))).trans
      (by linarith)
  · exact (rnd_nearG hP hu (add_near f4 one) (abs_le_of (m := 4) (by linarith) (by linarith))).trans (by linarith)
  · exact (rnd_nearG hP hu (const_near 6 (by norm_num) f6) (abs_le_of (m := 2) (by linarith) (by linarith))).trans
      (by linarith)
  · exact (rnd_nearG hP hu (sub_near f1 f3) (abs_le_of (m := 3) (by linarith) (by linarith))).trans (by linarith)

/-- The reciprocal of the length of a segment. -/
theorem recip_nearG (hP : Gradual R u η) (hu : 0 ≤ u) (hu1 : u ≤ 1 / 2 ^ 20) {D : K} (hD : 0 < D)
    (hr : |R.rnd D - D| ≤ u * |D|) (hη : η ≤ u * (1 / D) / 1048576) :
    |R.rnd (1 / R.rnd D) - 1 / D| ≤ 3 * u * (1 / D) := by
  have hs := square_small hu hu1
  have hη0 := hP.nonneg
  have e := hr
  rw [abs_of_pos hD] at e
  generalize R.rnd D = d at *
  have hd0 : D * (1 - u) ≤ d := by have := (abs_le.1 e).1; linarith
  have hd1 : 0 < d := lt_of_lt_of_le (mul_pos hD (by norm_num at hu1; linarith)) hd0
  have hI : 0 < 1 / D := one_div_pos.2 hD
  have h1 : |1 / d - 1 / D| ≤ 3 / 2 * u * (1 / D) := by
    rw [div_sub_div _ _ hd1.ne' hD.ne', abs_div, abs_of_pos (mul_pos hd1 hD), div_le_iff₀ (mul_pos hd1 hD),
      one_mul, mul_one, abs_sub_comm, show 3 / 2 * u * (1 / D) * (d * D) = 3 / 2 * u * d by field_simp]
    have h2 := mul_le_mul_of_nonneg_left hd0 (mul_nonneg (by norm_num : (0 : K) ≤ 3 / 2) hu)
    have h3 := mul_le_mul_of_nonneg_right hs hD.le
    have h4 := mul_nonneg hu hD.le
    linarith
  have h5 := mul_le_mul_of_nonneg_right hs hI.le
  have h6 := mul_nonneg hu hI.le
  refine (rnd_nearG hP hu h1 (abs_of_pos hI).le).trans ?_
  generalize 1 / D = I at *
  linarith

/-- The sum of a velocity. -/
theorem vsum_nearG (hP : Gradual R u η) (hu : 0 ≤ u) (hu1 : u ≤ 1 / 2 ^ 20) {pa pb va vb M N I I' : K}
    (hr : η ≤ u * I / 1048576) (hpa : |pa| ≤ M) (hpb : |pb| ≤ M) (hva : |va| ≤ N) (hvb : |vb| ≤ N) (hI : 0 < I) (hi : |I' - I| ≤ 3 * u * I)
    {B0 B1 B2 B3 q0 q1 q2 q3 : K} (g0 : |B0 - q0| ≤ 100 * u) (g1 : |B1 - q1| ≤ 66 * u) (g2 : |B2 - q2| ≤ 100 * u)
    (g3 : |B3 - q3| ≤ 50 * u) (c0 : |q0| ≤ 2) (c1 : |q1| ≤ 2) (c2 : |q2| ≤ 2) (c3 : |q3| ≤ 2) :
    |R.rnd (R.rnd (R.rnd (R.rnd (pa * R.rnd (B0 * I')) + R.rnd (va * B1)) + R.rnd (pb * R.rnd (B2 * I'))) +
      R.rnd (vb * B3)) - (pa * (q0 * I) + va * q1 + pb * (q2 * I) + vb * q3)| ≤
      256 * u * (M * I + N) + 8 * η := by
  have hs := square_small hu hu1
  have hη0 := hP.nonneg
  have hM : 0 ≤ M := (abs_nonneg _).trans hpa
  have hN : 0 ≤ N := (abs_nonneg _).trans hva
  have hMI : 0 ≤ M * I := mul_nonneg hM hI.le
  have hII : |I| ≤ I := (abs_of_pos hI).le
  have uN := mul_nonneg hu hN
  have uI := mul_nonneg hu hI.le
  have uMI := mul_nonneg hu hMI
  have sN := mul_le_mul_of_nonneg_right hs hN
  have sI := mul_le_mul_of_nonneg_right hs hI.le
  have sII := mul_le_mul_of_nonneg_left sI hu
  have sMI := mul_le_mul_of_nonneg_right hs hMI
  have ηu : u * η ≤ η / 1048576 := by
    have := mul_le_mul_of_nonneg_right hu1 hη0
    norm_num at this
    linarith
  have hr' := mul_le_mul_of_nonneg_left hr hM
  have n0 : |q0 * I| ≤ 2 * I := by rw [abs_mul, abs_of_pos hI]; exact mul_le_mul_of_nonneg_right c0 hI.le
  have n2 : |q2 * I| ≤ 2 * I := by rw [abs_mul, abs_of_pos hI]; exact mul_le_mul_of_nonneg_right c2 hI.le
  have d0 : |R.rnd (B0 * I') - q0 * I| ≤ 109 * u * I :=
    (rnd_nearG hP hu (mul_near g0 hi c0 hII) n0).trans (by linarith)
  have d2 : |R.rnd (B2 * I') - q2 * I| ≤ 109 * u * I :=
    (rnd_nearG hP hu (mul_near g2 hi c2 hII) n2).trans (by linarith)
  have p0 : |R.rnd (pa * R.rnd (B0 * I')) - pa * (q0 * I)| ≤ 112 * u * (M * I) + η :=
    (scale_nearG hP hu hpa d0 n0).trans (by linarith)
  have p2 : |R.rnd (pb * R.rnd (B2 * I')) - pb * (q2 * I)| ≤ 112 * u * (M * I) + η :=
    (scale_nearG hP hu hpb d2 n2).trans (by linarith)
  have v1 : |R.rnd (va * B1) - va * q1| ≤ 69 * u * N + η := (scale_nearG hP hu hva g1 c1).trans (by linarith)
  have v3 : |R.rnd (vb * B3) - vb * q3| ≤ 53 * u * N + η := (scale_nearG hP hu hvb g3 c3).trans (by linarith)
  have mp0 : |pa * (q0 * I)| ≤ 2 * (M * I) := by
    rw [abs_mul]; exact (mul_le_mul hpa n0 (abs_nonneg _) hM).trans (by linarith)
  have mp2 : |pb * (q2 * I)| ≤ 2 * (M * I) := by
    rw [abs_mul]; exact (mul_le_mul hpb n2 (abs_nonneg _) hM).trans (by linarith)
  have mv1 : |va * q1| ≤ 2 * N := by
    rw [abs_mul, mul_comm]; exact mul_le_mul c1 hva (abs_nonneg _) (by norm_num)
  have mv3 : |vb * q3| ≤ 2 * N := by
    rw [abs_mul, mul_comm]; exact mul_le_mul c3 hvb (abs_nonneg _) (by norm_num)
  generalize pa * (q0 * I) = r0 at *
  generalize va * q1 = r1 at *
  generalize pb * (q2 * I) = r2 at *
  generalize vb * q3 = r3 at *
  have m1 : |r0 + r1| ≤ 2 * (M * I) + 2 * N := (abs_add_le _ _).trans (by linarith)
  have s1 := (rnd_nearG hP hu (add_near p0 v1) m1).trans
    (show _ ≤ 115 * u * (M * I) + 72 * u * N + 13 / 4 * η by linarith)
  have m2 : |r0 + r1 + r2| ≤ 4 * (M * I) + 2 * N := (abs_add_le _ _).trans (by linarith)
  have s2 := (rnd_nearG hP hu (add_near s1 p2) m2).trans
    (show _ ≤ 233 * u * (M * I) + 75 * u * N + 11 / 2 * η by linarith)
  refine (rnd_nearG hP hu (m := 4 * (M * I) + 4 * N) (add_near s2 v3) ((abs_add_le _ _).trans (by linarith))).trans ?_
  linarith

/-- The velocity on one segment, one coordinate. -/
theorem velocity_nearG (hP : Gradual R u η) (hu : 0 ≤ u) (hu1 : u ≤ 1 / 2 ^ 20) (hη : η ≤ u / 1048576) {a b : Node K (Knot (Vec3 K))} {t : K}
    (ra : R.rnd a.time = a.time) (rb : R.rnd b.time = b.time) (rt : R.rnd t = t)
    (hab : a.time < b.time) (h0 : a.time ≤ t) (h1 : t ≤ b.time) {x : Fin 3} {M N : K}
    (hr : η ≤ u * (1 / (b.time - a.time)) / 1048576) (hpa : |a.coef.position x| ≤ M) (hpb : |b.coef.position x| ≤ M) (hva : |a.coef.velocity x| ≤ N)
    (hvb : |b.coef.velocity x| ≤ N) :
    |interpolateVelocity R a b t x - E3.interpolateVelocity a b t x| ≤
      256 * u * (M / (b.time - a.time) + N) + 8 * η := by
  have hD : 0 < b.time - a.time := sub_pos.2 hab
  have al := alpha_nearG hP hu hu1 hη ra rb rt hab h0 h1
  have a0 : 0 ≤ (t - a.time) / (b.time - a.time) := div_nonneg (by linarith) hD.le
  have a1 : (t - a.time) / (b.time - a.time) ≤ 1 := by rw [div_le_one hD]; linarith
  obtain ⟨g0, g1, g2, g3⟩ := gammas_nearG hP hu hu1 hη a0 a1 al rfl
  have hi := recip_nearG hP hu hu1 hD (hP.sub rb ra) hr
  rw [← link_interpolateVelocity]
  simp only [interpolateVelocity, alpha, exact] at *
  have b2 := mul_le_of_le_one_right a0 a1
  have b2' := mul_nonneg a0 a0
  have b2q := mul_self_nonneg (1 - 2 * ((t - a.time) / (b.time - a.time)))
  generalize (t - a.time) / (b.time - a.time) = α at *
  rw [show (1 - 2 * α) * (1 - 2 * α) = 1 - 4 * (α - α * α) by ring] at b2q
  rw [div_eq_mul_one_div M]
  refine vsum_nearG hP hu hu1 hr hpa hpb hva hvb (one_div_pos.2 hD) hi g0 g1 g2 g3 ?_ ?_ ?_ ?_ <;>
  · generalize α * α = q at *
    exact abs_le_of (by linarith) (by linarith)

end

/-- `double` with subnormal numbers is precise to 2⁻⁵³ or 2⁻¹⁰⁷⁵. -/
theorem gradual_ieee {K : Type} [Field K] [LinearOrder K] [IsStrictOrderedRing K] [FloorRing K] :
    Gradual (ieee K) (1 / 2 ^ 53) (2 ^ (-1075 : ℤ)) where
  near := by
    intro x
    change |toIeee x - x| ≤ _
    have hq := two_zpow_pos (K := K) (-1074)
    have hh : (2 : K) ^ (-1074 : ℤ) = 2 * 2 ^ (-1075 : ℤ) := by
      rw [show (-1074 : ℤ) = 1 + -1075 by norm_num, zpow_add₀ (by norm_num : (2 : K) ≠ 0), zpow_one]
    by_cases h : |x| < 2 ^ (-1022 : ℤ)
    · rw [toIeee_small h]
      have h1 := Decimal.roundEven_near (x / 2 ^ (-1074 : ℤ))
      have h2 := mul_le_mul_of_nonneg_right h1 hq.le
      rw [← abs_of_pos hq, ← abs_mul, abs_of_pos hq, sub_mul, div_mul_cancel₀ _ hq.ne'] at h2
      have h3 : 0 ≤ 1 / 2 ^ 53 * |x| := mul_nonneg (by positivity) (abs_nonneg _)
      refine h2.trans ?_
      linarith
    · rw [toIeee_large (not_lt.1 h)]
      have := precise_double x
      have h3 := two_zpow_pos (K := K) (-1075)
      exact this.trans (by linarith)
  sub := by
    intro x y hx hy
    change |toIeee (x - y) - (x - y)| ≤ _
    by_cases h : |x - y| < 2 ^ (-1022 : ℤ)
    · rw [toIeee_sub_exact hx hy h, sub_self, abs_zero]
      exact mul_nonneg (by positivity) (abs_nonneg _)
    · rw [toIeee_large (not_lt.1 h)]
      exact precise_double (x - y)

end Verif.Rounding

import Verif.Rounding.ErrorLemmas
import Verif.Rounding.Link
import Verif.Rounding.WriteProps
import Verif.Hermite.E3Props

/-!
# Property C106: how exact the Hermite curves are in `double`
-/

set_option linter.unusedSectionVars false
set_option linter.dupNamespace false

namespace Verif.Rounding

section
variable {K : Type} [Field K] [LinearOrder K] [IsStrictOrderedRing K] {R : Rounding K} {u : K}

open Verif.Manager Verif.Hermite

theorem square_small (hu : 0 ≤ u) (hu1 : u ≤ 1 / 2 ^ 20) : u * u ≤ u / 1048576 := by
  have := mul_le_mul_of_nonneg_left hu1 hu
  norm_num at this ⊢
  linarith

theorem powers_near (hP : Precise R u) (hu : 0 ≤ u) (hu1 : u ≤ 1 / 2 ^ 20) {al α : K} (h0 : 0 ≤ α) (h1 : α ≤ 1)
    (h : |al - α| ≤ 4 * u) :
    |R.rnd (al * al) - α * α| ≤ 10 * u ∧ |R.rnd (R.rnd (al * al) * al) - α * α * α| ≤ 16 * u := by
  have hs := square_small hu hu1
  have ha : |α| ≤ 1 := abs_le_of (by linarith) h1
  have ha2 : |α * α| ≤ 1 := by rw [abs_mul]; exact mul_le_one₀ ha (abs_nonneg _) ha
  have ha3 : |α * α * α| ≤ 1 := by rw [abs_mul]; exact mul_le_one₀ ha2 (abs_nonneg _) ha
  have e2 : |R.rnd (al * al) - α * α| ≤ 10 * u :=
    (rnd_near hP hu (mul_near h h ha ha) ha2).trans (by nlinarith)
  exact ⟨e2, (rnd_near hP hu (mul_near e2 h ha2 ha) ha3).trans (by nlinarith)⟩

theorem betas_near (hP : Precise R u) (hu : 0 ≤ u) (hu1 : u ≤ 1 / 2 ^ 20) {al α : K} (h0 : 0 ≤ α) (h1 : α ≤ 1)
    (h : |al - α| ≤ 4 * u) {a2 a3 : K} (ha2 : a2 = R.rnd (al * al)) (ha3 : a3 = R.rnd (a2 * al)) :
    |R.rnd (R.rnd (R.rnd (2 * a3) - R.rnd (3 * a2)) + 1) - (2 * (α * α * α) - 3 * (α * α) + 1)| ≤ 80 * u ∧
    |R.rnd (R.rnd (-2 * a3) + R.rnd (3 * a2)) - (-2 * (α * α * α) + 3 * (α * α))| ≤ 80 * u ∧
    |R.rnd (R.rnd (a3 - R.rnd (2 * a2)) + al) - (α * α * α - 2 * (α * α) + α)| ≤ 60 * u ∧
    |R.rnd (a3 - a2) - (α * α * α - α * α)| ≤ 30 * u := by
  have hs := square_small hu hu1
  obtain ⟨e2, e3⟩ := powers_near hP hu hu1 h0 h1 h
  rw [← ha2] at e2 e3
  rw [← ha3] at e3
  have b2 : α * α ≤ 1 := mul_le_one₀ h1 h0 h1
  have b2' : 0 ≤ α * α := mul_nonneg h0 h0
  have b3 : α * α * α ≤ α * α := mul_le_of_le_one_right b2' h1
  have b3' : 0 ≤ α * α * α := mul_nonneg b2' h0
  generalize α * α * α = q3 at *
  generalize α * α = q2 at *
  have f1 : |R.rnd (2 * a3) - 2 * q3| ≤ 35 * u :=
    (rnd_near hP hu (const_near 2 (by norm_num) e3) (abs_le_of (m := 2) (by linarith) (by linarith))).trans
      (by nlinarith)
  have f1' : |R.rnd (-2 * a3) - -2 * q3| ≤ 35 * u := by
    refine (rnd_near hP hu (e := 32 * u) (m := 2) ?_ (abs_le_of (by linarith) (by linarith))).trans (by nlinarith)
    have := const_near 2 (by norm_num) e3
    rw [show -2 * a3 - -2 * q3 = -(2 * a3 - 2 * q3) by ring, abs_neg]
    linarith
  have f2 : |R.rnd (3 * a2) - 3 * q2| ≤ 34 * u :=
    (rnd_near hP hu (const_near 3 (by norm_num) e2) (abs_le_of (m := 3) (by linarith) (by linarith))).trans
      (by nlinarith)
  have f3 : |R.rnd (2 * a2) - 2 * q2| ≤ 23 * u :=
    (rnd_near hP hu (const_near 2 (by norm_num) e2) (abs_le_of (m := 2) (by linarith) (by linarith))).trans
      (by nlinarith)
  have f4 : |R.rnd (R.rnd (2 * a3) - R.rnd (3 * a2)) - (2 * q3 - 3 * q2)| ≤ 73 * u :=
    (rnd_near hP hu (sub_near f1 f2) (abs_le_of (m := 3) (by linarith) (by linarith))).trans (by nlinarith)
  have f5 : |R.rnd (a3 - R.rnd (2 * a2)) - (q3 - 2 * q2)| ≤ 42 * u :=
    (rnd_near hP hu (sub_near e3 f3) (abs_le_of (m := 2) (by linarith) (by linarith))).trans (by nlinarith)
  have one : |(1 : K) - 1| ≤ 0 := by simp
  refine ⟨?_, ?_, ?_, ?_⟩
  · exact (rnd_near hP hu (add_near f4 one) (abs_le_of (m := 2) (by linarith) (by linarith))).trans (by nlinarith)
  · exact (rnd_near hP hu (add_near f1' f2) (abs_le_of (m := 3) (by linarith) (by linarith))).trans (by nlinarith)
  · exact (rnd_near hP hu (add_near f5 h) (abs_le_of (m := 2) (by linarith) (by linarith))).trans (by nlinarith)
  · exact (rnd_near hP hu (sub_near e3 e2) (abs_le_of (m := 1) (by linarith) (by linarith))).trans (by nlinarith)

/-- The sum of a position, for coefficients that are close to the true ones. -/
theorem sum_near (hP : Precise R u) (hu : 0 ≤ u) (hu1 : u ≤ 1 / 2 ^ 20) {pa pb va vb M N D D' : K}
    (hpa : |pa| ≤ M) (hpb : |pb| ≤ M) (hva : |va| ≤ N) (hvb : |vb| ≤ N) (hD : 0 < D) (hd : |D' - D| ≤ u * D)
    {B0 B1 B2 B3 q0 q1 q2 q3 : K} (g0 : |B0 - q0| ≤ 80 * u) (g1 : |B1 - q1| ≤ 80 * u) (g2 : |B2 - q2| ≤ 60 * u)
    (g3 : |B3 - q3| ≤ 30 * u) (c0 : |q0| ≤ 2) (c1 : |q1| ≤ 2) (c2 : |q2| ≤ 1) (c3 : |q3| ≤ 1) :
    |R.rnd (R.rnd (R.rnd (R.rnd (pa * B0) + R.rnd (pb * B1)) + R.rnd (va * R.rnd (B2 * D'))) +
      R.rnd (vb * R.rnd (B3 * D'))) - (pa * q0 + pb * q1 + va * (q2 * D) + vb * (q3 * D))| ≤
      256 * u * (M + N * D) := by
  have hs := square_small hu hu1
  have hM : 0 ≤ M := (abs_nonneg _).trans hpa
  have hN : 0 ≤ N := (abs_nonneg _).trans hva
  have hND : 0 ≤ N * D := mul_nonneg hN hD.le
  have hDD : |D| ≤ D := (abs_of_pos hD).le
  have uM := mul_nonneg hu hM
  have uD := mul_nonneg hu hD.le
  have uND := mul_nonneg hu hND
  have sM := mul_le_mul_of_nonneg_right hs hM
  have sD := mul_le_mul_of_nonneg_right hs hD.le
  have sDD := mul_le_mul_of_nonneg_left sD hu
  have sND := mul_le_mul_of_nonneg_right hs hND
  have p0 : |R.rnd (pa * B0) - pa * q0| ≤ 84 * u * M :=
    (scale_near hP hu hpa g0 c0).trans (by linarith)
  have p1 : |R.rnd (pb * B1) - pb * q1| ≤ 84 * u * M :=
    (scale_near hP hu hpb g1 c1).trans (by linarith)
  have d2 : |R.rnd (B2 * D') - q2 * D| ≤ 64 * u * D :=
    (rnd_near hP hu (m := D) (mul_near g2 hd c2 hDD) (by
      rw [abs_mul, abs_of_pos hD]; exact mul_le_of_le_one_left hD.le c2)).trans (by linarith)
  have d3 : |R.rnd (B3 * D') - q3 * D| ≤ 34 * u * D :=
    (rnd_near hP hu (m := D) (mul_near g3 hd c3 hDD) (by
      rw [abs_mul, abs_of_pos hD]; exact mul_le_of_le_one_left hD.le c3)).trans (by linarith)
  have n2 : |q2 * D| ≤ D := by rw [abs_mul, abs_of_pos hD]; exact mul_le_of_le_one_left hD.le c2
  have n3 : |q3 * D| ≤ D := by rw [abs_mul, abs_of_pos hD]; exact mul_le_of_le_one_left hD.le c3
  have v2 : |R.rnd (va * R.rnd (B2 * D')) - va * (q2 * D)| ≤ 66 * u * (N * D) :=
    (scale_near hP hu hva d2 n2).trans (by linarith)
  have v3 : |R.rnd (vb * R.rnd (B3 * D')) - vb * (q3 * D)| ≤ 36 * u * (N * D) :=
    (scale_near hP hu hvb d3 n3).trans (by linarith)
  have mp0 : |pa * q0| ≤ 2 * M := by
    rw [abs_mul, mul_comm]; exact mul_le_mul c0 hpa (abs_nonneg _) (by norm_num)
  have mp1 : |pb * q1| ≤ 2 * M := by
    rw [abs_mul, mul_comm]; exact mul_le_mul c1 hpb (abs_nonneg _) (by norm_num)
  have mv2 : |va * (q2 * D)| ≤ N * D := by
    rw [abs_mul]; exact mul_le_mul hva n2 (abs_nonneg _) hN
  have mv3 : |vb * (q3 * D)| ≤ N * D := by
    rw [abs_mul]; exact mul_le_mul hvb n3 (abs_nonneg _) hN
  generalize pa * q0 = r0 at *
  generalize pb * q1 = r1 at *
  generalize va * (q2 * D) = r2 at *
  generalize vb * (q3 * D) = r3 at *
  have s1 := (rnd_near hP hu (m := 4 * M) (add_near p0 p1) ((abs_add_le _ _).trans (by linarith))).trans
    (show _ ≤ 176 * u * M by linarith)
  have m1 : |r0 + r1| ≤ 4 * M := (abs_add_le _ _).trans (by linarith)
  have s2 := (rnd_near hP hu (m := 4 * M + N * D) (add_near s1 v2) ((abs_add_le _ _).trans (by linarith))).trans
    (show _ ≤ 184 * u * M + 70 * u * (N * D) by linarith)
  have m2 : |r0 + r1 + r2| ≤ 4 * M + N * D := (abs_add_le _ _).trans (by linarith)
  refine (rnd_near hP hu (m := 4 * M + 2 * (N * D)) (add_near s2 v3) ((abs_add_le _ _).trans (by linarith))).trans ?_
  nlinarith

/-- One segment, one coordinate. -/
theorem interpolate_near (hP : Precise R u) (hu : 0 ≤ u) (hu1 : u ≤ 1 / 2 ^ 20) {a b : Node K (Knot (Vec3 K))} {t : K}
    (hab : a.time < b.time) (h0 : a.time ≤ t) (h1 : t ≤ b.time) {x : Fin 3} {M N : K}
    (hpa : |a.coef.position x| ≤ M) (hpb : |b.coef.position x| ≤ M) (hva : |a.coef.velocity x| ≤ N)
    (hvb : |b.coef.velocity x| ≤ N) :
    |interpolate R a b t x - E3.interpolate a b t x| ≤ 256 * u * (M + N * (b.time - a.time)) := by
  have hD : 0 < b.time - a.time := sub_pos.2 hab
  have al := alpha_near hP hu hu1 hab h0 h1
  have a0 : 0 ≤ (t - a.time) / (b.time - a.time) := div_nonneg (by linarith) hD.le
  have a1 : (t - a.time) / (b.time - a.time) ≤ 1 := by rw [div_le_one hD]; linarith
  obtain ⟨g0, g1, g2, g3⟩ := betas_near hP hu hu1 a0 a1 al rfl rfl
  rw [← link_interpolate]
  simp only [interpolate, alpha, exact] at *
  generalize R.rnd (R.rnd (t - a.time) / R.rnd (b.time - a.time)) = al' at *
  generalize (t - a.time) / (b.time - a.time) = α at *
  have hd := hP (b.time - a.time)
  rw [abs_of_pos hD] at hd
  generalize b.time - a.time = D at *
  generalize R.rnd D = D' at *
  have b2 : α * α ≤ 1 := mul_le_one₀ a1 a0 a1
  have b2'' : α * α ≤ α := mul_le_of_le_one_right a0 a1
  have b2' : 0 ≤ α * α := mul_nonneg a0 a0
  have b3 : α * α * α ≤ α * α := mul_le_of_le_one_right b2' a1
  have b3' : 0 ≤ α * α * α := mul_nonneg b2' a0
  generalize R.rnd (R.rnd (R.rnd (2 * R.rnd (R.rnd (al' * al') * al')) - R.rnd (3 * R.rnd (al' * al'))) + 1) = B0 at *
  generalize R.rnd (R.rnd (-2 * R.rnd (R.rnd (al' * al') * al')) + R.rnd (3 * R.rnd (al' * al'))) = B1 at *
  generalize R.rnd (R.rnd (R.rnd (R.rnd (al' * al') * al') - R.rnd (2 * R.rnd (al' * al'))) + al') = B2 at *
  generalize R.rnd (R.rnd (R.rnd (al' * al') * al') - R.rnd (al' * al')) = B3 at *
  have c0 : |2 * (α * α * α) - 3 * (α * α) + 1| ≤ 2 := abs_le_of (by linarith) (by linarith)
  have hq : 0 ≤ (1 - α) * (1 - α) * (1 + 2 * α) :=
    mul_nonneg (mul_nonneg (by linarith) (by linarith)) (by linarith)
  rw [show (1 - α) * (1 - α) * (1 + 2 * α) = 2 * (α * α * α) - 3 * (α * α) + 1 by ring] at hq
  have c1 : |-2 * (α * α * α) + 3 * (α * α)| ≤ 2 := abs_le_of (by linarith) (by linarith)
  have c2 : |α * α * α - 2 * (α * α) + α| ≤ 1 := abs_le_of (by linarith) (by linarith)
  have c3 : |α * α * α - α * α| ≤ 1 := abs_le_of (by linarith) (by linarith)
  generalize 2 * (α * α * α) - 3 * (α * α) + 1 = q0 at *
  generalize -2 * (α * α * α) + 3 * (α * α) = q1 at *
  generalize α * α * α - 2 * (α * α) + α = q2 at *
  generalize α * α * α - α * α = q3 at *
  exact sum_near hP hu hu1 hpa hpb hva hvb hD hd g0 g1 g2 g3 c0 c1 c2 c3

theorem gammas_near (hP : Precise R u) (hu : 0 ≤ u) (hu1 : u ≤ 1 / 2 ^ 20) {al α : K} (h0 : 0 ≤ α) (h1 : α ≤ 1)
    (h : |al - α| ≤ 4 * u) {a2 : K} (ha2 : a2 = R.rnd (al * al)) :
    |R.rnd (6 * R.rnd (a2 - al)) - 6 * (α * α - α)| ≤ 100 * u ∧
    |R.rnd (R.rnd (R.rnd (3 * a2) - R.rnd (4 * al)) + 1) - (3 * (α * α) - 4 * α + 1)| ≤ 66 * u ∧
    |R.rnd (6 * R.rnd (al - a2)) - 6 * (α - α * α)| ≤ 100 * u ∧
    |R.rnd (R.rnd (3 * a2) - R.rnd (2 * al)) - (3 * (α * α) - 2 * α)| ≤ 50 * u := by
  have hs := square_small hu hu1
  obtain ⟨e2, -⟩ := powers_near hP hu hu1 h0 h1 h
  rw [← ha2] at e2
  have b2 : α * α ≤ α := mul_le_of_le_one_right h0 h1
  have b2' : 0 ≤ α * α := mul_nonneg h0 h0
  have b2q : 4 * (α - α * α) ≤ 1 := by nlinarith [mul_self_nonneg (1 - 2 * α)]
  generalize α * α = q2 at *
  have f1 : |R.rnd (3 * a2) - 3 * q2| ≤ 34 * u :=
    (rnd_near hP hu (const_near 3 (by norm_num) e2) (abs_le_of (m := 3) (by linarith) (by linarith))).trans
      (by linarith)
  have f2 : |R.rnd (4 * al) - 4 * α| ≤ 21 * u :=
    (rnd_near hP hu (const_near 4 (by norm_num) h) (abs_le_of (m := 4) (by linarith) (by linarith))).trans
      (by linarith)
  have f3 : |R.rnd (2 * al) - 2 * α| ≤ 11 * u :=
    (rnd_near hP hu (const_near 2 (by norm_num) h) (abs_le_of (m := 2) (by linarith) (by linarith))).trans
      (by linarith)
  have f4 : |R.rnd (R.rnd (3 * a2) - R.rnd (4 * al)) - (3 * q2 - 4 * α)| ≤ 60 * u :=
    (rnd_near hP hu (sub_near f1 f2) (abs_le_of (m := 4) (by linarith) (by linarith))).trans (by linarith)
  have f5 : |R.rnd (a2 - al) - (q2 - α)| ≤ 15 * u :=
    (rnd_near hP hu (sub_near e2 h) (abs_le_of (m := 1 / 2) (by linarith) (by linarith))).trans (by linarith)
  have f6 : |R.rnd (al - a2) - (α - q2)| ≤ 15 * u :=
    (rnd_near hP hu (sub_near h e2) (abs_le_of (m := 1 / 2) (by linarith) (by linarith))).trans (by linarith)
  have one : |(1 : K) - 1| ≤ 0 := by simp
  refine ⟨?_, ?_, ?_, ?_⟩
  · exact (rnd_near hP hu (const_near 6 (by norm_num) f5) (abs_le_of (m := 2) (by linarith) (by linarith))).trans
      (by linarith)
  · exact (rnd_near hP hu (add_near f4 one) (abs_le_of (m := 4) (by linarith) (by linarith))).trans (by linarith)
  · exact (rnd_near hP hu (const_near 6 (by norm_num) f6) (abs_le_of (m := 2) (by linarith) (by linarith))).trans
      (by linarith)
  · exact (rnd_near hP hu (sub_near f1 f3) (abs_le_of (m := 3) (by linarith) (by linarith))).trans (by linarith)

/-- The reciprocal of the length of a segment. -/
theorem recip_near (hP : Precise R u) (hu : 0 ≤ u) (hu1 : u ≤ 1 / 2 ^ 20) {D : K} (hD : 0 < D) :
    |R.rnd (1 / R.rnd D) - 1 / D| ≤ 3 * u * (1 / D) := by
  have hs := square_small hu hu1
  have e := hP D
  rw [abs_of_pos hD] at e
  generalize R.rnd D = d at *
  have hd0 : D * (1 - u) ≤ d := by have := (abs_le.1 e).1; linarith
  have hd1 : 0 < d := lt_of_lt_of_le (mul_pos hD (by norm_num at hu1; linarith)) hd0
  have hI : 0 < 1 / D := one_div_pos.2 hD
  have h1 : |1 / d - 1 / D| ≤ 3 / 2 * u * (1 / D) := by
    rw [div_sub_div _ _ hd1.ne' hD.ne', abs_div, abs_of_pos (mul_pos hd1 hD), div_le_iff₀ (mul_pos hd1 hD),
      one_mul, mul_one, abs_sub_comm, show 3 / 2 * u * (1 / D) * (d * D) = 3 / 2 * u * d by field_simp]
    have h2 := mul_le_mul_of_nonneg_left hd0 (mul_nonneg (by norm_num : (0 : K) ≤ 3 / 2) hu)
    have h3 := mul_le_mul_of_nonneg_right hs hD.le
    have h4 := mul_nonneg hu hD.le
    linarith
  have h5 := mul_le_mul_of_nonneg_right hs hI.le
  have h6 := mul_nonneg hu hI.le
  refine (rnd_near hP hu h1 (abs_of_pos hI).le).trans ?_
  generalize 1 / D = I at *
  linarith

/-- The sum of a velocity. -/
theorem vsum_near (hP : Precise R u) (hu : 0 ≤ u) (hu1 : u ≤ 1 / 2 ^ 20) {pa pb va vb M N I I' : K}
    (hpa : |pa| ≤ M) (hpb : |pb| ≤ M) (hva : |va| ≤ N) (hvb : |vb| ≤ N) (hI : 0 < I) (hi : |I' - I| ≤ 3 * u * I)
    {B0 B1 B2 B3 q0 q1 q2 q3 : K} (g0 : |B0 - q0| ≤ 100 * u) (g1 : |B1 - q1| ≤ 66 * u) (g2 : |B2 - q2| ≤ 100 * u)
    (g3 : |B3 - q3| ≤ 50 * u) (c0 : |q0| ≤ 2) (c1 : |q1| ≤ 2) (c2 : |q2| ≤ 2) (c3 : |q3| ≤ 2) :
    |R.rnd (R.rnd (R.rnd (R.rnd (pa * R.rnd (B0 * I')) + R.rnd (va * B1)) + R.rnd (pb * R.rnd (B2 * I'))) +
      R.rnd (vb * B3)) - (pa * (q0 * I) + va * q1 + pb * (q2 * I) + vb * q3)| ≤
      256 * u * (M * I + N) := by
  have hs := square_small hu hu1
  have hM : 0 ≤ M := (abs_nonneg _).trans hpa
  have hN : 0 ≤ N := (abs_nonneg _).trans hva
  have hMI : 0 ≤ M * I := mul_nonneg hM hI.le
  have hII : |I| ≤ I := (abs_of_pos hI).le
  have uN := mul_nonneg hu hN
  have uI := mul_nonneg hu hI.le
  have uMI := mul_nonneg hu hMI
  have sN := mul_le_mul_of_nonneg_right hs hN
  have sI := mul_le_mul_of_nonneg_right hs hI.le
  have sII := mul_le_mul_of_nonneg_left sI hu
  have sMI := mul_le_mul_of_nonneg_right hs hMI
  have n0 : |q0 * I| ≤ 2 * I := by rw [abs_mul, abs_of_pos hI]; exact mul_le_mul_of_nonneg_right c0 hI.le
  have n2 : |q2 * I| ≤ 2 * I := by rw [abs_mul, abs_of_pos hI]; exact mul_le_mul_of_nonneg_right c2 hI.le
  have d0 : |R.rnd (B0 * I') - q0 * I| ≤ 109 * u * I :=
    (rnd_near hP hu (mul_near g0 hi c0 hII) n0).trans (by linarith)
  have d2 : |R.rnd (B2 * I') - q2 * I| ≤ 109 * u * I :=
    (rnd_near hP hu (mul_near g2 hi c2 hII) n2).trans (by linarith)
  have p0 : |R.rnd (pa * R.rnd (B0 * I')) - pa * (q0 * I)| ≤ 112 * u * (M * I) :=
    (scale_near hP hu hpa d0 n0).trans (by linarith)
  have p2 : |R.rnd (pb * R.rnd (B2 * I')) - pb * (q2 * I)| ≤ 112 * u * (M * I) :=
    (scale_near hP hu hpb d2 n2).trans (by linarith)
  have v1 : |R.rnd (va * B1) - va * q1| ≤ 69 * u * N := (scale_near hP hu hva g1 c1).trans (by linarith)
  have v3 : |R.rnd (vb * B3) - vb * q3| ≤ 53 * u * N := (scale_near hP hu hvb g3 c3).trans (by linarith)
  have mp0 : |pa * (q0 * I)| ≤ 2 * (M * I) := by
    rw [abs_mul]; exact (mul_le_mul hpa n0 (abs_nonneg _) hM).trans (by linarith)
  have mp2 : |pb * (q2 * I)| ≤ 2 * (M * I) := by
    rw [abs_mul]; exact (mul_le_mul hpb n2 (abs_nonneg _) hM).trans (by linarith)
  have mv1 : |va * q1| ≤ 2 * N := by
    rw [abs_mul, mul_comm]; exact mul_le_mul c1 hva (abs_nonneg _) (by norm_num)
  have mv3 : |vb * q3| ≤ 2 * N := by
    rw [abs_mul, mul_comm]; exact mul_le_mul c3 hvb (abs_nonneg _) (by norm_num)
  generalize pa * (q0 * I) = r0 at *
  generalize va * q1 = r1 at *
  generalize pb * (q2 * I) = r2 at *
  generalize vb * q3 = r3 at *
  have m1 : |r0 + r1| ≤ 2 * (M * I) + 2 * N := (abs_add_le _ _).trans (by linarith)
  have s1 := (rnd_near hP hu (add_near p0 v1) m1).trans
    (show _ ≤ 115 * u * (M * I) + 72 * u * N by linarith)
  have m2 : |r0 + r1 + r2| ≤ 4 * (M * I) + 2 * N := (abs_add_le _ _).trans (by linarith)
  have s2 := (rnd_near hP hu (add_near s1 p2) m2).trans
    (show _ ≤ 233 * u * (M * I) + 75 * u * N by linarith)
  refine (rnd_near hP hu (m := 4 * (M * I) + 4 * N) (add_near s2 v3) ((abs_add_le _ _).trans (by linarith))).trans ?_
  linarith

/-- The velocity on one segment, one coordinate. -/
theorem velocity_near (hP : Precise R u) (hu : 0 ≤ u) (hu1 : u ≤ 1 / 2 ^ 20) {a b : Node K (Knot (Vec3 K))} {t : K}
    (hab : a.time < b.time) (h0 : a.time ≤ t) (h1 : t ≤ b.time) {x : Fin 3} {M N : K}
    (hpa : |a.coef.position x| ≤ M) (hpb : |b.coef.position x| ≤ M) (hva : |a.coef.velocity x| ≤ N)
    (hvb : |b.coef.velocity x| ≤ N) :
    |interpolateVelocity R a b t x - E3.interpolateVelocity a b t x| ≤ 256 * u * (M / (b.time - a.time) + N) := by
  have hD : 0 < b.time - a.time := sub_pos.2 hab
  have al := alpha_near hP hu hu1 hab h0 h1
  have a0 : 0 ≤ (t - a.time) / (b.time - a.time) := div_nonneg (by linarith) hD.le
  have a1 : (t - a.time) / (b.time - a.time) ≤ 1 := by rw [div_le_one hD]; linarith
  obtain ⟨g0, g1, g2, g3⟩ := gammas_near hP hu hu1 a0 a1 al rfl
  have hi := recip_near hP hu hu1 hD
  rw [← link_interpolateVelocity]
  simp only [interpolateVelocity, alpha, exact] at *
  have b2 := mul_le_of_le_one_right a0 a1
  have b2' := mul_nonneg a0 a0
  have b2q := mul_self_nonneg (1 - 2 * ((t - a.time) / (b.time - a.time)))
  generalize (t - a.time) / (b.time - a.time) = α at *
  rw [show (1 - 2 * α) * (1 - 2 * α) = 1 - 4 * (α - α * α) by ring] at b2q
  rw [div_eq_mul_one_div M]
  refine vsum_near hP hu hu1 hpa hpb hva hvb (one_div_pos.2 hD) hi g0 g1 g2 g3 ?_ ?_ ?_ ?_ <;>
  · generalize α * α = q at *
    exact abs_le_of (by linarith) (by linarith)

/-- Both values at a time between two neighbouring knots. -/
theorem near_of_segments {R : Rounding K} {c : E3 K (Vec3 K)} (hs : Sorted c.m.nodes)
    (hd : ∀ n ∈ c.m.knots, Stored R n) {ta tb : K} {A B : Knot (Vec3 K)} (ha : (ta, A) ∈ c.m.knots)
    (hb : (tb, B) ∈ c.m.knots) (hlt : ta < tb) (hno : ∀ s k, (s, k) ∈ c.m.knots → ¬(ta < s ∧ s < tb)) {t : K}
    (h0 : ta ≤ t) (h1 : t ≤ tb) :
    ∃ a b : Node K (Knot (Vec3 K)), a.time = ta ∧ a.coef = A ∧ b.time = tb ∧ b.coef = B ∧
      evaluate R t c.m = .ok (some (interpolate R a b t)) ∧
      E3.evaluate t c = .ok (some (E3.interpolate a b t)) ∧
      evaluateVelocity R t c.m = .ok (some (interpolateVelocity R a b t)) ∧
      E3.evaluateDerivative t 1 c = .ok (some (E3.interpolateVelocity a b t)) := by
  have hst : ∀ n ∈ c.m.nodes, Stored R (n.time, n.coef) := fun n hn => hd _ (List.mem_map.2 ⟨n, hn, rfl⟩)
  obtain ⟨pre, a, b, post, hm, e1, e2, e3, e4⟩ := exists_segment hs ha hb hlt hno
  refine ⟨a, b, e1, e2, e3, e4, ?_, ?_, ?_, ?_⟩
  · obtain ⟨p, ep, hp⟩ := evalWith_between (single := Knot.position) (f := interpolate R) hs id
      (fun a b ha _ _ => interpolate_left R (hst a ha).2.1)
      (fun a b ha hb h => interpolate_right R (hst a ha).1 (hst b hb).1 h (hst b hb).2.1) hm (t := t)
      (by rw [e1]; exact h0) (by rw [e3]; exact h1)
    rw [evaluate_eq, ep, show p = _ from hp]
    rfl
  · obtain ⟨p, ep, hp⟩ := evalWith_between (single := Knot.position) (f := interpolate (exact K)) hs id
      (fun a b _ _ _ => interpolate_left (exact K) fun _ => rfl)
      (fun a b _ _ h => interpolate_right (exact K) rfl rfl h fun _ => rfl) hm (t := t)
      (by rw [e1]; exact h0) (by rw [e3]; exact h1)
    rw [← link_evaluate, evaluate_eq, ep, show p = _ from hp]
    exact congrArg _ (congrArg _ (link_interpolate a b t))
  · obtain ⟨p, ep, hp⟩ := evalWith_between (single := Knot.velocity) (f := interpolateVelocity R) hs id
      (fun a b ha _ _ => velocity_left R (hst a ha).2.2)
      (fun a b ha hb h => velocity_right R (hst a ha).1 (hst b hb).1 h (hst b hb).2.2) hm (t := t)
      (by rw [e1]; exact h0) (by rw [e3]; exact h1)
    rw [evaluateVelocity_eq, ep, show p = _ from hp]
    rfl
  · obtain ⟨p, ep, hp⟩ := evalWith_between (single := Knot.velocity) (f := interpolateVelocity (exact K)) hs id
      (fun a b _ _ _ => velocity_left (exact K) fun _ => rfl)
      (fun a b _ _ h => velocity_right (exact K) rfl rfl h fun _ => rfl) hm (t := t)
      (by rw [e1]; exact h0) (by rw [e3]; exact h1)
    rw [← link_evaluateVelocity, evaluateVelocity_eq, ep, show p = _ from hp]
    exact congrArg _ (congrArg _ (link_interpolateVelocity a b t))

/-- **C106.** Take a curve whose numbers are `double`s, two neighbouring knots and a time between them. The
position computed in `double` arithmetic differs from the true one in no coordinate by more than 2⁻⁴⁵ times the
largest position there plus the largest velocity times the distance of the knots. How large the times are does
not matter. -/
theorem C106_position [FloorRing K] {c : E3 K (Vec3 K)} (hr : Manager.Reachable c) (hc : c.w.calls + 1 < 2 ^ 64)
    (hd : ∀ n ∈ c.m.knots, Stored (double K) n) {ta tb : K} {A B : Knot (Vec3 K)} (ha : (ta, A) ∈ c.m.knots)
    (hb : (tb, B) ∈ c.m.knots) (hlt : ta < tb) (hno : ∀ s k, (s, k) ∈ c.m.knots → ¬(ta < s ∧ s < tb)) {t : K}
    (h0 : ta ≤ t) (h1 : t ≤ tb) :
    ∃ p q, evaluate (double K) t c.m = .ok (some p) ∧ E3.evaluate t c = .ok (some q) ∧
      ∀ x M N, |A.position x| ≤ M → |B.position x| ≤ M → |A.velocity x| ≤ N → |B.velocity x| ≤ N →
        |p x - q x| ≤ (M + N * (tb - ta)) / 2 ^ 45 := by
  obtain ⟨a, b, rfl, rfl, rfl, rfl, e1, e2, -, -⟩ :=
    near_of_segments (hr.WF hc).sorted hd ha hb hlt hno h0 h1
  refine ⟨_, _, e1, e2, fun x M N hA hB hA' hB' => ?_⟩
  have := interpolate_near precise_double (by positivity) (by norm_num) hlt h0 h1 hA hB hA' hB'
  refine this.trans (le_of_eq ?_)
  ring

/-- **C106**, velocities: the error is at most 2⁻⁴⁵ times the largest position divided by the distance of the
knots plus the largest velocity. -/
theorem C106_velocity [FloorRing K] {c : E3 K (Vec3 K)} (hr : Manager.Reachable c) (hc : c.w.calls + 1 < 2 ^ 64)
    (hd : ∀ n ∈ c.m.knots, Stored (double K) n) {ta tb : K} {A B : Knot (Vec3 K)} (ha : (ta, A) ∈ c.m.knots)
    (hb : (tb, B) ∈ c.m.knots) (hlt : ta < tb) (hno : ∀ s k, (s, k) ∈ c.m.knots → ¬(ta < s ∧ s < tb)) {t : K}
    (h0 : ta ≤ t) (h1 : t ≤ tb) :
    ∃ p q, evaluateVelocity (double K) t c.m = .ok (some p) ∧ E3.evaluateDerivative t 1 c = .ok (some q) ∧
      ∀ x M N, |A.position x| ≤ M → |B.position x| ≤ M → |A.velocity x| ≤ N → |B.velocity x| ≤ N →
        |p x - q x| ≤ (M / (tb - ta) + N) / 2 ^ 45 := by
  obtain ⟨a, b, rfl, rfl, rfl, rfl, -, -, e1, e2⟩ :=
    near_of_segments (hr.WF hc).sorted hd ha hb hlt hno h0 h1
  refine ⟨_, _, e1, e2, fun x M N hA hB hA' hB' => ?_⟩
  have := velocity_near precise_double (by positivity) (by norm_num) hlt h0 h1 hA hB hA' hB'
  refine this.trans (le_of_eq ?_)
  ring

end

/-- Hypotheses of `C106_position` and `C106_velocity` met: the curve `demo` at time 1/3. -/
example : ∃ p q, evaluate (double ℚ) (1 / 3) demo.m = .ok (some p) ∧
    Hermite.E3.evaluate (1 / 3) demo = .ok (some q) ∧ |p 0 - q 0| ≤ (1 + 1 * (1 / 2 - 0)) / 2 ^ 45 := by
  have h : ∀ n ∈ demo.m.knots, Stored (double ℚ) n := by
    intro n hn
    have : n = (0, ⟨fun _ => toDouble (1 / 10), fun _ => 1⟩) ∨ n = (1 / 2, ⟨fun _ => toDouble (1 / 5), fun _ => 0⟩) := by
      simpa [demo, Manager.Mgr.knots] using hn
    rcases this with rfl | rfl
    · exact ⟨rnd_zero _, fun _ => (double ℚ).idem (1 / 10), fun _ => rnd_one _⟩
    · refine ⟨?_, fun _ => (double ℚ).idem (1 / 5), fun _ => rnd_zero _⟩
      change toDouble (1 / 2 : ℚ) = 1 / 2
      decide +kernel
  obtain ⟨p, q, e1, e2, hpq⟩ := C106_position demo_reachable (by decide) h (ta := 0) (tb := 1 / 2)
    (A := ⟨fun _ => toDouble (1 / 10), fun _ => 1⟩) (B := ⟨fun _ => toDouble (1 / 5), fun _ => 0⟩)
    (by simp [demo, Manager.Mgr.knots]) (by simp [demo, Manager.Mgr.knots]) (by norm_num)
    (by
      intro s k hk hs
      have : s = 0 ∨ s = 1 / 2 := by
        have : (s, k) = (0, ⟨fun _ => toDouble (1 / 10), fun _ => 1⟩) ∨
            (s, k) = (1 / 2, ⟨fun _ => toDouble (1 / 5), fun _ => 0⟩) := by
          simpa [demo, Manager.Mgr.knots] using hk
        exact this.imp (congrArg Prod.fst) (congrArg Prod.fst)
      rcases this with rfl | rfl
      · exact lt_irrefl _ hs.1
      · exact lt_irrefl _ hs.2)
    (t := 1 / 3) (by norm_num) (by norm_num)
  have k1 : |toDouble (1 / 10 : ℚ)| ≤ 1 := by decide +kernel
  have k2 : |toDouble (1 / 5 : ℚ)| ≤ 1 := by decide +kernel
  exact ⟨p, q, e1, e2, hpq 0 1 1 k1 k2 (by norm_num) (by norm_num)⟩

/-- **C106**: the error of a velocity is not small compared with the velocity. From 2⁵³ to 2⁵³ + 2 in one second, with
velocity 0 at both ends: after a quarter of a second the velocity is 9/4, and the computed one is 2. -/
theorem C106_refuted :
    interpolateVelocity (double ℚ) ⟨0, 0, 0, ⟨fun _ => 2 ^ 53, fun _ => 0⟩⟩ ⟨1, 1, 1, ⟨fun _ => 2 ^ 53 + 2, fun _ => 0⟩⟩
      (1 / 4) 0 = 2 ∧
    Hermite.E3.interpolateVelocity (⟨0, 0, 0, ⟨fun _ => 2 ^ 53, fun _ => 0⟩⟩ : Manager.Node ℚ (Hermite.Knot (Vec3 ℚ)))
      ⟨1, 1, 1, ⟨fun _ => 2 ^ 53 + 2, fun _ => 0⟩⟩ (1 / 4) 0 = 9 / 4 := by
  constructor
  · decide +kernel
  · rw [← link_interpolateVelocity]
    simp only [interpolateVelocity, alpha, exact]
    norm_num

end Verif.Rounding

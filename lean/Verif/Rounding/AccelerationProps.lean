import Verif.Rounding.AccelerationModel
import Verif.Rounding.ErrorProps

/-!
# Property C158: how exact the acceleration of the Hermite position curve is in `double`
-/

set_option linter.unusedSectionVars false
set_option linter.dupNamespace false

namespace Verif.Rounding

section
variable {K : Type} [Field K] [LinearOrder K] [IsStrictOrderedRing K] {R : Rounding K} {u : K}

open Verif.Manager Verif.Hermite

/-- With exact arithmetic the formulas are those of the exact model. -/
theorem link_interpolateAcceleration (a b : Node K (Knot (Vec3 K))) (t : K) :
    interpolateAcceleration (exact K) a b t = E3.interpolateAcceleration a b t := by
  funext x
  simp only [interpolateAcceleration, E3.interpolateAcceleration, alpha, exact, Pi.add_apply, Pi.smul_apply, smul_eq_mul]
  ring

theorem link_evaluateAcceleration (t : K) (c : E3 K (Vec3 K)) :
    evaluateAcceleration (exact K) t c.m = E3.evaluateDerivative t 2 c := by
  rw [E3.evaluateDerivative, if_neg (by decide), if_pos rfl]
  rw [evaluateAcceleration, E3.evaluateLinearAcceleration]
  cases c.m.getCoefficientsAt t with
  | none => rfl
  | some p => simp only [link_interpolateAcceleration]

/-- The four factors before they are divided by the length of the segment. -/
theorem dgammas_near (hP : Precise R u) (hu : 0 ≤ u) (hu1 : u ≤ 1 / 2 ^ 20) {al α : K} (h0 : 0 ≤ α) (h1 : α ≤ 1)
    (h : |al - α| ≤ 4 * u) :
    |R.rnd (6 * R.rnd (R.rnd (2 * al) - 1)) - 6 * (2 * α - 1)| ≤ 85 * u ∧
    |R.rnd (R.rnd (6 * al) - 4) - (6 * α - 4)| ≤ 36 * u ∧
    |R.rnd (6 * R.rnd (1 - R.rnd (2 * al))) - 6 * (1 - 2 * α)| ≤ 85 * u ∧
    |R.rnd (R.rnd (6 * al) - 2) - (6 * α - 2)| ≤ 36 * u := by
  have hs := square_small hu hu1
  have c1 : |(1 : K) - 1| ≤ 0 := by simp
  have c2 : |(2 : K) - 2| ≤ 0 := by simp
  have c4 : |(4 : K) - 4| ≤ 0 := by simp
  have e2 : |R.rnd (2 * al) - 2 * α| ≤ 11 * u :=
    (rnd_near hP hu (const_near 2 (by norm_num) h) (abs_le_of (m := 2) (by linarith) (by linarith))).trans (by linarith)
  have e6 : |R.rnd (6 * al) - 6 * α| ≤ 31 * u :=
    (rnd_near hP hu (const_near 6 (by norm_num) h) (abs_le_of (m := 6) (by linarith) (by linarith))).trans (by linarith)
  have f0 : |R.rnd (R.rnd (2 * al) - 1) - (2 * α - 1)| ≤ 13 * u :=
    (rnd_near hP hu (sub_near e2 c1) (abs_le_of (m := 1) (by linarith) (by linarith))).trans (by linarith)
  have f2 : |R.rnd (1 - R.rnd (2 * al)) - (1 - 2 * α)| ≤ 13 * u :=
    (rnd_near hP hu (sub_near c1 e2) (abs_le_of (m := 1) (by linarith) (by linarith))).trans (by linarith)
  refine ⟨?_, ?_, ?_, ?_⟩
  · exact (rnd_near hP hu (const_near 6 (by norm_num) f0) (abs_le_of (m := 6) (by linarith) (by linarith))).trans
      (by linarith)
  · exact (rnd_near hP hu (sub_near e6 c4) (abs_le_of (m := 4) (by linarith) (by linarith))).trans (by linarith)
  · exact (rnd_near hP hu (const_near 6 (by norm_num) f2) (abs_le_of (m := 6) (by linarith) (by linarith))).trans
      (by linarith)
  · exact (rnd_near hP hu (sub_near e6 c2) (abs_le_of (m := 4) (by linarith) (by linarith))).trans (by linarith)

/-- One factor times the reciprocal of the length. -/
theorem over_near (hP : Precise R u) (hu : 0 ≤ u) (hu1 : u ≤ 1 / 2 ^ 20) {I I' : K} (hI : 0 < I)
    (hi : |I' - I| ≤ 3 * u * I) {B q : K} (e m : ℕ) (hB : |B - q| ≤ e * u) (hq : |q| ≤ m) :
    |R.rnd (B * I') - q * I| ≤ (e + 4 * m + (4 * e + 3 * m) / 2 ^ 20 + 3 * e / 2 ^ 40) * u * I ∧ |q * I| ≤ m * I := by
  have hs := square_small hu hu1
  have hII : |I| ≤ I := (abs_of_pos hI).le
  have n0 : |q * I| ≤ m * I := by rw [abs_mul, abs_of_pos hI]; exact mul_le_mul_of_nonneg_right hq hI.le
  refine ⟨(rnd_near hP hu (mul_near hB hi hq hII) n0).trans ?_, n0⟩
  have uI := mul_nonneg hu hI.le
  have s1 := mul_le_mul_of_nonneg_right hs hI.le
  have s2 := mul_le_mul_of_nonneg_left s1 hu
  have s3 := mul_le_mul_of_nonneg_left s1 (Nat.cast_nonneg (α := K) e)
  have s4 := mul_le_mul_of_nonneg_left s1 (Nat.cast_nonneg (α := K) m)
  have s5 := mul_le_mul_of_nonneg_left s2 (Nat.cast_nonneg (α := K) e)
  norm_num at *
  nlinarith

/-- The sum of an acceleration. -/
theorem asum_near (hP : Precise R u) (hu : 0 ≤ u) (hu1 : u ≤ 1 / 2 ^ 20) {pa pb va vb M N I I' : K}
    (hpa : |pa| ≤ M) (hpb : |pb| ≤ M) (hva : |va| ≤ N) (hvb : |vb| ≤ N) (hI : 0 < I) (hi : |I' - I| ≤ 3 * u * I)
    {B0 B1 B2 B3 q0 q1 q2 q3 : K} (g0 : |B0 - q0| ≤ 85 * u) (g1 : |B1 - q1| ≤ 36 * u) (g2 : |B2 - q2| ≤ 85 * u)
    (g3 : |B3 - q3| ≤ 36 * u) (c0 : |q0| ≤ 6) (c1 : |q1| ≤ 4) (c2 : |q2| ≤ 6) (c3 : |q3| ≤ 4) :
    |R.rnd (R.rnd (R.rnd (R.rnd (R.rnd (pa * R.rnd (B0 * I')) * I') + R.rnd (va * R.rnd (B1 * I'))) +
      R.rnd (R.rnd (pb * R.rnd (B2 * I')) * I')) + R.rnd (vb * R.rnd (B3 * I'))) -
      (pa * (q0 * I) * I + va * (q1 * I) + pb * (q2 * I) * I + vb * (q3 * I))| ≤
      512 * u * (M * I * I + N * I) := by
  have hs := square_small hu hu1
  have hM : 0 ≤ M := (abs_nonneg _).trans hpa
  have hN : 0 ≤ N := (abs_nonneg _).trans hva
  have hMI : 0 ≤ M * I := mul_nonneg hM hI.le
  have hMII : 0 ≤ M * I * I := mul_nonneg hMI hI.le
  have hNI : 0 ≤ N * I := mul_nonneg hN hI.le
  have hII : |I| ≤ I := (abs_of_pos hI).le
  have uI := mul_nonneg hu hI.le
  have uMI := mul_nonneg hu hMI
  have uMII := mul_nonneg hu hMII
  have uNI := mul_nonneg hu hNI
  have sMI := mul_le_mul_of_nonneg_right hs hMI
  have sNI := mul_le_mul_of_nonneg_right hs hNI
  have sMII := mul_le_mul_of_nonneg_right hs hMII
  have ssMII := mul_le_mul_of_nonneg_left sMII hu
  obtain ⟨d0, n0⟩ := over_near hP hu hu1 hI hi 85 6 (by exact_mod_cast g0) (by exact_mod_cast c0)
  obtain ⟨d1, n1⟩ := over_near hP hu hu1 hI hi 36 4 (by exact_mod_cast g1) (by exact_mod_cast c1)
  obtain ⟨d2, n2⟩ := over_near hP hu hu1 hI hi 85 6 (by exact_mod_cast g2) (by exact_mod_cast c2)
  obtain ⟨d3, n3⟩ := over_near hP hu hu1 hI hi 36 4 (by exact_mod_cast g3) (by exact_mod_cast c3)
  replace d0 := d0.trans (show _ ≤ 110 * u * I by norm_num; linarith)
  replace d1 := d1.trans (show _ ≤ 53 * u * I by norm_num; linarith)
  replace d2 := d2.trans (show _ ≤ 110 * u * I by norm_num; linarith)
  replace d3 := d3.trans (show _ ≤ 53 * u * I by norm_num; linarith)
  push_cast at n0 n1 n2 n3
  have p0 : |R.rnd (pa * R.rnd (B0 * I')) - pa * (q0 * I)| ≤ 117 * u * (M * I) :=
    (scale_near hP hu hpa d0 n0).trans (by linarith)
  have p2 : |R.rnd (pb * R.rnd (B2 * I')) - pb * (q2 * I)| ≤ 117 * u * (M * I) :=
    (scale_near hP hu hpb d2 n2).trans (by linarith)
  have v1 : |R.rnd (va * R.rnd (B1 * I')) - va * (q1 * I)| ≤ 58 * u * (N * I) :=
    (scale_near hP hu hva d1 n1).trans (by linarith)
  have v3 : |R.rnd (vb * R.rnd (B3 * I')) - vb * (q3 * I)| ≤ 58 * u * (N * I) :=
    (scale_near hP hu hvb d3 n3).trans (by linarith)
  have mp0 : |pa * (q0 * I)| ≤ 6 * (M * I) := by
    rw [abs_mul]; exact (mul_le_mul hpa n0 (abs_nonneg _) hM).trans (by linarith)
  have mp2 : |pb * (q2 * I)| ≤ 6 * (M * I) := by
    rw [abs_mul]; exact (mul_le_mul hpb n2 (abs_nonneg _) hM).trans (by linarith)
  have mv1 : |va * (q1 * I)| ≤ 4 * (N * I) := by
    rw [abs_mul]; exact (mul_le_mul hva n1 (abs_nonneg _) hN).trans (by linarith)
  have mv3 : |vb * (q3 * I)| ≤ 4 * (N * I) := by
    rw [abs_mul]; exact (mul_le_mul hvb n3 (abs_nonneg _) hN).trans (by linarith)
  have mr0 : |pa * (q0 * I) * I| ≤ 6 * (M * I * I) := by
    rw [abs_mul, abs_of_pos hI]; exact (mul_le_mul_of_nonneg_right mp0 hI.le).trans (by linarith)
  have mr2 : |pb * (q2 * I) * I| ≤ 6 * (M * I * I) := by
    rw [abs_mul, abs_of_pos hI]; exact (mul_le_mul_of_nonneg_right mp2 hI.le).trans (by linarith)
  have r0 : |R.rnd (R.rnd (pa * R.rnd (B0 * I')) * I') - pa * (q0 * I) * I| ≤ 142 * u * (M * I * I) :=
    (rnd_near hP hu (mul_near p0 hi mp0 hII) mr0).trans (by linarith)
  have r2 : |R.rnd (R.rnd (pb * R.rnd (B2 * I')) * I') - pb * (q2 * I) * I| ≤ 142 * u * (M * I * I) :=
    (rnd_near hP hu (mul_near p2 hi mp2 hII) mr2).trans (by linarith)
  generalize pa * (q0 * I) * I = x0 at *
  generalize va * (q1 * I) = x1 at *
  generalize pb * (q2 * I) * I = x2 at *
  generalize vb * (q3 * I) = x3 at *
  generalize M * I * I = P at *
  generalize N * I = Q at *
  have m1 : |x0 + x1| ≤ 6 * P + 4 * Q := (abs_add_le _ _).trans (by linarith)
  have s1 := (rnd_near hP hu (add_near r0 v1) m1).trans (show _ ≤ 150 * u * P + 64 * u * Q by linarith)
  have m2 : |x0 + x1 + x2| ≤ 12 * P + 4 * Q := (abs_add_le _ _).trans (by linarith)
  have s2 := (rnd_near hP hu (add_near s1 r2) m2).trans (show _ ≤ 306 * u * P + 70 * u * Q by linarith)
  refine (rnd_near hP hu (m := 12 * P + 8 * Q) (add_near s2 v3) ((abs_add_le _ _).trans (by linarith))).trans ?_
  linarith

/-- The acceleration on one segment, one coordinate. -/
theorem acceleration_near (hP : Precise R u) (hu : 0 ≤ u) (hu1 : u ≤ 1 / 2 ^ 20) {a b : Node K (Knot (Vec3 K))} {t : K}
    (hab : a.time < b.time) (h0 : a.time ≤ t) (h1 : t ≤ b.time) {x : Fin 3} {M N : K}
    (hpa : |a.coef.position x| ≤ M) (hpb : |b.coef.position x| ≤ M) (hva : |a.coef.velocity x| ≤ N)
    (hvb : |b.coef.velocity x| ≤ N) :
    |interpolateAcceleration R a b t x - E3.interpolateAcceleration a b t x| ≤
      512 * u * (M / (b.time - a.time) ^ 2 + N / (b.time - a.time)) := by
  have hD : 0 < b.time - a.time := sub_pos.2 hab
  have al := alpha_near hP hu hu1 hab h0 h1
  have a0 : 0 ≤ (t - a.time) / (b.time - a.time) := div_nonneg (by linarith) hD.le
  have a1 : (t - a.time) / (b.time - a.time) ≤ 1 := by rw [div_le_one hD]; linarith
  obtain ⟨g0, g1, g2, g3⟩ := dgammas_near hP hu hu1 a0 a1 al
  have hi := recip_near hP hu hu1 hD
  rw [← link_interpolateAcceleration]
  simp only [interpolateAcceleration, alpha, exact] at *
  rw [show M / (b.time - a.time) ^ 2 + N / (b.time - a.time) =
    M * (1 / (b.time - a.time)) * (1 / (b.time - a.time)) + N * (1 / (b.time - a.time)) by field_simp]
  generalize (t - a.time) / (b.time - a.time) = α at *
  refine asum_near hP hu hu1 hpa hpb hva hvb (one_div_pos.2 hD) hi g0 g1 g2 g3 ?_ ?_ ?_ ?_ <;>
    exact abs_le_of (by linarith) (by linarith)

/-- **C158.** Take a curve whose numbers are `double`s, two neighbouring knots and a time from the first of them on, before
the second. The acceleration computed in `double` arithmetic differs from the true one in no coordinate by more than 2⁻⁴⁴
times the largest position divided by the square of the distance of the knots plus the largest velocity divided by their
distance. How large the times are does not matter. -/
theorem C158_acceleration [FloorRing K] {c : E3 K (Vec3 K)} (hr : Manager.Reachable c) (hc : c.w.calls + 1 < 2 ^ 64)
    {ta tb : K} {A B : Knot (Vec3 K)} (ha : (ta, A) ∈ c.m.knots)
    (hb : (tb, B) ∈ c.m.knots) (hlt : ta < tb) (hno : ∀ s k, (s, k) ∈ c.m.knots → ¬(ta < s ∧ s < tb)) {t : K}
    (h0 : ta ≤ t) (h1 : t < tb) :
    ∃ p q, evaluateAcceleration (double K) t c.m = .ok (some p) ∧ E3.evaluateDerivative t 2 c = .ok (some q) ∧
      ∀ x M N, |A.position x| ≤ M → |B.position x| ≤ M → |A.velocity x| ≤ N → |B.velocity x| ≤ N →
        |p x - q x| ≤ (M / (tb - ta) ^ 2 + N / (tb - ta)) / 2 ^ 44 := by
  have hs := (hr.WF hc).sorted
  obtain ⟨pre, a, b, post, hm, rfl, rfl, rfl, rfl⟩ := exists_segment hs ha hb hlt hno
  refine ⟨interpolateAcceleration (double K) a b t, E3.interpolateAcceleration a b t, ?_, ?_, fun x M N hA hB hA' hB' => ?_⟩
  · rw [evaluateAcceleration, getAt_interior hs hm h0 h1]
  · exact E3.acceleration_between hs hm h0 h1
  · refine (acceleration_near precise_double (by positivity) (by norm_num) hlt h0 h1.le hA hB hA' hB').trans (le_of_eq ?_)
    ring

end

/-- Hypotheses of `C158_acceleration` met: the curve `demo` at time 1/3. -/
example : ∃ p q, evaluateAcceleration (double ℚ) (1 / 3) demo.m = .ok (some p) ∧
    Hermite.E3.evaluateDerivative (1 / 3) 2 demo = .ok (some q) ∧
    |p 0 - q 0| ≤ (1 / (1 / 2 - 0) ^ 2 + 1 / (1 / 2 - 0)) / 2 ^ 44 := by
  obtain ⟨p, q, e1, e2, hpq⟩ := C158_acceleration demo_reachable (by decide) (ta := 0) (tb := 1 / 2)
    (A := ⟨fun _ => toDouble (1 / 10), fun _ => 1⟩) (B := ⟨fun _ => toDouble (1 / 5), fun _ => 0⟩)
    (by simp [demo, Manager.Mgr.knots]) (by simp [demo, Manager.Mgr.knots]) (by norm_num)
    (by
      intro s k hk hs
      have : s = 0 ∨ s = 1 / 2 := by
        have : (s, k) = (0, ⟨fun _ => toDouble (1 / 10), fun _ => 1⟩) ∨
            (s, k) = (1 / 2, ⟨fun _ => toDouble (1 / 5), fun _ => 0⟩) := by
          simpa [demo, Manager.Mgr.knots] using hk
        exact this.imp (congrArg Prod.fst) (congrArg Prod.fst)
      rcases this with rfl | rfl
      · exact lt_irrefl _ hs.1
      · exact lt_irrefl _ hs.2)
    (t := 1 / 3) (by norm_num) (by norm_num)
  have k1 : |toDouble (1 / 10 : ℚ)| ≤ 1 := by decide +kernel
  have k2 : |toDouble (1 / 5 : ℚ)| ≤ 1 := by decide +kernel
  exact ⟨p, q, e1, e2, hpq 0 1 1 k1 k2 (by norm_num) (by norm_num)⟩

/-- A motion with constant velocity 1 for two seconds, far from the origin: from 2⁵³ to 2⁵³ + 2. -/
def uniform : Manager.St ℚ (Hermite.Knot (Vec3 ℚ)) :=
  ⟨⟨2, 2⟩, ⟨[⟨0, 0, 1, ⟨fun _ => 2 ^ 53, fun _ => 1⟩⟩, ⟨1, 2, 2, ⟨fun _ => 2 ^ 53 + 2, fun _ => 1⟩⟩], [(1, 0), (2, 1)]⟩⟩

open Verif.Manager in
theorem uniform_reachable : Manager.Reachable uniform := by
  refine ⟨⟨0, 0⟩, [.insert 0 ⟨fun _ => 2 ^ 53, fun _ => 1⟩, .insert 2 ⟨fun _ => 2 ^ 53 + 2, fun _ => 1⟩],
    by simp [SafeRun, SafeOp], ?_⟩
  simp [Manager.run, Manager.step, Mgr.insertCoefficient, Mgr.empty, scanAtTime, getNextKey, newAddr, mapInsert,
    kmSet, uniform]
  norm_num

/-- **C158**: the error is not small compared with the acceleration. On the curve `uniform`, where the acceleration is 0
everywhere, the computed one is -5/8 after a quarter of a second and 3/4 after half a second. -/
theorem C158_refuted :
    (∃ p, evaluateAcceleration (double ℚ) (1 / 4) uniform.m = .ok (some p) ∧ p 0 = -5 / 8) ∧
    (∃ p, evaluateAcceleration (double ℚ) (1 / 2) uniform.m = .ok (some p) ∧ p 0 = 3 / 4) ∧
    ∀ t, 0 ≤ t → t < 2 → Hermite.E3.evaluateDerivative t 2 uniform = .ok (some 0) := by
  have hs := (uniform_reachable.WF (by decide)).sorted
  have key : ∀ t, 0 ≤ t → t < 2 → evaluateAcceleration (double ℚ) t uniform.m = .ok (some (interpolateAcceleration (double ℚ)
      ⟨0, 0, 1, ⟨fun _ => 2 ^ 53, fun _ => 1⟩⟩ ⟨1, 2, 2, ⟨fun _ => 2 ^ 53 + 2, fun _ => 1⟩⟩ t)) := fun t h0 h1 => by
    rw [evaluateAcceleration, Manager.getAt_interior hs (pre := []) (post := []) rfl h0 h1]
  refine ⟨⟨_, key _ (by norm_num) (by norm_num), ?_⟩, ⟨_, key _ (by norm_num) (by norm_num), ?_⟩, fun t h0 h1 => ?_⟩
  · decide +kernel
  · decide +kernel
  · refine (Hermite.E3.acceleration_between (c := uniform) hs (pre := []) (post := []) rfl h0 h1).trans ?_
    rw [Hermite.E3.linear_acceleration (p := fun _ => 2 ^ 53) (q := fun _ => 1) (by norm_num)]
    · simp
    · simp only [Hermite.Knot.mk.injEq, and_true]
      funext x
      simp

end Verif.Rounding

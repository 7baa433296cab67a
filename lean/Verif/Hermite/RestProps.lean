import Verif.Hermite.LocalProps
import Verif.Hermite.TurnLemmas
import Verif.Hermite.SE3EquivProps

/-!
# Property C165: from one point to another

`fitCurve` of two points: from rest at the first to rest at the second. This is what the tests `Overflow`, `minMax`
(PolynomialSplineQuinticScalarCurveTest.cpp), `IdentityPoses`, `TranslationOnly` and `FreeGaitTorsoControl`
(CubicHermiteSE3CurveTest.cpp) try at a few times.
-/

set_option linter.unusedSectionVars false
set_option linter.dupNamespace false

namespace Verif.Hermite

open Verif.Manager Verif.Kindr

/-- Specification: the part of the way covered after the part `x` of the time, cubic. -/
def ease {K : Type} [Field K] (x : K) : K := 3 * x ^ 2 - 2 * x ^ 3

section order
variable {K : Type} [Field K] [LinearOrder K] [IsStrictOrderedRing K]

/-- **C165**, the cubic way: it starts at 0, ends at 1, is half done at half time, and always moves forward. -/
theorem C165_ease : ease (0 : K) = 0 ∧ ease (1 : K) = 1 ∧ (∀ x : K, ease (1 - x) = 1 - ease x) ∧
    (∀ x y : K, 0 ≤ x → x < y → y ≤ 1 → ease x < ease y) ∧ ∀ x : K, 0 ≤ x → x ≤ 1 → 0 ≤ ease x ∧ ease x ≤ 1 := by
  have hm : ∀ x y : K, 0 ≤ x → x < y → y ≤ 1 → ease x < ease y := by
    intro x y h0 h h1
    have : ease y - ease x = (y - x) * (3 * x * (1 - x) + 3 * y * (1 - y) + (y - x) ^ 2) := by
      simp only [ease]; ring
    have h2 : 0 < (y - x) * (3 * x * (1 - x) + 3 * y * (1 - y) + (y - x) ^ 2) := by
      have a : 0 < y - x := by linarith
      have b : 0 ≤ x * (1 - x) := mul_nonneg h0 (by linarith)
      have c : 0 ≤ y * (1 - y) := mul_nonneg (by linarith) (by linarith)
      have d : 0 < (y - x) ^ 2 := by positivity
      exact mul_pos a (by linarith)
    linarith
  have e0 : ease (0 : K) = 0 := by simp [ease]
  have e1 : ease (1 : K) = 1 := by simp [ease]; norm_num
  refine ⟨e0, e1, fun x => by simp only [ease]; ring, hm, fun x h0 h1 => ⟨?_, ?_⟩⟩
  · rcases h0.lt_or_eq with h | rfl
    · rw [← e0]; exact (hm 0 x le_rfl h h1).le
    · rw [e0]
  · rcases h1.lt_or_eq with h | rfl
    · rw [← e1]; exact (hm x 1 h0 h le_rfl).le
    · rw [e1]

end order

namespace E3

variable {K V : Type} [Field K] [LinearOrder K] [IsStrictOrderedRing K] [AddCommGroup V] [Module K V]

/-- **C165**, `CubicHermiteE3Curve`: the curve fitted to two points goes straight from one to the other, along the cubic
way; velocity and acceleration are along the line too. -/
theorem C165_between (debug : Bool) {t0 t1 : K} (h : t0 < t1) (p q : V) (w : World) :
    ∃ c ks, fitCurve debug [t0, t1] [p, q] (fresh w) = .ok (c, ks) ∧ ∀ t x, t0 ≤ t → t ≤ t1 →
      x = (t - t0) / (t1 - t0) → evaluate t c = .ok (some (p + ease x • (q - p))) ∧
        evaluateDerivative t 1 c = .ok (some ((6 * x * (1 - x) / (t1 - t0)) • (q - p))) ∧
        (t < t1 → evaluateDerivative t 2 c = .ok (some ((6 * (1 - 2 * x) / (t1 - t0) ^ 2) • (q - p)))) := by
  obtain ⟨c, ks, cs, e, f, l, s, n⟩ := fit_fresh debug (ts := [t0, t1]) (vs := [p, q]) (by simp) (by simpa using h) 0 0 w
  refine ⟨c, ks, e, fun t x h0 h1 hx => ?_⟩
  obtain ⟨pre, a, b, post, hm, ta, tb, ca, cb⟩ := fit_segment n l (i := 0) (by simp)
  have hcs : cs = [⟨p, 0⟩, ⟨q, 0⟩] := by
    simp [fitLoop, knotDerivative] at f
    exact f.symm
  subst hcs
  simp at ca cb ta tb
  have hne : t1 - t0 ≠ 0 := (sub_pos.2 h).ne'
  refine ⟨?_, ?_, fun h2 => ?_⟩
  · rw [evaluate_between s hm (by rw [ta]; exact h0) (by rw [tb]; exact h1)]
    simp only [interpolate, ← ca, ← cb, ta, tb, ← hx, ease]
    congr 2
    match_scalars <;> ring
  · rw [velocity_between s hm (by rw [ta]; exact h0) (by rw [tb]; exact h1)]
    simp only [interpolateVelocity, ← ca, ← cb, ta, tb, ← hx]
    congr 2
    match_scalars <;> (field_simp; try ring)
  · rw [acceleration_eq, acceleration_between s hm (by rw [ta]; exact h0) (by rw [tb]; exact h2)]
    simp only [interpolateAcceleration, ← ca, ← cb, ta, tb, ← hx]
    congr 2
    match_scalars <;> (field_simp; try ring)

/-- An instance: from 2 to 10 in four seconds; a quarter of the time is 5/32 of the way. -/
example : ∃ c ks, fitCurve true [1, 5] [2, 10] (fresh ⟨0, 0⟩ : E3 ℚ ℚ) = .ok (c, ks) ∧
    evaluate 2 c = .ok (some (13 / 4)) ∧ evaluateDerivative 3 1 c = .ok (some 3) := by
  obtain ⟨c, ks, e, h⟩ := C165_between (K := ℚ) (V := ℚ) true (t0 := 1) (t1 := 5) (by norm_num) 2 10 ⟨0, 0⟩
  refine ⟨c, ks, e, ?_, ?_⟩
  · rw [(h 2 _ (by norm_num) (by norm_num) rfl).1]; norm_num [ease]
  · rw [(h 3 _ (by norm_num) (by norm_num) rfl).2.1]; norm_num

end E3

namespace SE3

open E3 (fit_segment)

/-- **C165**, `CubicHermiteSE3Curve`, whatever the curve held before: the position goes straight from one to the other
along the cubic way, and so does the attitude: it turns about one axis, the part of the logarithm given by the same cubic,
at a speed along this axis. -/
theorem C165_between (L : LogMap) {t0 t1 : ℝ} (h : t0 < t1) (A B : Pose) (hA : IsUnit' A.rotation) (c : SE3) :
    ∃ c' ks, fitCurve L [t0, t1] [A, B] c = .ok (c', ks) ∧ ∀ t x, t0 ≤ t → t ≤ t1 → x = (t - t0) / (t1 - t0) →
      evaluate L t c' = .ok (some ⟨A.position + ease x • (B.position - A.position),
        A.rotation * exponentialMap (ease x • L.log (inverted A.rotation * B.rotation))⟩) ∧
      evaluateDerivative L t 1 c' = .ok (some ⟨(6 * x * (1 - x) / (t1 - t0)) • (B.position - A.position),
        (6 * x * (1 - x) / (t1 - t0)) • rotate A.rotation (L.log (inverted A.rotation * B.rotation))⟩) := by
  obtain ⟨c', ks, cs, e, f, l, s, n⟩ := fit_increasing L (ts := [t0, t1]) (vs := [A, B]) (by simp) (by simpa using h)
    Twist.zero Twist.zero c
  refine ⟨c', ks, e, fun t x h0 h1 hx => ?_⟩
  have hcs : cs = [⟨A, Twist.zero⟩, ⟨B, Twist.zero⟩] := by
    simp [fitLoop, knotDerivative] at f
    exact f.symm
  subst hcs
  obtain ⟨a, b, hm, ta, tb, ca, cb⟩ : ∃ a b, c'.m.nodes = [a, b] ∧ a.time = t0 ∧ b.time = t1 ∧
      a.coef = ⟨A, Twist.zero⟩ ∧ b.coef = ⟨B, Twist.zero⟩ := by
    simp only [Mgr.knots, List.zip_cons_cons, List.zip_nil_right] at n
    obtain ⟨a, la, e1, e2, e3⟩ := List.map_eq_cons_iff.1 n
    obtain ⟨b, lb, e4, e5, e6⟩ := List.map_eq_cons_iff.1 e3
    rw [List.map_eq_nil_iff.1 e6] at e4
    rw [e4] at e1
    exact ⟨a, b, e1, congrArg Prod.fst e2, congrArg Prod.fst e5, congrArg Prod.snd e2, congrArg Prod.snd e5⟩
  have hne : t1 - t0 ≠ 0 := (sub_pos.2 h).ne'
  have hg : c'.m.getCoefficientsAt t = some (a, b) := by
    rcases getAt_between s (pre := []) (post := []) (t := t) hm (by rw [ta]; exact h0) (by rw [tb]; exact h1) with g | ⟨_, g, -⟩
    · exact g
    · simp at g
  have hns := not_single s (pre := []) (post := []) hm t
  have hw : controlVectors L a b = (0, L.log (inverted A.rotation * B.rotation), 0) := by
    have z : ∀ q : Quat, inverseRotate q (((b.time - a.time) / 3) • (0 : Vec3)) = 0 := by
      intro q
      rw [smul_zero, ← zero_smul ℝ (0 : Vec3), inverseRotate_smul, zero_smul]
      simp
    simp only [controlVectors, ca, cb, Twist.zero, z, neg_zero, exponentialMap_zero, one_mul, mul_one]
  set v := L.log (inverted A.rotation * B.rotation) with hv
  have hpos : interpolate L a b t = ⟨A.position + ease x • (B.position - A.position),
      A.rotation * exponentialMap (ease x • v)⟩ := by
    simp only [interpolate, hw, smul_zero, exponentialMap_zero, mul_one, ca, cb, ta, tb, ← hx, Twist.zero, add_zero]
    congr 1
    · simp only [ease]
      match_scalars <;> ring
    · congr 3
      simp only [ease]; ring
  constructor
  · rw [evaluate_eq, evalWith, if_neg hns, hg]
    simp only [hpos]
  · rw [evaluateDerivative_eq, evalWith, if_neg hns, hg]
    simp only
    congr 2
    apply Twist.ext'
    · simp only [interpolateTwist, interpolateDerivative, ca, cb, ta, tb, ← hx, Twist.zero, smul_zero, add_zero]
      match_scalars <;> (field_simp; try ring)
    · simp only [interpolateTwist, hpos]
      set E := exponentialMap (ease x • v) with hE
      have hd : (interpolateDerivative L a b t).2 =
          (6 * x * (1 - x) / (t1 - t0)) • (A.rotation * E * vec v) := by
        have z : quat 0 (0 : Vec3) = 0 := by
          have := vec_smul 0 (0 : Vec3)
          rwa [zero_smul, zero_smul] at this
        simp only [interpolateDerivative, hw, smul_zero, exponentialMap_zero, mul_one, ca, ta, tb, ← hx, z, mul_zero,
          zero_mul, zero_add, add_zero]
        have e1 : (3 * (x * x) - 2 * (x * x * x)) = ease x := by simp only [ease]; ring
        rw [e1, ← hE, show quat 0 ((6 * x * (1 - x)) • v) = (6 * x * (1 - x)) • vec v from vec_smul _ _]
        rw [mul_smul_comm, smul_smul]
        congr 1
        field_simp
      rw [hd]
      have hu : IsUnit' (A.rotation * E) := isUnit_mul hA (isUnit_exp _)
      have hcm : E * vec v = vec v * E := by
        have := exp_commutes (ease x) 1 v
        rwa [one_smul] at this
      apply vec_injective
      rw [vec_rotate, mul_smul_comm, inverted, ← mul_assoc, star_mul_self' hu, one_mul, ← vec_smul, imaginary_vec,
        vec_smul, vec_smul, vec_rotate, mul_smul_comm, smul_mul_assoc, star_mul]
      congr 1
      rw [mul_assoc, mul_assoc, ← mul_assoc E, hcm, mul_assoc (vec v), ← mul_assoc E, self_mul_star' (isUnit_exp _), one_mul,
        mul_assoc]

/-- **C165**, the attitude ends as asked for (the quaternion or its negative, the same attitude); and if both attitudes
are the same the curve keeps it all the time, with no angular velocity. -/
theorem C165_attitude (L : LogMap) {t0 t1 : ℝ} (h : t0 < t1) (A B : Pose) (hA : IsUnit' A.rotation)
    (hB : IsUnit' B.rotation) (c : SE3) :
    ∃ c' ks, fitCurve L [t0, t1] [A, B] c = .ok (c', ks) ∧
      (∃ q, evaluate L t1 c' = .ok (some ⟨B.position, q⟩) ∧ (q = B.rotation ∨ q = -B.rotation)) ∧
      (A.rotation = B.rotation → ∀ t, t0 ≤ t → t ≤ t1 → (∃ p, evaluate L t c' = .ok (some ⟨p, A.rotation⟩)) ∧
        ∃ v, evaluateDerivative L t 1 c' = .ok (some ⟨v, 0⟩)) := by
  obtain ⟨c', ks, e, g⟩ := C165_between L h A B hA c
  have hne : t1 - t0 ≠ 0 := (sub_pos.2 h).ne'
  refine ⟨c', ks, e, ?_, fun hq t h0 h1 => ?_⟩
  · have := (g t1 1 h.le le_rfl (div_self hne).symm).1
    have e1 : ease (1 : ℝ) = 1 := by norm_num [ease]
    rw [e1, one_smul, one_smul, add_sub_cancel] at this
    refine ⟨_, this, ?_⟩
    have hu : IsUnit' (inverted A.rotation * B.rotation) := isUnit_mul (isUnit_star hA) hB
    rcases L.exp_log _ hu with r | r
    · left
      rw [r, inverted, ← mul_assoc, self_mul_star' hA, one_mul]
    · right
      rw [r, inverted, mul_neg, ← mul_assoc, self_mul_star' hA, one_mul]
  · obtain ⟨a, b⟩ := g t _ h0 h1 rfl
    have hl : L.log (inverted A.rotation * B.rotation) = 0 := by
      rw [← hq, inverted, star_mul_self' hA, L.log_one]
    have hz : rotate A.rotation 0 = 0 := by
      have := rotate_smul A.rotation 0 0
      rwa [zero_smul, zero_smul] at this
    rw [hl, smul_zero, exponentialMap_zero, mul_one] at a
    rw [hl, hz, smul_zero] at b
    exact ⟨⟨_, a⟩, _, b⟩

/-- An instance: translation only, as in the test `TranslationOnly` - a fifth of the time is 0.104 of the way. -/
example : ∃ L : LogMap, ∀ c : SE3, ∃ c' ks, fitCurve L [0, 5] [⟨0, 1⟩, ⟨![1, 2, 3], 1⟩] c = .ok (c', ks) ∧
    ∃ q, evaluate L 1 c' = .ok (some ⟨![13 / 125, 26 / 125, 39 / 125], q⟩) := by
  obtain ⟨L⟩ := logMap_exists
  refine ⟨L, fun c => ?_⟩
  obtain ⟨c', ks, e, g⟩ := C165_between L (show (0 : ℝ) < 5 by norm_num) ⟨0, 1⟩ ⟨![1, 2, 3], 1⟩ (by simp [IsUnit']) c
  have h1 := (g 1 _ (by norm_num) (by norm_num) rfl).1
  have h2 : (0 : Vec3) + ease ((1 - 0) / (5 - 0) : ℝ) • (![1, 2, 3] - 0) = ![13 / 125, 26 / 125, 39 / 125] := by
    ext i; fin_cases i <;> norm_num [ease]
  simp only [h2] at h1
  exact ⟨c', ks, e, _, h1⟩

end SE3
end Verif.Hermite

import Verif.Discrete.GeodesicProps
import Verif.Discrete.Planar
import Mathlib.Analysis.SpecialFunctions.Trigonometric.Basic
import Mathlib.Analysis.SpecialFunctions.Complex.Circle

/-!
# The shape of a planar slerp curve (C144)
-/

set_option linter.unusedSectionVars false
set_option linter.dupNamespace false

namespace Verif.Discrete

open Verif.Manager Verif.Policy

/-- The turn from `A` to `B`, in `(-pi, pi]`. -/
noncomputable def turn (A B : Pose2) : ℝ := Complex.arg ((A.rot⁻¹ * B.rot : Circle) : ℂ)

theorem rel_rot (A B : Pose2) : (A⁻¹ * B).rot = A.rot⁻¹ * B.rot := rfl

theorem rel_pos (A B : Pose2) : (A⁻¹ * B).pos = ((A.rot⁻¹ : Circle) : ℂ) * (B.pos - A.pos) := by
  rw [Pose2.mul_def, Pose2.inv_def]
  simp only
  ring

/-- The way from `A` to `B`, a fraction `x` of it done. -/
theorem way_straight {A B : Pose2} (h : turn A B = 0) (x : ℝ) :
    A * Pose2.exp (x • Pose2.log (A⁻¹ * B)) = ⟨A.pos + x • (B.pos - A.pos), A.rot⟩ := by
  have h' : Complex.arg ((A⁻¹ * B).rot : ℂ) = 0 := h
  rw [Pose2.log, if_pos h', Pose2.exp, Pose2.mul_def, rel_pos]
  simp only [Prod.smul_mk, smul_zero, if_true, mul_one]
  ext
  · simp only [Complex.real_smul, Circle.coe_inv]
    have : (A.rot : ℂ) ≠ 0 := Circle.coe_ne_zero _
    field_simp
  · rfl

theorem way_turning {A B : Pose2} (h : turn A B ≠ 0) (x : ℝ) :
    A * Pose2.exp (x • Pose2.log (A⁻¹ * B)) =
      ⟨A.pos + (B.pos - A.pos) * ((((Circle.exp (x * turn A B) : Circle) : ℂ) - 1) /
        (((Circle.exp (turn A B) : Circle) : ℂ) - 1)), A.rot * Circle.exp (x * turn A B)⟩ := by
  have h' : Complex.arg ((A⁻¹ * B).rot : ℂ) ≠ 0 := h
  have h2 : (Pose2.log (A⁻¹ * B)).2 = turn A B := by rw [Pose2.log, if_neg h']; rfl
  have h3 : (Circle.exp (turn A B) : Circle) = (A⁻¹ * B).rot := Circle.exp_arg _
  have hne : ((A⁻¹ * B).rot : ℂ) - 1 ≠ 0 := by
    intro e
    exact h' (by rw [sub_eq_zero.1 e, Complex.arg_one])
  rw [Pose2.exp_smul (by rw [h2]; exact h), h2, h3, Pose2.mul_def]
  have h1 : (Pose2.log (A⁻¹ * B)).1 =
      (A⁻¹ * B).pos * (Complex.I * ((turn A B : ℝ) : ℂ)) / (((A⁻¹ * B).rot : ℂ) - 1) := by
    rw [Pose2.log, if_neg h']; rfl
  have ht : ((turn A B : ℝ) : ℂ) ≠ 0 := by exact_mod_cast h
  ext
  · simp only [h1, rel_pos, Circle.coe_inv]
    have : (A.rot : ℂ) ≠ 0 := Circle.coe_ne_zero _
    field_simp
  · rfl

theorem norm_circle_sub_one (x : ℝ) :
    ‖((Circle.exp x : Circle) : ℂ) - 1‖ = 2 * |Real.sin (x / 2)| := by
  rw [Circle.coe_exp, mul_comm, Complex.norm_exp_I_mul_ofReal_sub_one, Real.norm_eq_abs, abs_mul]
  norm_num

theorem turn_bounds (A B : Pose2) : |turn A B| ≤ Real.pi := Complex.abs_arg_le_pi _

theorem sin_half_mono {x y : ℝ} (h : |x| ≤ |y|) (hy : |y| ≤ Real.pi) :
    |Real.sin (x / 2)| ≤ |Real.sin (y / 2)| := by
  have key : ∀ z : ℝ, |z| ≤ Real.pi → |Real.sin (z / 2)| = Real.sin (|z| / 2) := by
    intro z hz
    have hpi := Real.pi_pos
    have h0 : 0 ≤ Real.sin (|z| / 2) :=
      Real.sin_nonneg_of_nonneg_of_le_pi (by positivity) (by linarith)
    rcases abs_choice z with e | e
    · rw [e] at h0 ⊢
      exact abs_of_nonneg h0
    · rw [e] at h0 ⊢
      rw [neg_div, Real.sin_neg] at h0 ⊢
      exact abs_of_nonpos (by linarith)
  rw [key x (h.trans hy), key y hy]
  have hpi := Real.pi_pos
  have h0 := abs_nonneg x
  exact Real.sin_le_sin_of_le_of_le_pi_div_two (by linarith) (by linarith) (by linarith)

/-- How far the way has led. -/
theorem way_range (A B : Pose2) {x y : ℝ} (h0 : 0 ≤ x) (hxy : x ≤ y) (h1 : y ≤ 1) :
    poseRange A (A * Pose2.exp (x • Pose2.log (A⁻¹ * B))) ≤
      poseRange A (A * Pose2.exp (y • Pose2.log (A⁻¹ * B))) := by
  by_cases h : turn A B = 0
  · rw [way_straight h, way_straight h]
    simp only [poseRange, add_sub_cancel_left, norm_smul, Real.norm_eq_abs, abs_of_nonneg h0,
      abs_of_nonneg (h0.trans hxy)]
    exact mul_le_mul_of_nonneg_right hxy (norm_nonneg _)
  · rw [way_turning h, way_turning h]
    simp only [poseRange, add_sub_cancel_left, norm_mul, norm_div, norm_circle_sub_one]
    refine mul_le_mul_of_nonneg_left (div_le_div_of_nonneg_right ?_ (by positivity)) (norm_nonneg _)
    have hb := turn_bounds A B
    have := sin_half_mono (x := x * turn A B) (y := y * turn A B) (by
      rw [abs_mul, abs_mul, abs_of_nonneg h0, abs_of_nonneg (h0.trans hxy)]
      exact mul_le_mul_of_nonneg_right hxy (abs_nonneg _)) (by
      rw [abs_mul, abs_of_nonneg (h0.trans hxy)]
      calc y * |turn A B| ≤ 1 * |turn A B| := mul_le_mul_of_nonneg_right h1 (abs_nonneg _)
        _ ≤ Real.pi := by rw [one_mul]; exact hb)
    linarith

theorem range_mul (X P Q : Pose2) : poseRange (X * P) (X * Q) = poseRange P Q := by
  simp only [poseRange, Pose2.mul_def]
  rw [add_sub_add_left_eq_sub, ← mul_sub, norm_mul, Circle.norm_coe, one_mul]

/-! ## C144 -/

/-- C144, the ranges. Ranges and distances are the same whatever frame the poses are given in; the range
from a pose to a point given in its frame is the length of the point; the range between poses is the
distance of their points, the length of the difference, and the range to the other's point. -/
theorem C144_ranges (X P Q : Pose2) (z : ℂ) :
    poseRange (X * P) (X * Q) = poseRange P Q ∧ poseRange P Q = poseRange Q P ∧
    transformFromCurve (P * Q) z = transformFromCurve P (transformFromCurve Q z) ∧
    pointRange P (transformFromCurve P z) = ‖z‖ ∧
    pointRange (X * P) (transformFromCurve X z) = pointRange P z ∧
    poseRange P Q = distanceBetweenPoints (pose2AsPoint2 P) (pose2AsPoint2 Q) ∧
    poseRange P Q = ‖pointsSubtraction (pose2AsPoint2 P) (pose2AsPoint2 Q)‖ ∧
    poseRange P Q = pointRange P (pose2AsPoint2 Q) := by
  have has : ∀ P : Pose2, pose2AsPoint2 P = P.pos := fun P => Complex.eta _
  have hsub : ∀ p q : ℂ, pointsSubtraction p q = p - q := fun p q => rfl
  refine ⟨range_mul X P Q, norm_sub_rev _ _, ?_, ?_, ?_, ?_, ?_, ?_⟩
  · simp only [transformFromCurve, Pose2.mul_def, Circle.coe_mul]
    ring
  · simp only [pointRange, transformFromCurve, add_sub_cancel_left, norm_mul, Circle.norm_coe, one_mul]
  · simp only [pointRange, transformFromCurve, Pose2.mul_def]
    rw [add_sub_add_left_eq_sub, ← mul_sub]
    simp only [norm_mul, Circle.norm_coe, one_mul]
  · rw [has, has]; rfl
  · rw [has, has, hsub]
    exact norm_sub_rev _ _
  · rw [has, pointRange, norm_mul, Circle.norm_coe, one_mul]
    rfl

section
variable {s : St ℝ Pose2} (hr : Reachable se2Maps .slerp s) (hc : s.w.calls + 1 < 2 ^ 64) {ta tb : ℝ}
  {A B : Pose2} (ha : (ta, A) ∈ s.c.knots) (hb : (tb, B) ∈ s.c.knots) (hab : ta < tb)
  (hno : ∀ x v, (x, v) ∈ s.c.knots → ¬(ta < x ∧ x < tb))
include hr hc ha hb hab hno

/-- C144, heading. Between two neighbouring knots the pose turns at a constant rate, by the smaller of the
two angles. -/
theorem C144_heading {t : ℝ} (h0 : ta ≤ t) (h1 : t ≤ tb) :
    ∃ p, evaluate se2Maps .slerp t s.c.mgr = .ok p ∧
      p.rot = A.rot * Circle.exp ((t - ta) / (tb - ta) * turn A B) ∧ |turn A B| ≤ Real.pi ∧
      B.rot = A.rot * Circle.exp (turn A B) := by
  refine ⟨_, C43_between se2Maps hr hc ha hb hab hno h0 h1, ?_, turn_bounds A B, ?_⟩
  · change (A * Pose2.exp (_ • Pose2.log (A⁻¹ * B))).rot = _
    by_cases h : turn A B = 0
    · rw [way_straight h, h]
      simp
    · rw [way_turning h]
  · rw [turn, Circle.exp_arg, mul_inv_cancel_left]

/-- C144, straight. If the two knots have the same heading, the pose keeps it and moves on the straight
line. -/
theorem C144_straight (hrot : A.rot = B.rot) {t : ℝ} (h0 : ta ≤ t) (h1 : t ≤ tb) :
    evaluate se2Maps .slerp t s.c.mgr =
      .ok ⟨A.pos + ((t - ta) / (tb - ta)) • (B.pos - A.pos), A.rot⟩ := by
  rw [C43_between se2Maps hr hc ha hb hab hno h0 h1]
  have h : turn A B = 0 := by simp [turn, hrot]
  exact congrArg _ (way_straight h _)

/-- C144, turning. If the headings differ, the pose turns about one point: there is a point of the plane
that has the same coordinates in the frame of the pose at all times between the two knots. -/
theorem C144_centre (hrot : A.rot ≠ B.rot) :
    ∃ q b : ℂ, ∀ t, ta ≤ t → t ≤ tb →
      ∃ p, evaluate se2Maps .slerp t s.c.mgr = .ok p ∧ transformFromCurve p b = q ∧
        pointRange p q = ‖b‖ := by
  have h : turn A B ≠ 0 := by
    intro e
    apply hrot
    have : Circle.exp (turn A B) = A.rot⁻¹ * B.rot := Circle.exp_arg _
    rw [e, Circle.exp_zero] at this
    exact (inv_mul_eq_one.1 this.symm)
  have hz : ((Circle.exp (turn A B) : Circle) : ℂ) - 1 ≠ 0 := by
    intro e
    apply hrot
    have e1 : Circle.exp (turn A B) = A.rot⁻¹ * B.rot := Circle.exp_arg _
    have e2 : (Circle.exp (turn A B) : Circle) = 1 := Circle.ext (sub_eq_zero.1 e)
    rw [e2] at e1
    exact (inv_mul_eq_one.1 e1.symm)
  set D : ℂ := ((Circle.exp (turn A B) : Circle) : ℂ) - 1 with hD
  refine ⟨A.pos - (B.pos - A.pos) / D, -(((A.rot⁻¹ : Circle) : ℂ) * ((B.pos - A.pos) / D)), fun t h0 h1 => ?_⟩
  have hev := C43_between se2Maps hr hc ha hb hab hno h0 h1
  have hway : A * se2Maps.exp (((t - ta) / (tb - ta)) • se2Maps.log (A⁻¹ * B)) = _ := way_turning h _
  rw [hway] at hev
  have htr : transformFromCurve ⟨A.pos + (B.pos - A.pos) *
      ((((Circle.exp ((t - ta) / (tb - ta) * turn A B) : Circle) : ℂ) - 1) / D),
      A.rot * Circle.exp ((t - ta) / (tb - ta) * turn A B)⟩
      (-(((A.rot⁻¹ : Circle) : ℂ) * ((B.pos - A.pos) / D))) = A.pos - (B.pos - A.pos) / D := by
    simp only [transformFromCurve, Circle.coe_mul, Circle.coe_inv]
    have : (A.rot : ℂ) ≠ 0 := Circle.coe_ne_zero _
    field_simp
    ring
  refine ⟨_, hev, htr, ?_⟩
  rw [← htr]
  exact (C144_ranges 1 _ 1 _).2.2.2.1

/-- C144, no detour. On the way from one knot to the next the range to the knot it started from only
grows, up to the range between the knots. -/
theorem C144_range_grows {t u : ℝ} (h0 : ta ≤ t) (htu : t ≤ u) (h1 : u ≤ tb) :
    ∃ p q, evaluate se2Maps .slerp t s.c.mgr = .ok p ∧ evaluate se2Maps .slerp u s.c.mgr = .ok q ∧
      poseRange A p ≤ poseRange A q ∧ poseRange A q ≤ poseRange A B := by
  have hd : 0 < tb - ta := sub_pos.2 hab
  refine ⟨_, _, C43_between se2Maps hr hc ha hb hab hno h0 (htu.trans h1),
    C43_between se2Maps hr hc ha hb hab hno (h0.trans htu) h1, ?_, ?_⟩
  · exact way_range A B (div_nonneg (by linarith) hd.le)
      (div_le_div_of_nonneg_right (by linarith) hd.le) ((div_le_one hd).2 (by linarith))
  · have := way_range A B (x := (u - ta) / (tb - ta)) (y := 1) (div_nonneg (by linarith) hd.le)
      ((div_le_one hd).2 (by linarith)) le_rfl
    rw [one_smul, Pose2.exp_log, mul_inv_cancel_left] at this
    exact this

/-- C144, even steps. Poses the same time apart, between the same two knots, are the same range apart. -/
theorem C144_even {t u t' u' : ℝ} (h0 : ta ≤ t) (h1 : t ≤ tb) (h2 : ta ≤ u) (h3 : u ≤ tb) (h0' : ta ≤ t')
    (h1' : t' ≤ tb) (h2' : ta ≤ u') (h3' : u' ≤ tb) (he : u - t = u' - t') :
    ∃ p q p' q', evaluate se2Maps .slerp t s.c.mgr = .ok p ∧ evaluate se2Maps .slerp u s.c.mgr = .ok q ∧
      evaluate se2Maps .slerp t' s.c.mgr = .ok p' ∧ evaluate se2Maps .slerp u' s.c.mgr = .ok q' ∧
      poseRange p q = poseRange p' q' := by
  obtain ⟨p, e1, e2⟩ := C121_steady se2_geodesic hr hc ha hb hab hno h0 h1 h2 h3
  obtain ⟨p', e1', e2'⟩ := C121_steady se2_geodesic hr hc ha hb hab hno h0' h1' h2' h3'
  refine ⟨p, _, p', _, e1, e2, e1', e2', ?_⟩
  rw [he]
  have := fun X : Pose2 => range_mul X 1 (se2Maps.exp (((u' - t') / (tb - ta)) • se2Maps.log (A⁻¹ * B)))
  have h := (this p).trans (this p').symm
  simpa only [mul_one] using h

end

/-! ### A quarter turn -/

/-- A curve from the origin, heading along the x axis, to the point `1 + i`, heading along the y axis. -/
noncomputable def quarter : St ℝ Pose2 :=
  ⟨⟨2, 2⟩, ⟨⟨[⟨0, 0, 1, ⟨0, 1⟩⟩, ⟨1, 1, 2, ⟨1 + Complex.I, Circle.exp (Real.pi / 2)⟩⟩], [(1, 0), (2, 1)]⟩,
    ⟨0, 1⟩⟩⟩

theorem quarter_reachable : Reachable se2Maps .slerp quarter := by
  refine ⟨⟨0, 0⟩, [.fit [0, 1] [⟨0, 1⟩, ⟨1 + Complex.I, Circle.exp (Real.pi / 2)⟩]],
    ⟨trivial, fun _ _ => trivial⟩, ?_⟩
  simp [run, step, Curve.fitCurve, Mgr.insertCoefficients, Mgr.insertLoop, Mgr.insertCoefficient, scanAtTime,
    mapInsert, kmSet, getNextKey, newAddr, quarter, Mgr.clear, Curve.clear, Pol.fresh, not_le.2 (zero_lt_one (α := ℝ)),
    not_lt.2 (zero_le_one (α := ℝ))]

theorem quarter_knots : quarter.c.knots =
    [(0, ⟨0, 1⟩), (1, ⟨1 + Complex.I, Circle.exp (Real.pi / 2)⟩)] := rfl

theorem quarter_turn : (⟨0, 1⟩ : Pose2).rot ≠ (⟨1 + Complex.I, Circle.exp (Real.pi / 2)⟩ : Pose2).rot := by
  intro h
  have := congrArg (fun z : Circle => (z : ℂ)) h
  simp [Circle.coe_exp, Complex.exp_pi_div_two_mul_I] at this
  exact absurd (congrArg Complex.re this) (by simp)

example : ∃ q b : ℂ, ∀ t : ℝ, 0 ≤ t → t ≤ 1 →
    ∃ p, evaluate se2Maps .slerp t quarter.c.mgr = .ok p ∧ transformFromCurve p b = q ∧
      pointRange p q = ‖b‖ :=
  C144_centre quarter_reachable (by simp [quarter]) (A := ⟨0, 1⟩)
    (B := ⟨1 + Complex.I, Circle.exp (Real.pi / 2)⟩) (by simp [quarter_knots])
    (by simp [quarter_knots]) (by norm_num)
    (by
      intro x v h
      simp only [quarter_knots, List.mem_cons, Prod.mk.injEq, List.not_mem_nil, or_false] at h
      rcases h with ⟨rfl, -⟩ | ⟨rfl, -⟩ <;> norm_num) quarter_turn

example (t u : ℝ) (h0 : 0 ≤ t) (htu : t ≤ u) (h1 : u ≤ 1) :=
  C144_range_grows quarter_reachable (by simp [quarter]) (A := ⟨0, 1⟩)
    (B := ⟨1 + Complex.I, Circle.exp (Real.pi / 2)⟩) (ta := 0) (tb := 1) (by simp [quarter_knots])
    (by simp [quarter_knots]) (by norm_num)
    (by
      intro x v h
      simp only [quarter_knots, List.mem_cons, Prod.mk.injEq, List.not_mem_nil, or_false] at h
      rcases h with ⟨rfl, -⟩ | ⟨rfl, -⟩ <;> norm_num) h0 htu h1

end Verif.Discrete

import Verif.Pose2.Charts

/-!
# Properties of the Jacobians of `Pose2_Expressions.hpp`: C76 and C77

gtsam moves a pose `T` by three small numbers `d` to `ch.retract T d`. The Jacobian of a function `f` of a
pose is the derivative of `d ↦ f (ch.retract T d)` at `0`, a matrix.
-/

set_option linter.unusedSectionVars false
set_option linter.dupNamespace false

namespace Verif.Pose2
open Real

/-- `J` is the Jacobian of `f` at `x`: the differential of `f` at `x` is multiplication by `J`. -/
def IsJacobian {m n : ℕ} (f : (Fin n → ℝ) → Fin m → ℝ) (J : Matrix (Fin m) (Fin n) ℝ) (x : Fin n → ℝ) :
    Prop :=
  HasFDerivAt f (LinearMap.toContinuousLinearMap (Matrix.toLin' J)) x

/-- A pose for the examples: the one reached with velocity `(1, 2)` while turning by `1` radian. -/
noncomputable def demo : SE2 := SE2.exp ![1, 2, 1]

theorem demo_valid : demo.Valid := by
  have h := sin_sq_add_cos_sq (1 : ℝ)
  simp [SE2.Valid, demo, SE2.exp]

theorem demo_angle (L : LogMap) : L.log demo 2 = 1 := by
  refine angle_eq demo_valid ?_ ?_ ?_ ?_
  · simp [demo, SE2.exp]
  · simp [demo, SE2.exp]
  · linarith [pi_pos]
  · linarith [two_le_pi]

/-! ## C76 -/

/-- **C76.** For every pose turned by less than a half turn, in both charts of gtsam (in every chart that is
the identity to first order): the Jacobian that `transformationLogImplementation` returns differs from the
derivative of the logarithm by at most `5e-12 + 3e-10 (|v0| + |v1|)` in every entry. -/
theorem C76_log_near (L : LogMap) (ch : Chart) (T : SE2) (hT : T.Valid) (hpi : L.log T 2 < π) :
    ∃ D, IsJacobian (fun d => L.log (ch.retract T d)) D 0 ∧
      ∀ i j, |logJacobian (L.log T) i j - D i j| ≤ 5e-12 + 3e-10 * (|L.log T 0| + |L.log T 1|) := by
  refine ⟨exactJacobian (L.log T), log_deriv ch hT (L.angle T hT).1 hpi, ?_⟩
  set v := L.log T
  have f2 : |function2 (v 2) - halfCot (v 2)| ≤ 5e-12 := by
    by_cases h : |v 2| > threshold2
    · rw [function2_exact _ (Or.inl h)]; norm_num
    · exact function2_near _ h
  have f1 : |function1 (v 2) - rest (v 2)| ≤ 3e-10 := by
    by_cases h : |v 2| > threshold1
    · rw [function1_exact _ (Or.inl h)]; norm_num
    · exact function1_near _ h
  have a0 := abs_nonneg (v 0)
  have a1 := abs_nonneg (v 1)
  have hB : (0 : ℝ) ≤ 5e-12 + 3e-10 * (|v 0| + |v 1|) := by norm_num; linarith
  have h2 : |function2 (v 2) - halfCot (v 2)| ≤ 5e-12 + 3e-10 * (|v 0| + |v 1|) := by
    norm_num at f2 ⊢; linarith
  have hc (x : ℝ) (hx : |x| ≤ |v 0| + |v 1|) :
      |x * function1 (v 2) - x * rest (v 2)| ≤ 5e-12 + 3e-10 * (|v 0| + |v 1|) := by
    rw [← mul_sub, abs_mul]
    have := mul_le_mul hx f1 (abs_nonneg _) (by linarith)
    norm_num at this ⊢; linarith
  intro i j
  fin_cases i <;> fin_cases j
  · simpa [logJacobian, exactJacobian] using h2
  · simpa [logJacobian, exactJacobian, show -(0.5 * v 2) + v 2 / 2 = 0 by ring] using hB
  · have := hc (v 0) (by linarith)
    have e : v 0 * function1 (v 2) + 0.5 * v 1 - (v 0 * rest (v 2) + v 1 / 2) =
      v 0 * function1 (v 2) - v 0 * rest (v 2) := by ring
    simpa [logJacobian, exactJacobian, e] using this
  · simpa [logJacobian, exactJacobian, show 0.5 * v 2 - v 2 / 2 = 0 by ring] using hB
  · simpa [logJacobian, exactJacobian] using h2
  · have := hc (v 1) (by linarith)
    have e : v 1 * function1 (v 2) - 0.5 * v 0 - (v 1 * rest (v 2) - v 0 / 2) =
      v 1 * function1 (v 2) - v 1 * rest (v 2) := by ring
    simpa [logJacobian, exactJacobian, e] using this
  all_goals simpa [logJacobian, exactJacobian] using hB

example : ∃ D, IsJacobian (fun d => LogMap.std.log (Chart.expmap.retract demo d)) D 0 ∧
    |logJacobian (LogMap.std.log demo) 0 2 - D 0 2| ≤
      5e-12 + 3e-10 * (|LogMap.std.log demo 0| + |LogMap.std.log demo 1|) := by
  obtain ⟨D, h, h'⟩ := C76_log_near LogMap.std Chart.expmap demo demo_valid
    (by rw [demo_angle]; linarith [two_le_pi])
  exact ⟨D, h, h' 0 2⟩

/-- **C76, exactly.** For rotations by more than 0.0087 and less than pi, and for pure translations, the
Jacobian returned is the derivative of the logarithm. -/
theorem C76_log_exact (L : LogMap) (ch : Chart) (T : SE2) (hT : T.Valid) (hpi : L.log T 2 < π)
    (h : 0.0087 < |L.log T 2| ∨ L.log T 2 = 0) :
    IsJacobian (fun d => L.log (ch.retract T d)) (logJacobian (L.log T)) 0 := by
  have e : logJacobian (L.log T) = exactJacobian (L.log T) := by
    have h2 : function2 (L.log T 2) = halfCot (L.log T 2) := function2_exact _ (h.imp_left fun h =>
      lt_of_le_of_lt threshold2_le (lt_trans (by norm_num) h))
    have h1 : function1 (L.log T 2) = rest (L.log T 2) := function1_exact _ (h.imp_left fun h =>
      lt_of_le_of_lt threshold1_le h)
    ext i j
    fin_cases i <;> fin_cases j <;> simp [logJacobian, exactJacobian, h1, h2] <;> ring
  rw [e]
  exact log_deriv ch hT (L.angle T hT).1 hpi

example (L : LogMap) (ch : Chart) :
    IsJacobian (fun d => L.log (ch.retract demo d)) (logJacobian (L.log demo)) 0 :=
  C76_log_exact L ch demo demo_valid (by rw [demo_angle]; linarith [two_le_pi])
    (Or.inl (by rw [demo_angle]; norm_num))

/-! ## C77 -/

/-- **C77 (partial), `vectorScaling`.** Both Jacobians are the derivatives. Missing: `pose2AsPoint2`, see
`C77_refuted`. -/
theorem C77_scaling_partial {n : ℕ} (v : Fin n → ℝ) (alpha : ℝ) :
    IsJacobian (fun u => scale u alpha) (scaleH1 n alpha) v ∧
    IsJacobian (fun a : Fin 1 → ℝ => scale v (a 0)) (scaleH2 v) ![alpha] := by
  constructor
  · have := (linear (scaleH1 n alpha)).hasFDerivAt (x := v)
    refine HasFDerivAt.congr_of_eventuallyEq this (Filter.Eventually.of_forall fun u => ?_)
    funext i
    simp [scale, linear_apply, scaleH1, Matrix.one_apply, mul_comm]
  · have := (linear (scaleH2 v)).hasFDerivAt (x := ![alpha])
    refine HasFDerivAt.congr_of_eventuallyEq this (Filter.Eventually.of_forall fun a => ?_)
    funext i
    simp [scale, linear_apply, scaleH2]

example : scale ![1, 2, 4] (1 / 2) = ![1 / 2, 1, 2] ∧
    IsJacobian (fun u => scale u (1 / 2)) (scaleH1 3 (1 / 2)) ![1, 2, 4] := by
  refine ⟨?_, (C77_scaling_partial _ _).1⟩
  funext i; fin_cases i <;> norm_num [scale]

/-- **C77 (partial), `pointsSubtraction`.** Both Jacobians are the derivatives. -/
theorem C77_subtraction_partial (p1 p2 : Fin 2 → ℝ) :
    IsJacobian (fun q => subtract q p2) subtractH1 p1 ∧ IsJacobian (fun q => subtract p1 q) subtractH2 p2 := by
  constructor
  · have := ((linear subtractH1).hasFDerivAt (x := p1)).add_const (-p2)
    refine HasFDerivAt.congr_of_eventuallyEq this (Filter.Eventually.of_forall fun q => ?_)
    funext i
    fin_cases i <;> simp [subtract, linear_apply, subtractH1, sub_eq_add_neg]
  · have := ((linear subtractH2).hasFDerivAt (x := p2)).const_add p1
    refine HasFDerivAt.congr_of_eventuallyEq this (Filter.Eventually.of_forall fun q => ?_)
    funext i
    fin_cases i <;> simp [subtract, linear_apply, subtractH2, sub_eq_add_neg]

example : subtract ![5, 1] ![2, 3] = ![3, -2] ∧ IsJacobian (fun q => subtract ![5, 1] q) subtractH2 ![2, 3] := by
  refine ⟨?_, (C77_subtraction_partial _ _).2⟩
  funext i; fin_cases i <;> norm_num [subtract]

/-- The derivative of the translation of a pose: its rotation. -/
theorem asPoint_deriv (ch : Chart) (T : SE2) :
    IsJacobian (fun d => asPoint (ch.retract T d)) !![T.c, -T.s, 0; T.s, T.c, 0] 0 := by
  have h1 := ((linear !![T.c, -T.s, 0; T.s, T.c, 0]).hasFDerivAt (x := (0 : Vec3))).const_add ![T.x, T.y]
  rw [← ch.zero] at h1
  have : HasFDerivAt _ (linear !![T.c, -T.s, 0; T.s, T.c, 0]) _ := h1.comp (0 : Vec3) ch.deriv
  refine HasFDerivAt.congr_of_eventuallyEq this (Filter.Eventually.of_forall fun d => ?_)
  funext i
  fin_cases i <;>
    (simp [asPoint, Chart.retract, SE2.compose, SE2.ofXYT, Matrix.vecHead, Matrix.vecTail, linear_apply,
      Fin.sum_univ_three]; try ring)

/-- **C77 is false of the code** for `pose2AsPoint2`: its Jacobian is the derivative exactly for the poses
without rotation, in every chart. -/
theorem C77_refuted (ch : Chart) (T : SE2) :
    IsJacobian (fun d => asPoint (ch.retract T d)) asPointH 0 ↔ T.c = 1 ∧ T.s = 0 := by
  constructor
  · intro h
    have e := h.unique (asPoint_deriv ch T)
    have h0 := congrFun (congrArg (fun f => f ![1, 0, 0]) e) 0
    have h1 := congrFun (congrArg (fun f => f ![1, 0, 0]) e) 1
    simp [asPointH, Matrix.mulVec, dotProduct, Fin.sum_univ_three] at h0 h1
    exact ⟨h0.symm, h1.symm⟩
  · rintro ⟨h1, h2⟩
    have := asPoint_deriv ch T
    rw [h1, h2] at this
    simpa [asPointH] using this

/-- For example it is wrong at the quarter turn. -/
example (ch : Chart) : ¬ IsJacobian (fun d => asPoint (ch.retract ⟨0, 1, 3, 4⟩ d)) asPointH 0 := by
  rw [C77_refuted]
  norm_num

end Verif.Pose2

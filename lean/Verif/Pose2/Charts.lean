import Verif.Pose2.Lemmas
import Mathlib.Analysis.SpecialFunctions.Trigonometric.Sinc
import Mathlib.Analysis.SpecialFunctions.Complex.Arg

/-! # The two charts of `gtsam::Pose2`, and a logarithm, meet what the model assumes -/

set_option linter.unusedSectionVars false
set_option linter.dupNamespace false

namespace Verif.Pose2
open Real

/-- The default chart of `gtsam::Pose2`: the three numbers are `x, y, theta`. -/
def Chart.plain : Chart := ⟨id, rfl, hasFDerivAt_id 0⟩

theorem mul_linear {g : Vec3 → ℝ} (hg : ContinuousAt g 0) (l : Vec3 →L[ℝ] ℝ) :
    HasFDerivAt (fun d => g d * l d) (g 0 • l) 0 := by
  rw [hasFDerivAt_iff_isLittleO]
  simp only [map_zero, mul_zero, sub_zero, smul_apply, smul_eq_mul]
  have h1 : (fun d => g d - g 0) =o[nhds 0] fun _ : Vec3 => (1 : ℝ) := by
    rw [Asymptotics.isLittleO_one_iff]
    have h : Filter.Tendsto (fun d => g d - g 0) (nhds 0) (nhds (g 0 - g 0)) :=
      hg.tendsto.sub tendsto_const_nhds
    rwa [sub_self] at h
  have h2 : (fun d : Vec3 => l d) =O[nhds 0] fun d : Vec3 => d := l.isBigO_id _
  refine (h1.mul_isBigO h2.norm_right).congr (fun d => by ring) (fun d => by rw [one_mul]) |>.of_norm_right

/-- `(1 - cos a) / a`. -/
noncomputable def cosc (a : ℝ) : ℝ := (1 - cos a) / a

theorem cosc_continuous : ContinuousAt cosc 0 := by
  have h0 : cosc 0 = 0 := by simp [cosc]
  rw [ContinuousAt, h0]
  refine squeeze_zero_norm (a := fun x : ℝ => |x|) (fun x => ?_) ?_
  · rw [Real.norm_eq_abs, cosc, abs_div]
    rcases eq_or_ne x 0 with rfl | hx
    · simp
    · rw [div_le_iff₀ (abs_pos.2 hx), abs_of_nonneg (by linarith [cos_le_one x]), ← sq, sq_abs]
      have := one_sub_sq_div_two_le_cos (x := x)
      nlinarith [sq_nonneg x]
  · simpa using (continuous_abs.tendsto (0 : ℝ))

/-- The exponential chart of `gtsam::Pose2`. -/
noncomputable def Chart.expmap : Chart where
  coords d := ![(SE2.exp d).x, (SE2.exp d).y, d 2]
  zero := by funext i; fin_cases i <;> simp [SE2.exp]
  deriv := by
    let pr (i : Fin 3) : Vec3 →L[ℝ] ℝ := ContinuousLinearMap.proj i
    have c2 : ContinuousAt (fun d : Vec3 => d 2) 0 := (continuous_apply (2 : Fin 3)).continuousAt
    have hs : ContinuousAt (fun d : Vec3 => sinc (d 2)) 0 :=
      continuous_sinc.continuousAt.comp c2
    have hk : ContinuousAt (fun d : Vec3 => cosc (d 2)) 0 := by
      have : ContinuousAt cosc ((0 : Vec3) 2) := by simpa using cosc_continuous
      exact this.comp (f := fun d : Vec3 => d 2) c2
    have e0 : cosc 0 = 0 := by simp [cosc]
    have hx : (fun d : Vec3 => (SE2.exp d).x) = fun d => sinc (d 2) * pr 0 d - cosc (d 2) * pr 1 d := by
      funext d
      by_cases h : d 2 = 0
      · simp [SE2.exp, h, pr, e0]
      · simp only [SE2.exp, h, pr, sinc, cosc, if_false, ContinuousLinearMap.proj_apply]
        field_simp
    have hy : (fun d : Vec3 => (SE2.exp d).y) = fun d => cosc (d 2) * pr 0 d + sinc (d 2) * pr 1 d := by
      funext d
      by_cases h : d 2 = 0
      · simp [SE2.exp, h, pr, e0]
      · simp only [SE2.exp, h, pr, sinc, cosc, if_false, ContinuousLinearMap.proj_apply]
        field_simp
    rw [hasFDerivAt_pi']
    intro i
    fin_cases i
    · show HasFDerivAt (fun d : Vec3 => (SE2.exp d).x) _ 0
      rw [hx]
      refine ((mul_linear hs (pr 0)).sub (mul_linear hk (pr 1))).congr_fderiv ?_
      ext d
      simp [pr, e0]
    · show HasFDerivAt (fun d : Vec3 => (SE2.exp d).y) _ 0
      rw [hy]
      refine ((mul_linear hk (pr 0)).add (mul_linear hs (pr 1))).congr_fderiv ?_
      ext d
      simp [pr, e0]
    · exact (pr 2).hasFDerivAt

theorem ofXYT_expmap (d : Vec3) : SE2.ofXYT (Chart.expmap.coords d) = SE2.exp d := by
  obtain ⟨h1, h2⟩ := exp_rot d
  ext
  · exact h1.symm
  · exact h2.symm
  · rfl
  · rfl

/-- A logarithm with the properties asked for exists. -/
noncomputable def LogMap.std : LogMap where
  log T := let a := Complex.arg ⟨T.c, T.s⟩
    ![halfCot a * T.x + a / 2 * T.y, halfCot a * T.y - a / 2 * T.x, a]
  exp_log T hT := by
    have hn : ‖(⟨T.c, T.s⟩ : ℂ)‖ = 1 := by
      rw [Complex.norm_eq_sqrt_sq_add_sq]; simp only; rw [show T.c ^ 2 + T.s ^ 2 = 1 from hT, sqrt_one]
    have hz : (⟨T.c, T.s⟩ : ℂ) ≠ 0 := by rw [← norm_ne_zero_iff, hn]; exact one_ne_zero
    have hc : cos (Complex.arg ⟨T.c, T.s⟩) = T.c := by rw [Complex.cos_arg hz, hn]; simp
    have hs : sin (Complex.arg ⟨T.c, T.s⟩) = T.s := by rw [Complex.sin_arg, hn]; simp
    have h1 := Complex.neg_pi_lt_arg ⟨T.c, T.s⟩
    have h2 := Complex.arg_le_pi ⟨T.c, T.s⟩
    generalize Complex.arg ⟨T.c, T.s⟩ = a at *
    by_cases h : a = 0
    · subst h
      ext <;> simp [SE2.exp, halfCot, ← hc, ← hs]
    · have h3 := one_sub_cos_ne h (by linarith [pi_pos]) (by linarith [pi_pos])
      have h4 := sin_sq_add_cos_sq a
      ext
      · simp [SE2.exp, h, hc]
      · simp [SE2.exp, h, hs]
      · simp [SE2.exp, h, halfCot]
        field_simp
        linear_combination T.x * h4
      · simp [SE2.exp, h, halfCot]
        field_simp
        linear_combination T.y * h4
  angle T _ := ⟨Complex.neg_pi_lt_arg _, Complex.arg_le_pi _⟩

end Verif.Pose2

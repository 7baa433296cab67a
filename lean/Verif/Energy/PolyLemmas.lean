import Verif.Energy.Lemmas
import Verif.Spline.Props
import Mathlib.Analysis.Calculus.Deriv.Polynomial

/-!
# Polynomials of least energy
-/

set_option linter.unusedSectionVars false
set_option linter.dupNamespace false

namespace Verif.Energy

open MeasureTheory Set Polynomial Verif.Spline

/-- The derivatives of a polynomial. -/
noncomputable def ders (P : ℝ[X]) (j : ℕ) (t : ℝ) : ℝ := (derivative^[j] P).eval t

theorem ders_deriv (P : ℝ[X]) (j : ℕ) (t : ℝ) : HasDerivAt (ders P j) (ders P (j + 1) t) t := by
  unfold ders
  rw [Function.iterate_succ_apply']
  exact (derivative^[j] P).hasDerivAt t

theorem ders_cont (P : ℝ[X]) (j : ℕ) : Continuous (ders P j) := (derivative^[j] P).continuous

theorem ders_motion (P : ℝ[X]) (k : ℕ) {b e : ℝ} (h : b ≤ e) : Motion k b e (ders P) :=
  ⟨fun j _ => (ders_cont P j).continuousOn, ⟨∅, countable_empty, fun j _ t _ => ders_deriv P j t⟩,
    (sq_of_cont h (ders_cont P k).continuousOn).1, (sq_of_cont h (ders_cont P k).continuousOn).2⟩

theorem ders_zero {P : ℝ[X]} {j : ℕ} (h : P.natDegree < j) (t : ℝ) : ders P j t = 0 := by
  rw [ders, iterate_derivative_eq_zero h, eval_zero]

/-- A polynomial of degree less than `2 (k + 1)` has the least energy among the motions that agree with it at both
ends, up to the derivative number `k`. -/
theorem poly_least {k : ℕ} {P : ℝ[X]} (hP : P.natDegree < 2 * (k + 1)) {b e : ℝ} (h : b ≤ e) {d : ℕ → ℝ → ℝ}
    (hd : Motion (k + 1) b e d) (hb : ∀ j ≤ k, d j b = ders P j b) (he : ∀ j ≤ k, d j e = ders P j e) :
    ∫ t in b..e, ders P (k + 1) t ^ 2 ≤ ∫ t in b..e, d (k + 1) t ^ 2 ∧
      (∫ t in b..e, ders P (k + 1) t ^ 2 = ∫ t in b..e, d (k + 1) t ^ 2 → ∀ j ≤ k, ∀ t ∈ Icc b e, d j t = ders P j t) := by
  have key := least (k := k) (n := 1) (τ := fun i => if i = 0 then b else e) (by simp [h])
    (s := ders P) (g := d) (q := fun _ j => ders P (k + 1 + j)) (by simpa using ders_motion P (k + 1) h) (by simpa using hd)
    (fun i _ j t => ders_deriv P (k + 1 + j) t) (fun i _ t => ders_zero (by omega) t) (fun i _ t _ => rfl)
    (fun i hi j hj => by
      by_cases hi0 : i = 0
      · simp only [hi0, if_true]; exact hb j hj.le
      · simp only [hi0, if_false]; exact he j hj.le)
    (by simpa using hb k le_rfl) (by simpa using he k le_rfl) (fun i hi => by omega)
  simp only [if_true, one_ne_zero, if_false, Real.norm_eq_abs, sq_abs] at key
  have hsub := hd.sub (ders_motion P (k + 1) h)
  have hn : 0 ≤ ∫ t in b..e, (d (k + 1) t - ders P (k + 1) t) ^ 2 :=
    intervalIntegral.integral_nonneg h fun t _ => sq_nonneg _
  refine ⟨by linarith, fun heq j hj t ht => sub_eq_zero.1 ?_⟩
  refine same_of_energy h hsub (fun j hj => sub_eq_zero.2 (hb j (by omega))) ?_ j (by omega) t ht
  simp only [Real.norm_eq_abs, sq_abs]
  linarith

theorem natDegree_toPoly {o : Order} (c : Vec o ℝ) : (toPoly c).natDegree ≤ o.deg := by
  cases o <;> simp only [toPoly_o1, toPoly_o2, toPoly_o3, toPoly_o4, toPoly_o5, Order.deg] <;> compute_degree

end Verif.Energy

import Mathlib.Analysis.Convex.Deriv
import Mathlib.Analysis.InnerProductSpace.Calculus
import Mathlib.Analysis.Calculus.Deriv.Pow

/-!
# How far a motion of bounded acceleration is from its chords
-/

set_option linter.unusedSectionVars false
set_option linter.dupNamespace false

namespace Verif.Accuracy

open Set
open scoped RealInnerProductSpace

/-- A motion `f` with velocity `v` from time `b` to time `e` whose acceleration is at most `M`, in the sense that the
velocity changes by at most `M` per second. -/
structure Gentle {V : Type} [NormedAddCommGroup V] [NormedSpace ℝ V] (M b e : ℝ) (f v : ℝ → V) : Prop where
  deriv : ∀ t ∈ Icc b e, HasDerivWithinAt f (v t) (Icc b e) t
  lip : ∀ s ∈ Icc b e, ∀ t ∈ Icc b e, s ≤ t → ‖v t - v s‖ ≤ M * (t - s)

theorem Gentle.mono {V : Type} [NormedAddCommGroup V] [NormedSpace ℝ V] {M b e b' e' : ℝ} {f v : ℝ → V}
    (h : Gentle M b e f v) (h1 : b ≤ b') (h2 : e' ≤ e) : Gentle M b' e' f v :=
  ⟨fun t ht => (h.deriv t (Icc_subset_Icc h1 h2 ht)).mono (Icc_subset_Icc h1 h2),
    fun s hs t ht => h.lip s (Icc_subset_Icc h1 h2 hs) t (Icc_subset_Icc h1 h2 ht)⟩

theorem Gentle.inner {V : Type} [NormedAddCommGroup V] [InnerProductSpace ℝ V] {M b e : ℝ} {f v : ℝ → V}
    (h : Gentle M b e f v) (u : V) : Gentle (‖u‖ * M) b e (fun t => ⟪u, f t⟫) (fun t => ⟪u, v t⟫) := by
  refine ⟨fun t ht => ?_, fun s hs t ht hst => ?_⟩
  · have := (hasDerivWithinAt_const t (Icc b e) u).inner ℝ (h.deriv t ht)
    simpa using this
  · rw [← inner_sub_right, Real.norm_eq_abs]
    calc |⟪u, v t - v s⟫| ≤ ‖u‖ * ‖v t - v s‖ := abs_real_inner_le_norm _ _
      _ ≤ ‖u‖ * (M * (t - s)) := mul_le_mul_of_nonneg_left (h.lip s hs t ht hst) (norm_nonneg u)
      _ = _ := by ring

theorem Gentle.neg {M b e : ℝ} {f v : ℝ → ℝ} (h : Gentle M b e f v) : Gentle M b e (fun t => -f t) (fun t => -v t) := by
  refine ⟨fun t ht => (h.deriv t ht).neg, fun s hs t ht hst => ?_⟩
  have := h.lip s hs t ht hst
  rwa [← norm_neg, show -(-v t - -v s) = v t - v s by ring]

theorem Gentle.cont {M b e : ℝ} {f v : ℝ → ℝ} (h : Gentle M b e f v) : ContinuousOn f (Icc b e) :=
  fun t ht => (h.deriv t ht).continuousWithinAt

theorem Gentle.at {M b e : ℝ} {f v : ℝ → ℝ} (h : Gentle M b e f v) {t : ℝ} (ht : t ∈ Ioo b e) : HasDerivAt f (v t) t :=
  (h.deriv t ⟨ht.1.le, ht.2.le⟩).hasDerivAt (Icc_mem_nhds ht.1 ht.2)

/-- Above the chord by at most a parabola. -/
theorem chord_le {M a b : ℝ} (hab : a < b) {f v : ℝ → ℝ} (h : Gentle M a b f v) {t : ℝ} (ht : t ∈ Icc a b) :
    f t ≤ f a + (f b - f a) * ((t - a) / (b - a)) + M / 2 * ((t - a) * (b - t)) := by
  have hder : ∀ x ∈ Ioo a b, HasDerivAt (fun t => f t + M / 2 * t ^ 2) (v x + M * x) x := by
    intro x hx
    refine ((h.at hx).add ((hasDerivAt_pow 2 x).const_mul (M / 2))).congr_deriv ?_
    norm_num
    ring
  have hconv : ConvexOn ℝ (Icc a b) (fun t => f t + M / 2 * t ^ 2) := by
    refine MonotoneOn.convexOn_of_deriv (convex_Icc a b) (h.cont.add (by fun_prop)) ?_ ?_
    · rw [interior_Icc]
      exact fun x hx => (hder x hx).differentiableAt.differentiableWithinAt
    · rw [interior_Icc]
      intro x hx y hy hxy
      rw [(hder x hx).deriv, (hder y hy).deriv]
      have := (abs_le.1 (h.lip x ⟨hx.1.le, hx.2.le⟩ y ⟨hy.1.le, hy.2.le⟩ hxy)).1
      linarith
  have hd : 0 < b - a := sub_pos.2 hab
  have hx := hconv.2 (left_mem_Icc.2 hab.le) (right_mem_Icc.2 hab.le)
    (div_nonneg (by linarith [ht.2]) hd.le : 0 ≤ (b - t) / (b - a)) (div_nonneg (by linarith [ht.1]) hd.le : 0 ≤ (t - a) / (b - a))
    (by field_simp; ring)
  have e : (b - t) / (b - a) * a + (t - a) / (b - a) * b = t := by field_simp; ring
  simp only [smul_eq_mul] at hx
  rw [e] at hx
  have e2 : (b - t) / (b - a) * (f a + M / 2 * a ^ 2) + (t - a) / (b - a) * (f b + M / 2 * b ^ 2) - M / 2 * t ^ 2 =
      f a + (f b - f a) * ((t - a) / (b - a)) + M / 2 * ((t - a) * (b - t)) := by
    field_simp
    ring
  linarith

/-- Above the tangent by at most a parabola. -/
theorem tangent_le {M a b : ℝ} {f v : ℝ → ℝ} (h : Gentle M a b f v) {x t : ℝ} (hx : x ∈ Icc a b) (ht : t ∈ Icc a b) :
    f t ≤ f x + (t - x) * v x + M / 2 * (t - x) ^ 2 := by
  have hder : ∀ s ∈ Ioo a b, HasDerivAt (fun s => f s - (s - x) * v x - M / 2 * (s - x) ^ 2) (v s - v x - M * (s - x)) s := by
    intro s hs
    have h1 := ((hasDerivAt_id s).sub_const x).mul_const (v x)
    have h2 := (((hasDerivAt_id s).sub_const x).pow 2).const_mul (M / 2)
    refine (((h.at hs).sub h1).sub h2).congr_deriv ?_
    simp
    ring
  have hc : ContinuousOn (fun s => f s - (s - x) * v x - M / 2 * (s - x) ^ 2) (Icc a b) :=
    (h.cont.sub (by fun_prop)).sub (by fun_prop)
  rcases le_total x t with hxt | hxt
  · have := antitoneOn_of_deriv_nonpos (convex_Icc x t) (hc.mono (Icc_subset_Icc hx.1 ht.2)) (fun s hs => by
      rw [interior_Icc] at hs
      exact (hder s ⟨hx.1.trans_lt hs.1, hs.2.trans_le ht.2⟩).differentiableAt.differentiableWithinAt) (fun s hs => by
      rw [interior_Icc] at hs
      rw [(hder s ⟨hx.1.trans_lt hs.1, hs.2.trans_le ht.2⟩).deriv]
      have := (abs_le.1 (h.lip x hx s ⟨(hx.1.trans hs.1.le), hs.2.le.trans ht.2⟩ hs.1.le)).2
      linarith) (left_mem_Icc.2 hxt) (right_mem_Icc.2 hxt) hxt
    simp only [sub_self, zero_mul, sub_zero] at this
    norm_num at this
    linarith
  · have := monotoneOn_of_deriv_nonneg (convex_Icc t x) (hc.mono (Icc_subset_Icc ht.1 hx.2)) (fun s hs => by
      rw [interior_Icc] at hs
      exact (hder s ⟨ht.1.trans_lt hs.1, hs.2.trans_le hx.2⟩).differentiableAt.differentiableWithinAt) (fun s hs => by
      rw [interior_Icc] at hs
      rw [(hder s ⟨ht.1.trans_lt hs.1, hs.2.trans_le hx.2⟩).deriv]
      have := (abs_le.1 (h.lip s ⟨(ht.1.trans hs.1.le), hs.2.le.trans hx.2⟩ x hx hs.2.le)).2
      linarith) (left_mem_Icc.2 hxt) (right_mem_Icc.2 hxt) hxt
    simp only [sub_self, zero_mul, sub_zero] at this
    norm_num at this
    linarith

variable {V : Type} [NormedAddCommGroup V] [InnerProductSpace ℝ V]

/-- A bound in every direction is a bound. -/
theorem norm_le_of_inner {x : V} {c : ℝ} (hc : 0 ≤ c) (h : ⟪x, x⟫ ≤ ‖x‖ * c) : ‖x‖ ≤ c := by
  rw [real_inner_self_eq_norm_sq] at h
  rcases (norm_nonneg x).eq_or_lt with e | e
  · rw [← e]; exact hc
  · exact le_of_mul_le_mul_left (by linarith [sq (‖x‖)]) e

theorem Gentle.nonneg {M a b : ℝ} (hab : a < b) {f v : ℝ → V} (h : Gentle M a b f v) : 0 ≤ M := by
  have := (norm_nonneg _).trans (h.lip a (left_mem_Icc.2 hab.le) b (right_mem_Icc.2 hab.le) hab.le)
  exact nonneg_of_mul_nonneg_left this (sub_pos.2 hab)

theorem chord {M a b : ℝ} (hab : a < b) {f v : ℝ → V} (h : Gentle M a b f v) {t : ℝ} (ht : t ∈ Icc a b) :
    ‖f t - (f a + ((t - a) / (b - a)) • (f b - f a))‖ ≤ M / 2 * ((t - a) * (b - t)) := by
  have hM := h.nonneg hab
  refine norm_le_of_inner (mul_nonneg (by linarith) (mul_nonneg (by linarith [ht.1]) (by linarith [ht.2]))) ?_
  set u := f t - (f a + ((t - a) / (b - a)) • (f b - f a)) with hu
  have key := chord_le hab (h.inner u) ht
  have : ⟪u, u⟫ = ⟪u, f t⟫ - (⟪u, f a⟫ + (⟪u, f b⟫ - ⟪u, f a⟫) * ((t - a) / (b - a))) := by
    conv_lhs => rw [hu]
    rw [← hu, inner_sub_right, inner_add_right, inner_smul_right, inner_sub_right]
    ring
  rw [this]
  linarith

theorem tangent {M a b : ℝ} (hab : a < b) {f v : ℝ → V} (h : Gentle M a b f v) {x t : ℝ} (hx : x ∈ Icc a b)
    (ht : t ∈ Icc a b) : ‖f t - f x - (t - x) • v x‖ ≤ M / 2 * (t - x) ^ 2 := by
  have hM := h.nonneg hab
  refine norm_le_of_inner (mul_nonneg (by linarith) (sq_nonneg _)) ?_
  set u := f t - f x - (t - x) • v x with hu
  have key := tangent_le (h.inner u) hx ht
  have : ⟪u, u⟫ = ⟪u, f t⟫ - ⟪u, f x⟫ - (t - x) * ⟪u, v x⟫ := by
    conv_lhs => rw [hu]
    rw [← hu, inner_sub_right, inner_sub_right, inner_smul_right]
  rw [this]
  linarith

/-- The slope of a chord and the velocity inside it. -/
theorem slope_near {M a b : ℝ} (hab : a < b) {f v : ℝ → V} (h : Gentle M a b f v) {t : ℝ} (ht : t ∈ Icc a b) :
    ‖(1 / (b - a)) • (f b - f a) - v t‖ ≤ M / 2 * (b - a) := by
  have hM := h.nonneg hab
  have hd : 0 < b - a := sub_pos.2 hab
  have h1 := tangent hab h ht (left_mem_Icc.2 hab.le)
  have h2 := tangent hab h ht (right_mem_Icc.2 hab.le)
  have e : (1 / (b - a)) • (f b - f a) - v t =
      (1 / (b - a)) • ((f b - f t - (b - t) • v t) - (f a - f t - (a - t) • v t)) := by
    match_scalars <;> field_simp <;> ring
  rw [e, norm_smul, Real.norm_of_nonneg (by positivity)]
  have h3 := norm_sub_le (f b - f t - (b - t) • v t) (f a - f t - (a - t) • v t)
  have h4 : M / 2 * (b - t) ^ 2 + M / 2 * (a - t) ^ 2 ≤ M / 2 * (b - a) ^ 2 := by
    have : 0 ≤ M * ((t - a) * (b - t)) := mul_nonneg hM (mul_nonneg (by linarith [ht.1]) (by linarith [ht.2]))
    nlinarith
  calc _ ≤ 1 / (b - a) * (M / 2 * (b - a) ^ 2) := mul_le_mul_of_nonneg_left (by linarith) (by positivity)
    _ = _ := by field_simp

end Verif.Accuracy

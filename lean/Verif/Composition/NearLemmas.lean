import Verif.Composition.EditProps
import Verif.Composition.CoverLemmas
import Verif.Discrete.AccuracyProps
import Mathlib.Analysis.Complex.Angle

/-!
# Lemmas for C162: distances between products of poses
-/

set_option linter.unusedSectionVars false
set_option linter.dupNamespace false

namespace Verif.Composition

open Verif.Manager Verif.Policy Verif.Discrete

section
variable {K G V : Type} [Field K] [LinearOrder K] [IsStrictOrderedRing K] [Group G]
  [AddCommGroup V] [Module K V]

/-- What becomes of the distance of two values when the same value is multiplied from the right: the lever. Two poses at the
distance `d` that differ by the angle `a` carry a point at the distance `d 1 b` at most `d + d 1 b * a` apart. -/
def Lever (d a : G → G → K) : Prop := ∀ g h b, d (g * b) (h * b) ≤ d g h + d 1 b * a g h

/-- No lever: distances that do not change under multiplication from the right. -/
theorem measured_zero {L : ExpLog K G V} : Measured L (fun _ _ => (0 : K)) 1 where
  one_le := le_rfl
  self _ := rfl
  symm _ _ := rfl
  triangle _ _ _ := by simp
  left _ _ _ := rfl
  way _ _ _ _ _ _ := by simp

theorem line_lever : Lever (K := K) (G := Multiplicative K) (fun g h => |h.toAdd - g.toAdd|) (fun _ _ => 0) := fun g h b => by
  simp

/-- The product of two values. -/
theorem product_near {L : ExpLog K G V} {d a : G → G → K} {κ : K} (hd : Measured L d κ) (hl : Lever d a)
    (p q b c : G) : d (p * b) (q * c) ≤ d b c + d p q + d 1 c * a p q := by
  have h1 := hd.triangle (p * b) (p * c) (q * c)
  rw [hd.left] at h1
  linarith [hl p q c]

/-- The value of a curve as a function, where there is one. -/
def valueOr (f : K → Outcome G) (t : K) : G := match f t with
  | .ok g => g
  | _ => 1

theorem valueOr_eq {f : K → Outcome G} {t : K} {g : G} (h : f t = .ok g) : valueOr f t = g := by rw [valueOr, h]

theorem knots_time {m m' : Mgr K G} (h : m.getTimes [] = m'.getTimes []) : m.knots.map Prod.fst = m'.knots.map Prod.fst := by
  simpa [times_knots] using h

theorem min_of_times {m m' : Mgr K G} (h : m.getTimes [] = m'.getTimes []) (hne : m.knots ≠ []) :
    m.getMinTime = m'.getMinTime ∧ m.getMaxTime = m'.getMaxTime ∧ m'.knots ≠ [] := by
  have e := knots_time h
  have hne' : m'.knots ≠ [] := by
    intro h'
    rw [h'] at e
    exact hne (List.map_eq_nil_iff.1 e)
  have e2 : m.nodes.map Node.time = m'.nodes.map Node.time := by simpa [Mgr.getTimes] using h
  have l1 : m.nodes.head?.map Node.time = m'.nodes.head?.map Node.time := by
    rw [← List.head?_map, ← List.head?_map, e2]
  have l2 : m.nodes.getLast?.map Node.time = m'.nodes.getLast?.map Node.time := by
    rw [← List.getLast?_map, ← List.getLast?_map, e2]
  have n1 := knots_ne_nil.1 hne
  have n2 := knots_ne_nil.1 hne'
  refine ⟨?_, ?_, hne'⟩
  · obtain ⟨x, l, hx⟩ := List.exists_cons_of_ne_nil n1
    obtain ⟨y, l', hy⟩ := List.exists_cons_of_ne_nil n2
    rw [hx, hy] at l1
    simp only [List.head?_cons, Option.map_some, Option.some.injEq] at l1
    simp [Mgr.getMinTime, hx, hy, l1]
  · obtain ⟨l, x, hx⟩ := (List.eq_nil_or_concat' m.nodes).resolve_left n1
    obtain ⟨l', y, hy⟩ := (List.eq_nil_or_concat' m'.nodes).resolve_left n2
    rw [hx, hy] at l2
    simp only [List.getLast?_append, List.getLast?_singleton, Option.some_or, Option.map_some, Option.some.injEq] at l2
    simp [Mgr.getMaxTime, hx, hy, l2]

theorem gap_of_times {m m' : Mgr K G} (h : m.getTimes [] = m'.getTimes []) {g : K}
    (hg : m'.knots.IsChain fun x y => y.1 - x.1 ≤ g) : m.knots.IsChain fun x y => y.1 - x.1 ≤ g := by
  have e := knots_time h
  have h1 : (m'.knots.map Prod.fst).IsChain fun x y => y - x ≤ g := (List.isChain_map _).2 hg
  rw [← e] at h1
  exact (List.isChain_map _).1 h1

/-- The ends of a curve are knots. -/
theorem ends_are_knots {m : Mgr K G} (hne : m.knots ≠ []) :
    (∃ v, (m.getMinTime, v) ∈ m.knots) ∧ ∃ v, (m.getMaxTime, v) ∈ m.knots := by
  have n1 := knots_ne_nil.1 hne
  constructor
  · obtain ⟨x, l, hx⟩ := List.exists_cons_of_ne_nil n1
    exact ⟨x.coef, by simp [Mgr.getMinTime, Mgr.knots, hx]⟩
  · obtain ⟨l, x, hx⟩ := (List.eq_nil_or_concat' m.nodes).resolve_left n1
    exact ⟨x.coef, by simp [Mgr.getMaxTime, Mgr.knots, hx]⟩

end

/-! ## Poses -/

open Verif.Kindr Verif.Hermite.SE3 Quaternion in
/-- A turn moves a point by at most the angle times its distance. -/
theorem turn_near {r : Quat} (hr : IsUnit' r) (c : Kindr.Vec3) :
    vecNorm (rotate r c - c) ≤ 2 * Real.arccos |r.re| * vecNorm c := by
  have e : vec (rotate r c - c) = (r * vec c - vec c * r) * star r := by
    have h1 : vec (rotate r c - c) = vec (rotate r c) - vec c := by ext <;> simp
    rw [h1, vec_rotate, sub_mul, mul_assoc (vec c), self_mul_star' hr, mul_one]
  have u : r.re ^ 2 + (r.imI ^ 2 + r.imJ ^ 2 + r.imK ^ 2) = 1 := by
    have := hr; rw [IsUnit', normSq_def'] at this; linarith
  have h2 : vecNorm (rotate r c - c) = ‖r * vec c - vec c * r‖ := by
    rw [← norm_vec, e, norm_mul, norm_unit (isUnit_star hr), mul_one]
  have h3 : ‖r * vec c - vec c * r‖ ≤ 2 * √(1 - |r.re| ^ 2) * vecNorm c := by
    refine abs_le_of_sq_le_sq' ?_ (by have := vecNorm_nonneg c; positivity) |>.2
    rw [show ∀ q : Quat, ‖q‖ ^ 2 = normSq q from fun q => by rw [sq, normSq_eq_norm_mul_self], mul_pow, mul_pow, Real.sq_sqrt (by rw [sq_abs]; nlinarith), sq_abs,
      vecNorm, Real.sq_sqrt (by positivity), show 1 - r.re ^ 2 = r.imI ^ 2 + r.imJ ^ 2 + r.imK ^ 2 by linarith, normSq_def']
    simp only [re_sub, imI_sub, imJ_sub, imK_sub, re_mul, imI_mul, imJ_mul, imK_mul, vec_re, vec_imI, vec_imJ, vec_imK]
    nlinarith [sq_nonneg (r.imI * c 0 + r.imJ * c 1 + r.imK * c 2)]
  have h4 : √(1 - |r.re| ^ 2) ≤ Real.arccos |r.re| := by
    rw [← Real.sin_arccos]
    exact Real.sin_le (Real.arccos_nonneg _)
  rw [h2]
  refine h3.trans ?_
  have := vecNorm_nonneg c
  have h5 := mul_le_mul_of_nonneg_right h4 this
  linarith

theorem act_near (g h : SO3) (b : Kindr.Vec3) : Kindr.vecNorm (h.act b - g.act b) ≤ SO3.angle g h * Kindr.vecNorm b := by
  have hu := Kindr.isUnit_mul h.isUnit (Kindr.isUnit_star g.isUnit)
  have e : h.act b = Kindr.rotate (h.quat * star g.quat) (g.act b) := by
    rw [SO3.act, SO3.act, ← Kindr.rotate_mul, mul_assoc, Kindr.star_mul_self' g.isUnit, mul_one]
  rw [e, ← g.vecNorm_act b]
  exact turn_near hu _

theorem pose3_lever : Lever (fun g h : Pose3 => Kindr.vecNorm (h.pos - g.pos)) (fun g h => SO3.angle g.rot h.rot) := by
  intro g h b
  simp only [Pose3.mul_def, Pose3.one_def, sub_zero]
  rw [show h.pos + h.rot.act b.pos - (g.pos + g.rot.act b.pos) = (h.pos - g.pos) + (h.rot.act b.pos - g.rot.act b.pos) by abel]
  refine (vecNorm_add_le _ _).trans ?_
  have := act_near g.rot h.rot b.pos
  linarith

theorem pose3_lever_angle : Lever (fun g h : Pose3 => SO3.angle g.rot h.rot) (fun _ _ => 0) := by
  intro g h b
  simp only [Pose3.mul_def, mul_zero, add_zero]
  rw [← SO3.mk_quat g.rot, ← SO3.mk_quat h.rot, ← SO3.mk_quat b.rot, SO3.mk_mul, SO3.mk_mul, SO3.angle_mk, SO3.angle_mk,
    Kindr.angle_mul_right b.rot.isUnit]

theorem se2_lever : Lever (fun g h : Pose2 => ‖h.pos - g.pos‖) Pose2.heading := by
  intro g h b
  simp only [Pose2.mul_def, Pose2.one_def, sub_zero]
  rw [show h.pos + h.rot * b.pos - (g.pos + g.rot * b.pos) = (h.pos - g.pos) + ((h.rot : ℂ) - g.rot) * b.pos by ring]
  refine (norm_add_le _ _).trans ?_
  rw [norm_mul]
  have : ‖(h.rot : ℂ) - g.rot‖ ≤ Pose2.heading g h := by
    rw [norm_sub_rev]
    exact (Complex.norm_sub_mem_Icc_angle (Circle.norm_coe _) (Circle.norm_coe _)).2
  have := mul_le_mul_of_nonneg_right this (norm_nonneg b.pos)
  linarith

theorem se2_lever_heading : Lever Pose2.heading (fun _ _ => 0) := by
  intro g h b
  simp only [Pose2.mul_def, mul_zero, add_zero, Pose2.heading, Circle.coe_mul]
  rw [mul_comm (g.rot : ℂ), mul_comm (h.rot : ℂ), Complex.angle_mul_left (by simp)]

end Verif.Composition

import Verif.Discrete.Distances

/-!
# Slerp curves in space

C121, for poses of space with translation and rotation apart: the maps are not `Geodesic`, but what C121 asks of the maps
for running a curve backwards and for adding a knot holds, and the curve moves steadily as seen from outside.
-/

set_option linter.unusedSectionVars false
set_option linter.dupNamespace false

namespace Verif.Discrete

open Verif.Manager Verif.Policy Verif.Kindr Verif.Hermite.SE3

theorem pose3_path : Path pose3Maps where
  log_exp g x h0 h1 := by
    refine Prod.ext rfl ?_
    exact so3_geodesic.log_exp g.rot x h0 h1
  rest g y z h0 h1 h2 h3 := by
    refine Pose3.ext ?_ (so3_geodesic.path.rest g.rot y z h0 h1 h2 h3)
    change y • g.pos + (so3Maps.exp (y • so3Maps.log g.rot)).act
      (z • (-((so3Maps.exp (y • so3Maps.log g.rot))⁻¹.act (y • g.pos)) +
        (so3Maps.exp (y • so3Maps.log g.rot))⁻¹.act g.pos)) = (y + z * (1 - y)) • g.pos
    rw [← SO3.act_neg, ← SO3.act_add, SO3.act_smul, SO3.act_act_inv]
    module

theorem pose3_reversible {g : Pose3} (hg : so3Maps.log g.rot⁻¹ = -so3Maps.log g.rot) : Reversible pose3Maps g := by
  intro x h0 h1
  refine Pose3.ext ?_ (so3_geodesic.reversible hg x h0 h1)
  change g.pos + g.rot.act (x • -(g.rot⁻¹.act g.pos)) = (1 - x) • g.pos
  rw [SO3.act_smul, SO3.act_neg, SO3.act_act_inv]
  module

/-- Rotations by less than half a turn can be reversed. -/
theorem so3_log_inv {g : SO3} (hg : SO3.angle 1 g < Real.pi) : so3Maps.log g⁻¹ = -so3Maps.log g := by
  rw [SO3.angle_one] at hg
  refine SO3.log_quat (by rwa [vecNorm_neg]) ?_
  have h := so3_geodesic.exp_neg (so3Maps.log g) 1
  rw [one_smul, so3Maps.exp_log] at h
  rw [← h]
  change so3Maps.exp _ = so3Maps.exp _
  congr 1
  rw [neg_smul, one_smul]

/-- They are not `Geodesic`: a body that turns as it moves is not moved on by the same motion, as seen from the body. -/
theorem pose3_not_geodesic : ¬Geodesic pose3Maps := by
  intro h
  have triv : ∀ (g : SO3) (v : Vec3), g.act v = v := by
    intro g v
    have := congrArg Pose3.pos (h.exp_add (v, so3Maps.log g) 1 1)
    change ((1 : ℝ) + 1) • v = (1 : ℝ) • v + (so3Maps.exp ((1 : ℝ) • so3Maps.log g)).act ((1 : ℝ) • v) at this
    rw [one_smul, one_smul, so3Maps.exp_log, add_smul, one_smul] at this
    exact (add_left_cancel this).symm
  have hu : IsUnit' (vec ![1, 0, 0]) := by
    rw [IsUnit', Quaternion.normSq_def']
    simp
  have := triv (SO3.mk _ hu) ![0, 1, 0]
  rw [SO3.act_mk] at this
  have h1 := congrFun this 1
  simp [rotate, imaginary] at h1
  norm_num at h1

/-- C121, steady motion in space. Between two neighbouring knots of a slerp curve of poses of space, in equal times the
position moves by the same vector and the attitude turns by the same rotation. -/
theorem C121_steady_space {s : St ℝ Pose3} (hr : Reachable pose3Maps .slerp s) (hc : s.w.calls + 1 < 2 ^ 64) {ta tb : ℝ}
    {A B : Pose3} (ha : (ta, A) ∈ s.c.knots) (hb : (tb, B) ∈ s.c.knots) (hab : ta < tb)
    (hno : ∀ x v, (x, v) ∈ s.c.knots → ¬(ta < x ∧ x < tb)) {t u : ℝ} (h0 : ta ≤ t) (h1 : t ≤ tb) (h0' : ta ≤ u)
    (h1' : u ≤ tb) :
    ∃ p q, evaluate pose3Maps .slerp t s.c.mgr = .ok p ∧ evaluate pose3Maps .slerp u s.c.mgr = .ok q ∧
      q.pos = p.pos + ((u - t) / (tb - ta)) • (B.pos - A.pos) ∧
      q.rot = p.rot * so3Maps.exp (((u - t) / (tb - ta)) • so3Maps.log (A.rot⁻¹ * B.rot)) := by
  refine ⟨_, _, C43_between _ hr hc ha hb hab hno h0 h1, C43_between _ hr hc ha hb hab hno h0' h1', ?_, ?_⟩
  · change A.pos + A.rot.act (((u - ta) / (tb - ta)) • (-(A.rot⁻¹.act A.pos) + A.rot⁻¹.act B.pos)) =
      A.pos + A.rot.act (((t - ta) / (tb - ta)) • (-(A.rot⁻¹.act A.pos) + A.rot⁻¹.act B.pos)) + _
    rw [← SO3.act_neg, ← SO3.act_add, SO3.act_smul, SO3.act_smul, SO3.act_act_inv, add_assoc, neg_add_eq_sub, ← add_smul,
      ← add_div]
    congr 3
    ring
  · change A.rot * so3Maps.exp (((u - ta) / (tb - ta)) • so3Maps.log (A.rot⁻¹ * B.rot)) =
      A.rot * so3Maps.exp (((t - ta) / (tb - ta)) • so3Maps.log (A.rot⁻¹ * B.rot)) * _
    rw [mul_assoc, ← so3_geodesic.exp_add, ← add_div]
    congr 4
    ring

/-- A body that moves by one and turns by a right angle within a second. -/
noncomputable def spaceDemo : St ℝ Pose3 :=
  ⟨⟨2, 2⟩, ⟨⟨[⟨0, 0, 1, 1⟩, ⟨1, 1, 2, ⟨![1, 0, 0], so3Maps.exp ![0, 0, Real.pi / 2]⟩⟩], [(1, 0), (2, 1)]⟩, ⟨0, 1⟩⟩⟩

theorem spaceDemo_reachable (kind : Kind) : Reachable pose3Maps kind spaceDemo := by
  refine ⟨⟨0, 0⟩, [.fit [0, 1] [1, ⟨![1, 0, 0], so3Maps.exp ![0, 0, Real.pi / 2]⟩]], ⟨trivial, fun _ _ => trivial⟩, ?_⟩
  simp [run, step, Curve.fitCurve, Curve.clear, Mgr.clear, Pol.fresh, Mgr.insertCoefficients, Mgr.insertLoop,
    Mgr.insertCoefficient, scanAtTime, getNextKey, newAddr, mapInsert, kmSet, spaceDemo,
    (by norm_num : ¬(1 : ℝ) ≤ 0), (by norm_num : ¬(1 : ℝ) < 0)]

example : ∃ p q, evaluate pose3Maps .slerp (1 / 4) spaceDemo.c.mgr = .ok p ∧
    evaluate pose3Maps .slerp (3 / 4) spaceDemo.c.mgr = .ok q ∧ q.pos = p.pos + ![1 / 2, 0, 0] := by
  obtain ⟨p, q, hp, hq, h, -⟩ := C121_steady_space (spaceDemo_reachable _) (by decide) (ta := 0) (tb := 1) (A := 1)
    (B := ⟨![1, 0, 0], so3Maps.exp ![0, 0, Real.pi / 2]⟩) (by simp [spaceDemo, Curve.knots, Mgr.contents])
    (by simp [spaceDemo, Curve.knots, Mgr.contents]) zero_lt_one (by
      intro x v hx
      simp [spaceDemo, Curve.knots, Mgr.contents] at hx
      rcases hx with ⟨rfl, -⟩ | ⟨rfl, -⟩ <;> simp) (t := 1 / 4) (u := 3 / 4) (by norm_num) (by norm_num) (by norm_num)
    (by norm_num)
  refine ⟨p, q, hp, hq, h.trans ?_⟩
  rw [show Pose3.pos 1 = 0 from rfl]
  congr 1
  ext i
  fin_cases i <;> norm_num

/-- Its way can be gone backwards. -/
example : Reversible pose3Maps ⟨![1, 0, 0], so3Maps.exp ![0, 0, Real.pi / 2]⟩ := by
  refine pose3_reversible (so3_log_inv ?_)
  have hpi := Real.pi_pos
  have h := angle_exp' isUnit_one ![0, 0, Real.pi / 2]
  have hn : vecNorm ![0, 0, Real.pi / 2] = Real.pi / 2 := by
    simp [vecNorm, Real.sqrt_sq (show 0 ≤ Real.pi / 2 by positivity)]
  rw [one_mul, hn] at h
  change SO3.angle (SO3.mk 1 isUnit_one) (SO3.mk _ (isUnit_exp _)) < _
  rw [SO3.angle_mk]
  linarith

end Verif.Discrete

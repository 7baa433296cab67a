import Verif.Hermite.SE3Lemmas

/-!
# Properties C34 - C41 and part of C48, C50: `CubicHermiteSE3Curve`

`L` is kindr's `logarithmicMap` throughout, see `Verif/Kindr/Model.lean`. A rotation is a unit quaternion;
`q` and `-q` are the same rotation, so "the same rotation" is said as: equal up to sign.
-/

set_option linter.unusedSectionVars false
set_option linter.dupNamespace false
set_option linter.unnecessarySeqFocus false

namespace Verif.Hermite.SE3

open Verif.Manager Verif.Kindr

/-- A curve used in the examples below: from the identity to half a turn about the first axis. -/
noncomputable def demo : SE3 :=
  ⟨⟨2, 2⟩, ⟨[⟨0, 1, 1, ⟨⟨![5, 0, 0], 1⟩, ⟨0, ![1, 0, 2]⟩⟩⟩,
    ⟨1, 4, 2, ⟨⟨![7, 1, 0], quat 0 ![1, 0, 0]⟩, Twist.zero⟩⟩], [(1, 0), (2, 1)]⟩⟩

theorem half_turn_unit : Quaternion.normSq (quat 0 ![1, 0, 0]) = 1 := by
  rw [Quaternion.normSq_def']
  simp [quat]

theorem demo_reachable (L : LogMap) : Reachable L demo := by
  refine ⟨⟨0, 0⟩, [.fitDerivatives [1, 4] [⟨![5, 0, 0], 1⟩, ⟨![7, 1, 0], quat 0 ![1, 0, 0]⟩]
    ⟨0, ![1, 0, 2]⟩ Twist.zero], ?_, ?_⟩
  · simp [Op.UnitRotations, half_turn_unit]
  · simp [run, step, fitCurveWithDerivatives, fitLoop, knotDerivative, fresh, clear, Mgr.clear,
      Mgr.insertCoefficients, Mgr.insertLoop, Mgr.insertCoefficient, Mgr.empty, scanAtTime, getNextKey,
      newAddr, mapInsert, kmSet, demo]

/-! ## C34 -/

/-- **C34 (partial).** On every curve a program can hold, unless it is empty and asked at time 0:
`evaluate(t)` and `evaluateDerivative(t, 1)` return, and they return `true` exactly when the curve has a
knot and `minTime <= t <= maxTime`. Missing: the empty curve at time 0, see `C34_refuted`. -/
theorem C34_domain_partial {L : LogMap} {c : SE3} (hr : Reachable L c) (t : ℝ)
    (hg : c.m.knots ≠ [] ∨ t ≠ 0) :
    (∃ r, evaluate L t c = .ok r ∧
      (r.isSome ↔ c.m.knots ≠ [] ∧ c.getMinTime ≤ t ∧ t ≤ c.getMaxTime)) ∧
    ∃ r, evaluateDerivative L t 1 c = .ok r ∧
      (r.isSome ↔ c.m.knots ≠ [] ∧ c.getMinTime ≤ t ∧ t ≤ c.getMaxTime) := by
  rw [evaluate_eq, evaluateDerivative_eq]
  exact ⟨evalWith_domain hr.good.1 t hg, evalWith_domain hr.good.1 t hg⟩

example (L : LogMap) : ∃ r, evaluate L 3 demo = .ok r ∧ r.isSome := by
  obtain ⟨⟨r, e, h⟩, -⟩ := C34_domain_partial (demo_reachable L) 3 (by simp [demo, Mgr.knots])
  refine ⟨r, e, h.2 ⟨by simp [demo, Mgr.knots], ?_, ?_⟩⟩ <;>
  · simp [demo, getMinTime, getMaxTime, Mgr.getMinTime, Mgr.getMaxTime]; try norm_num

/-- **C34 is violated** by every curve without knots, at time 0: instead of returning `false`, `evaluate`
and `evaluateDerivative` dereference the end iterator. -/
theorem C34_refuted (L : LogMap) (c : SE3) (h : c.m.knots = []) :
    evaluate L 0 c = .ub ∧ evaluateDerivative L 0 1 c = .ub := by
  rw [evaluate_eq, evaluateDerivative_eq]
  exact ⟨evalWith_empty h, evalWith_empty h⟩

example (L : LogMap) (w : World) : Reachable L (fresh w) ∧ evaluate L 0 (fresh w) = .ub :=
  ⟨⟨w, [], by simp, rfl⟩, (C34_refuted L _ rfl).1⟩

/-- C34 for the linear acceleration: it needs a segment, so two knots. -/
theorem C34_acceleration_domain {L : LogMap} {c : SE3} (hr : Reachable L c) (t : ℝ) :
    ∃ r, evaluateLinearAcceleration t c = .ok r ∧
      (r.isSome ↔ 2 ≤ c.m.knots.length ∧ c.getMinTime ≤ t ∧ t ≤ c.getMaxTime) := by
  have key := getAt_isSome_iff hr.good.1 t
  simp only [evaluateLinearAcceleration, Mgr.knots, List.length_map]
  cases h : c.m.getCoefficientsAt t with
  | none => rw [h] at key; exact ⟨none, rfl, key⟩
  | some p => rw [h] at key; exact ⟨_, rfl, key⟩

/-! ## C35, C41: values at the knots -/

/-- **C35, C41.** At the time of a knot `evaluate` returns the position of the knot exactly and its
rotation up to sign, which is the same rotation: it turns every vector alike. `evaluateDerivative` returns
the linear and the angular velocity of the knot exactly. -/
theorem C35_interpolates {L : LogMap} {c : SE3} (hr : Reachable L c) {t : ℝ} {k : HKnot}
    (hk : (t, k) ∈ c.m.knots) :
    (∃ p, evaluate L t c = .ok (some p) ∧ p.position = k.transformation.position ∧
      (p.rotation = k.transformation.rotation ∨ p.rotation = -k.transformation.rotation) ∧
      ∀ u, rotate p.rotation u = rotate k.transformation.rotation u) ∧
    evaluateDerivative L t 1 c = .ok (some k.derivative) := by
  obtain ⟨hs, hu⟩ := hr.good
  rw [evaluate_eq, evaluateDerivative_eq]
  constructor
  · obtain ⟨p, e, hp⟩ := evalWith_knot (single := HKnot.transformation) (f := interpolate L) hs
      (fun p => (p.position, ({p.rotation, -p.rotation} : Set Quat)))
      (fun a b _ _ _ => by rw [interpolate_left])
      (fun a b ha hb h => by
        rcases rotation_right (L := L) h (hu a ha) (hu b hb) with e | e
        · simp only [position_right h, e]
        · simp only [position_right h, e, neg_neg, Set.pair_comm]) hk
    obtain ⟨h1, h2⟩ := Prod.mk.inj hp
    have h3 : p.rotation = k.transformation.rotation ∨ p.rotation = -k.transformation.rotation := by
      have : p.rotation ∈ ({p.rotation, -p.rotation} : Set Quat) := by simp
      simpa [h2] using this
    refine ⟨p, e, h1, h3, fun u => ?_⟩
    rcases h3 with h | h
    · rw [h]
    · rw [h, rotate_neg]
  · obtain ⟨x, e, hx⟩ := evalWith_knot (single := HKnot.derivative) (f := interpolateTwist L) hs id
      (fun a b ha _ h => twist_left h (hu a ha)) (fun a b ha hb h => twist_right h (hu a ha) (hu b hb)) hk
    rw [e, show x = k.derivative from hx]

/-- At every knot but the last `evaluate` returns the knot's transformation itself, sign included. -/
theorem C35_exact {L : LogMap} {c : SE3} (hr : Reachable L c) {t : ℝ} {k : HKnot}
    (hk : (t, k) ∈ c.m.knots) (hlast : t < c.getMaxTime) :
    evaluate L t c = .ok (some k.transformation) := by
  obtain ⟨hs, hu⟩ := hr.good
  rw [evaluate_eq]
  obtain ⟨n, hn, e⟩ := List.mem_map.1 hk
  cases e
  obtain ⟨pre, post, hm⟩ := List.append_of_mem hn
  cases post with
  | nil =>
    have : c.getMaxTime = n.time := by simp [getMaxTime, Mgr.getMaxTime, hm]
    rw [this] at hlast
    exact absurd hlast (lt_irrefl _)
  | cons b post => rw [evalWith_interior hs hm le_rfl (neighbours_lt hs hm), interpolate_left]

example (L : LogMap) : evaluate L 1 demo = .ok (some ⟨![5, 0, 0], 1⟩) ∧
    evaluateDerivative L 1 1 demo = .ok (some ⟨0, ![1, 0, 2]⟩) ∧
    ∃ p, evaluate L 4 demo = .ok (some p) ∧ p.position = ![7, 1, 0] ∧
      rotate p.rotation ![0, 1, 0] = rotate (quat 0 ![1, 0, 0]) ![0, 1, 0] := by
  refine ⟨C35_exact (demo_reachable L) (k := ⟨⟨![5, 0, 0], 1⟩, ⟨0, ![1, 0, 2]⟩⟩)
      (by simp [demo, Mgr.knots]) ?_,
    (C35_interpolates (demo_reachable L) (k := ⟨⟨![5, 0, 0], 1⟩, ⟨0, ![1, 0, 2]⟩⟩)
      (by simp [demo, Mgr.knots])).2, ?_⟩
  · simp [demo, getMaxTime, Mgr.getMaxTime]
  · obtain ⟨⟨p, e, h1, -, h2⟩, -⟩ := C35_interpolates (demo_reachable L) (t := 4)
      (k := ⟨⟨![7, 1, 0], quat 0 ![1, 0, 0]⟩, Twist.zero⟩) (by simp [demo, Mgr.knots])
    exact ⟨p, e, h1, h2 _⟩

/-- **C41.** Whatever `evaluate` returns is a rotation: a unit quaternion. -/
theorem C41_unit {L : LogMap} {c : SE3} (hr : Reachable L c) {t : ℝ} {p : Pose}
    (e : evaluate L t c = .ok (some p)) : Quaternion.normSq p.rotation = 1 := by
  obtain ⟨hs, hu⟩ := hr.good
  rw [evaluate_eq, evalWith] at e
  split at e
  · obtain ⟨n, h1, h2⟩ := Outcome.bind_eq_ok.1 e
    cases h2
    cases hh : c.m.nodes.head? with
    | none => rw [hh] at h1; cases h1
    | some x =>
      rw [hh] at h1; cases h1
      exact hu _ (List.mem_of_head? hh)
  · cases h : c.m.getCoefficientsAt t with
    | none => rw [h] at e; cases e
    | some ab =>
      obtain ⟨a, b⟩ := ab
      rw [h] at e; cases e
      obtain ⟨pre, post, hm, -⟩ := getAt_some h
      exact isUnit_interpolate (hu a (by simp [hm])) t

example (L : LogMap) : ∃ p, evaluate L 3 demo = .ok (some p) ∧ Quaternion.normSq p.rotation = 1 := by
  obtain ⟨⟨r, e, h⟩, -⟩ := C34_domain_partial (demo_reachable L) 3 (by simp [demo, Mgr.knots])
  obtain ⟨p, rfl⟩ := Option.isSome_iff_exists.1 (h.2 ⟨by simp [demo, Mgr.knots], by
    simp [demo, getMinTime, Mgr.getMinTime], by
    simp [demo, getMaxTime, Mgr.getMaxTime]; norm_num⟩)
  exact ⟨p, e, C41_unit (demo_reachable L) e⟩

/-! ## C36 -/

/-- `evaluate` and `evaluateDerivative` together. -/
noncomputable def evalBoth (L : LogMap) (t : ℝ) (c : SE3) : Outcome (Option (Pose × Twist)) :=
  evalWith (fun k : HKnot => (k.transformation, k.derivative))
    (fun a b t => (interpolate L a b t, interpolateTwist L a b t)) t c.m

theorem evalBoth_fst (L : LogMap) (t : ℝ) (c : SE3) :
    evaluate L t c = (evalBoth L t c >>= fun r => .ok (r.map Prod.fst)) := by
  rw [evaluate_eq, evalBoth, ← evalWith_map]

theorem evalBoth_snd (L : LogMap) (t : ℝ) (c : SE3) :
    evaluateDerivative L t 1 c = (evalBoth L t c >>= fun r => .ok (r.map Prod.snd)) := by
  rw [evaluateDerivative_eq, evalBoth, ← evalWith_map]

theorem hasDerivAt_position {L : LogMap} {a b : Node ℝ HKnot} (h : a.time < b.time) (t : ℝ) :
    HasDerivAt (fun s => (interpolate L a b s).position)
      (interpolateTwist L a b t).translationalVelocity t := by
  simp only [position_eq, velocity_eq]
  exact E3.hasDerivAt_interpolate (tr a) (tr b) h t

theorem continuous_velocity {L : LogMap} {a b : Node ℝ HKnot} :
    Continuous (fun s => (interpolateTwist L a b s).translationalVelocity) := by
  simp only [velocity_eq]
  exact continuous_iff_continuousAt.2 fun t => (E3.hasDerivAt_velocity (tr a) (tr b) t).continuousAt

section
attribute [local irreducible] interpolate interpolateTwist rotate crossProduct

/-- **C36.** On the whole domain of a curve, knots included, the position is differentiable with the
reported linear velocity as its derivative; every vector `u` turned by the rotation is differentiable with
derivative `ω × (R u)`, `ω` the reported angular velocity; and both velocities are continuous. -/
theorem C36_continuously_differentiable {L : LogMap} {c : SE3} (hr : Reachable L c)
    (hne : c.m.knots ≠ []) :
    ∃ (pose : ℝ → Pose) (twist : ℝ → Twist),
      (∀ t ∈ Set.Icc c.getMinTime c.getMaxTime,
        evaluate L t c = .ok (some (pose t)) ∧ evaluateDerivative L t 1 c = .ok (some (twist t)) ∧
        HasDerivWithinAt (fun s => (pose s).position) (twist t).translationalVelocity
          (Set.Icc c.getMinTime c.getMaxTime) t ∧
        ∀ u, HasDerivWithinAt (fun s => rotate (pose s).rotation u)
          (crossProduct (twist t).rotationalVelocity (rotate (pose t).rotation u))
          (Set.Icc c.getMinTime c.getMaxTime) t) ∧
      ContinuousOn (fun t => (twist t).translationalVelocity) (Set.Icc c.getMinTime c.getMaxTime) ∧
      ContinuousOn (fun t => (twist t).rotationalVelocity) (Set.Icc c.getMinTime c.getMaxTime) := by
  obtain ⟨hs, hu⟩ := hr.good
  have : Nonempty (Pose × Twist) := ⟨⟨⟨0, 1⟩, Twist.zero⟩⟩
  obtain ⟨p, hp⟩ := evalWith_functions (single := fun k : HKnot => (k.transformation, k.derivative))
    (f := fun a b t => (interpolate L a b t, interpolateTwist L a b t)) hs hne
  have l1 : ∀ a b : Node ℝ HKnot, a ∈ c.m.nodes → b ∈ c.m.nodes → a.time < b.time →
      (interpolate L a b a.time, interpolateTwist L a b a.time) =
        (a.coef.transformation, a.coef.derivative) := fun a b ha _ h => by
    rw [interpolate_left, twist_left h (hu a ha)]
  have r1 : ∀ a b : Node ℝ HKnot, a ∈ c.m.nodes → b ∈ c.m.nodes → a.time < b.time →
      interpolateTwist L a b b.time = b.coef.derivative := fun a b ha hb h =>
    twist_right h (hu a ha) (hu b hb)
  have dPos := evalWith_deriv hs hne (fun x : Pose × Twist => x.1.position)
    (fun x => x.2.translationalVelocity)
    (fun a b ha hb h => congrArg (fun x : Pose × Twist => x.1.position) (l1 a b ha hb h))
    (fun a b ha hb h => position_right h)
    (fun a b ha hb h => congrArg (fun x : Pose × Twist => x.2.translationalVelocity) (l1 a b ha hb h))
    (fun a b ha hb h => congrArg Twist.translationalVelocity (r1 a b ha hb h))
    (fun a b ha hb h t => hasDerivAt_position h t) hp
  have dRot : ∀ u, _ := fun u => evalWith_deriv hs hne (fun x : Pose × Twist => rotate x.1.rotation u)
    (fun x => crossProduct x.2.rotationalVelocity (rotate x.1.rotation u))
    (fun a b ha hb h => congrArg (fun x : Pose × Twist => rotate x.1.rotation u) (l1 a b ha hb h))
    (fun a b ha hb h => rotate_right h (hu a ha) (hu b hb) u)
    (fun a b ha hb h => congrArg (fun x : Pose × Twist =>
      crossProduct x.2.rotationalVelocity (rotate x.1.rotation u)) (l1 a b ha hb h))
    (fun a b ha hb h => congrArg₂ (fun x y => crossProduct x y)
      (congrArg Twist.rotationalVelocity (r1 a b ha hb h)) (rotate_right h (hu a ha) (hu b hb) u))
    (fun a b ha hb h t => hasDerivAt_rotate h (hu a ha) u t) hp
  refine ⟨fun t => (p t).1, fun t => (p t).2,
    fun t ht => ⟨?_, ?_, dPos t ht, fun u => dRot u t ht⟩, ?_, ?_⟩
  · rw [evalBoth_fst, evalBoth, hp t ht]; rfl
  · rw [evalBoth_snd, evalBoth, hp t ht]; rfl
  · exact evalWith_cont hs hne (fun x : Pose × Twist => x.2.translationalVelocity)
      (fun a b ha hb h => congrArg (fun x : Pose × Twist => x.2.translationalVelocity) (l1 a b ha hb h))
      (fun a b ha hb h => congrArg Twist.translationalVelocity (r1 a b ha hb h))
      (fun a b ha hb h => continuous_velocity) hp
  · exact evalWith_cont hs hne (fun x : Pose × Twist => x.2.rotationalVelocity)
      (fun a b ha hb h => congrArg (fun x : Pose × Twist => x.2.rotationalVelocity) (l1 a b ha hb h))
      (fun a b ha hb h => congrArg Twist.rotationalVelocity (r1 a b ha hb h))
      (fun a b ha hb h => continuous_angular h (hu a ha)) hp

end

example (L : LogMap) : ∃ twist : ℝ → Twist, ContinuousOn (fun t => (twist t).rotationalVelocity) (Set.Icc 1 4) ∧
    evaluateDerivative L 3 1 demo = .ok (some (twist 3)) := by
  obtain ⟨_, w, h1, -, h3⟩ := C36_continuously_differentiable (demo_reachable L) (by simp [demo, Mgr.knots])
  have e1 : demo.getMinTime = 1 := by simp [demo, getMinTime, Mgr.getMinTime]
  have e2 : demo.getMaxTime = 4 := by simp [demo, getMaxTime, Mgr.getMaxTime]
  rw [e1, e2] at h1 h3
  exact ⟨w, h3, (h1 3 (by norm_num)).2.1⟩

/-! ## C37 -/

/-- **C37.** Between two neighbouring knots the reported linear velocity is the derivative of the
position, the reported linear acceleration is the derivative of the linear velocity, and the reported
angular velocity `ω` is that of the rotation: the quaternion satisfies `q' = (0, ω) q / 2`. -/
theorem C37_true_derivatives {L : LogMap} {c : SE3} (hr : Reachable L c) (t ta tb : ℝ) (ka kb : HKnot)
    (ha : (ta, ka) ∈ c.m.knots) (hb : (tb, kb) ∈ c.m.knots) (h0 : ta < t) (h1 : t < tb)
    (hno : ∀ s k, (s, k) ∈ c.m.knots → ¬(ta < s ∧ s < tb)) :
    ∃ (pose : ℝ → Pose) (twist : ℝ → Twist) (acc : Vec3),
      (∀ s, ta ≤ s → s < tb →
        evaluate L s c = .ok (some (pose s)) ∧ evaluateDerivative L s 1 c = .ok (some (twist s))) ∧
      HasDerivAt (fun s => (pose s).position) (twist t).translationalVelocity t ∧
      evaluateLinearAcceleration t c = .ok (some acc) ∧
      HasDerivAt (fun s => (twist s).translationalVelocity) acc t ∧
      HasDerivAt (fun s => (pose s).rotation)
        ((1 / 2 : ℝ) • (vec (twist t).rotationalVelocity * (pose t).rotation)) t := by
  obtain ⟨hs, hu⟩ := hr.good
  obtain ⟨pre, a, b, post, hm, rfl, rfl, rfl, rfl⟩ := exists_segment hs ha hb (h0.trans h1) hno
  have hlt := neighbours_lt hs hm
  have hua := hu a (by simp [hm])
  refine ⟨interpolate L a b, interpolateTwist L a b, interpolateAcceleration a b t, ?_,
    E3.hasDerivAt_interpolate (tr a) (tr b) hlt t, ?_, E3.hasDerivAt_velocity (tr a) (tr b) t, ?_⟩
  · intro s h2 h3
    rw [evaluate_eq, evaluateDerivative_eq]
    exact ⟨evalWith_interior hs hm h2 h3, evalWith_interior hs hm h2 h3⟩
  · rw [evaluateLinearAcceleration, getAt_interior hs hm h0.le h1]
  · refine (hasDerivAt_rotation (L := L) hlt t).congr_deriv ?_
    rw [vec_angular hua, mul_assoc, star_mul_self' (isUnit_interpolate hua t), mul_one]

example (L : LogMap) : ∃ (pose : ℝ → Pose) (twist : ℝ → Twist) (acc : Vec3),
    evaluateLinearAcceleration 3 demo = .ok (some acc) ∧
    HasDerivAt (fun s => (pose s).position) (twist 3).translationalVelocity 3 := by
  obtain ⟨p, w, a, -, h1, h2, -⟩ := C37_true_derivatives (demo_reachable L) 3 1 4
    ⟨⟨![5, 0, 0], 1⟩, ⟨0, ![1, 0, 2]⟩⟩ ⟨⟨![7, 1, 0], quat 0 ![1, 0, 0]⟩, Twist.zero⟩
    (by simp [demo, Mgr.knots]) (by simp [demo, Mgr.knots]) (by norm_num) (by norm_num) (by
      intro s k h
      simp only [demo, Mgr.knots, List.map_cons, List.map_nil, List.mem_cons, Prod.mk.injEq,
        List.not_mem_nil, or_false] at h
      rcases h with ⟨rfl, -⟩ | ⟨rfl, -⟩ <;> norm_num)
  exact ⟨p, w, a, h2, h1⟩

/-! ## C38 -/

theorem zip_mem_of_getElem {A B : Type} {xs : List A} {ys : List B} {i : Nat} (h1 : i < xs.length)
    (h2 : i < ys.length) : (xs[i], ys[i]) ∈ xs.zip ys := by
  have : (xs.zip ys)[i]'(by simp [h1, h2]) = (xs[i], ys[i]) := by simp
  rw [← this]
  exact List.getElem_mem _

/-- **C38 (partial).** For distinct times, a fit gives the first and the last knot the requested derivatives and
every other knot the slope over its two neighbours: the chord of the positions, and the angular velocity
that takes the rotation before to the rotation after in that time. Missing: `fitPeriodicCurve`, see
`C38_periodic_wrong`. -/
theorem C38_slopes_partial (L : LogMap) (c : SE3) (ts : List ℝ) (vs : List Pose) (hl : ts.length = vs.length)
    (hd : ts.Nodup) (hu : ∀ v ∈ vs, Quaternion.normSq v.rotation = 1) (d0 dT : Twist) :
    ∃ c' ks, fitCurveWithDerivatives L ts vs d0 dT c = .ok (c', ks) ∧
      ∀ i (hi : i < ts.length), ∃ d, (ts[i], (⟨vs[i], d⟩ : HKnot)) ∈ c'.m.knots ∧
        (i = 0 → d = d0) ∧ (i ≠ 0 → i = ts.length - 1 → d = dT) ∧
        ∀ (_ : 0 < i) (_ : i + 1 < ts.length),
          (ts[i + 1] - ts[i - 1]) • d.translationalVelocity =
            vs[i + 1].position - vs[i - 1].position ∧
          (exponentialMap ((ts[i + 1] - ts[i - 1]) • d.rotationalVelocity) * vs[i - 1].rotation =
              vs[i + 1].rotation ∨
            exponentialMap ((ts[i + 1] - ts[i - 1]) • d.rotationalVelocity) * vs[i - 1].rotation =
              -vs[i + 1].rotation) := by
  obtain ⟨c', ks, cs, e, e', hcs, hs, hp⟩ := fit_ok L ts vs hl hd d0 dT c
  obtain ⟨cs', e'', hcs', h⟩ := fitLoop_ok L ts vs d0 dT hl.le ts.length 0 (by omega)
  rw [e'] at e''
  cases e''
  refine ⟨c', ks, e, fun i hi => ?_⟩
  obtain ⟨k, k1, k2, k3, k4, k5⟩ := h i hi
  simp only [Nat.zero_add] at k2 k3 k4 k5
  refine ⟨k.derivative, ?_, k3, k4, ?_⟩
  · rw [hp.mem_iff]
    have := zip_mem_of_getElem hi (by omega : i < cs.length)
    rw [k1] at this
    rw [← k2]
    exact this
  · intro h1 h2
    rw [k5 (by omega) (by omega)]
    have hne : ts[i + 1] - ts[i - 1] ≠ 0 := by
      rw [sub_ne_zero]
      intro h3
      have := (List.Nodup.getElem_inj_iff hd).1 h3
      omega
    have ua := hu (vs[i - 1]'(by omega)) (List.getElem_mem _)
    have ub := hu (vs[i + 1]'(by omega)) (List.getElem_mem _)
    simp only [calculateSlope, smul_smul, mul_one_div, div_self hne, one_smul, boxMinus, inverted,
      true_and]
    have un : Quaternion.normSq ((vs[i + 1]'(by omega)).rotation *
        star (vs[i - 1]'(by omega)).rotation) = 1 := isUnit_mul ub (isUnit_star ua)
    rcases L.exp_log _ un with x | x
    · left; rw [x, mul_assoc, star_mul_self' ua, mul_one]
    · right; rw [x, neg_mul, mul_assoc, star_mul_self' ua, mul_one]

/-- **C38 is violated** by `fitPeriodicCurve`, for all strictly increasing times, four or more: the linear
velocity given to the first and to the last knot is `(p[1] - p[n-2]) / (t[1] - t[n-2])`, whose divisor is
negative. It is the slope over the two neighbours across the joint only if that chord is zero. -/
theorem C38_periodic_wrong (L : LogMap) (c : SE3) (ts : List ℝ) (vs : List Pose)
    (h4 : 4 ≤ ts.length) (hl : ts.length = vs.length) (hinc : ts.Pairwise (· < ·))
    (hu : ∀ v ∈ vs, Quaternion.normSq v.rotation = 1) :
    ∃ c' ks d, fitPeriodicCurve L ts vs c = .ok (c', ks) ∧
      (ts[0], (⟨vs[0], d⟩ : HKnot)) ∈ c'.m.knots ∧
      (ts[ts.length - 1], (⟨vs[ts.length - 1], d⟩ : HKnot)) ∈ c'.m.knots ∧
      (ts[1] - ts[ts.length - 2]) • d.translationalVelocity =
        vs[1].position - vs[ts.length - 2].position ∧
      ts[1] - ts[ts.length - 2] < 0 ∧
      (((ts[1] - ts[0]) + (ts[ts.length - 1] - ts[ts.length - 2])) • d.translationalVelocity =
          vs[1].position - vs[ts.length - 2].position →
        vs[1].position = vs[ts.length - 2].position) := by
  have hlt : ∀ i j, (hij : i < j) → (hj : j < ts.length) → ts[i]'(by omega) < ts[j] := fun i j hij hj =>
    List.pairwise_iff_getElem.1 hinc i j (by omega) hj hij
  obtain ⟨c', ks, e, h⟩ := C38_slopes_partial L c ts vs hl (hinc.imp fun h => h.ne) hu
    (calculateSlope L ts[ts.length - 2] ts[1] vs[ts.length - 2] vs[1])
    (calculateSlope L ts[ts.length - 2] ts[1] vs[ts.length - 2] vs[1])
  obtain ⟨d, k1, k2, -, -⟩ := h 0 (by omega)
  obtain ⟨d', q1, -, q2, -⟩ := h (ts.length - 1) (by omega)
  have hneg : ts[1] - ts[ts.length - 2] < 0 := sub_neg.2 (hlt _ _ (by omega) (by omega))
  have hd := k2 rfl
  have hd' := q2 (by omega) rfl
  rw [hd] at k1
  rw [hd'] at q1
  have hslope : (ts[1] - ts[ts.length - 2]) •
      (calculateSlope L ts[ts.length - 2] ts[1] vs[ts.length - 2] vs[1]).translationalVelocity =
        vs[1].position - vs[ts.length - 2].position := by
    simp only [calculateSlope, smul_smul, mul_one_div, div_self hneg.ne, one_smul]
  refine ⟨c', ks, _, ?_, k1, q1, hslope, hneg, fun hx => ?_⟩
  · rw [fitPeriodicCurve, if_neg (by omega), List.getElem?_eq_getElem (by omega),
      List.getElem?_eq_getElem (by omega), List.getElem?_eq_getElem (by omega),
      List.getElem?_eq_getElem (by omega)]
    exact e
  · have hpos : (0 : ℝ) < ts[1] - ts[0] + (ts[ts.length - 1] - ts[ts.length - 2]) :=
      add_pos (sub_pos.2 (hlt _ _ (by omega) (by omega))) (sub_pos.2 (hlt _ _ (by omega) (by omega)))
    have h0 := hx.trans hslope.symm
    rw [← sub_eq_zero, ← sub_smul] at h0
    rcases smul_eq_zero.1 h0 with h1 | h1
    · exact absurd h1 (by
        have := add_pos hpos (neg_pos.2 hneg)
        exact (by linarith : (0:ℝ) < _).ne')
    · rw [h1, smul_zero] at hslope
      exact sub_eq_zero.1 hslope.symm

/-! ## C39 -/

/-- **C39.** A fit replaces whatever the curve held before: for strictly increasing times the knots are
exactly the given points; for distinct times in any order they are a rearrangement of them. -/
theorem C39_replaces (L : LogMap) (c : SE3) (ts : List ℝ) (vs : List Pose) (hl : ts.length = vs.length)
    (hd : ts.Nodup) (d0 dT : Twist) :
    ∃ c' ks, fitCurveWithDerivatives L ts vs d0 dT c = .ok (c', ks) ∧
      (c'.m.knots.map fun x => (x.1, x.2.transformation)).Perm (ts.zip vs) ∧
      (ts.Pairwise (· < ·) → (c'.m.knots.map fun x => (x.1, x.2.transformation)) = ts.zip vs) := by
  obtain ⟨c', ks, cs, e, e', hcs, hs, hp⟩ := fit_ok L ts vs hl hd d0 dT c
  obtain ⟨cs', e'', hcs', h⟩ := fitLoop_ok L ts vs d0 dT hl.le ts.length 0 (by omega)
  rw [e'] at e''
  cases e''
  have hz : (ts.zip cs).map (fun x => (x.1, x.2.transformation)) = ts.zip vs := by
    apply List.ext_getElem
    · simp; omega
    · intro i h1 h2
      simp only [List.length_map, List.length_zip, lt_inf_iff] at h1
      obtain ⟨k, k1, k2, -⟩ := h i h1.1
      simp [k1, k2]
  have hperm : (c'.m.knots.map fun x => (x.1, x.2.transformation)).Perm (ts.zip vs) := by
    rw [← hz]; exact hp.map _
  refine ⟨c', ks, e, hperm, fun hinc => ?_⟩
  refine List.Perm.eq_of_pairwise (le := fun a b => a.1 ≤ b.1) ?_ ?_ ?_ hperm
  · rintro ⟨t, x⟩ ⟨t', y⟩ hx hy h1 h2
    have htt : t = t' := le_antisymm h1 h2
    subst htt
    have hx' := hperm.mem_iff.1 hx
    obtain ⟨i, hi, ei⟩ := List.mem_iff_getElem.1 hx'
    obtain ⟨j, hj, ej⟩ := List.mem_iff_getElem.1 hy
    simp only [List.getElem_zip, Prod.mk.injEq] at ei ej
    simp only [List.length_zip, lt_inf_iff] at hi hj
    have hij : i = j := (List.Nodup.getElem_inj_iff hd (hi := hi.1) (hj := hj.1)).1 (ei.1.trans ej.1.symm)
    subst hij
    rw [← ei.2, ← ej.2]
  · rw [List.pairwise_map, Mgr.knots, List.pairwise_map]
    exact hs.imp fun h => h.le
  · have : ((ts.zip vs).map Prod.fst).Pairwise (· < ·) := by
      rw [List.map_fst_zip hl.le]; exact hinc
    rw [List.pairwise_map] at this
    exact this.imp fun h => h.le

/-- An instance of C38 and C39: the demo curve fitted anew with three points. -/
example (L : LogMap) : ∃ c' ks, fitCurve L [0, 1, 3] [⟨0, 1⟩, ⟨![1, 2, 3], 1⟩, ⟨![6, 0, 0], quat 0 ![1, 0, 0]⟩] demo
      = .ok (c', ks) ∧
    (c'.m.knots.map fun x => (x.1, x.2.transformation)) =
      [(0, ⟨0, 1⟩), (1, ⟨![1, 2, 3], 1⟩), (3, ⟨![6, 0, 0], quat 0 ![1, 0, 0]⟩)] := by
  have hinc : ([0, 1, 3] : List ℝ).Pairwise (· < ·) := by simp
  obtain ⟨c', ks, e, -, h⟩ := C39_replaces L demo [0, 1, 3]
    [⟨0, 1⟩, ⟨![1, 2, 3], 1⟩, ⟨![6, 0, 0], quat 0 ![1, 0, 0]⟩] rfl (hinc.imp fun h => h.ne)
    Twist.zero Twist.zero
  exact ⟨c', ks, e, h hinc⟩

example (L : LogMap) : ∃ c' ks d, fitCurve L [0, 1, 3]
      [⟨0, 1⟩, ⟨![1, 2, 3], 1⟩, ⟨![6, 0, 0], quat 0 ![1, 0, 0]⟩] demo = .ok (c', ks) ∧
    ((1 : ℝ), (⟨⟨![1, 2, 3], 1⟩, d⟩ : HKnot)) ∈ c'.m.knots ∧
    ((3 : ℝ) - 0) • d.translationalVelocity = ![6, 0, 0] - 0 := by
  have hinc : ([0, 1, 3] : List ℝ).Pairwise (· < ·) := by simp
  obtain ⟨c', ks, e, h⟩ := C38_slopes_partial L demo [0, 1, 3]
    [⟨0, 1⟩, ⟨![1, 2, 3], 1⟩, ⟨![6, 0, 0], quat 0 ![1, 0, 0]⟩] rfl (hinc.imp fun h => h.ne)
    (by simp [half_turn_unit]) Twist.zero Twist.zero
  obtain ⟨d, h1, -, -, h2⟩ := h 1 (by decide)
  exact ⟨c', ks, d, e, h1, (h2 (by decide) (by decide)).1⟩

/-! ## C40 -/

/-- **C40.** Knots on a straight line, passed at constant velocity: the curve is that line, with that
velocity and no acceleration. -/
theorem C40_linear {L : LogMap} {c : SE3} (hr : Reachable L c) (p q : Vec3)
    (hk : ∀ t k, (t, k) ∈ c.m.knots →
      k.transformation.position = p + t • q ∧ k.derivative.translationalVelocity = q)
    (hne : c.m.knots ≠ []) (t : ℝ) (h0 : c.getMinTime ≤ t) (h1 : t ≤ c.getMaxTime) :
    ∃ x w, evaluate L t c = .ok (some x) ∧ x.position = p + t • q ∧
      evaluateDerivative L t 1 c = .ok (some w) ∧ w.translationalVelocity = q ∧
      (2 ≤ c.m.knots.length → evaluateLinearAcceleration t c = .ok (some 0)) := by
  obtain ⟨hs, hu⟩ := hr.good
  have hk' : ∀ n ∈ c.m.nodes, (tr n).coef = ⟨p + (tr n).time • q, q⟩ := fun n hn => by
    obtain ⟨e1, e2⟩ := hk n.time n.coef (List.mem_map.2 ⟨n, hn, rfl⟩)
    simp [tr, translationPart, e1, e2]
  by_cases h2 : 2 ≤ c.m.size
  · obtain ⟨pre, a, b, post, hm, ha, hb, hget⟩ := exists_bracket hs h2 h0 h1
    have hab := neighbours_lt hs hm
    have ka := hk' a (by simp [hm])
    have kb := hk' b (by simp [hm])
    refine ⟨interpolate L a b t, interpolateTwist L a b t, ?_, ?_, ?_, ?_, fun _ => ?_⟩
    · rw [evaluate_eq, evalWith, if_neg (not_single hs hm t), hget]
    · exact E3.linear_position hab ka kb t
    · rw [evaluateDerivative_eq, evalWith, if_neg (not_single hs hm t), hget]
    · exact E3.linear_velocity hab ka kb t
    · rw [evaluateLinearAcceleration, hget]
      exact congrArg (fun x => Outcome.ok (some x)) (E3.linear_acceleration hab ka kb t)
  · have hlen : c.m.nodes.length = 1 := by
      have := List.length_pos_of_ne_nil (knots_ne_nil.1 hne)
      rw [Mgr.size] at h2; omega
    obtain ⟨n, hn⟩ := List.length_eq_one_iff.1 hlen
    have e1 : c.getMinTime = n.time := by simp [getMinTime, Mgr.getMinTime, hn]
    have e2 : c.getMaxTime = n.time := by simp [getMaxTime, Mgr.getMaxTime, hn]
    have et : t = n.time := le_antisymm (e2 ▸ h1) (e1 ▸ h0)
    have hmem : (t, n.coef) ∈ c.m.knots := by simp [Mgr.knots, hn, et]
    obtain ⟨⟨x, e, x1, -, -⟩, ew⟩ := C35_interpolates hr hmem
    exact ⟨x, _, e, x1.trans (hk _ _ hmem).1, ew, (hk _ _ hmem).2, fun h => by
      simp [Mgr.knots, hn] at h⟩

/-- A single knot is a line; so is the following curve. -/
noncomputable def line : SE3 :=
  ⟨⟨2, 2⟩, ⟨[⟨0, 1, 1, ⟨⟨![3, 0, 0], 1⟩, ⟨![2, 0, 0], 0⟩⟩⟩,
    ⟨1, 5, 2, ⟨⟨![11, 0, 0], 1⟩, ⟨![2, 0, 0], 0⟩⟩⟩], [(1, 0), (2, 1)]⟩⟩

theorem line_reachable (L : LogMap) : Reachable L line := by
  refine ⟨⟨0, 0⟩, [.fitDerivatives [1, 5] [⟨![3, 0, 0], 1⟩, ⟨![11, 0, 0], 1⟩]
    ⟨![2, 0, 0], 0⟩ ⟨![2, 0, 0], 0⟩], ?_, ?_⟩
  · simp [Op.UnitRotations]
  · simp [run, step, fitCurveWithDerivatives, fitLoop, knotDerivative, fresh, clear, Mgr.clear,
      Mgr.insertCoefficients, Mgr.insertLoop, Mgr.insertCoefficient, Mgr.empty, scanAtTime, getNextKey,
      newAddr, mapInsert, kmSet, line]

example (L : LogMap) : ∃ x, evaluate L 4 line = .ok (some x) ∧
    x.position = ![1, 0, 0] + (4 : ℝ) • ![2, 0, 0] := by
  obtain ⟨x, _, h1, h2, -⟩ := C40_linear (line_reachable L) ![1, 0, 0] ![2, 0, 0] (by
    intro t k h
    simp only [line, Mgr.knots, List.map_cons, List.map_nil, List.mem_cons, Prod.mk.injEq,
      List.not_mem_nil, or_false] at h
    rcases h with ⟨rfl, rfl⟩ | ⟨rfl, rfl⟩ <;> constructor <;> norm_num)
    (by simp [line, Mgr.knots]) 4 (by simp [line, getMinTime, Mgr.getMinTime])
    (by simp [line, getMaxTime, Mgr.getMaxTime]; norm_num)
  exact ⟨x, h1, h2⟩

/-- Moving a pose. -/
def Pose.shift (x : Vec3) (p : Pose) : Pose := ⟨p.position + x, p.rotation⟩

theorem fitLoop_translate (L : LogMap) (x : Vec3) (ts : List ℝ) (vs : List Pose) (d0 dT : Twist) : ∀ n i,
    fitLoop L ts (vs.map (Pose.shift x)) d0 dT n i =
      (fitLoop L ts vs d0 dT n i >>= fun cs =>
        .ok (cs.map fun k => ⟨Pose.shift x k.transformation, k.derivative⟩)) := by
  have hk : ∀ i, knotDerivative L ts (vs.map (Pose.shift x)) d0 dT i = knotDerivative L ts vs d0 dT i := by
    intro i
    unfold knotDerivative
    by_cases h0 : i = 0
    · rw [if_pos h0, if_pos h0]
    · by_cases h1 : i = ts.length - 1
      · rw [if_neg h0, if_neg h0, if_pos h1, if_pos h1]
      · rw [if_neg h0, if_neg h0, if_neg h1, if_neg h1]
        simp only [List.getElem?_map]
        cases ts[i - 1]? <;> cases ts[i + 1]? <;> cases vs[i - 1]? <;> cases vs[i + 1]? <;>
          simp [calculateSlope, Pose.shift]
  intro n
  induction n with
  | zero => intro i; rfl
  | succ n ih =>
    intro i
    rw [fitLoop, fitLoop, hk, ih, List.getElem?_map]
    cases knotDerivative L ts vs d0 dT i <;> cases vs[i]? <;>
      cases fitLoop L ts vs d0 dT n (i + 1) <;> simp

/-- **C40, translations.** Adding a vector to all positions given to a fit adds it to every position the
curve returns, and changes neither rotations, velocities nor accelerations; also not where they exist. -/
theorem C40_translation (L : LogMap) (x : Vec3) (c : SE3) (ts : List ℝ) (vs : List Pose)
    (hl : ts.length = vs.length) (hinc : ts.Pairwise (· < ·)) (d0 dT : Twist) :
    ∃ c1 c2 k1 k2, fitCurveWithDerivatives L ts vs d0 dT c = .ok (c1, k1) ∧
      fitCurveWithDerivatives L ts (vs.map (Pose.shift x)) d0 dT c = .ok (c2, k2) ∧
      ∀ t, evaluate L t c2 = (evaluate L t c1 >>= fun r => .ok (r.map (Pose.shift x))) ∧
        evaluateDerivative L t 1 c2 = evaluateDerivative L t 1 c1 ∧
        evaluateLinearAcceleration t c2 = evaluateLinearAcceleration t c1 := by
  obtain ⟨cs, e, hcs, -⟩ := fitLoop_ok L ts vs d0 dT hl.le ts.length 0 (by omega)
  obtain ⟨w1, m1, ks1, e1, hs1, hk1, -⟩ := fill_empty c.w (cs := cs) (by omega) hinc
  let F : HKnot → HKnot := fun k => ⟨Pose.shift x k.transformation, k.derivative⟩
  obtain ⟨w2, m2, ks2, e2, hs2, hk2, -⟩ := fill_empty c.w (cs := cs.map F) (by simp; omega) hinc
  have hrel : m2.knots = m1.knots.map fun p => (p.1, F p.2) := by
    rw [hk1, hk2, List.zip_map_right]; rfl
  have hclear : (clear c).m = Mgr.empty := rfl
  refine ⟨⟨w1, m1⟩, ⟨w2, m2⟩, ks1, ks2, ?_, ?_, fun t => ⟨?_, ?_, ?_⟩⟩
  · rw [fitCurveWithDerivatives, if_neg (by simp [hl]), e, Outcome.ok_bind, hclear,
      show (clear c).w = c.w from rfl, e1]
    rfl
  · rw [fitCurveWithDerivatives, if_neg (by simp [hl]), fitLoop_translate, e, Outcome.ok_bind,
      Outcome.ok_bind, hclear, show (clear c).w = c.w from rfl]
    rw [show (cs.map fun k : HKnot => (⟨Pose.shift x k.transformation, k.derivative⟩ : HKnot)) = cs.map F from rfl,
      e2]
    rfl
  · rw [evaluate_eq, evaluate_eq]
    refine evalWith_related hs1 (Pose.shift x) hrel (fun _ _ => rfl) t ?_
    intro a b a' b' _ _ hlt h1 h2 h3 h4
    have hp : (interpolate L a' b' t).position = (interpolate L a b t).position + x := by
      have hd : b.time - a.time ≠ 0 := (sub_pos.2 hlt).ne'
      simp only [interpolate, h1, h2, h3, h4, F, Pose.shift, smul_add]
      match_scalars <;> field_simp <;> ring
    have hq : (interpolate L a' b' t).rotation = (interpolate L a b t).rotation := by
      simp only [interpolate, controlVectors, h1, h2, h3, h4, F, Pose.shift]
    generalize interpolate L a' b' t = y at hp hq
    cases y
    simp only at hp hq
    rw [hp, hq]
    rfl
  · rw [evaluateDerivative_eq, evaluateDerivative_eq,
      evalWith_related (m := m1) (single := HKnot.derivative) (f := interpolateTwist L) hs1 id hrel
        (fun _ _ => rfl) t]
    · cases evalWith HKnot.derivative (interpolateTwist L) t m1 <;> simp
    · intro a b a' b' _ _ hlt h1 h2 h3 h4
      have hd : b.time - a.time ≠ 0 := (sub_pos.2 hlt).ne'
      refine Twist.ext' ?_ ?_
      · simp only [id, interpolateTwist, interpolateDerivative, h1, h2, h3, h4, F, Pose.shift, smul_add]
        match_scalars <;> field_simp <;> ring
      · simp only [id, interpolateTwist, interpolateDerivative, interpolate, controlVectors, h1, h2, h3,
          h4, F, Pose.shift]
  · rw [evaluateLinearAcceleration, evaluateLinearAcceleration]
    rcases related_getAt hrel hs1 t with ⟨x1, x2⟩ | ⟨a, b, a', b', x1, x2, h1, h2, h3, h4⟩
    · rw [x1, x2]
    · rw [x1, x2]
      obtain ⟨pre, post, hm, -⟩ := getAt_some x1
      have hd : b.time - a.time ≠ 0 := (sub_pos.2 (neighbours_lt hs1 hm)).ne'
      simp only [interpolateAcceleration, h1, h2, h3, h4, F, Pose.shift]
      congr 2
      simp only [smul_add]
      match_scalars <;> field_simp <;> ring

example (L : LogMap) : ∃ c1 c2 k1 k2,
    fitCurve L [0, 1, 3] [⟨0, 1⟩, ⟨![1, 2, 3], 1⟩, ⟨![6, 0, 0], 1⟩] demo = .ok (c1, k1) ∧
    fitCurve L [0, 1, 3] ([⟨0, 1⟩, ⟨![1, 2, 3], 1⟩, ⟨![6, 0, 0], 1⟩].map (Pose.shift ![0, 0, 1])) demo
      = .ok (c2, k2) ∧
    evaluate L 2 c2 = (evaluate L 2 c1 >>= fun r => .ok (r.map (Pose.shift ![0, 0, 1]))) := by
  obtain ⟨c1, c2, k1, k2, h1, h2, h3⟩ := C40_translation L ![0, 0, 1] demo [0, 1, 3]
    [⟨0, 1⟩, ⟨![1, 2, 3], 1⟩, ⟨![6, 0, 0], 1⟩] rfl (by simp) Twist.zero Twist.zero
  exact ⟨c1, c2, k1, k2, h1, h2, (h3 2).1⟩

/-! ## C48 -/

/-- **C48.** Fitting nothing empties the curve; lists of different lengths abort; a periodic fit of
nothing or of a single point reads out of bounds. -/
theorem C48_hermite_se3 (L : LogMap) (c : SE3) (d0 dT : Twist) (t : ℝ) (v : Pose) :
    (∃ c', fitCurve L [] [] c = .ok (c', []) ∧ c'.m.knots = []) ∧
    (∃ c', fitCurveWithDerivatives L [] [] d0 dT c = .ok (c', []) ∧ c'.m.knots = []) ∧
    (∀ ts vs, ts.length ≠ vs.length → fitCurve L ts vs c = .abort) ∧
    fitPeriodicCurve L [] [] c = .ub ∧ fitPeriodicCurve L [t] [v] c = .ub := by
  refine ⟨⟨clear c, ?_, rfl⟩, ⟨clear c, ?_, rfl⟩, fun ts vs h => ?_, rfl, rfl⟩
  · simp [fitCurve, fitCurveWithDerivatives, fitLoop, Mgr.insertCoefficients, Mgr.insertLoop]
  · simp [fitCurveWithDerivatives, fitLoop, Mgr.insertCoefficients, Mgr.insertLoop]
  · rw [fitCurve, fitCurveWithDerivatives, if_pos h]

/-! ## C50 -/

/-- **C50 (partial).** `extend`, `setTimeRange` and the twelve evaluators without an implementation never return,
whatever the curve and the arguments. Missing: `transformCurve`, see `C50_transform_refuted`. -/
theorem C50_se3_partial (c : SE3) (ts : List ℝ) (vs : List Pose) (t0 t1 : ℝ) (f : Unimplemented) (t : ℝ) :
    (∀ r, extend ts vs c ≠ .ok r) ∧ (∀ r, setTimeRange t0 t1 c ≠ .ok r) ∧
    ∀ r, callUnimplemented f t c ≠ .ok r := by
  refine ⟨fun r h => ?_, fun r h => ?_, fun r h => ?_⟩ <;> cases h

/-- **C50 is violated** by `transformCurve`: it returns normally and the curve evaluates as before, also
when the transformation moves every point. -/
theorem C50_transform_refuted (L : LogMap) {c : SE3} (hr : Reachable L c) (hne : c.m.knots ≠ []) :
    ∃ (T : Pose) (c' : SE3) (p : Pose), transformCurve T c = .ok c' ∧
      evaluate L c.getMinTime c' = .ok (some p) ∧ p.position ≠ rotate T.rotation p.position + T.position := by
  have hle : c.getMinTime ≤ c.getMaxTime := by
    obtain ⟨n, hn⟩ := List.exists_mem_of_ne_nil _ (knots_ne_nil.1 hne)
    exact (min_le_node hr.good.1 hn).1.trans (min_le_node hr.good.1 hn).2
  obtain ⟨⟨r, e, h⟩, -⟩ := C34_domain_partial hr c.getMinTime (Or.inl hne)
  obtain ⟨p, rfl⟩ := Option.isSome_iff_exists.1 (h.2 ⟨hne, le_rfl, hle⟩)
  refine ⟨⟨![1, 0, 0], 1⟩, c, p, rfl, e, fun h => ?_⟩
  have : rotate 1 p.position = p.position := by
    apply vec_injective
    rw [vec_rotate]
    simp
  rw [this] at h
  have := congrFun h 0
  simp at this

example (L : LogMap) : ∃ T c' p, transformCurve T demo = .ok c' ∧
    evaluate L demo.getMinTime c' = .ok (some p) ∧ p.position ≠ rotate T.rotation p.position + T.position :=
  C50_transform_refuted L (demo_reachable L) (by simp [demo, Mgr.knots])

end Verif.Hermite.SE3

import Verif.Hermite.SE3EquivLemmas
import Verif.Hermite.SE3Props

/-!
# Property C94: `CubicHermiteSE3Curve` fits of poses moved rigidly
-/

set_option linter.unusedSectionVars false
set_option linter.dupNamespace false

namespace Verif.Hermite.SE3

open Verif.Manager Verif.Kindr

/-- The pose `p` seen from another frame, turned by `Q` and shifted by `x`. -/
noncomputable def moved (Q : Quat) (x : Vec3) (p : Pose) : Pose := ⟨rotate Q p.position + x, Q * p.rotation⟩

/-- A (global) twist seen from that frame, with times multiplied by `a`. -/
noncomputable def turned (a : ℝ) (Q : Quat) (d : Twist) : Twist :=
  ⟨(1 / a) • rotate Q d.translationalVelocity, (1 / a) • rotate Q d.rotationalVelocity⟩

/-- `c'` is the curve `c` seen from the other frame, with the times changed to `a t + b`. -/
def Moved (L : LogMap) (a b : ℝ) (Q : Quat) (x : Vec3) (c c' : SE3) : Prop :=
  ∀ t, evaluate L (a * t + b) c' = (evaluate L t c >>= fun r => .ok (r.map (moved Q x))) ∧
    evaluateDerivative L (a * t + b) 1 c' =
      (evaluateDerivative L t 1 c >>= fun r => .ok (r.map (turned a Q))) ∧
    evaluateLinearAcceleration (a * t + b) c' =
      (evaluateLinearAcceleration t c >>= fun r => .ok (r.map fun v => (1 / a ^ 2) • rotate Q v))

section formulas
variable {L : LogMap} {a b : ℝ} {Q : Quat} {x : Vec3} {p q p' q' : Node ℝ HKnot}

theorem slope_moved (hL : L.Turns) (hQ : IsUnit' Q) (ta tb : ℝ) {va vb : Pose} (ha : IsUnit' va.rotation)
    (hb : IsUnit' vb.rotation) :
    calculateSlope L (a * ta + b) (a * tb + b) (moved Q x va) (moved Q x vb) =
      turned a Q (calculateSlope L ta tb va vb) := by
  have e1 : a * tb + b - (a * ta + b) = a * (tb - ta) := by ring
  have e2 : 1 / (a * (tb - ta)) = 1 / a * (1 / (tb - ta)) := one_div_mul_one_div_rev .. |>.symm.trans (by ring)
  refine Twist.ext' ?_ ?_
  · simp only [calculateSlope, moved, turned, e1, e2, ← rotateL_apply]
    rw [add_sub_add_right_eq_sub, map_smul, map_sub, smul_smul]
  · simp only [calculateSlope, moved, turned, e1, e2, boxMinus, inverted, star_mul, rotate_smul, smul_smul]
    rw [← hL Q _ hQ (isUnit_mul hb (isUnit_star ha)), mul_assoc, mul_assoc, mul_assoc]

/-- The control vectors do not change. -/
theorem control_moved (ha : a ≠ 0) (hQ : IsUnit' Q) (h1 : p'.time = a * p.time + b)
    (h2 : q'.time = a * q.time + b)
    (h3 : p'.coef = ⟨moved Q x p.coef.transformation, turned a Q p.coef.derivative⟩)
    (h4 : q'.coef = ⟨moved Q x q.coef.transformation, turned a Q q.coef.derivative⟩) :
    controlVectors L p' q' = controlVectors L p q := by
  have e1 : a * q.time + b - (a * p.time + b) = a * (q.time - p.time) := by ring
  have e2 : ∀ v : Vec3, (a * (q.time - p.time) / 3) • (1 / a) • v = ((q.time - p.time) / 3) • v := by
    intro v
    rw [smul_smul]
    congr 1
    field_simp
  have e3 : ∀ e f r s : Quat, e * (star r * star Q) * (Q * s) * f = e * star r * s * f := by
    intro e f r s
    rw [show e * (star r * star Q) * (Q * s) * f = e * star r * (star Q * Q) * s * f by noncomm_ring,
      star_mul_self' hQ, mul_one]
  simp only [controlVectors, h1, h2, h3, h4, moved, turned, e1, e2, ← rotate_smul, inverseRotate_mul hQ,
    inverted, star_mul, e3]

theorem rotation_moved (ha : a ≠ 0) (hQ : IsUnit' Q) (t : ℝ) (h1 : p'.time = a * p.time + b)
    (h2 : q'.time = a * q.time + b)
    (h3 : p'.coef = ⟨moved Q x p.coef.transformation, turned a Q p.coef.derivative⟩)
    (h4 : q'.coef = ⟨moved Q x q.coef.transformation, turned a Q q.coef.derivative⟩) :
    (interpolate L p' q' (a * t + b)).rotation = Q * (interpolate L p q t).rotation ∧
    (interpolateDerivative L p' q' (a * t + b)).2 = (1 / a) • (Q * (interpolateDerivative L p q t).2) := by
  have e1 : a * q.time + b - (a * p.time + b) = a * (q.time - p.time) := by ring
  have e2 : a * t + b - (a * p.time + b) = a * (t - p.time) := by ring
  have e3 : 1 / (a * (q.time - p.time)) = 1 / a * (1 / (q.time - p.time)) :=
    one_div_mul_one_div_rev .. |>.symm.trans (by ring)
  have hc := control_moved (L := L) (x := x) ha hQ h1 h2 h3 h4
  constructor
  · simp only [interpolate, hc, h1, h2, h3, moved, e1, e2, mul_div_mul_left _ _ ha]
    noncomm_ring
  · simp only [interpolateDerivative, hc, h1, h2, h3, moved, e1, e2, mul_div_mul_left _ _ ha, e3, mul_smul_comm,
      smul_smul, mul_add, mul_assoc]

theorem interpolate_moved (ha : a ≠ 0) (hQ : IsUnit' Q) (hpq : p.time < q.time) (t : ℝ)
    (h1 : p'.time = a * p.time + b) (h2 : q'.time = a * q.time + b)
    (h3 : p'.coef = ⟨moved Q x p.coef.transformation, turned a Q p.coef.derivative⟩)
    (h4 : q'.coef = ⟨moved Q x q.coef.transformation, turned a Q q.coef.derivative⟩) :
    interpolate L p' q' (a * t + b) = moved Q x (interpolate L p q t) ∧
    interpolateTwist L p' q' (a * t + b) = turned a Q (interpolateTwist L p q t) ∧
    interpolateAcceleration p' q' (a * t + b) = (1 / a ^ 2) • rotate Q (interpolateAcceleration p q t) := by
  obtain ⟨r1, r2⟩ := rotation_moved (L := L) (x := x) ha hQ t h1 h2 h3 h4
  obtain ⟨k1, k2, k3⟩ := E3.interpolate_affine (b := b) (rotateL Q) x (p := tr p) (q := tr q) (p' := tr p')
    (q' := tr q') ha hpq t h1 h2 (by simp only [tr, translationPart, h3]; rfl)
    (by simp only [tr, translationPart, h4]; rfl)
  refine ⟨?_, Twist.ext' ?_ ?_, ?_⟩
  · have k1 : (interpolate L p' q' (a * t + b)).position = rotate Q (interpolate L p q t).position + x := k1
    generalize interpolate L p' q' (a * t + b) = y at k1 r1
    cases y
    simp only at k1 r1
    rw [k1, r1]
    rfl
  · exact k2
  · simp only [interpolateTwist, r1, r2, turned, inverted, star_mul]
    rw [show star (interpolate L p q t).rotation * star Q *
        ((1 / a) • (Q * (interpolateDerivative L p q t).2)) =
      (1 / a) • (star (interpolate L p q t).rotation * (star Q * Q) * (interpolateDerivative L p q t).2) by
        rw [mul_smul_comm]; congr 1; noncomm_ring, star_mul_self' hQ, mul_one, rotate_mul]
    have : ∀ y : Quat, imaginary ((1 / a) • y) = (1 / a) • imaginary y := by
      intro y; ext i; fin_cases i <;> simp [imaginary]
    rw [this, rotate_smul, rotate_smul]
  · exact k3

end formulas

/-- The knots of moved data. -/
theorem fitLoop_moved {L : LogMap} {a b : ℝ} {Q : Quat} (x : Vec3) (hL : L.Turns) (hQ : IsUnit' Q)
    {ts : List ℝ} {vs : List Pose} (hu : ∀ v ∈ vs, IsUnit' v.rotation) (d0 dT : Twist) : ∀ n i,
    fitLoop L (ts.map fun t => a * t + b) (vs.map (moved Q x)) (turned a Q d0) (turned a Q dT) n i =
      (fitLoop L ts vs d0 dT n i >>= fun cs =>
        .ok (cs.map fun k => ⟨moved Q x k.transformation, turned a Q k.derivative⟩)) := by
  have hk : ∀ i, knotDerivative L (ts.map fun t => a * t + b) (vs.map (moved Q x)) (turned a Q d0)
      (turned a Q dT) i = (knotDerivative L ts vs d0 dT i >>= fun d => .ok (turned a Q d)) := by
    intro i
    unfold knotDerivative
    simp only [List.length_map]
    split
    · rfl
    · split
      · rfl
      · simp only [List.getElem?_map]
        cases ts[i - 1]? <;> cases ts[i + 1]? <;> cases e1 : vs[i - 1]? <;> cases e2 : vs[i + 1]? <;> simp
        exact slope_moved hL hQ _ _ (hu _ (List.mem_of_getElem? e1)) (hu _ (List.mem_of_getElem? e2))
  intro n
  induction n with
  | zero => intro i; rfl
  | succ n ih =>
    intro i
    rw [fitLoop, fitLoop, hk, ih, List.getElem?_map]
    cases knotDerivative L ts vs d0 dT i <;> cases vs[i]? <;> cases fitLoop L ts vs d0 dT n (i + 1) <;>
      simp

/-- Curves with moved knots. -/
theorem moved_of_knots (L : LogMap) {a b : ℝ} {Q : Quat} (x : Vec3) (ha : 0 < a) (hQ : IsUnit' Q) {c c' : SE3}
    (hs : Sorted c.m.nodes) (hne : c.m.knots ≠ [])
    (h : c'.m.knots = c.m.knots.map fun p =>
      (a * p.1 + b, ⟨moved Q x p.2.transformation, turned a Q p.2.derivative⟩)) :
    Moved L a b Q x c c' := by
  have hφ : StrictMono fun t : ℝ => a * t + b := fun s t h => by
    have := mul_lt_mul_of_pos_left h ha
    simpa using this
  intro t
  refine ⟨?_, ?_, ?_⟩
  · rw [evaluate_eq, evaluate_eq]
    exact evalWith_retimed (φ := fun t : ℝ => a * t + b)
      (F := fun k : HKnot => (⟨moved Q x k.transformation, turned a Q k.derivative⟩ : HKnot)) hφ hs hne
      (moved Q x) h (fun n _ => rfl) t (fun p q p' q' _ _ hlt h1 h2 h3 h4 =>
        (interpolate_moved ha.ne' hQ hlt t h1 h2 h3 h4).1)
  · rw [evaluateDerivative_eq, evaluateDerivative_eq]
    exact evalWith_retimed (φ := fun t : ℝ => a * t + b)
      (F := fun k : HKnot => (⟨moved Q x k.transformation, turned a Q k.derivative⟩ : HKnot)) hφ hs hne
      (turned a Q) h (fun n _ => rfl) t (fun p q p' q' _ _ hlt h1 h2 h3 h4 =>
        (interpolate_moved (L := L) ha.ne' hQ hlt t h1 h2 h3 h4).2.1)
  · rw [evaluateLinearAcceleration, evaluateLinearAcceleration]
    rcases retimed_getAt (φ := fun t : ℝ => a * t + b)
      (F := fun k : HKnot => (⟨moved Q x k.transformation, turned a Q k.derivative⟩ : HKnot)) hφ h hs t with
      ⟨e, e'⟩ | ⟨p, q, p', q', e, e', h1, h2, h3, h4⟩
    · rw [e, e']; rfl
    · rw [e, e']
      obtain ⟨pre, post, hm, -⟩ := getAt_some e
      simp only [Outcome.ok_bind, Option.map_some]
      rw [(interpolate_moved (L := L) ha.ne' hQ (neighbours_lt hs hm) t h1 h2 h3 h4).2.2]

/-- A fit, for increasing times. -/
theorem fit_increasing (L : LogMap) {ts : List ℝ} {vs : List Pose} (hl : ts.length = vs.length)
    (hinc : ts.Pairwise (· < ·)) (d0 dT : Twist) (c : SE3) :
    ∃ c' ks cs, fitCurveWithDerivatives L ts vs d0 dT c = .ok (c', ks) ∧
      fitLoop L ts vs d0 dT ts.length 0 = .ok cs ∧ cs.length = ts.length ∧ Sorted c'.m.nodes ∧
      c'.m.knots = ts.zip cs := by
  obtain ⟨cs, e, hcs, -⟩ := fitLoop_ok L ts vs d0 dT hl.le ts.length 0 (by omega)
  obtain ⟨w1, m1, ks1, e1, hs, hk1, -⟩ := fill_empty c.w (cs := cs) (by omega) hinc
  refine ⟨⟨w1, m1⟩, ks1, cs, ?_, e, hcs, hs, hk1⟩
  rw [fitCurveWithDerivatives, if_neg (by simp [hl]), e, Outcome.ok_bind]
  have : (clear c).m = Mgr.empty := rfl
  rw [this, show (clear c).w = c.w from rfl, e1]
  rfl

/-- **C94.** Poses given in another frame (turned by any `Q` and shifted by any `x`) at times changed to
`a t + b`, with end derivatives likewise, give the curve seen from that frame: poses, twists and linear
accelerations at every time, whatever the two curves held before. -/
theorem C94_moved (L : LogMap) (hL : L.Turns) {a : ℝ} (ha : 0 < a) (b : ℝ) {Q : Quat}
    (hQ : Quaternion.normSq Q = 1) (x : Vec3) (ts : List ℝ) (vs : List Pose) (hl : ts.length = vs.length)
    (hne : ts ≠ []) (hinc : ts.Pairwise (· < ·)) (hu : ∀ v ∈ vs, Quaternion.normSq v.rotation = 1)
    (d0 dT : Twist) (c c' : SE3) :
    ∃ c1 c2 k1 k2, fitCurveWithDerivatives L ts vs d0 dT c = .ok (c1, k1) ∧
      fitCurveWithDerivatives L (ts.map fun t => a * t + b) (vs.map (moved Q x)) (turned a Q d0)
        (turned a Q dT) c' = .ok (c2, k2) ∧
      Moved L a b Q x c1 c2 := by
  obtain ⟨c1, k1, cs, e1, f1, l1, s1, n1⟩ := fit_increasing L hl hinc d0 dT c
  obtain ⟨c2, k2, cs2, e2, f2, l2, s2, n2⟩ := fit_increasing L (ts := ts.map fun t => a * t + b)
    (vs := vs.map (moved Q x)) (by simp [hl])
    (List.pairwise_map.2 (hinc.imp fun h => by simpa using mul_lt_mul_of_pos_left h ha))
    (turned a Q d0) (turned a Q dT) c'
  refine ⟨c1, c2, k1, k2, e1, e2, ?_⟩
  rw [List.length_map, fitLoop_moved x hL hQ hu, f1, Outcome.ok_bind] at f2
  cases f2
  refine moved_of_knots L x ha hQ s1 ?_ ?_
  · rw [n1]
    cases ts with
    | nil => exact absurd rfl hne
    | cons t ts =>
      cases cs with
      | nil => simp at l1
      | cons k cs => simp
  · rw [n2, n1, List.zip_map]
    rfl

theorem periodic_eq (L : LogMap) (ts : List ℝ) (vs : List Pose) (h2 : 2 ≤ ts.length)
    (hl : ts.length = vs.length) (c : SE3) :
    fitPeriodicCurve L ts vs c =
      fitCurveWithDerivatives L ts vs
        (calculateSlope L ts[ts.length - 2] ts[1] vs[ts.length - 2] vs[1])
        (calculateSlope L ts[ts.length - 2] ts[1] vs[ts.length - 2] vs[1]) c := by
  rw [fitPeriodicCurve, if_neg (by omega), List.getElem?_eq_getElem (by omega),
    List.getElem?_eq_getElem (by omega), List.getElem?_eq_getElem (by omega),
    List.getElem?_eq_getElem (by omega)]
  rfl

/-- The same for `fitPeriodicCurve`. -/
theorem C94_periodic (L : LogMap) (hL : L.Turns) {a : ℝ} (ha : 0 < a) (b : ℝ) {Q : Quat}
    (hQ : Quaternion.normSq Q = 1) (x : Vec3) (ts : List ℝ) (vs : List Pose) (hl : ts.length = vs.length)
    (h2 : 2 ≤ ts.length) (hinc : ts.Pairwise (· < ·)) (hu : ∀ v ∈ vs, Quaternion.normSq v.rotation = 1)
    (c c' : SE3) :
    ∃ c1 c2 k1 k2, fitPeriodicCurve L ts vs c = .ok (c1, k1) ∧
      fitPeriodicCurve L (ts.map fun t => a * t + b) (vs.map (moved Q x)) c' = .ok (c2, k2) ∧
      Moved L a b Q x c1 c2 := by
  have hne : ts ≠ [] := by rintro rfl; simp at h2
  rw [periodic_eq L ts vs h2 hl, periodic_eq L (ts.map fun t => a * t + b) (vs.map (moved Q x))
    (by simpa using h2) (by simpa using hl)]
  simp only [List.getElem_map, List.length_map]
  rw [slope_moved hL hQ _ _ (hu _ (List.getElem_mem _)) (hu _ (List.getElem_mem _))]
  exact C94_moved L hL ha b hQ x ts vs hl hne hinc hu _ _ c c'

/-- An instance of C94: three poses, one of them turned, seen from a frame turned half a turn and shifted,
with the clock running twice as fast. The logarithm is the usual formula. -/
example : ∃ c1 c2 k1 k2,
    fitCurve axisLogMap [0, 1, 3] [⟨0, 1⟩, ⟨![1, 2, 3], quat 0 ![1, 0, 0]⟩, ⟨![6, 0, 0], 1⟩] demo =
      .ok (c1, k1) ∧
    fitCurve axisLogMap ([0, 1, 3].map fun t => 2 * t + 5) ([⟨0, 1⟩, ⟨![1, 2, 3], quat 0 ![1, 0, 0]⟩,
      ⟨![6, 0, 0], 1⟩].map (moved (quat 0 ![1, 0, 0]) ![0, 0, 1])) demo = .ok (c2, k2) ∧
    evaluate axisLogMap (2 * 2 + 5) c2 = (evaluate axisLogMap 2 c1 >>= fun r =>
      .ok (r.map (moved (quat 0 ![1, 0, 0]) ![0, 0, 1]))) := by
  obtain ⟨c1, c2, k1, k2, h1, h2, h3⟩ := C94_moved axisLogMap axisLogMap_turns (a := 2) (by norm_num) 5
    half_turn_unit ![0, 0, 1] [0, 1, 3] [⟨0, 1⟩, ⟨![1, 2, 3], quat 0 ![1, 0, 0]⟩, ⟨![6, 0, 0], 1⟩] rfl (by simp)
    (by simp) (by simp [half_turn_unit]) Twist.zero Twist.zero demo demo
  refine ⟨c1, c2, k1, k2, h1, ?_, (h3 2).1⟩
  rw [← h2, fitCurve]
  have : turned 2 (quat 0 ![1, 0, 0]) Twist.zero = Twist.zero := by
    refine Twist.ext' ?_ ?_ <;> simp [turned, Twist.zero, ← rotateL_apply]
  rw [this]

/-! ## Running backwards -/

theorem exp_x {r : ℝ} (hr : 0 < r) : exponentialMap ![r, 0, 0] = quat (Real.cos (r / 2)) ![Real.sin (r / 2), 0, 0] := by
  have hn : vecNorm ![r, 0, 0] = r := by simp [vecNorm, Real.sqrt_sq hr.le]
  simp only [exponentialMap]
  rw [hn, if_neg hr.ne']
  congr 1
  ext i; fin_cases i <;> simp [hr.ne']

theorem exp_y {r : ℝ} (hr : 0 < r) : exponentialMap ![0, r, 0] = quat (Real.cos (r / 2)) ![0, Real.sin (r / 2), 0] := by
  have hn : vecNorm ![0, r, 0] = r := by simp [vecNorm, Real.sqrt_sq hr.le]
  simp only [exponentialMap]
  rw [hn, if_neg hr.ne']
  congr 1
  ext i; fin_cases i <;> simp [hr.ne']

theorem exp_x_neg {r : ℝ} (hr : 0 < r) :
    exponentialMap ![-r, 0, 0] = quat (Real.cos (r / 2)) ![-Real.sin (r / 2), 0, 0] := by
  have : (![-r, 0, 0] : Vec3) = -![r, 0, 0] := by ext i; fin_cases i <;> simp
  rw [this, exponentialMap_neg, exp_x hr]
  ext <;> simp

theorem exp_y_neg {r : ℝ} (hr : 0 < r) :
    exponentialMap ![0, -r, 0] = quat (Real.cos (r / 2)) ![0, -Real.sin (r / 2), 0] := by
  have : (![0, -r, 0] : Vec3) = -![0, r, 0] := by ext i; fin_cases i <;> simp
  rw [this, exponentialMap_neg, exp_y hr]
  ext <;> simp

/-- The half turn about the second axis. -/
noncomputable def qy : Quat := quat 0 ![0, 1, 0]

theorem axisLog_qy : axisLog qy = ![0, Real.pi, 0] := by
  have h : imaginary qy = ![0, 1, 0] := by simp [imaginary, qy]
  have hn : vecNorm ![0, 1, 0] = 1 := by simp [vecNorm]
  rw [axisLog, h, hn, show qy.re = 0 from rfl, Real.arccos_zero]
  ext i; fin_cases i <;> simp
  ring

theorem axisLog_qy_neg : axisLog (star qy) = ![0, -Real.pi, 0] := by
  have h : axisLog (star qy) = -axisLog qy := axisLogMap_inverts qy (by
    rw [Quaternion.normSq_def']; simp [qy])
  rw [h, axisLog_qy]
  ext i; fin_cases i <;> simp

/-- The first end of the example: at rest. -/
noncomputable def endA : Node ℝ HKnot := ⟨0, 0, 0, ⟨⟨0, 1⟩, ⟨0, 0⟩⟩⟩

/-- The second end: a second later, half a turn on, turning fast about another axis. -/
noncomputable def endB : Node ℝ HKnot := ⟨0, 1, 0, ⟨⟨0, qy⟩, ⟨0, ![-(24 * Real.pi), 0, 0]⟩⟩⟩

/-- The second end at the negated time, turning the other way. -/
noncomputable def endB' : Node ℝ HKnot := ⟨0, -1, 0, ⟨⟨0, qy⟩, ⟨0, ![24 * Real.pi, 0, 0]⟩⟩⟩

theorem exp_full : exponentialMap ![8 * Real.pi, 0, 0] = 1 ∧ exponentialMap ![-(8 * Real.pi), 0, 0] = 1 := by
  have hp : (0 : ℝ) < 8 * Real.pi := by positivity
  have h : 8 * Real.pi / 2 = (2 : ℕ) * (2 * Real.pi) := by push_cast; ring
  have hc := Real.cos_nat_mul_two_pi 2
  have hs : Real.sin ((2 : ℕ) * (2 * Real.pi)) = 0 := by
    have := Real.sin_add_nat_mul_two_pi 0 2
    simpa using this
  rw [exp_x hp, exp_x_neg hp, h, hc, hs]
  constructor <;> ext <;> simp <;> rfl

theorem inverse_qy (r : ℝ) : inverseRotate qy ![r, 0, 0] = ![-r, 0, 0] := by
  ext i
  fin_cases i <;> simp [inverseRotate, imaginary, qy, vec]

theorem control_forward : controlVectors axisLogMap endA endB = (0, ![0, Real.pi, 0], ![8 * Real.pi, 0, 0]) := by
  have h1 : inverseRotate 1 0 = 0 := by
    ext i
    fin_cases i <;> simp [inverseRotate, imaginary]
  have h2 : ((1 : ℝ) / 3) • (![-(24 * Real.pi), 0, 0] : Vec3) = ![-(8 * Real.pi), 0, 0] := by
    ext i
    fin_cases i <;> simp
    ring
  have h3 : -(![8 * Real.pi, 0, 0] : Vec3) = ![-(8 * Real.pi), 0, 0] := by
    ext i
    fin_cases i <;> simp
  simp only [controlVectors, endA, endB, sub_zero, h2, inverse_qy, neg_neg, h3, exp_full.2, smul_zero, h1,
    neg_zero, exponentialMap_zero, inverted, star_one, one_mul, mul_one]
  exact congrArg (fun v => (0, v, _)) axisLog_qy

theorem control_backward :
    controlVectors axisLogMap endB' endA = (![-(8 * Real.pi), 0, 0], ![0, -Real.pi, 0], 0) := by
  have h1 : inverseRotate 1 0 = 0 := by
    ext i
    fin_cases i <;> simp [inverseRotate, imaginary]
  have h2 : ((1 : ℝ) / 3) • (![24 * Real.pi, 0, 0] : Vec3) = ![8 * Real.pi, 0, 0] := by
    ext i
    fin_cases i <;> simp
    ring
  have h3 : -(![-(8 * Real.pi), 0, 0] : Vec3) = ![8 * Real.pi, 0, 0] := by
    ext i
    fin_cases i <;> simp
  simp only [controlVectors, endA, endB', sub_neg_eq_add, zero_add, h2, inverse_qy, h3, exp_full.1, smul_zero, h1,
    neg_zero, exponentialMap_zero, inverted, one_mul, mul_one]
  exact congrArg (fun v => (_, v, 0)) axisLog_qy_neg

theorem quarter (s : ℝ) : (1 / 2 : ℝ) • (![0, s, 0] : Vec3) = ![0, s / 2, 0] := by
  ext i
  fin_cases i <;> simp
  ring

theorem exp_quarter : exponentialMap ![0, Real.pi / 2, 0] = quat (√2 / 2) ![0, √2 / 2, 0] ∧
    exponentialMap ![0, -(Real.pi / 2), 0] = quat (√2 / 2) ![0, -(√2 / 2), 0] := by
  have hp := Real.pi_pos
  rw [exp_y (by positivity), exp_y_neg (by positivity), show Real.pi / 2 / 2 = Real.pi / 4 by ring,
    Real.cos_pi_div_four, Real.sin_pi_div_four]
  exact ⟨rfl, rfl⟩

theorem exp_half : exponentialMap ![Real.pi, 0, 0] = quat 0 ![1, 0, 0] := by
  rw [exp_x Real.pi_pos, Real.cos_pi_div_two, Real.sin_pi_div_two]

theorem forward_half : (interpolate axisLogMap endA endB (1 / 2)).rotation =
    quat 0 ![√2 / 2, 0, -(√2 / 2)] := by
  have h1 : (1 / 8 : ℝ) • (![8 * Real.pi, 0, 0] : Vec3) = ![Real.pi, 0, 0] := by
    ext i
    fin_cases i <;> simp
  have hα : ((1 / 2 : ℝ) - endA.time) / (endB.time - endA.time) = 1 / 2 := by norm_num [endA, endB]
  simp only [interpolate, control_forward, smul_zero, exponentialMap_zero, hα]
  rw [show (1 / 2 : ℝ) * (1 / 2) * (1 / 2) = 1 / 8 by norm_num,
    show (-2 : ℝ) * (1 / 8) + 3 * (1 / 2 * (1 / 2)) = 1 / 2 by norm_num, h1, quarter, exp_quarter.1, exp_half]
  ext <;> simp [endA]

theorem backward_half : (interpolate axisLogMap endB' endA (-(1 / 2))).rotation =
    quat 0 ![-(√2 / 2), 0, -(√2 / 2)] := by
  have h1 : (7 / 8 : ℝ) • (![-(8 * Real.pi), 0, 0] : Vec3) = ![-(7 * Real.pi), 0, 0] := by
    ext i
    fin_cases i <;> simp
    ring
  have hα : (-(1 / 2 : ℝ) - endB'.time) / (endA.time - endB'.time) = 1 / 2 := by norm_num [endA, endB']
  have h2 : exponentialMap ![-(7 * Real.pi), 0, 0] = quat 0 ![1, 0, 0] := by
    have hp := Real.pi_pos
    rw [exp_x_neg (by positivity), show 7 * Real.pi / 2 = Real.pi / 2 + Real.pi + 2 * Real.pi by ring,
      Real.cos_add_two_pi, Real.sin_add_two_pi, Real.cos_add_pi, Real.sin_add_pi, Real.cos_pi_div_two,
      Real.sin_pi_div_two]
    simp
  simp only [interpolate, control_backward, smul_zero, exponentialMap_zero, hα]
  rw [show (1 / 2 : ℝ) * (1 / 2) * (1 / 2) = 1 / 8 by norm_num,
    show (-2 : ℝ) * (1 / 8) + 3 * (1 / 2 * (1 / 2)) = 1 / 2 by norm_num,
    show (1 / 8 : ℝ) - 3 * (1 / 2 * (1 / 2)) + 3 * (1 / 2) = 7 / 8 by norm_num, h1, quarter, neg_div,
    exp_quarter.2, h2]
  ext <;> simp [endB', qy]

/-- Two nodes with the same times and coefficients. -/
theorem interpolate_congr (L : LogMap) {a b a' b' : Node ℝ HKnot} (h1 : a'.time = a.time) (h2 : b'.time = b.time)
    (h3 : a'.coef = a.coef) (h4 : b'.coef = b.coef) (t : ℝ) : interpolate L a' b' t = interpolate L a b t := by
  simp only [interpolate, controlVectors, h1, h2, h3, h4]

/-- A fit of two points, between them. -/
theorem fit_two (L : LogMap) {a b : Node ℝ HKnot} (hab : a.time < b.time) (c : SE3) {t : ℝ} (h0 : a.time ≤ t)
    (h1 : t < b.time) :
    ∃ c1 ks, fitCurveWithDerivatives L [a.time, b.time] [a.coef.transformation, b.coef.transformation]
        a.coef.derivative b.coef.derivative c = .ok (c1, ks) ∧
      evaluate L t c1 = .ok (some (interpolate L a b t)) := by
  obtain ⟨c1, ks, cs, e, f, l, s, n⟩ := fit_increasing L (ts := [a.time, b.time])
    (vs := [a.coef.transformation, b.coef.transformation]) rfl (by simpa using hab) a.coef.derivative
    b.coef.derivative c
  obtain rfl : [a.coef, b.coef] = cs := by simpa [fitLoop, knotDerivative] using f
  refine ⟨c1, ks, e, ?_⟩
  obtain ⟨pre, a', b', post, hm, ta, tb, ca, cb⟩ : ∃ pre a' b' post, c1.m.nodes = pre ++ a' :: b' :: post ∧
      a'.time = a.time ∧ b'.time = b.time ∧ a'.coef = a.coef ∧ b'.coef = b.coef := by
    simp only [Mgr.knots, List.zip_cons_cons, List.zip_nil_right] at n
    obtain ⟨a', r, hr, ha, n⟩ := List.map_eq_cons_iff.1 n
    obtain ⟨b', r, rfl, hb, n⟩ := List.map_eq_cons_iff.1 n
    simp only [Prod.mk.injEq] at ha hb
    exact ⟨[], a', b', r, hr, ha.1, hb.1, ha.2, hb.2⟩
  rw [evaluate_eq, evalWith_interior s hm (by rw [ta]; exact h0) (by rw [tb]; exact h1),
    interpolate_congr L ta tb ca cb]

/-- The opposite of a twist. -/
noncomputable def opposite (d : Twist) : Twist := ⟨-d.translationalVelocity, -d.rotationalVelocity⟩

/-- **Reversal is false of rotations**, even for two points, with the usual logarithm: the same two points in
reverse order at the negated times, with the end derivatives exchanged and negated, do not give the same
rotations backwards. Half way the two curves are a half turn apart. -/
theorem C94_reversal_refuted (c c' : SE3) : ∃ (ts : List ℝ) (vs : List Pose) (d0 dT : Twist) (t : ℝ)
    (c1 c2 : SE3) (k1 k2 : List Key) (p1 p2 : Pose),
    ts.Pairwise (· < ·) ∧ (∀ v ∈ vs, Quaternion.normSq v.rotation = 1) ∧
    fitCurveWithDerivatives axisLogMap ts vs d0 dT c = .ok (c1, k1) ∧
    fitCurveWithDerivatives axisLogMap (ts.map (-·)).reverse vs.reverse (opposite dT) (opposite d0) c' =
      .ok (c2, k2) ∧
    evaluate axisLogMap t c1 = .ok (some p1) ∧ evaluate axisLogMap (-t) c2 = .ok (some p2) ∧
    ∃ v, rotate p2.rotation v = -rotate p1.rotation v ∧ rotate p1.rotation v ≠ 0 := by
  obtain ⟨c1, k1, e1, f1⟩ := fit_two axisLogMap (a := endA) (b := endB) (by norm_num [endA, endB]) c (t := 1 / 2)
    (by norm_num [endA]) (by norm_num [endB])
  obtain ⟨c2, k2, e2, f2⟩ := fit_two axisLogMap (a := endB') (b := endA) (by norm_num [endA, endB']) c'
    (t := -(1 / 2)) (by norm_num [endB']) (by norm_num [endA])
  refine ⟨[0, 1], [⟨0, 1⟩, ⟨0, qy⟩], ⟨0, 0⟩, ⟨0, ![-(24 * Real.pi), 0, 0]⟩, 1 / 2, c1, c2, k1, k2, _, _, by simp,
    ?_, e1, ?_, f1, f2, ![1, 0, 0], ?_⟩
  · have : Quaternion.normSq qy = 1 := by rw [Quaternion.normSq_def']; simp [qy]
    simp [this]
  · rw [← e2]
    simp [opposite, endA, endB']
  · have h2 : √2 / 2 * (√2 / 2) = 1 / 2 := by
      have := Real.mul_self_sqrt (show (0 : ℝ) ≤ 2 by norm_num)
      linarith
    have r1 : rotate (quat 0 ![√2 / 2, 0, -(√2 / 2)]) ![1, 0, 0] = ![0, 0, -1] := by
      ext i
      fin_cases i <;> first | (simp [rotate, imaginary, vec]; done) | (simp [rotate, imaginary, vec]; linarith)
    have r2 : rotate (quat 0 ![-(√2 / 2), 0, -(√2 / 2)]) ![1, 0, 0] = ![0, 0, 1] := by
      ext i
      fin_cases i <;> first | (simp [rotate, imaginary, vec]; done) | (simp [rotate, imaginary, vec]; linarith)
    rw [forward_half, backward_half, r1, r2]
    refine ⟨by ext i; fin_cases i <;> simp, fun h => ?_⟩
    have := congrFun h 2
    simp at this

example : axisLogMap.Turns ∧ axisLogMap.Inverts := ⟨axisLogMap_turns, axisLogMap_inverts⟩

theorem slope_opposite {L : LogMap} (hL : L.Inverts) (ta tb : ℝ) {va vb : Pose} (ha : IsUnit' va.rotation)
    (hb : IsUnit' vb.rotation) :
    calculateSlope L (-tb) (-ta) vb va = opposite (calculateSlope L ta tb va vb) := by
  have h := hL _ (isUnit_mul hb (isUnit_star ha))
  rw [star_mul, star_star] at h
  simp only [calculateSlope, opposite, boxMinus, inverted, h]
  rw [show -ta - -tb = tb - ta by ring, ← smul_neg, ← smul_neg, neg_sub]

/-- The knots of data in reverse order. -/
theorem fitLoop_reversed {L : LogMap} (hL : L.Inverts) {ts : List ℝ} {vs : List Pose}
    (hl : ts.length = vs.length) (hu : ∀ v ∈ vs, IsUnit' v.rotation) {d0 dT : Twist}
    (h1 : ts.length = 1 → dT = d0) {cs cs' : List HKnot}
    (e : fitLoop L ts vs d0 dT ts.length 0 = .ok cs)
    (e' : fitLoop L (ts.map (-·)).reverse vs.reverse (opposite dT) (opposite d0) ts.length 0 = .ok cs') :
    cs' = (cs.map fun k => (⟨k.transformation, opposite k.derivative⟩ : HKnot)).reverse := by
  obtain ⟨x, ex, hx, h⟩ := fitLoop_ok L ts vs d0 dT hl.le ts.length 0 (by omega)
  obtain ⟨y, ey, hy, h'⟩ := fitLoop_ok L (ts.map (-·)).reverse vs.reverse (opposite dT) (opposite d0)
    (by simp [hl]) ts.length 0 (by simp)
  rw [ex] at e; cases e
  rw [ey] at e'; cases e'
  refine List.ext_getElem (by simp [hx, hy]) fun j hj _ => ?_
  rw [List.getElem_reverse, List.getElem_map]
  simp only [List.length_map, hx]
  rw [hy] at hj
  obtain ⟨k, k1, k2, k3, k4, k5⟩ := h (ts.length - 1 - j) (by omega)
  obtain ⟨k', q1, q2, q3, q4, q5⟩ := h' j hj
  rw [k1, q1]
  simp only [Nat.zero_add, List.length_reverse, List.length_map, List.getElem_reverse,
    List.getElem_map, ← hl] at k2 k3 k4 k5 q2 q3 q4 q5
  obtain ⟨p, v⟩ := k'
  simp only at q2 q3 q4 q5
  have hp : p = k.transformation := by rw [q2, k2]
  have hv : v = opposite k.derivative := by
    by_cases hj0 : j = 0
    · rw [q3 hj0]
      by_cases hn : ts.length = 1
      · rw [k3 (by omega), h1 hn]
      · rw [k4 (by omega) (by omega)]
    · by_cases hj1 : j = ts.length - 1
      · rw [q4 hj0 hj1, k3 (by omega)]
      · rw [q5 hj0 hj1, k5 (by omega) (by omega), ← slope_opposite hL _ _ (hu _ (List.getElem_mem _))
          (hu _ (List.getElem_mem _))]
        have i1 : ts.length - 1 - (j - 1) = ts.length - 1 - j + 1 := by omega
        have i2 : ts.length - 1 - (j + 1) = ts.length - 1 - j - 1 := by omega
        simp only [i1, i2]
  rw [hp, hv]

/-- **C94**, reversal (partial). The same points in reverse order at the negated times, with the end
derivatives exchanged and negated, give the same knots backwards, and between them the same positions and
the opposite linear velocities. Missing: rotations between the knots, see `C94_reversal_refuted`. -/
theorem C94_reversal_partial {L : LogMap} (hL : L.Inverts) (ts : List ℝ) (vs : List Pose)
    (hl : ts.length = vs.length) (hne : ts ≠ []) (hinc : ts.Pairwise (· < ·))
    (hu : ∀ v ∈ vs, Quaternion.normSq v.rotation = 1) (d0 dT : Twist) (h1 : ts.length = 1 → dT = d0)
    (c c' : SE3) :
    ∃ c1 c2 k1 k2, fitCurveWithDerivatives L ts vs d0 dT c = .ok (c1, k1) ∧
      fitCurveWithDerivatives L (ts.map (-·)).reverse vs.reverse (opposite dT) (opposite d0) c' =
        .ok (c2, k2) ∧
      c2.m.knots = (c1.m.knots.map fun p => (-p.1, ⟨p.2.transformation, opposite p.2.derivative⟩)).reverse ∧
      ∀ t, (evaluate L (-t) c2 >>= fun r => .ok (r.map Pose.position)) =
          (evaluate L t c1 >>= fun r => .ok (r.map Pose.position)) ∧
        (evaluateDerivative L (-t) 1 c2 >>= fun r => .ok (r.map Twist.translationalVelocity)) =
          (evaluateDerivative L t 1 c1 >>= fun r => .ok (r.map fun d => -d.translationalVelocity)) := by
  obtain ⟨c1, k1, cs, e1, f1, l1, s1, n1⟩ := fit_increasing L hl hinc d0 dT c
  obtain ⟨c2, k2, cs2, e2, f2, l2, s2, n2⟩ := fit_increasing L (ts := (ts.map (-·)).reverse)
    (vs := vs.reverse) (by simp [hl])
    (by
      rw [List.pairwise_reverse, List.pairwise_map]
      exact hinc.imp fun h => neg_lt_neg h) (opposite dT) (opposite d0) c'
  have hcs : cs2 = (cs.map fun k => (⟨k.transformation, opposite k.derivative⟩ : HKnot)).reverse :=
    fitLoop_reversed hL hl hu h1 f1 (by simpa using f2)
  have hk : c2.m.knots =
      (c1.m.knots.map fun p => (-p.1, ⟨p.2.transformation, opposite p.2.derivative⟩)).reverse := by
    rw [n2, n1, hcs, List.zip, ← List.reverse_zipWith (by simp [l1]), ← List.zip, List.zip_map]
    rfl
  have hne1 : c1.m.knots ≠ [] := by
    rw [n1]
    cases ts with
    | nil => exact absurd rfl hne
    | cons t ts =>
      cases cs with
      | nil => simp at l1
      | cons k cs => simp
  have hφ : StrictAnti fun t : ℝ => -t := fun s t h => neg_lt_neg h
  refine ⟨c1, c2, k1, k2, e1, e2, hk, fun t => ⟨?_, ?_⟩⟩
  · have := evalWith_reversed (φ := fun t : ℝ => -t)
      (F := fun k : HKnot => (⟨k.transformation, opposite k.derivative⟩ : HKnot))
      (single := fun k : HKnot => k.transformation.position)
      (single' := fun k : HKnot => k.transformation.position)
      (f := fun a b t => (interpolate L a b t).position) (f' := fun a b t => (interpolate L a b t).position)
      hφ s1 hne1 id hk
      (fun _ _ => rfl) (fun a b _ => E3.interpolate_left (tr a) (tr b))
      (fun a b h => E3.interpolate_right (a := tr a) (b := tr b) h)
      (fun a b _ => E3.interpolate_left (tr a) (tr b))
      (fun a b h => E3.interpolate_right (a := tr a) (b := tr b) h) t
      (fun a b a' b' h h1 h2 h3 h4 => (E3.interpolate_reversed (p := tr a) (q := tr b) (p' := tr a')
        (q' := tr b') h t h1 h2 (by simp only [tr, translationPart, h3]; rfl)
        (by simp only [tr, translationPart, h4]; rfl)).1)
    rw [evaluate_eq, evaluate_eq, ← evalWith_map Pose.position, ← evalWith_map Pose.position, this]
    cases evalWith (fun k : HKnot => k.transformation.position) (fun a b t => (interpolate L a b t).position) t
      c1.m <;> simp
  · have := evalWith_reversed (φ := fun t : ℝ => -t)
      (F := fun k : HKnot => (⟨k.transformation, opposite k.derivative⟩ : HKnot))
      (single := fun k : HKnot => k.derivative.translationalVelocity)
      (single' := fun k : HKnot => k.derivative.translationalVelocity)
      (f := fun a b t => (interpolateTwist L a b t).translationalVelocity)
      (f' := fun a b t => (interpolateTwist L a b t).translationalVelocity)
      hφ s1 hne1 (fun v => -v) hk
      (fun _ _ => rfl) (fun a b _ => E3.velocity_left (tr a) (tr b))
      (fun a b h => E3.velocity_right (a := tr a) (b := tr b) h)
      (fun a b _ => E3.velocity_left (tr a) (tr b))
      (fun a b h => E3.velocity_right (a := tr a) (b := tr b) h) t
      (fun a b a' b' h h1 h2 h3 h4 => (E3.interpolate_reversed (p := tr a) (q := tr b) (p' := tr a')
        (q' := tr b') h t h1 h2 (by simp only [tr, translationPart, h3]; rfl)
        (by simp only [tr, translationPart, h4]; rfl)).2.1)
    rw [evaluateDerivative_eq, evaluateDerivative_eq, ← evalWith_map Twist.translationalVelocity, this,
      evalWith_map Twist.translationalVelocity]
    cases evalWith HKnot.derivative (interpolateTwist L) t c1.m <;> simp [Function.comp_def]

/-- An instance of the reversal: three poses, one of them turned. -/
example : ∃ c1 c2 k1 k2,
    fitCurveWithDerivatives axisLogMap [0, 1, 3] [⟨0, 1⟩, ⟨![1, 2, 3], quat 0 ![1, 0, 0]⟩, ⟨![6, 0, 0], 1⟩]
      Twist.zero ⟨![1, 0, 0], 0⟩ demo = .ok (c1, k1) ∧
    fitCurveWithDerivatives axisLogMap ([0, 1, 3].map (-·)).reverse [⟨0, 1⟩, ⟨![1, 2, 3], quat 0 ![1, 0, 0]⟩,
      ⟨![6, 0, 0], 1⟩].reverse (opposite ⟨![1, 0, 0], 0⟩) (opposite Twist.zero) demo = .ok (c2, k2) ∧
    (evaluate axisLogMap (-2) c2 >>= fun r => .ok (r.map Pose.position)) =
          (evaluate axisLogMap 2 c1 >>= fun r => .ok (r.map Pose.position)) := by
  obtain ⟨c1, c2, k1, k2, h1, h2, -, h3⟩ := C94_reversal_partial axisLogMap_inverts [0, 1, 3]
    [⟨0, 1⟩, ⟨![1, 2, 3], quat 0 ![1, 0, 0]⟩, ⟨![6, 0, 0], 1⟩] rfl (by simp)
    (by simp) (by simp [half_turn_unit]) Twist.zero ⟨![1, 0, 0], 0⟩ (by simp) demo demo
  exact ⟨c1, c2, k1, k2, h1, h2, (h3 2).1⟩

end Verif.Hermite.SE3

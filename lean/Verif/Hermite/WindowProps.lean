import Verif.Hermite.LocalProps
import Verif.Hermite.SE3EquivProps
import Verif.Manager.LocalLemmas

/-!
# Property C105 for the cubic Hermite curves: what the value at a time depends on
-/

set_option linter.unusedSectionVars false
set_option linter.dupNamespace false

namespace Verif.Hermite

open Verif.Manager Verif.Kindr

namespace E3

variable {K V : Type} [Field K] [LinearOrder K] [IsStrictOrderedRing K] [AddCommGroup V] [Module K V]

/-- **C105**, positions and velocities. Two cubic Hermite curves with the same knots from `ta` to `tb` (two of them at `ta`
and `tb`) have the same values and derivatives there. -/
theorem C105_E3 {c c' : E3 K V} (hr : Reachable c) (hr' : Reachable c') {ta tb : K} {A B : Knot V}
    (ha : (ta, A) ∈ c.m.knots) (hb : (tb, B) ∈ c.m.knots) (hag : AgreeOn ta tb c.m.knots c'.m.knots) {t : K}
    (h0 : ta ≤ t) (h1 : t ≤ tb) :
    evaluate t c' = evaluate t c ∧ evaluateDerivative t 1 c' = evaluateDerivative t 1 c := by
  rcases h1.eq_or_lt with rfl | h1
  · obtain ⟨e1, e2⟩ := C35_interpolates hr hb
    obtain ⟨e3, e4⟩ := C35_interpolates hr' ((hag t B h0 le_rfl).1 hb)
    rw [e1, e2, e3, e4]
    exact ⟨rfl, rfl⟩
  · constructor
    · rw [evaluate_eq, evaluate_eq, evalWith_local hr.sorted hr'.sorted ha hb hag h0 h1]
      intro a b a' b' e1 e2 e3 e4
      simp only [interpolate, e1, e2, e3, e4]
    · rw [velocity_eq, velocity_eq, evalWith_local hr.sorted hr'.sorted ha hb hag h0 h1]
      intro a b a' b' e1 e2 e3 e4
      simp only [interpolateVelocity, e1, e2, e3, e4]

/-- A curve with the first two knots of `demo`. -/
def demo2 : E3 ℚ ℚ :=
  ⟨⟨3, 3⟩, ⟨[⟨0, 1, 1, ⟨5, 0⟩⟩, ⟨1, 2, 2, ⟨7, 1 / 3⟩⟩, ⟨2, 7, 3, ⟨7, 0⟩⟩], [(1, 0), (2, 1), (3, 2)]⟩⟩

theorem demo2_reachable : Reachable demo2 := by
  refine ⟨false, ⟨0, 0⟩, [.fit [1, 2, 7] [5, 7, 7]], ?_⟩
  simp [run, step, fitCurve, fitCurveWithDerivatives, fitLoop, knotDerivative, fresh,
    Mgr.insertCoefficients, Mgr.insertLoop, Mgr.insertCoefficient, Mgr.empty, scanAtTime, getNextKey,
    newAddr, mapInsert, kmSet, calculateSlope, demo2]
  norm_num

/-- Hypotheses of `C105_E3` met: two fits that share their first segment. -/
example : evaluate (3 / 2) demo2 = evaluate (3 / 2) demo := by
  refine (C105_E3 demo_reachable demo2_reachable (ta := 1) (tb := 2) (A := ⟨5, 0⟩) (B := ⟨7, 1 / 3⟩)
    (by simp [demo, Mgr.knots]) (by simp [demo, Mgr.knots]) ?_ (by norm_num) (by norm_num)).1
  intro x v h1 h2
  have a : x ≠ 4 := by rintro rfl; norm_num at h2
  have b : x ≠ 7 := by rintro rfl; norm_num at h2
  simp [demo, demo2, Mgr.knots, a, b]

end E3

namespace SE3

/-- The formulas look only at times and values. -/
theorem formulas_congr (L : LogMap) {a b a' b' : Node ℝ HKnot} (e1 : a'.time = a.time) (e2 : a'.coef = a.coef)
    (e3 : b'.time = b.time) (e4 : b'.coef = b.coef) (t : ℝ) : interpolate L a' b' t = interpolate L a b t ∧
    interpolateTwist L a' b' t = interpolateTwist L a b t ∧
    interpolateAcceleration a' b' t = interpolateAcceleration a b t := by
  obtain ⟨_, _, _, _⟩ := a
  obtain ⟨_, _, _, _⟩ := b
  obtain ⟨_, _, _, _⟩ := a'
  obtain ⟨_, _, _, _⟩ := b'
  simp only at e1 e2 e3 e4
  subst e1 e2 e3 e4
  exact ⟨rfl, rfl, rfl⟩

/-- **C105**, poses and twists. Two SE3 Hermite curves with the same knots from `ta` to `tb` (two of them at `ta` and `tb`) have
the same poses, twists and linear accelerations before `tb`; at `tb` the same twist, the same position, and the
same rotation up to the sign of the quaternion. -/
theorem C105_SE3 {L : LogMap} {c c' : SE3} (hr : Reachable L c) (hr' : Reachable L c') {ta tb : ℝ} {A B : HKnot}
    (ha : (ta, A) ∈ c.m.knots) (hb : (tb, B) ∈ c.m.knots) (hag : AgreeOn ta tb c.m.knots c'.m.knots) :
    (∀ t, ta ≤ t → t < tb → evaluate L t c' = evaluate L t c ∧
      evaluateDerivative L t 1 c' = evaluateDerivative L t 1 c ∧
      evaluateLinearAcceleration t c' = evaluateLinearAcceleration t c) ∧
    (ta ≤ tb → evaluateDerivative L tb 1 c' = evaluateDerivative L tb 1 c ∧
      ∃ p p', evaluate L tb c = .ok (some p) ∧ evaluate L tb c' = .ok (some p') ∧ p'.position = p.position ∧
        ∀ u, rotate p'.rotation u = rotate p.rotation u) := by
  have hs := hr.good.1
  have hs' := hr'.good.1
  refine ⟨fun t h0 h1 => ⟨?_, ?_, ?_⟩, fun h0 => ?_⟩
  · rw [evaluate_eq, evaluate_eq, evalWith_local hs hs' ha hb hag h0 h1]
    intro a b a' b' e1 e2 e3 e4
    exact (formulas_congr L e1 e2 e3 e4 t).1
  · rw [evaluateDerivative_eq, evaluateDerivative_eq, evalWith_local hs hs' ha hb hag h0 h1]
    intro a b a' b' e1 e2 e3 e4
    exact (formulas_congr L e1 e2 e3 e4 t).2.1
  · have hf : ∀ a b a' b' : Node ℝ HKnot, a'.time = a.time → a'.coef = a.coef → b'.time = b.time →
        b'.coef = b.coef → interpolateAcceleration a' b' t = interpolateAcceleration a b t := by
      intro a b a' b' e1 e2 e3 e4
      exact (formulas_congr L e1 e2 e3 e4 t).2.2
    have key := evalWith_local (single := fun _ => (0 : Vec3)) (f := interpolateAcceleration) hs hs' ha hb hag h0 h1 hf
    have two : ∀ {m : Mgr ℝ HKnot}, Sorted m.nodes → (ta, A) ∈ m.knots → (tb, B) ∈ m.knots →
        ¬(m.getMaxTime = t ∧ m.getMinTime = t) := by
      intro m hm g1 g2 ⟨q1, q2⟩
      obtain ⟨n, hn, e⟩ := List.mem_map.1 g2
      cases e
      have := (min_le_node hm hn).2
      rw [q1] at this
      exact absurd h1 (not_lt.2 this)
    have ht := h0.trans h1.le
    rw [evalWith, evalWith, if_neg (two hs ha hb), if_neg (two hs' ((hag _ _ le_rfl ht).1 ha)
      ((hag _ _ ht le_rfl).1 hb))] at key
    rw [evaluateLinearAcceleration, evaluateLinearAcceleration]
    generalize c'.m.getCoefficientsAt t = x at key ⊢
    generalize c.m.getCoefficientsAt t = y at key ⊢
    cases x <;> cases y <;> exact key
  · obtain ⟨⟨p, e1, e2, -, e3⟩, e4⟩ := C35_interpolates hr hb
    obtain ⟨⟨p', f1, f2, -, f3⟩, f4⟩ := C35_interpolates hr' ((hag tb B h0 le_rfl).1 hb)
    exact ⟨by rw [e4, f4], p, p', e1, f1, by rw [e2, f2], fun u => by rw [e3, f3]⟩

/-- Hypotheses of `C105_SE3` met: a curve, and the same curve extended by another knot. -/
example (L : LogMap) {c' : SE3} (hr' : Reachable L c') {k : HKnot}
    (hk : c'.m.knots = demo.m.knots ++ [(9, k)]) : evaluate L 2 c' = evaluate L 2 demo := by
  refine ((C105_SE3 (demo_reachable L) hr' (ta := 1) (tb := 4) (A := ⟨⟨![5, 0, 0], 1⟩, ⟨0, ![1, 0, 2]⟩⟩)
    (B := ⟨⟨![7, 1, 0], Kindr.quat 0 ![1, 0, 0]⟩, Twist.zero⟩) ?_ ?_ ?_).1 2 (by norm_num) (by norm_num)).1
  · simp [demo, Mgr.knots]
  · simp [demo, Mgr.knots]
  · intro x v h1 h2
    rw [hk, List.mem_append, List.mem_singleton]
    constructor
    · exact Or.inl
    · rintro (h | h)
      · exact h
      · rw [(Prod.mk.inj h).1] at h2
        norm_num at h2

/-! ## Fits -/

open E3 (AgreeAround)

theorem knot_local {L : LogMap} {ts ts' : List ℝ} {vs vs' : List Pose} {d0 dT d0' dT' : Twist} {cs cs' : List HKnot}
    (hl : ts.length = vs.length) (hl' : ts'.length = vs'.length)
    (e : fitLoop L ts vs d0 dT ts.length 0 = .ok cs) (e' : fitLoop L ts' vs' d0' dT' ts'.length 0 = .ok cs')
    {j : ℕ} (hj : j < ts.length)
    (ht : ∀ k, j ≤ k + 1 → k ≤ j + 1 → ts[k]? = ts'[k]?)
    (hv : ∀ k, j ≤ k + 1 → k ≤ j + 1 → vs[k]? = vs'[k]?)
    (h0 : j = 0 → d0' = d0) (hT : j + 1 = ts.length → dT' = dT) : cs[j]? = cs'[j]? := by
  have hj' : j < ts'.length := by
    have := ht j (by omega) (by omega)
    rw [List.getElem?_eq_getElem hj] at this
    exact (List.getElem?_eq_some_iff.1 this.symm).1
  obtain ⟨x, ex, hx, h⟩ := fitLoop_ok L ts vs d0 dT hl.le ts.length 0 (by omega)
  obtain ⟨y, ey, hy, h'⟩ := fitLoop_ok L ts' vs' d0' dT' hl'.le ts'.length 0 (by omega)
  rw [ex] at e; cases e
  rw [ey] at e'; cases e'
  obtain ⟨k, k1, k2, k3, k4, k5⟩ := h j hj
  obtain ⟨k', q1, q2, q3, q4, q5⟩ := h' j hj'
  simp only [Nat.zero_add] at k2 k3 k4 k5 q2 q3 q4 q5
  rw [List.getElem?_eq_getElem (by omega), List.getElem?_eq_getElem (by omega), k1, q1]
  have hend : j = ts.length - 1 ↔ j = ts'.length - 1 := by
    have := ht (j + 1) (by omega) (by omega)
    have e1 : ts[j + 1]? = none ↔ ts'[j + 1]? = none := by rw [this]
    simp only [List.getElem?_eq_none_iff] at e1
    omega
  obtain ⟨p, v⟩ := k
  obtain ⟨p', v'⟩ := k'
  simp only at k2 k3 k4 k5 q2 q3 q4 q5
  have hp : p = p' := by
    have := hv j (by omega) (by omega)
    rw [List.getElem?_eq_getElem (by omega), List.getElem?_eq_getElem (by omega)] at this
    rw [k2, q2]
    exact Option.some.inj this
  have hvv : v = v' := by
    by_cases hj0 : j = 0
    · rw [k3 hj0, q3 hj0, h0 hj0]
    · by_cases hj1 : j = ts.length - 1
      · rw [k4 hj0 hj1, q4 hj0 (hend.1 hj1), hT (by omega)]
      · have hj2 : ¬ j = ts'.length - 1 := fun h => hj1 (hend.2 h)
        rw [k5 hj0 hj1, q5 hj0 hj2]
        have a1 := ht (j - 1) (by omega) (by omega)
        have a2 := ht (j + 1) (by omega) (by omega)
        have a3 := hv (j - 1) (by omega) (by omega)
        have a4 := hv (j + 1) (by omega) (by omega)
        rw [List.getElem?_eq_getElem (by omega), List.getElem?_eq_getElem (by omega)] at a1 a2 a3 a4
        rw [Option.some.inj a1, Option.some.inj a2, Option.some.inj a3, Option.some.inj a4]
  rw [hp, hvv]

/-- The nodes of a fitted curve at the ends of the segment `i`. -/
theorem fit_segment {ts : List ℝ} {cs : List HKnot} {c : SE3} (hk : c.m.knots = ts.zip cs)
    (hcs : cs.length = ts.length) {i : ℕ} (hi : i + 1 < ts.length) :
    ∃ pre a b post, c.m.nodes = pre ++ a :: b :: post ∧ a.time = ts[i] ∧ b.time = ts[i + 1] ∧
      cs[i]? = some a.coef ∧ cs[i + 1]? = some b.coef := by
  have hlen : c.m.nodes.length = ts.length := by
    have := congrArg List.length hk
    simpa [Mgr.knots, hcs] using this
  have key : ∀ j (hj : j < ts.length), (c.m.nodes[j]).time = ts[j] ∧ cs[j]? = some (c.m.nodes[j]).coef := by
    intro j hj
    have := congrArg (fun l => l[j]?) hk
    simp only [Mgr.knots, List.getElem?_map] at this
    rw [List.getElem?_eq_getElem (by omega), List.getElem?_eq_getElem (by simp [hcs]; omega),
      List.getElem_zip] at this
    simp only [Option.map_some, Option.some.injEq, Prod.mk.injEq] at this
    refine ⟨this.1, ?_⟩
    rw [List.getElem?_eq_getElem (by omega), this.2]
  refine ⟨_, _, _, _, E3.split_at c.m.nodes i (by omega), ?_⟩
  exact ⟨(key i (by omega)).1, (key (i + 1) hi).1, (key i (by omega)).2, (key (i + 1) hi).2⟩

/-- **C92 for poses.** On the segment from pose `i` to pose `i + 1` a fitted SE3 Hermite curve depends only on the poses
`i - 1` to `i + 2` (and, on the first and the last segment, on the derivative at that end): two fits whose data agree there
have the same poses, twists and linear accelerations before the end of the segment, whatever the other poses are, however many
there are, and whatever the curves held before. -/
theorem C92_poses (L : LogMap) {ts ts' : List ℝ} {vs vs' : List Pose} (hl : ts.length = vs.length)
    (hl' : ts'.length = vs'.length) (hinc : ts.Pairwise (· < ·)) (hinc' : ts'.Pairwise (· < ·))
    {d0 dT d0' dT' : Twist} {b0 b0' c c' : SE3} {ks ks' : List Key}
    (e : fitCurveWithDerivatives L ts vs d0 dT b0 = .ok (c, ks))
    (e' : fitCurveWithDerivatives L ts' vs' d0' dT' b0' = .ok (c', ks'))
    {i : ℕ} (hi : i + 1 < ts.length) (ht : AgreeAround i ts ts') (hv : AgreeAround i vs vs')
    (h0 : i = 0 → d0' = d0) (hT : i + 2 = ts.length → dT' = dT) (t : ℝ) (h1 : ts[i] ≤ t)
    (h2 : t < ts[i + 1]) :
    evaluate L t c' = evaluate L t c ∧ evaluateDerivative L t 1 c' = evaluateDerivative L t 1 c ∧
      evaluateLinearAcceleration t c' = evaluateLinearAcceleration t c := by
  obtain ⟨c1, k1, cs, e1, f1, l1, s1, n1⟩ := fit_increasing L hl hinc d0 dT b0
  obtain ⟨c2, k2, cs', e2, f2, l2, s2, n2⟩ := fit_increasing L hl' hinc' d0' dT' b0'
  rw [e1] at e; cases e
  rw [e2] at e'; cases e'
  have hi' : i + 1 < ts'.length := by
    have := ht (i + 1) (by omega) (by omega)
    rw [List.getElem?_eq_getElem hi] at this
    exact (List.getElem?_eq_some_iff.1 this.symm).1
  obtain ⟨pre, a, b, post, hm, ta, tb, ca, cb⟩ := fit_segment n1 l1 hi
  obtain ⟨pre', a', b', post', hm', ta', tb', ca', cb'⟩ := fit_segment n2 l2 hi'
  have hti : ∀ j (hj : j < ts.length) (hj' : j < ts'.length), i ≤ j + 1 → j ≤ i + 2 → ts'[j] = ts[j] := by
    intro j hj hj' h1 h2
    have := ht j h1 h2
    rw [List.getElem?_eq_getElem hj, List.getElem?_eq_getElem hj'] at this
    exact (Option.some.inj this).symm
  have ea : a'.time = a.time ∧ a'.coef = a.coef := by
    refine ⟨by rw [ta, ta', hti i (by omega) (by omega) (by omega) (by omega)], ?_⟩
    have := knot_local hl hl' f1 f2 (j := i) (by omega) (fun k h1 h2 => ht k h1 (by omega))
      (fun k h1 h2 => hv k h1 (by omega)) h0 (fun h => by omega)
    rw [ca, ca'] at this
    exact (Option.some.inj this).symm
  have eb : b'.time = b.time ∧ b'.coef = b.coef := by
    refine ⟨by rw [tb, tb', hti (i + 1) (by omega) (by omega) (by omega) (by omega)], ?_⟩
    have := knot_local hl hl' f1 f2 (j := i + 1) (by omega) (fun k h1 h2 => ht k (by omega) (by omega))
      (fun k h1 h2 => hv k (by omega) (by omega)) (fun h => by omega) (fun h => hT (by omega))
    rw [cb, cb'] at this
    exact (Option.some.inj this).symm
  rw [← ta] at h1
  rw [← tb] at h2
  have h1' : a'.time ≤ t := by rw [ea.1]; exact h1
  have h2' : t < b'.time := by rw [eb.1]; exact h2
  refine ⟨?_, ?_, ?_⟩
  · rw [evaluate_eq, evaluate_eq, evalWith_interior s1 hm h1 h2, evalWith_interior s2 hm' h1' h2']
    rw [(formulas_congr L ea.1 ea.2 eb.1 eb.2 t).1]
  · rw [evaluateDerivative_eq, evaluateDerivative_eq, evalWith_interior s1 hm h1 h2, evalWith_interior s2 hm' h1' h2']
    rw [(formulas_congr L ea.1 ea.2 eb.1 eb.2 t).2.1]
  · rw [evaluateLinearAcceleration, evaluateLinearAcceleration, getAt_interior s1 hm h1 h2,
      getAt_interior s2 hm' h1' h2']
    simp only [(formulas_congr L ea.1 ea.2 eb.1 eb.2 t).2.2]

/-- Hypotheses of `C92_poses` met: a fit through five poses and one where the first is moved and a sixth added agree between
the third and the fourth. -/
example (L : LogMap) (p q r s x y z : Pose) : ∃ c c' : SE3,
    (∃ ks, fitCurve L [1, 2, 4, 5, 7] [x, p, q, r, s] (fresh ⟨0, 0⟩) = .ok (c, ks)) ∧
    (∃ ks, fitCurve L [0, 2, 4, 5, 7, 8] [y, p, q, r, s, z] (fresh ⟨0, 0⟩) = .ok (c', ks)) ∧
    evaluate L (9 / 2) c' = evaluate L (9 / 2) c := by
  have around : ∀ {X : Type} (a b c d x y z : X), ∀ j, 2 ≤ j + 1 → j ≤ 2 + 2 →
      [x, a, b, c, d][j]? = [y, a, b, c, d, z][j]? := by
    intro X a b c d x y z j h1 h2
    have : j = 1 ∨ j = 2 ∨ j = 3 ∨ j = 4 := by omega
    rcases this with rfl | rfl | rfl | rfl <;> rfl
  have hs : ([1, 2, 4, 5, 7] : List ℝ).Pairwise (· < ·) := by norm_num
  have hs' : ([0, 2, 4, 5, 7, 8] : List ℝ).Pairwise (· < ·) := by norm_num
  obtain ⟨c, ks, -, e, -⟩ := fit_increasing L (vs := [x, p, q, r, s]) rfl hs Twist.zero Twist.zero (fresh ⟨0, 0⟩)
  obtain ⟨c', ks', -, e', -⟩ := fit_increasing L (vs := [y, p, q, r, s, z]) rfl hs' Twist.zero Twist.zero
    (fresh ⟨0, 0⟩)
  exact ⟨c, c', ⟨ks, e⟩, ⟨ks', e'⟩, (C92_poses L rfl rfl hs hs' e e' (i := 2) (by simp)
    (around _ _ _ _ _ _ _) (around _ _ _ _ _ _ _) (fun _ => rfl) (fun _ => rfl) (9 / 2)
    (by simp; norm_num) (by simp; norm_num)).1⟩

end SE3

end Verif.Hermite

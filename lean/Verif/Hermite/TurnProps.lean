import Verif.Hermite.TurnLemmas
import Verif.Hermite.ShadowProps
import Verif.Hermite.SE3EquivProps

/-!
# Turning about a fixed axis: the angle of an SE3 Hermite curve is a Hermite curve

C125.
-/

set_option linter.unusedSectionVars false
set_option linter.dupNamespace false

namespace Verif.Hermite.SE3

open Verif.Manager Verif.Kindr Verif.Accuracy Quaternion Set

variable {L : LogMap} {u : Vec3} {q0 : Quat}

/-- Angle and rate at the knots, as functions of the time. -/
structure Turning (L : LogMap) (u : Vec3) (q0 : Quat) (θ ω : ℝ → ℝ) (c : SE3) : Prop where
  attitude : ∀ t k, (t, k) ∈ c.m.knots → Turned L u q0 (θ t) k.transformation.rotation
  rate : ∀ t k, (t, k) ∈ c.m.knots → k.derivative.rotationalVelocity = ω t • u
  steps : (c.m.knots.map Prod.fst).IsChain fun s t => |θ t - θ s - (t - s) / 3 * (ω s + ω t)| < Real.pi

theorem evaluate_turning (hL : L.Near) (hu : vecNorm u = 1) (h0 : IsUnit' q0) {θ ω : ℝ → ℝ} {c : SE3}
    (hs : Sorted c.m.nodes) (h : Turning L u q0 θ ω c) {e : E3 ℝ ℝ}
    (he : e.m.knots = c.m.knots.map fun p => (p.1, ⟨θ p.1, ω p.1⟩)) (t : ℝ) :
    (∀ p, evaluate L t c = .ok (some p) → ∃ a, E3.evaluate t e = .ok (some a) ∧ Turned L u q0 a p.rotation) ∧
    (∀ d, evaluateDerivative L t 1 c = .ok (some d) →
      ∃ r, E3.evaluateDerivative t 1 e = .ok (some r) ∧ d.rotationalVelocity = r • u) := by
  have hmem : ∀ {n : Node ℝ HKnot}, n ∈ c.m.nodes → (n.time, n.coef) ∈ c.m.knots := fun hn =>
    List.mem_map.2 ⟨_, hn, rfl⟩
  have hval : ∀ {n : Node ℝ (Knot ℝ)}, n ∈ e.m.nodes → n.coef = ⟨θ n.time, ω n.time⟩ := by
    intro n hn
    have h1 : (n.time, n.coef) ∈ e.m.knots := List.mem_map.2 ⟨n, hn, rfl⟩
    rw [he] at h1
    obtain ⟨p, -, hp⟩ := List.mem_map.1 h1
    simp only [Prod.mk.injEq] at hp
    rw [← hp.2, hp.1]
  obtain ⟨hmin, hmax, hget⟩ := sameTimes_getAt (m := c.m) (m' := e.m) (by rw [he]; simp) hs t
  have hhead : ∀ n, c.m.nodes.head? = some n → ∃ n', e.m.nodes.head? = some n' ∧ n'.time = n.time := by
    intro n hn
    have := congrArg (fun l => (l.map Prod.fst).head?) he
    simp [Mgr.knots, hn] at this
    obtain ⟨n', h1, h2⟩ := this
    exact ⟨n', h1, h2⟩
  have hseg : ∀ a b a' b', c.m.getCoefficientsAt t = some (a, b) → e.m.getCoefficientsAt t = some (a', b') →
      a'.time = a.time → b'.time = b.time → Turned L u q0 (E3.interpolate a' b' t) (interpolate L a b t).rotation ∧
        (interpolateTwist L a b t).rotationalVelocity = E3.interpolateVelocity a' b' t • u := by
    intro a b a' b' e1 e2 h1 h2
    obtain ⟨pre, post, hm, -⟩ := getAt_some e1
    obtain ⟨pre', post', hm', -⟩ := getAt_some e2
    have ma := hmem (n := a) (by simp [hm])
    have mb := hmem (n := b) (by simp [hm])
    have hst := h.steps
    simp only [Mgr.knots, hm, List.map_append, List.map_cons] at hst
    rw [List.isChain_append_cons_cons] at hst
    exact segment_turned hL hu h0 (neighbours_lt hs hm) (h.attitude _ _ ma) (h.attitude _ _ mb) (h.rate _ _ ma)
      (h.rate _ _ mb) hst.2.1 t h1 h2 (by rw [hval (n := a') (by simp [hm']), h1]) (by
        rw [hval (n := b') (by simp [hm']), h2])
  rw [evaluate_eq, E3.evaluate_eq, evaluateDerivative_eq, E3.velocity_eq]
  unfold evalWith
  rw [hmin, hmax]
  split
  · cases hh : c.m.nodes.head? with
    | none =>
      constructor <;> (intro _ hx; cases hx)
    | some n =>
      obtain ⟨n', hn', ht⟩ := hhead n hh
      have hn := hmem (List.mem_of_head? hh)
      rw [hn', Outcome.deref, Outcome.ok_bind, Outcome.ok_bind, Outcome.deref, Outcome.ok_bind, Outcome.ok_bind,
        hval (List.mem_of_head? hn'), ht]
      constructor
      · rintro p ⟨⟩
        exact ⟨_, rfl, h.attitude _ _ hn⟩
      · rintro d ⟨⟩
        exact ⟨_, rfl, h.rate _ _ hn⟩
  · rcases hget with ⟨e1, e2⟩ | ⟨a, b, a', b', e1, e2, h1, h2⟩
    · rw [e1, e2]
      constructor <;> (intro _ hx; cases hx)
    · rw [e1, e2]
      obtain ⟨k1, k2⟩ := hseg a b a' b' e1 e2 h1 h2
      constructor
      · rintro p ⟨⟩
        exact ⟨_, rfl, k1⟩
      · rintro d ⟨⟩
        exact ⟨_, rfl, k2⟩

/-- C125, evaluating. If the knots of a curve are turned about one axis by the angles `θ` and turn about it at the rates
`ω`, the curve turns about this axis all the time, by the angle the E3 curve of the angles reports, and at its
velocity. The condition on the steps keeps the logarithm away from half turns. -/
theorem C125_evaluate (hL : L.Near) (hu : vecNorm u = 1) (h0 : normSq q0 = 1) {θ ω : ℝ → ℝ} {c : SE3}
    (hr : Reachable L c) (h : Turning L u q0 θ ω c) {e : E3 ℝ ℝ}
    (he : e.m.knots = c.m.knots.map fun p => (p.1, ⟨θ p.1, ω p.1⟩)) (t : ℝ) :
    (∀ p, evaluate L t c = .ok (some p) → ∃ a, E3.evaluate t e = .ok (some a) ∧
      ∀ x, rotate p.rotation x = rotate (exponentialMap (a • u)) (rotate q0 x)) ∧
    (∀ d, evaluateDerivative L t 1 c = .ok (some d) →
      ∃ r, E3.evaluateDerivative t 1 e = .ok (some r) ∧ d.rotationalVelocity = r • u) := by
  obtain ⟨h1, h2⟩ := evaluate_turning hL hu h0 hr.good.1 h he t
  refine ⟨fun p hp => ?_, h2⟩
  obtain ⟨a, ha, hT⟩ := h1 p hp
  exact ⟨a, ha, hT.rotate⟩

/-- Turning by 60 degrees within a second, from rest to rest. -/
noncomputable def turnDemo : SE3 :=
  ⟨⟨2, 2⟩, ⟨[⟨0, 0, 1, ⟨⟨0, 1⟩, Twist.zero⟩⟩,
    ⟨1, 1, 2, ⟨⟨![7, 1, 0], exponentialMap ((Real.pi / 3) • ![0, 0, 1])⟩, Twist.zero⟩⟩], [(1, 0), (2, 1)]⟩⟩

/-- The angles of `turnDemo`. -/
noncomputable def angleDemo : E3 ℝ ℝ :=
  ⟨⟨2, 2⟩, ⟨[⟨0, 0, 1, ⟨0, 0⟩⟩, ⟨1, 1, 2, ⟨Real.pi / 3, 0⟩⟩], [(1, 0), (2, 1)]⟩⟩

theorem turnDemo_reachable (L : LogMap) : Reachable L turnDemo := by
  refine ⟨⟨0, 0⟩, [.fit [0, 1] [⟨0, 1⟩, ⟨![7, 1, 0], exponentialMap ((Real.pi / 3) • ![0, 0, 1])⟩]], ?_, ?_⟩
  · simp only [forall_eq, Op.UnitRotations, List.mem_cons, List.not_mem_nil, or_false, forall_eq_or_imp]
    exact ⟨by simp, isUnit_exp _⟩
  · simp [run, step, fitCurve, fitCurveWithDerivatives, fitLoop, knotDerivative, fresh, clear, Mgr.clear,
      Mgr.insertCoefficients, Mgr.insertLoop, Mgr.insertCoefficient, Mgr.empty, scanAtTime, getNextKey,
      newAddr, mapInsert, kmSet, turnDemo, (by norm_num : ¬(1 : ℝ) ≤ 0), (by norm_num : ¬(1 : ℝ) < 0)]

/-- Half way it has turned by 30 degrees, and turns at 90 degrees a second. -/
example (L : LogMap) (hL : L.Near) : ∃ p d, evaluate L (1 / 2) turnDemo = .ok (some p) ∧
    evaluateDerivative L (1 / 2) 1 turnDemo = .ok (some d) ∧
    (∀ x, rotate p.rotation x = rotate (exponentialMap ((Real.pi / 6) • ![0, 0, 1])) x) ∧
    d.rotationalVelocity = (Real.pi / 2) • ![0, 0, 1] := by
  have hpi := Real.pi_pos
  have hT : Turning L ![0, 0, 1] 1 (fun t => Real.pi / 3 * t) (fun _ => 0) turnDemo := by
    refine ⟨?_, ?_, ?_⟩
    · intro t k hk
      simp only [turnDemo, Mgr.knots, List.map_cons, List.map_nil, List.mem_cons, Prod.mk.injEq, List.not_mem_nil,
        or_false] at hk
      rcases hk with ⟨rfl, rfl⟩ | ⟨rfl, rfl⟩
      · left; simp [exponentialMap_zero]
      · left; simp
    · intro t k hk
      simp only [turnDemo, Mgr.knots, List.map_cons, List.map_nil, List.mem_cons, Prod.mk.injEq, List.not_mem_nil,
        or_false] at hk
      rcases hk with ⟨rfl, rfl⟩ | ⟨rfl, rfl⟩ <;> simp [Twist.zero]
    · simp only [turnDemo, Mgr.knots, List.map_cons, List.map_nil, List.isChain_cons_cons, List.isChain_singleton, and_true]
      rw [abs_of_nonneg (by linarith)]
      linarith
  have e1 : E3.evaluate (1 / 2) angleDemo = .ok (some (Real.pi / 6)) := by
    rw [E3.evaluate_eq, evalWith_interior (pre := []) (post := []) (by simp [angleDemo, Sorted]) rfl (by norm_num) (by norm_num)]
    simp [E3.interpolate]
    norm_num
    ring
  have e2 : E3.evaluateDerivative (1 / 2) 1 angleDemo = .ok (some (Real.pi / 2)) := by
    rw [E3.velocity_eq, evalWith_interior (pre := []) (post := []) (by simp [angleDemo, Sorted]) rfl (by norm_num) (by norm_num)]
    simp [E3.interpolateVelocity]
    norm_num
  obtain ⟨⟨r, hr, hd⟩, ⟨r', hr', hd'⟩⟩ := C34_domain_partial (turnDemo_reachable L) (1 / 2) (by simp [turnDemo, Mgr.knots])
  have hin : turnDemo.m.knots ≠ [] ∧ turnDemo.getMinTime ≤ 1 / 2 ∧ 1 / 2 ≤ turnDemo.getMaxTime := by
    simp [turnDemo, Mgr.knots, getMinTime, getMaxTime, Mgr.getMinTime, Mgr.getMaxTime]
    norm_num
  obtain ⟨p, rfl⟩ := Option.isSome_iff_exists.1 (hd.2 hin)
  obtain ⟨d, rfl⟩ := Option.isSome_iff_exists.1 (hd'.2 hin)
  obtain ⟨h1, h2⟩ := C125_evaluate hL (u := ![0, 0, 1]) (q0 := 1) (by simp [vecNorm]) (by simp) (turnDemo_reachable L) hT
    (e := angleDemo) (by simp [angleDemo, turnDemo, Mgr.knots]) (1 / 2)
  obtain ⟨a, ha, hx⟩ := h1 p hr
  obtain ⟨v, hv, hdv⟩ := h2 d hr'
  rw [e1] at ha
  rw [e2] at hv
  cases ha
  cases hv
  refine ⟨p, d, hr, hr', fun x => ?_, hdv⟩
  rw [hx]
  congr 1
  simp [rotate]

/-! ## Fitting -/

theorem third_of_slope {D E x g r : ℝ} (hx : 0 < x) (hg : 0 < g) (hr : r = (D + E) / (x + g))
    (hE : |E| < Real.pi / 2) : ∃ l, 0 ≤ l ∧ l ≤ 1 / 3 ∧ |x / 3 * r - l * D| ≤ Real.pi / 4 := by
  have hq : 0 ≤ x / (x + g) := by positivity
  have hq1 : x / (x + g) ≤ 1 := by rw [div_le_one (by positivity)]; linarith
  refine ⟨x / (x + g) / 3, by positivity, by linarith, ?_⟩
  have : x / 3 * r - x / (x + g) / 3 * D = x / (x + g) * (E / 3) := by rw [hr]; field_simp; ring
  rw [this, abs_mul, abs_of_nonneg hq, abs_div, abs_of_pos (by norm_num : (0 : ℝ) < 3)]
  have := Real.pi_pos
  calc x / (x + g) * (|E| / 3) ≤ 1 * (|E| / 3) := mul_le_mul_of_nonneg_right hq1 (by positivity)
    _ ≤ Real.pi / 4 := by linarith

theorem third_of_end {D x r : ℝ} (hx : 0 < x) (hr : x * |r| ≤ 3 * Real.pi / 4) :
    ∃ l, 0 ≤ l ∧ l ≤ 1 / 3 ∧ |x / 3 * r - l * D| ≤ Real.pi / 4 := by
  refine ⟨0, le_rfl, by norm_num, ?_⟩
  rw [zero_mul, sub_zero, abs_mul, abs_of_pos (by positivity)]
  linarith

theorem step_of_thirds {D x r s : ℝ} (hD : |D| < Real.pi / 2)
    (hr : ∃ l, 0 ≤ l ∧ l ≤ 1 / 3 ∧ |x / 3 * r - l * D| ≤ Real.pi / 4)
    (hs : ∃ l, 0 ≤ l ∧ l ≤ 1 / 3 ∧ |x / 3 * s - l * D| ≤ Real.pi / 4) : |D - x / 3 * (r + s)| < Real.pi := by
  obtain ⟨l, l0, l1, hl⟩ := hr
  obtain ⟨m, m0, m1, hm⟩ := hs
  have e : D - x / 3 * (r + s) = (1 - l - m) * D - (x / 3 * r - l * D) - (x / 3 * s - m * D) := by ring
  have h1 : |(1 - l - m) * D| ≤ |D| := by
    rw [abs_mul, abs_of_nonneg (by linarith)]
    exact mul_le_of_le_one_left (abs_nonneg _) (by linarith)
  rw [e]
  calc _ ≤ |(1 - l - m) * D| + |x / 3 * r - l * D| + |x / 3 * s - m * D| :=
        (abs_sub _ _).trans (add_le_add_left (abs_sub _ _) _)
    _ < Real.pi := by linarith

/-- Knots turned about one axis, by less than a quarter turn from each to the next, make a turning curve. -/
theorem fit_turning (hL : L.Near) (hu : vecNorm u = 1) (h0 : IsUnit' q0) (ts : List ℝ) (vs : List Pose)
    (hl : vs.length = ts.length) (h2 : 2 ≤ ts.length) (hinc : ts.Pairwise (· < ·)) (θ : ℝ → ℝ)
    (hv : ∀ (i : ℕ) (hi : i < ts.length), Turned L u q0 (θ ts[i]) vs[i].rotation) {d0 dT : Twist} {r0 rT : ℝ}
    (hd0 : d0.rotationalVelocity = r0 • u) (hdT : dT.rotationalVelocity = rT • u)
    (hstep : ∀ (i : ℕ) (hi : i + 1 < ts.length), |θ ts[i + 1] - θ ts[i]| < Real.pi / 2)
    (hr0 : (ts[1] - ts[0]) * |r0| ≤ 3 * Real.pi / 4)
    (hrT : (ts[ts.length - 1] - ts[ts.length - 2]) * |rT| ≤ 3 * Real.pi / 4) (c : SE3) (debug : Bool) (w : World) :
    ∃ c' ks e ks' ω, fitCurveWithDerivatives L ts vs d0 dT c = .ok (c', ks) ∧
      E3.fitCurveWithDerivatives debug ts (ts.map θ) r0 rT (E3.fresh w) = .ok (e, ks') ∧
      Sorted c'.m.nodes ∧ c'.m.knots.map Prod.fst = ts ∧ Turning L u q0 θ ω c' ∧
      e.m.knots = c'.m.knots.map fun p => (p.1, ⟨θ p.1, ω p.1⟩) := by
  have hlt : ∀ i j (hi : i < ts.length) (hj : j < ts.length), i < j → ts[i] < ts[j] := List.pairwise_iff_getElem.1 hinc
  obtain ⟨c', ks, cs, ef, el, hcs, hs, hk⟩ := fit_increasing L hl.symm hinc d0 dT c
  obtain ⟨cs', el', hcs', hc⟩ := fitLoop_ok L ts vs d0 dT hl.ge ts.length 0 (by omega)
  rw [el] at el'
  cases el'
  obtain ⟨ds, em, hds, hd⟩ := E3.fitLoop_ok ts (ts.map θ) r0 rT (by simp) ts.length 0 (by omega)
  obtain ⟨w', m', ks', ee, hs', hk', -⟩ := fill_empty w (C := Knot ℝ) (ts := ts) (cs := ds) (by omega) hinc
  set ω : ℝ → ℝ := fun t => (ds.getD (ts.idxOf t) ⟨0, 0⟩).velocity with hω
  have hnd : ts.Nodup := hinc.imp fun h => h.ne
  have hωi : ∀ i (hi : i < ts.length), ω ts[i] = (ds[i]'(by omega)).velocity := by
    intro i hi
    simp only [hω, List.Nodup.idxOf_getElem hnd]
    simp [List.getD, List.getElem?_eq_getElem (show i < ds.length by omega)]
  have w0 : ω ts[0] = r0 := by
    obtain ⟨k, k1, -, k3, -⟩ := hd 0 (by omega)
    rw [hωi, k1]
    exact k3 rfl
  have wT : ω ts[ts.length - 1] = rT := by
    obtain ⟨k, k1, -, -, k4, -⟩ := hd (ts.length - 1) (by omega)
    rw [hωi, k1]
    exact k4 (by omega) (by omega)
  have wI : ∀ i (hi : i + 2 < ts.length), ω ts[i + 1] = (θ ts[i + 2] - θ ts[i]) / (ts[i + 2] - ts[i]) := by
    intro i hi
    obtain ⟨k, k1, -, -, -, k5⟩ := hd (i + 1) (by omega)
    rw [hωi, k1, k5 (by omega) (by omega)]
    simp only [E3.calculateSlope, zero_add, Nat.add_sub_cancel, List.getElem_map, smul_eq_mul]
    rw [one_div, ← div_eq_inv_mul]
  have hfst : c'.m.knots.map Prod.fst = ts := by rw [hk]; exact List.map_fst_zip (by omega)
  refine ⟨c', ks, ⟨w', m'⟩, ks', ω, ef, ?_, hs, hfst, ⟨?_, ?_, ?_⟩, ?_⟩
  · rw [E3.fitCurveWithDerivatives, if_neg (by simp), em, Outcome.ok_bind, E3.fresh, ee]
    rfl
  · intro t k hmem
    rw [hk] at hmem
    obtain ⟨i, hi, ei⟩ := List.mem_iff_getElem.1 hmem
    simp only [List.length_zip, lt_inf_iff] at hi
    simp only [List.getElem_zip, Prod.mk.injEq] at ei
    obtain ⟨k', k1, k2, -⟩ := hc i hi.1
    rw [← ei.1, ← ei.2, k1, k2]
    simpa using hv i hi.1
  · intro t k hmem
    rw [hk] at hmem
    obtain ⟨i, hi, ei⟩ := List.mem_iff_getElem.1 hmem
    simp only [List.length_zip, lt_inf_iff] at hi
    simp only [List.getElem_zip, Prod.mk.injEq] at ei
    obtain ⟨k', k1, k2, k3, k4, k5⟩ := hc i hi.1
    simp only [zero_add] at k3 k4 k5
    rw [← ei.1, ← ei.2, k1]
    by_cases hi0 : i = 0
    · subst hi0
      rw [k3 rfl, hd0, w0]
    · by_cases hiT : i = ts.length - 1
      · subst hiT
        rw [k4 hi0 rfl, hdT, wT]
      · rw [k5 hi0 hiT]
        obtain ⟨j, rfl⟩ : ∃ j, i = j + 1 := ⟨i - 1, by omega⟩
        have hsum : |θ ts[j + 2] - θ ts[j]| < Real.pi := by
          have e1 := hstep j (by omega)
          have e2 := hstep (j + 1) (by omega)
          have : θ ts[j + 2] - θ ts[j] = (θ ts[j + 1 + 1] - θ ts[j + 1]) + (θ ts[j + 1] - θ ts[j]) := by ring
          rw [this]
          exact (abs_add_le _ _).trans_lt (by linarith)
        rw [wI j (by omega)]
        simp only [calculateSlope, Nat.add_sub_cancel]
        rw [boxMinus_turn hL h0 hu (hv j (by omega)) (hv (j + 2) (by omega)) hsum, smul_smul, one_div,
          ← div_eq_inv_mul]
  · rw [hfst, List.isChain_iff_getElem]
    intro i hi
    refine step_of_thirds (hstep i hi) ?_ ?_
    · rcases Nat.eq_zero_or_pos i with rfl | hpos
      · rw [w0]
        exact third_of_end (sub_pos.2 (hlt 0 1 (by omega) (by omega) (by omega))) hr0
      · obtain ⟨j, rfl⟩ : ∃ j, i = j + 1 := ⟨i - 1, by omega⟩
        refine third_of_slope (E := θ ts[j + 1] - θ ts[j]) (g := ts[j + 1] - ts[j])
          (sub_pos.2 (hlt _ _ (by omega) (by omega) (by omega))) (sub_pos.2 (hlt _ _ (by omega) (by omega) (by omega)))
          ?_ (hstep j (by omega))
        rw [wI j (by omega)]
        congr 1 <;> ring
    · by_cases hiT : i + 1 = ts.length - 1
      · have : ω ts[i + 1] = rT := by simp only [hiT]; exact wT
        rw [this]
        refine third_of_end (sub_pos.2 (hlt _ _ (by omega) (by omega) (by omega))) ?_
        have e1 : i = ts.length - 2 := by omega
        subst e1
        simp only [hiT]
        exact hrT
      · refine third_of_slope (E := θ ts[i + 2] - θ ts[i + 1]) (g := ts[i + 2] - ts[i + 1])
          (sub_pos.2 (hlt _ _ (by omega) (by omega) (by omega))) (sub_pos.2 (hlt _ _ (by omega) (by omega) (by omega)))
          ?_ (hstep (i + 1) (by omega))
        rw [wI i (by omega)]
        congr 1 <;> ring
  · rw [hk, show (⟨w', m'⟩ : E3 ℝ ℝ).m.knots = m'.knots from rfl, hk']
    refine List.ext_getElem (by simp; omega) fun i h1 h2 => ?_
    simp only [List.length_zip, lt_inf_iff] at h1
    obtain ⟨k, k1, k2, -⟩ := hd i h1.1
    simp only [List.getElem_zip, List.getElem_map, Prod.mk.injEq, true_and]
    rw [hωi i h1.1, k1]
    have : k.position = θ ts[i] := by simpa using k2
    rw [← this]

theorem domain_of_times {c : SE3} {ts : List ℝ} (hts : c.m.knots.map Prod.fst = ts) (h : 0 < ts.length) (hs : Sorted c.m.nodes)
    {t : ℝ} (ht : t ∈ Icc ts[0] ts[ts.length - 1]) :
    ∃ p d, evaluate L t c = .ok (some p) ∧ evaluateDerivative L t 1 c = .ok (some d) := by
  have hlen : c.m.nodes.length = ts.length := by rw [← hts]; simp [Mgr.knots]
  have hne : c.m.knots ≠ [] := by
    intro e; rw [e] at hts; rw [← hts] at h; simp at h
  have hmin : c.m.getMinTime = ts[0] := by
    subst hts
    obtain ⟨n, l, hn⟩ := List.exists_cons_of_ne_nil (knots_ne_nil.1 hne)
    simp [Mgr.getMinTime, Mgr.knots, hn]
  have hmax : c.m.getMaxTime = ts[ts.length - 1] := by
    subst hts
    obtain ⟨l, n, hn⟩ := List.eq_nil_or_concat' c.m.nodes |>.resolve_left (knots_ne_nil.1 hne)
    simp [Mgr.getMaxTime, Mgr.knots, hn]
  obtain ⟨r, e, k⟩ := evalWith_domain (single := HKnot.transformation) (f := interpolate L) hs t (Or.inl hne)
  obtain ⟨r', e', k'⟩ := evalWith_domain (single := HKnot.derivative) (f := interpolateTwist L) hs t (Or.inl hne)
  rw [hmin, hmax] at k k'
  obtain ⟨p, rfl⟩ := Option.isSome_iff_exists.1 (k.2 ⟨hne, ht.1, ht.2⟩)
  obtain ⟨d, rfl⟩ := Option.isSome_iff_exists.1 (k'.2 ⟨hne, ht.1, ht.2⟩)
  exact ⟨p, d, by rw [evaluate_eq]; exact e, by rw [evaluateDerivative_eq]; exact e'⟩

/-- C125, fitting, partial. Fitting poses that are turned about one axis is fitting the angles: the curve turns about this
axis all the time, by the angle and at the rate of the E3 curve fitted to the angles. Missing: poses a quarter turn or
more apart; see `C125_refuted`. -/
theorem C125_fit_partial (hL : L.Near) (hu : vecNorm u = 1) (h0 : normSq q0 = 1) (ts : List ℝ) (vs : List Pose)
    (hl : vs.length = ts.length) (h2 : 2 ≤ ts.length) (hinc : ts.Pairwise (· < ·)) (θ : ℝ → ℝ)
    (hv : ∀ (i : ℕ) (hi : i < ts.length), Turned L u q0 (θ ts[i]) vs[i].rotation) {d0 dT : Twist} {r0 rT : ℝ}
    (hd0 : d0.rotationalVelocity = r0 • u) (hdT : dT.rotationalVelocity = rT • u)
    (hstep : ∀ (i : ℕ) (hi : i + 1 < ts.length), |θ ts[i + 1] - θ ts[i]| < Real.pi / 2)
    (hr0 : (ts[1] - ts[0]) * |r0| ≤ 3 * Real.pi / 4)
    (hrT : (ts[ts.length - 1] - ts[ts.length - 2]) * |rT| ≤ 3 * Real.pi / 4) (c : SE3) (debug : Bool) (w : World) :
    ∃ c' ks e ks', fitCurveWithDerivatives L ts vs d0 dT c = .ok (c', ks) ∧
      E3.fitCurveWithDerivatives debug ts (ts.map θ) r0 rT (E3.fresh w) = .ok (e, ks') ∧
      ∀ t ∈ Icc ts[0] ts[ts.length - 1], ∃ p d a r,
        evaluate L t c' = .ok (some p) ∧ evaluateDerivative L t 1 c' = .ok (some d) ∧
        E3.evaluate t e = .ok (some a) ∧ E3.evaluateDerivative t 1 e = .ok (some r) ∧
        (∀ x, rotate p.rotation x = rotate (exponentialMap (a • u)) (rotate q0 x)) ∧ d.rotationalVelocity = r • u := by
  obtain ⟨c', ks, e, ks', ω, e1, e2, hs, hts, hT, he⟩ := fit_turning hL hu h0 ts vs hl h2 hinc θ hv hd0 hdT hstep hr0 hrT c
    debug w
  refine ⟨c', ks, e, ks', e1, e2, fun t ht => ?_⟩
  obtain ⟨p, d, hp, hd⟩ := domain_of_times (L := L) hts (by omega) hs ht
  obtain ⟨k1, k2⟩ := evaluate_turning hL hu h0 hs hT he t
  obtain ⟨a, ha, hta⟩ := k1 p hp
  obtain ⟨r, hr, htr⟩ := k2 d hd
  exact ⟨p, d, a, r, hp, hd, ha, hr, hta.rotate, htr⟩

/-- A turn by a third of a right angle each second, the second attitude given by its other quaternion. -/
example (c : SE3) : ∃ c' ks p, fitCurve shortLogMap [0, 1, 2] [⟨0, exponentialMap ((0 : ℝ) • ![0, 0, 1])⟩,
      ⟨0, -exponentialMap ((Real.pi / 6) • ![0, 0, 1])⟩, ⟨0, exponentialMap ((Real.pi / 3) • ![0, 0, 1])⟩] c = .ok (c', ks) ∧
    evaluate shortLogMap 1 c' = .ok (some p) ∧
    ∀ x, rotate p.rotation x = rotate (exponentialMap ((Real.pi / 6) • ![0, 0, 1])) x := by
  have hpi := Real.pi_pos
  have hu : vecNorm ![0, 0, 1] = 1 := by simp [vecNorm]
  obtain ⟨c', ks, e, ks', e1, e2, h⟩ := C125_fit_partial (L := shortLogMap) (u := ![0, 0, 1]) (q0 := 1)
    shortLogMap_shortest.near hu (by simp) [0, 1, 2] [⟨0, exponentialMap ((0 : ℝ) • ![0, 0, 1])⟩,
      ⟨0, -exponentialMap ((Real.pi / 6) • ![0, 0, 1])⟩, ⟨0, exponentialMap ((Real.pi / 3) • ![0, 0, 1])⟩] rfl (by simp)
    (by norm_num) (fun t => Real.pi / 6 * t) (by
      intro i hi
      have : i = 0 ∨ i = 1 ∨ i = 2 := by simp at hi; omega
      rcases this with rfl | rfl | rfl
      · left; simp
      · right; exact ⟨shortLogMap_shortest, by simp⟩
      · left
        simp only [List.getElem_cons_succ, List.getElem_cons_zero, mul_one]
        congr 2; ring) (d0 := Twist.zero) (dT := Twist.zero) (r0 := 0) (rT := 0) (by simp [Twist.zero]) (by simp [Twist.zero])
    (by
      intro i hi
      have : i = 0 ∨ i = 1 := by simp at hi; omega
      rcases this with rfl | rfl
      · simp only [List.getElem_cons_succ, List.getElem_cons_zero]
        rw [abs_of_nonneg (by linarith)]; linarith
      · simp only [List.getElem_cons_succ, List.getElem_cons_zero]
        rw [abs_of_nonneg (by linarith)]; linarith) (by simp; positivity) (by simp; positivity) c true c.w
  obtain ⟨p, d, a, r, hp, -, ha, -, hx, -⟩ := h 1 (by norm_num)
  refine ⟨c', ks, p, e1, hp, fun x => ?_⟩
  have hr : E3.Reachable e := ⟨true, c.w, [.fitDerivatives [0, 1, 2] ([0, 1, 2].map fun t => Real.pi / 6 * t) 0 0], by
    simp only [E3.run, E3.step, e2, Outcome.ok_bind]⟩
  obtain ⟨e', ks'', e3, hk⟩ := E3.C39_replaces_partial true [0, 1, 2] ([0, 1, 2].map fun t => Real.pi / 6 * t) rfl
    (by norm_num) 0 0 c.w
  rw [e2] at e3
  cases e3
  obtain ⟨k, hk1, hk2⟩ : ∃ k, (1, k) ∈ e.m.knots ∧ k.position = Real.pi / 6 := by
    have : ((1 : ℝ), Real.pi / 6) ∈ e.m.knots.map fun x => (x.1, x.2.position) := by rw [hk]; simp
    obtain ⟨q, hq, hq'⟩ := List.mem_map.1 this
    simp only [Prod.mk.injEq] at hq'
    exact ⟨q.2, by rw [← hq'.1]; exact hq, hq'.2⟩
  have := (E3.C35_interpolates hr hk1).1
  rw [this] at ha
  cases ha
  rw [hx, hk2]
  congr 1
  simp [rotate]

/-- C125, accuracy. A curve fitted to samples, at most `h` and a quarter turn apart, of a turn about a fixed axis whose
rate `v` has Lipschitz constant `M`, and to the true rates at the ends, is nowhere further from it than `M h² / 4`, and
its rate nowhere further than `M h`. -/
theorem C125_accuracy (hL : L.Near) (hu : vecNorm u = 1) (h0 : normSq q0 = 1) (ts : List ℝ) (vs : List Pose)
    (hl : vs.length = ts.length) (h2 : 2 ≤ ts.length) (hinc : ts.Pairwise (· < ·)) {M h : ℝ} {θ v : ℝ → ℝ}
    (hf : Gentle M ts[0] ts[ts.length - 1] θ v)
    (hv : ∀ (i : ℕ) (hi : i < ts.length), Turned L u q0 (θ ts[i]) vs[i].rotation) {d0 dT : Twist} {r0 rT : ℝ}
    (hd0 : d0.rotationalVelocity = r0 • u) (hdT : dT.rotationalVelocity = rT • u)
    (hgap : ∀ (i : ℕ) (hi : i + 1 < ts.length), ts[i + 1] - ts[i] ≤ h)
    (hstep : ∀ (i : ℕ) (hi : i + 1 < ts.length), |θ ts[i + 1] - θ ts[i]| < Real.pi / 2)
    (hr0 : (ts[1] - ts[0]) * |r0| ≤ 3 * Real.pi / 4)
    (hrT : (ts[ts.length - 1] - ts[ts.length - 2]) * |rT| ≤ 3 * Real.pi / 4) (c : SE3) :
    ∃ c' ks, fitCurveWithDerivatives L ts vs d0 dT c = .ok (c', ks) ∧
      ∀ (i : ℕ) (hi : i + 1 < ts.length), (i = 0 → r0 = v ts[0]) → (i + 2 = ts.length → rT = v ts[ts.length - 1]) →
        ∀ t ∈ Icc ts[i] ts[i + 1], ∃ p d ε δ, evaluate L t c' = .ok (some p) ∧ evaluateDerivative L t 1 c' = .ok (some d) ∧
          (∀ x, rotate p.rotation x = rotate (exponentialMap ((θ t + ε) • u)) (rotate q0 x)) ∧ |ε| ≤ M / 4 * h ^ 2 ∧
          d.rotationalVelocity = (v t + δ) • u ∧ |δ| ≤ M * h := by
  obtain ⟨c', ks, e, ks', e1, e2, hev⟩ := C125_fit_partial hL hu h0 ts vs hl h2 hinc θ hv hd0 hdT hstep hr0 hrT c true c.w
  obtain ⟨e', ks'', e3, hacc⟩ := C112_hermite true ts h2 hinc r0 rT c.w hf hgap
  rw [e2] at e3
  cases e3
  have hle : ∀ i j (hi : i < ts.length) (hj : j < ts.length), i ≤ j → ts[i] ≤ ts[j] := by
    intro i j hi hj hij
    rcases hij.eq_or_lt with rfl | e
    · exact le_rfl
    · exact (List.pairwise_iff_getElem.1 hinc i j hi hj e).le
  refine ⟨c', ks, e1, fun i hi hi0 hiT t ht => ?_⟩
  obtain ⟨p, d, a, r, hp, hd, ha, hr, hx, hdr⟩ := hev t ⟨(hle 0 i (by omega) (by omega) (by omega)).trans ht.1,
    ht.2.trans (hle (i + 1) (ts.length - 1) hi (by omega) (by omega))⟩
  obtain ⟨a', r', ha', hr', b1, b2⟩ := hacc i hi hi0 hiT t ht
  rw [ha] at ha'
  rw [hr] at hr'
  cases ha'
  cases hr'
  exact ⟨p, d, a - θ t, r - v t, hp, hd, by simpa using hx, by simpa using b1, by simpa using hdr, by simpa using b2⟩

/-- A turn that speeds up, by `t² / 2`, sampled twice a second. -/
example (L : LogMap) (hL : L.Near) (c : SE3) : ∃ c' ks p d, ∃ ε δ : ℝ, fitCurveWithDerivatives L [0, 1 / 2, 1]
      [⟨0, 1⟩, ⟨0, exponentialMap ((1 / 8 : ℝ) • ![0, 0, 1])⟩, ⟨0, exponentialMap ((1 / 2 : ℝ) • ![0, 0, 1])⟩]
      ⟨0, 0⟩ ⟨0, (1 : ℝ) • ![0, 0, 1]⟩ c = .ok (c', ks) ∧ evaluate L (3 / 4) c' = .ok (some p) ∧
      evaluateDerivative L (3 / 4) 1 c' = .ok (some d) ∧
      (∀ x, rotate p.rotation x = rotate (exponentialMap ((9 / 32 + ε) • ![0, 0, 1])) (rotate 1 x)) ∧ |ε| ≤ 1 / 16 ∧
      d.rotationalVelocity = (3 / 4 + δ) • ![0, 0, 1] ∧ |δ| ≤ 1 / 2 := by
  have hpi := Real.two_le_pi
  have hG : Gentle 1 0 1 (fun t : ℝ => t ^ 2 / 2) (fun t => t) := by
    refine ⟨fun t _ => ?_, fun s _ t _ h => ?_⟩
    · have := ((hasDerivAt_pow 2 t).div_const 2).hasDerivWithinAt (s := Icc 0 1)
      simpa using this
    · rw [Real.norm_eq_abs, abs_of_nonneg (by linarith), one_mul]
  obtain ⟨c', ks, e, h⟩ := C125_accuracy hL (u := ![0, 0, 1]) (q0 := 1) (by simp [vecNorm]) (by simp) [0, 1 / 2, 1]
    [⟨0, 1⟩, ⟨0, exponentialMap ((1 / 8 : ℝ) • ![0, 0, 1])⟩, ⟨0, exponentialMap ((1 / 2 : ℝ) • ![0, 0, 1])⟩] rfl (by simp)
    (by norm_num) (M := 1) (h := 1 / 2) hG (by
      intro i hi
      have : i = 0 ∨ i = 1 ∨ i = 2 := by simp at hi; omega
      rcases this with rfl | rfl | rfl
      · left; simp [exponentialMap_zero]
      · left
        simp only [List.getElem_cons_succ, List.getElem_cons_zero, mul_one]
        congr 2; norm_num
      · left
        simp only [List.getElem_cons_succ, List.getElem_cons_zero, mul_one]
        congr 2; norm_num) (d0 := ⟨0, 0⟩) (dT := ⟨0, (1 : ℝ) • ![0, 0, 1]⟩) (r0 := 0) (rT := 1) (by simp) rfl
    (by
      intro i hi
      have : i = 0 ∨ i = 1 := by simp at hi; omega
      rcases this with rfl | rfl <;> norm_num)
    (by
      intro i hi
      have : i = 0 ∨ i = 1 := by simp at hi; omega
      rcases this with rfl | rfl
      · simp only [List.getElem_cons_succ, List.getElem_cons_zero]
        rw [abs_of_nonneg (by norm_num)]; linarith
      · simp only [List.getElem_cons_succ, List.getElem_cons_zero]
        rw [abs_of_nonneg (by norm_num)]; linarith)
    (by simp; linarith) (by simp; linarith) c
  obtain ⟨p, d, ε, δ, h1, h2, h3, h4, h5, h6⟩ := h 1 (by simp) (by simp) (by simp) (3 / 4) (by norm_num)
  refine ⟨c', ks, p, d, ε, δ, e, h1, h2, ?_, h4.trans (by norm_num), h5, h6.trans (by norm_num)⟩
  intro x
  rw [h3]
  norm_num

/-- C125, refuted. Whatever the axis and the step, between a quarter turn and half a turn: a curve fitted to a steady turn,
with the true rate `φ` at the ends, turns backwards at the middle knot, at the rate `φ - π`. -/
theorem C125_refuted (hL : L.Shortest) (hu : vecNorm u = 1) (h0 : normSq q0 = 1) {φ : ℝ} (h1 : Real.pi / 2 < φ)
    (h2 : φ < Real.pi) (x y z : Vec3) (c : SE3) :
    ∃ c' ks d, fitCurveWithDerivatives L [0, 1, 2] [⟨x, q0⟩, ⟨y, exponentialMap (φ • u) * q0⟩,
        ⟨z, exponentialMap ((2 * φ) • u) * q0⟩] ⟨0, φ • u⟩ ⟨0, φ • u⟩ c = .ok (c', ks) ∧
      evaluateDerivative L 1 1 c' = .ok (some d) ∧ d.rotationalVelocity = (φ - Real.pi) • u ∧ φ - Real.pi < 0 := by
  set vs : List Pose := [⟨x, q0⟩, ⟨y, exponentialMap (φ • u) * q0⟩, ⟨z, exponentialMap ((2 * φ) • u) * q0⟩] with hvs
  obtain ⟨c', ks, cs, e, el, hcs, hs, hk⟩ := fit_increasing L (ts := [0, 1, 2]) (vs := vs) rfl (by norm_num) ⟨0, φ • u⟩
    ⟨0, φ • u⟩ c
  obtain ⟨cs', el', hcs', hc⟩ := fitLoop_ok L [0, 1, 2] vs ⟨0, φ • u⟩ ⟨0, φ • u⟩ (by simp [hvs]) 3 0 rfl
  rw [show ([0, 1, 2] : List ℝ).length = 3 from rfl, el'] at el
  cases el
  obtain ⟨k, k1, k2, -, -, k5⟩ := hc 1 (by omega)
  have hunit : ∀ n ∈ c'.m.nodes, IsUnit' n.coef.transformation.rotation := by
    intro n hn
    have hm : (n.time, n.coef) ∈ c'.m.knots := List.mem_map.2 ⟨n, hn, rfl⟩
    rw [hk] at hm
    have hm2 := (List.of_mem_zip hm).2
    obtain ⟨i, hi, ei⟩ := List.mem_iff_getElem.1 hm2
    obtain ⟨k', j1, j2, -⟩ := hc i (by omega)
    rw [← ei, j1, j2]
    have : i = 0 ∨ i = 1 ∨ i = 2 := by omega
    rcases this with rfl | rfl | rfl
    · exact h0
    · exact isUnit_mul (isUnit_exp _) h0
    · exact isUnit_mul (isUnit_exp _) h0
  have hmem : ((1 : ℝ), k) ∈ c'.m.knots := by
    rw [hk]
    have := zip_mem_of_getElem (xs := ([0, 1, 2] : List ℝ)) (ys := cs) (i := 1) (by simp) (by omega)
    rwa [k1] at this
  obtain ⟨d, hd, hdk⟩ := evalWith_knot (single := HKnot.derivative) (f := interpolateTwist L) hs id
    (fun a b ha _ h => by rw [twist_left h (hunit a ha)]) (fun a b ha hb h => by rw [twist_right h (hunit a ha) (hunit b hb)])
    hmem
  refine ⟨c', ks, d, e, by rw [evaluateDerivative_eq]; exact hd, ?_, by linarith⟩
  have hd2 : d = k.derivative := hdk
  have hpi : exponentialMap ((2 * Real.pi) • u) = -1 := by
    have hpos := Real.pi_pos
    have hn : vecNorm ((2 * Real.pi) • u) = 2 * Real.pi := by rw [vecNorm_smul, hu, mul_one, abs_of_pos (by positivity)]
    simp only [exponentialMap]
    rw [hn, if_neg (by positivity), show 2 * Real.pi / 2 = Real.pi by ring, Real.cos_pi, Real.sin_pi, zero_div, zero_smul]
    ext <;> simp
  have hlog : boxMinus L (exponentialMap ((2 * φ) • u) * q0) q0 = (2 * φ - 2 * Real.pi) • u := by
    unfold boxMinus inverted
    rw [mul_assoc, self_mul_star' h0, mul_one]
    refine hL.eq ?_ (Or.inr ?_)
    · rw [vecNorm_smul, hu, mul_one, abs_of_nonpos (by linarith)]
      linarith
    · conv_lhs => rw [show 2 * φ = (2 * φ - 2 * Real.pi) + 2 * Real.pi by ring]
      rw [exponentialMap_add_smul, hpi, mul_neg, mul_one]
  rw [hd2, k5 (by simp) (by simp)]
  simp only [calculateSlope, zero_add, Nat.sub_self, List.getElem_cons_zero, List.getElem_cons_succ, hvs]
  rw [hlog, smul_smul]
  congr 1
  ring

/-- Steps of 120 degrees: the middle knot turns backwards at 60 degrees a second. -/
example (c : SE3) : ∃ c' ks d, fitCurveWithDerivatives shortLogMap [0, 1, 2] [⟨0, 1⟩,
      ⟨0, exponentialMap ((2 * Real.pi / 3) • ![0, 0, 1]) * 1⟩,
      ⟨0, exponentialMap ((2 * (2 * Real.pi / 3)) • ![0, 0, 1]) * 1⟩] ⟨0, (2 * Real.pi / 3) • ![0, 0, 1]⟩
      ⟨0, (2 * Real.pi / 3) • ![0, 0, 1]⟩ c = .ok (c', ks) ∧
    evaluateDerivative shortLogMap 1 1 c' = .ok (some d) ∧ d.rotationalVelocity = (-Real.pi / 3) • ![0, 0, 1] := by
  have hpi := Real.pi_pos
  obtain ⟨c', ks, d, e, hd, h, -⟩ := C125_refuted shortLogMap_shortest (u := ![0, 0, 1]) (q0 := 1) (by simp [vecNorm])
    (by simp) (φ := 2 * Real.pi / 3) (by linarith) (by linarith) 0 0 0 c
  exact ⟨c', ks, d, e, hd, by rw [h]; congr 1; ring⟩

end Verif.Hermite.SE3

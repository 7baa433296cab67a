import Verif.Rounding.SpecialLemmas

/-!
# C124: numbers in, numbers out

The other models compute in a field, where a division by zero gives 0. Here infinities and NaN are values, and it is
shown where they can come from.
-/

set_option linter.unusedSectionVars false
set_option linter.dupNamespace false

namespace Verif.Rounding

variable {K : Type} [Field K] [LinearOrder K] [IsStrictOrderedRing K]

open Verif.Manager Verif.Hermite Fl

/-- **C124 (partial)**, fits. For times no two of which are equal, a fit of numbers stores only numbers, the same as without
special values. Missing: `fitPeriodicCurve` with three points, see `C124_refuted`. -/
theorem C124_fit_partial (R : Rounding K) (debug : Bool) {ts : List K} (hd : ts.Nodup)
    (hrep : ∀ t ∈ ts, R.rnd t = t) (vs : List (Vec3 K)) (d0 dT : Vec3 K) (c : E3 K (Vec3 K)) :
    fitWithDerivativesS R debug ts (vs.map nums) (nums d0) (nums dT) ⟨c.w, c.m.conv numKnot⟩ =
      (fitCurveWithDerivatives R debug ts vs d0 dT c >>= fun r => .ok (⟨r.1.w, r.1.m.conv numKnot⟩, r.2)) := by
  refine fitS_nums R debug (fun i h e => ?_) vs d0 dT c
  have := R.sub_ne (hrep _ (List.getElem_mem _)) (hrep _ (List.getElem_mem _)) e
  have := (List.Nodup.getElem_inj_iff hd).1 this
  omega

/-- **C124 (partial)**, periodic fits of other than three points. -/
theorem C124_periodic_partial (R : Rounding K) (debug : Bool) {ts : List K} (hd : ts.Nodup)
    (hrep : ∀ t ∈ ts, R.rnd t = t) (h2 : 2 ≤ ts.length) (h3 : ts.length ≠ 3) (vs : List (Vec3 K))
    (hl : ts.length = vs.length) (c : E3 K (Vec3 K)) :
    ∃ d, fitPeriodicS R debug ts (vs.map nums) ⟨c.w, c.m.conv numKnot⟩ =
      (fitCurveWithDerivatives R debug ts vs d d c >>= fun r => .ok (⟨r.1.w, r.1.m.conv numKnot⟩, r.2)) ∧
      d = calculateSlope R ts[ts.length - 2] ts[1] vs[ts.length - 2] vs[1] := by
  refine ⟨_, ?_, rfl⟩
  rw [fitPeriodicS, if_neg (by omega)]
  simp only [List.getElem?_map]
  rw [List.getElem?_eq_getElem (by omega), List.getElem?_eq_getElem (by omega),
    List.getElem?_eq_getElem (l := vs) (by omega), List.getElem?_eq_getElem (l := vs) (by omega)]
  simp only [Outcome.deref, Outcome.ok_bind, Option.map_some]
  rw [slopeS_nums]
  · exact C124_fit_partial R debug hd hrep vs _ _ c
  · intro e
    have := R.sub_ne (hrep _ (List.getElem_mem _)) (hrep _ (List.getElem_mem _)) e
    have := (List.Nodup.getElem_inj_iff hd).1 this
    omega

/-- **C124 (partial)**, evaluation. On a curve that holds numbers, at whatever times, position, velocity and acceleration
are numbers (or the call refuses), the same as without special values. -/
theorem C124_evaluate_partial (R : Rounding K) {c : E3 K (Vec3 K)} (hr : Manager.Reachable c)
    (hc : c.w.calls + 1 < 2 ^ 64) (hrep : ∀ n ∈ c.m.knots, R.rnd n.1 = n.1) (t : K) :
    evaluateS R t (c.m.conv numKnot) = (evaluate R t c.m >>= fun o => .ok (o.map nums)) ∧
    evaluateVelocityS R t (c.m.conv numKnot) = (evaluateVelocity R t c.m >>= fun o => .ok (o.map nums)) ∧
    evaluateAccelerationS R t (c.m.conv numKnot) = (evaluateAcceleration R t c.m >>= fun o => .ok (o.map nums)) := by
  have hs := (hr.WF hc).sorted
  simp only [evaluateS, evaluate, evaluateVelocityS, evaluateVelocity, evaluateAccelerationS,
    evaluateAcceleration, getMinTime_conv, getMaxTime_conv, getCoefficientsAt_conv]
  have hh : ∀ P : Node K (Knot (Vec3 (Fl K))) → Outcome (Option (Vec3 (Fl K))),
      (Outcome.deref (c.m.conv numKnot).nodes.head? >>= P) =
        (Outcome.deref c.m.nodes.head? >>= fun n => P (n.conv numKnot)) := by
    intro P
    rw [Mgr.conv, List.head?_map]
    cases c.m.nodes.head? <;> rfl
  have hd : ∀ Q : Node K (Knot (Vec3 K)) → Vec3 K,
      ((Outcome.deref c.m.nodes.head? >>= fun n => Outcome.ok (some (Q n))) >>= fun o => Outcome.ok (o.map nums)) =
        (Outcome.deref c.m.nodes.head? >>= fun n => Outcome.ok (some (nums (Q n)))) := by
    intro Q
    cases c.m.nodes.head? <;> rfl
  cases e : c.m.getCoefficientsAt t with
  | none =>
    refine ⟨?_, ?_, rfl⟩ <;> split <;> simp only [hh, hd, Option.map_none] <;> rfl
  | some p =>
    obtain ⟨a, b⟩ := p
    obtain ⟨pre, post, hm, -⟩ := getAt_some e
    have hlt : a.time < b.time := by
      rw [hm] at hs
      simp only [Sorted, List.pairwise_append, List.pairwise_cons] at hs
      exact hs.2.1.1 b (by simp)
    have ha : R.rnd a.time = a.time := hrep (a.time, a.coef) (by simp [Mgr.knots, hm])
    have hb : R.rnd b.time = b.time := hrep (b.time, b.coef) (by simp [Mgr.knots, hm])
    have h0 : R.rnd (b.time - a.time) ≠ 0 := fun h => hlt.ne' (R.sub_ne hb ha h)
    obtain ⟨i1, i2⟩ := interpolateS_nums R h0 t
    refine ⟨?_, ?_, ?_⟩
    · split <;> simp only [hh, hd, Option.map_some, i1] <;> rfl
    · split <;> simp only [hh, hd, Option.map_some, i2] <;> rfl
    · simp only [Option.map_some, interpolateAccelerationS_nums R h0]
      rfl

/-- **C124 is false of `fitPeriodicCurve`**, for every curve of three points: both end velocities are 0/0, and the whole curve
is NaN, position, velocity and acceleration, in every coordinate, at every time. -/
theorem C124_refuted (R : Rounding K) (debug : Bool) (w : World) {t0 t1 t2 : K} (h01 : t0 < t1) (h12 : t1 < t2)
    (v0 v1 v2 : Vec3 K) :
    ∃ c ks, fitPeriodicS R debug [t0, t1, t2] [nums v0, nums v1, nums v2] ⟨w, Mgr.empty⟩ = .ok (c, ks) ∧
      ∀ t, t0 ≤ t → t ≤ t2 → evaluateS R t c.m = .ok (some fun _ => nan) ∧
        evaluateVelocityS R t c.m = .ok (some fun _ => nan) ∧
        evaluateAccelerationS R t c.m = .ok (some fun _ => nan) := by
  have hinc : [t0, t1, t2].Pairwise (· < ·) := by simp [h01, h12, h01.trans h12]
  obtain ⟨w', m', ks, e, hs, hk, -⟩ := fill_empty w (C := Knot (Vec3 (Fl K))) (ts := [t0, t1, t2])
    (cs := [⟨nums v0, fun _ => nan⟩, ⟨nums v1, slopeS R t0 t2 (nums v0) (nums v2)⟩, ⟨nums v2, fun _ => nan⟩]) rfl hinc
  refine ⟨⟨w', m'⟩, ks, ?_, fun t h0 h2 => ?_⟩
  · simp only [fitPeriodicS, List.length_cons, List.length_nil, Nat.reduceAdd, Nat.reduceLT, if_false, Nat.reduceSub,
      List.getElem?_cons_succ, List.getElem?_cons_zero, Outcome.deref, Outcome.ok_bind, slopeS_same,
      fitWithDerivativesS, ne_eq, not_true, and_false, fitLoopS, knotDerivativeS, if_true, Nat.reduceEqDiff,
      one_ne_zero, OfNat.ofNat_ne_zero, e]
  · obtain ⟨n0, n1, n2, hn, k0, k2, c0, c2⟩ : ∃ n0 n1 n2, m'.nodes = [n0, n1, n2] ∧ n0.time = t0 ∧ n2.time = t2 ∧
        n0.coef.velocity = (fun _ => nan) ∧ n2.coef.velocity = fun _ => nan := by
      have := congrArg List.length hk
      simp only [Mgr.knots, List.length_map, List.length_zip, List.length_cons, List.length_nil, min_self] at this
      obtain ⟨n0, n1, n2, hn⟩ := List.length_eq_three.1 this
      simp only [Mgr.knots, hn, List.map_cons, List.map_nil, List.zip_cons_cons, List.zip_nil_right, List.cons.injEq,
        Prod.mk.injEq] at hk
      exact ⟨n0, n1, n2, hn, hk.1.1, hk.2.2.1.1, by rw [hk.1.2], by rw [hk.2.2.1.2]⟩
    have hmin : m'.getMinTime = t0 := by simp [Mgr.getMinTime, hn, k0]
    have hmax : m'.getMaxTime = t2 := by simp [Mgr.getMaxTime, hn, k2]
    obtain ⟨⟨a, b⟩, hab⟩ := Option.isSome_iff_exists.1
      ((getAt_isSome_iff hs t).2 ⟨by simp [Mgr.size, hn], by rwa [hmin], by rwa [hmax]⟩)
    have hnan : ∀ x, a.coef.velocity x = nan ∨ b.coef.velocity x = nan := by
      obtain ⟨pre, post, hm, -⟩ := getAt_some hab
      rw [hn] at hm
      intro x
      match pre, hm with
      | [], hm => left; simp only [List.nil_append, List.cons.injEq] at hm; rw [← hm.1, c0]
      | [p], hm =>
        right
        simp only [List.cons_append, List.nil_append, List.cons.injEq] at hm
        rw [← hm.2.2.1, c2]
      | p :: q :: pre, hm => have := congrArg List.length hm; simp at this; omega
    have hne : ¬(m'.getMaxTime = t ∧ m'.getMinTime = t) := by
      rw [hmin, hmax]
      rintro ⟨r1, r2⟩
      exact absurd (h01.trans h12) (by rw [r1, r2]; exact lt_irrefl _)
    simp only [evaluateS, evaluateVelocityS, evaluateAccelerationS, if_neg hne, hab]
    exact ⟨congrArg (fun f => Outcome.ok (some f)) (funext fun x => (interpolateS_nan R (hnan x) t).1),
      congrArg (fun f => Outcome.ok (some f)) (funext fun x => (interpolateS_nan R (hnan x) t).2.1),
      congrArg (fun f => Outcome.ok (some f)) (funext fun x => (interpolateS_nan R (hnan x) t).2.2)⟩

/-- Three points on a line, fitted periodically: NaN after half a second. -/
example : ∃ c ks, fitPeriodicS (double ℚ) false [0, 1, 2] [nums fun _ => 0, nums fun _ => 5, nums fun _ => 0]
    ⟨⟨0, 0⟩, Mgr.empty⟩ = .ok (c, ks) ∧ evaluateS (double ℚ) (1 / 2) c.m = .ok (some fun _ => nan) := by
  obtain ⟨c, ks, e, h⟩ := C124_refuted (double ℚ) false ⟨0, 0⟩ (t0 := 0) (t1 := 1) (t2 := 2) (by norm_num) (by norm_num)
    (fun _ => 0) (fun _ => 5) fun _ => 0
  exact ⟨c, ks, e, (h (1 / 2) (by norm_num) (by norm_num)).1⟩

/-- Hypotheses of `C124_periodic_partial` and `C124_fit_partial` met: with four points there is a curve of numbers. -/
example : ∃ c ks, fitPeriodicS (exact ℚ) false [0, 1, 2, 3]
    [nums fun _ => 0, nums fun _ => 5, nums fun _ => 3, nums fun _ => 0] ⟨⟨0, 0⟩, Mgr.empty⟩ = .ok (c, ks) ∧
    c.m.knots = [(0, ⟨nums fun _ => 0, nums fun _ => -2⟩), (1, ⟨nums fun _ => 5, nums fun _ => 3 / 2⟩),
      (2, ⟨nums fun _ => 3, nums fun _ => -5 / 2⟩), (3, ⟨nums fun _ => 0, nums fun _ => -2⟩)] := by
  obtain ⟨d, e, hd⟩ := C124_periodic_partial (exact ℚ) false (ts := [0, 1, 2, 3]) (by decide) (fun _ _ => rfl) (by decide)
    (by decide) [fun _ => 0, fun _ => 5, fun _ => 3, fun _ => 0] rfl (E3.fresh ⟨0, 0⟩)
  have hd' : d = fun _ => -2 := by
    rw [hd]
    funext x
    simp only [calculateSlope, exact, List.length_cons, List.length_nil, Nat.reduceAdd, Nat.reduceSub,
      List.getElem_cons_succ, List.getElem_cons_zero]
    norm_num
  rw [hd'] at e
  refine ⟨_, _, e.trans rfl, ?_⟩
  decide +kernel

/-- Hypotheses of `C124_evaluate_partial` met: a curve with knots at 0 and 1/2, at time 1/3. -/
example : ∃ p q, evaluateS (double ℚ) (1 / 3) (demo.m.conv numKnot) = .ok (some (nums p)) ∧
    evaluateVelocityS (double ℚ) (1 / 3) (demo.m.conv numKnot) = .ok (some (nums q)) := by
  have h : ∀ n ∈ demo.m.knots, (double ℚ).rnd n.1 = n.1 := by
    intro n hn
    have : n = (0, ⟨fun _ => toDouble (1 / 10), fun _ => 1⟩) ∨ n = (1 / 2, ⟨fun _ => toDouble (1 / 5), fun _ => 0⟩) := by
      simpa [demo, Manager.Mgr.knots] using hn
    rcases this with rfl | rfl
    · exact rnd_zero _
    · change toDouble (1 / 2 : ℚ) = 1 / 2
      decide +kernel
  obtain ⟨e1, e2, -⟩ := C124_evaluate_partial (double ℚ) demo_reachable (by decide) h (1 / 3)
  obtain ⟨p, hp⟩ : ∃ p, evaluate (double ℚ) (1 / 3) demo.m = .ok (some p) := by
    simp [evaluate, demo, Mgr.getMaxTime, Mgr.getMinTime, Mgr.getCoefficientsAt, upperSplit]
    norm_num
  obtain ⟨q, hq⟩ : ∃ q, evaluateVelocity (double ℚ) (1 / 3) demo.m = .ok (some q) := by
    simp [evaluateVelocity, demo, Mgr.getMaxTime, Mgr.getMinTime, Mgr.getCoefficientsAt, upperSplit]
    norm_num
  exact ⟨p, q, by rw [e1, hp]; rfl, by rw [e2, hq]; rfl⟩

/-! ## Segments -/

/-- **C124 (partial)**, segments of orders 1 and 2: with a duration other than zero (order 2: whose square is not rounded to
zero) every coefficient and every position is a number. -/
theorem C124_segment_partial (R : Rounding K) (pos0 vel0 posT tf t : K) (h : tf ≠ 0) :
    (∃ x, compute1S R (num pos0) (num posT) (num tf) = num x ∧ position1S R (num x) (num pos0) tf t = num
      (R.rnd (R.rnd (0 + R.rnd (x * clamp t tf)) + R.rnd (pos0 * 1)))) ∧
    (R.rnd (tf * tf) ≠ 0 → ∃ x y, compute2S R (num pos0) (num vel0) (num posT) (num tf) = num x ∧
      position2S R (num x) (num vel0) (num pos0) tf t = num y) := by
  refine ⟨⟨R.rnd (R.rnd (posT - pos0) / tf), by simp [compute1S, div_num R _ h], rfl⟩, fun h2 => ?_⟩
  exact ⟨R.rnd (R.rnd (R.rnd (posT - pos0) - R.rnd (vel0 * tf)) / R.rnd (tf * tf)), _,
    by simp [compute2S, div_num R _ h2], rfl⟩

/-- **C124 is false of segments of orders 1 and 2 with duration zero**, whatever the other options: `compute` reports success,
and the position is NaN at all times. -/
theorem C124_segment_refuted (R : Rounding K) (pos0 vel0 posT t : K) :
    position1S R (compute1S R (num pos0) (num posT) (num 0)) (num pos0) 0 t = nan ∧
    position2S R (compute2S R (num pos0) (num vel0) (num posT) (num 0)) (num vel0) (num pos0) 0 t = nan := by
  have hc : clamp t (0 : K) = 0 := by
    rw [clamp]
    split_ifs <;> rfl
  have hmul : ∀ x : K, mul R (div R (num x) (num 0)) (num 0) = nan := by
    intro x
    by_cases hx : x = 0 <;> simp [div, mul, hx]
  simp only [position1S, position2S, compute1S, compute2S, hc, sub_num, mul_num, mul_zero, rnd_zero, hmul, add_nan,
    nan_add, and_self]

/-- Hypotheses of `C124_segment_partial` met: from 1 to 4 in 2 seconds, order 1, is at 5/2 after one second. -/
example : compute1S (exact ℚ) (num 1) (num 4) (num 2) = num (3 / 2) ∧
    position1S (exact ℚ) (num (3 / 2)) (num 1) 2 1 = num (5 / 2) ∧
    compute2S (exact ℚ) (num 1) (num 0) (num 4) (num 2) = num (3 / 4) ∧ (exact ℚ).rnd (2 * 2) ≠ 0 := by
  decide +kernel

end Verif.Rounding

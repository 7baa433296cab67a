import Verif.Hermite.E3Lemmas
import Verif.Manager.Props

/-!
# Properties C34 - C40 and part of C48, C50: `CubicHermiteE3Curve`
-/

set_option linter.unusedSectionVars false
set_option linter.dupNamespace false

namespace Verif.Hermite.E3

open Verif.Manager

/-- A curve used in the examples below: three knots fitted over ℚ (over one dimension). -/
def demo : E3 ℚ ℚ :=
  ⟨⟨3, 3⟩, ⟨[⟨0, 1, 1, ⟨5, 0⟩⟩, ⟨1, 2, 2, ⟨7, 1 / 3⟩⟩, ⟨2, 4, 3, ⟨6, 0⟩⟩], [(1, 0), (2, 1), (3, 2)]⟩⟩

theorem demo_reachable : Reachable demo := by
  refine ⟨false, ⟨0, 0⟩, [.fit [1, 2, 4] [5, 7, 6]], ?_⟩
  simp [run, step, fitCurve, fitCurveWithDerivatives, fitLoop, knotDerivative, fresh,
    Mgr.insertCoefficients, Mgr.insertLoop, Mgr.insertCoefficient, Mgr.empty, scanAtTime, getNextKey,
    newAddr, mapInsert, kmSet, calculateSlope, demo]
  norm_num

section field
variable {K V : Type} [Field K] [LinearOrder K] [IsStrictOrderedRing K] [AddCommGroup V] [Module K V]

theorem knots_ne_nil {c : E3 K V} : c.m.knots ≠ [] ↔ c.m.nodes ≠ [] := by simp [Mgr.knots]

/-! ## C34 -/

/-- **C34 (partial).** On every curve a program can hold, unless it is empty and asked at time 0:
`evaluate(t)` and `evaluateDerivative(t, 1)` return, and they return `true` exactly when the curve has
a knot and `minTime <= t <= maxTime`. Missing: the empty curve at time 0, see `C34_refuted`. -/
theorem C34_domain_partial {c : E3 K V} (hr : Reachable c) (t : K) (hg : c.m.knots ≠ [] ∨ t ≠ 0) :
    (∃ r, evaluate t c = .ok r ∧
      (r.isSome ↔ c.m.knots ≠ [] ∧ c.getMinTime ≤ t ∧ t ≤ c.getMaxTime)) ∧
    ∃ r, evaluateDerivative t 1 c = .ok r ∧
      (r.isSome ↔ c.m.knots ≠ [] ∧ c.getMinTime ≤ t ∧ t ≤ c.getMaxTime) := by
  have hs := hr.sorted
  simp only [knots_ne_nil, getMinTime, getMaxTime] at *
  cases hn : c.m.nodes with
  | nil =>
    have ht : t ≠ 0 := by rcases hg with h | h; exacts [absurd hn h, h]
    have e1 : c.m.getMaxTime = 0 := by simp [Mgr.getMaxTime, hn]
    have e2 : c.m.getCoefficientsAt t = none := by simp [Mgr.getCoefficientsAt, hn]
    constructor
    · refine ⟨none, ?_, by simp⟩
      rw [evaluate, if_neg (by rw [e1]; exact fun h => ht h.1.symm), e2]
    · refine ⟨none, ?_, by simp⟩
      rw [evaluateDerivative, if_pos rfl, if_neg (by rw [e1]; exact fun h => ht h.1.symm), e2]
  | cons a l =>
    cases l with
    | nil =>
      have e1 : c.m.getMaxTime = a.time := by simp [Mgr.getMaxTime, hn]
      have e2 : c.m.getMinTime = a.time := by simp [Mgr.getMinTime, hn]
      have e3 : c.m.getCoefficientsAt t = none := by
        have := mt (getAt_isSome_iff hs t).1 (by simp [Mgr.size, hn])
        simpa using this
      rw [evaluate, evaluateDerivative, if_pos rfl, e1, e2, e3, hn]
      by_cases h : a.time = t
      · rw [if_pos ⟨h, h⟩, if_pos ⟨h, h⟩]
        simp [h]
      · rw [if_neg (fun x => h x.1), if_neg (fun x => h x.1)]
        refine ⟨⟨none, rfl, ?_⟩, none, rfl, ?_⟩ <;>
        · simp only [Option.isSome_none, Bool.false_eq_true, false_iff, not_and, not_le]
          exact fun _ hle => lt_of_le_of_ne hle h
    | cons b l =>
      have hm : c.m.nodes = [] ++ a :: b :: l := hn
      rw [evaluate, evaluateDerivative, if_pos rfl, if_neg (not_single hs hm t),
        if_neg (not_single hs hm t)]
      have key := getAt_isSome_iff hs t
      cases h : c.m.getCoefficientsAt t with
      | none =>
        rw [h] at key
        refine ⟨⟨none, rfl, ?_⟩, none, rfl, ?_⟩ <;>
        · simpa [Mgr.size, hn] using key
      | some p =>
        rw [h] at key
        refine ⟨⟨_, rfl, ?_⟩, _, rfl, ?_⟩ <;>
        · simpa [Mgr.size, hn] using key

/-- An instance of C34: inside and outside the domain. -/
example : (∃ v, evaluate 3 demo = .ok (some v)) ∧ evaluate 5 demo = .ok none := by
  obtain ⟨⟨r, e, h⟩, -⟩ := C34_domain_partial demo_reachable 3 (by simp [demo, Mgr.knots])
  obtain ⟨⟨r', e', h'⟩, -⟩ := C34_domain_partial demo_reachable 5 (by simp [demo, Mgr.knots])
  have h1 : r.isSome := h.2 (by
    simp [demo, Mgr.knots, getMinTime, getMaxTime, Mgr.getMinTime, Mgr.getMaxTime]; norm_num)
  have h2 : ¬r'.isSome := fun x => absurd (h'.1 x).2.2 (by
    simp [demo, getMaxTime, Mgr.getMaxTime]; norm_num)
  obtain ⟨v, rfl⟩ := Option.isSome_iff_exists.1 h1
  simp only [Option.not_isSome_iff_eq_none] at h2
  subst h2
  exact ⟨⟨v, e⟩, e'⟩

/-- **C34 is false of the code**: evaluating any empty curve at time 0 dereferences the end iterator. -/
theorem C34_refuted (c : E3 K V) (h : c.m.knots = []) :
    evaluate 0 c = .ub ∧ evaluateDerivative 0 1 c = .ub := by
  have hn : c.m.nodes = [] := by simpa [Mgr.knots] using h
  simp [evaluate, evaluateDerivative, Mgr.getMaxTime, Mgr.getMinTime, hn]

/-- Such a curve is reachable: a new one, or one that was cleared. -/
example (c : E3 K V) (w : World) : evaluate 0 (fresh w : E3 K V) = .ub ∧ evaluate 0 c.clear = .ub :=
  ⟨(C34_refuted _ rfl).1, (C34_refuted _ rfl).1⟩

/-- The second derivative needs two knots: on a curve with a single knot it fails even at that knot.
It is never undefined behaviour. -/
theorem C34_acceleration_domain {c : E3 K V} (hr : Reachable c) (t : K) :
    ∃ r, evaluateDerivative t 2 c = .ok r ∧
      (r.isSome ↔ 2 ≤ c.m.knots.length ∧ c.getMinTime ≤ t ∧ t ≤ c.getMaxTime) := by
  have key := getAt_isSome_iff hr.sorted t
  simp only [evaluateDerivative, evaluateLinearAcceleration, Mgr.knots, List.length_map]
  cases h : c.m.getCoefficientsAt t with
  | none => rw [h] at key; exact ⟨none, rfl, key⟩
  | some p => rw [h] at key; exact ⟨_, rfl, key⟩

/-! ## C35 -/

/-- **C35.** At the time of a knot, `evaluate` returns that knot's position and
`evaluateDerivative(t, 1)` (the first half of C36) its velocity. -/
theorem C35_interpolates {c : E3 K V} (hr : Reachable c) {t : K} {k : Knot V}
    (hk : (t, k) ∈ c.m.knots) :
    evaluate t c = .ok (some k.position) ∧ evaluateDerivative t 1 c = .ok (some k.velocity) := by
  have hs := hr.sorted
  obtain ⟨n, hn, e⟩ := List.mem_map.1 hk
  cases e
  obtain ⟨pre, post, hm⟩ := List.append_of_mem hn
  cases post with
  | cons b post =>
    have hlt := neighbours_lt hs hm
    rw [evaluate_between hs hm le_rfl hlt.le, velocity_between hs hm le_rfl hlt.le,
      interpolate_left, velocity_left]
    exact ⟨rfl, rfl⟩
  | nil =>
    rcases List.eq_nil_or_concat pre with rfl | ⟨pre', a, rfl⟩
    · have e1 : c.m.getMaxTime = n.time := by simp [Mgr.getMaxTime, hm]
      have e2 : c.m.getMinTime = n.time := by simp [Mgr.getMinTime, hm]
      rw [evaluate, evaluateDerivative, if_pos rfl, if_pos ⟨e1, e2⟩, if_pos ⟨e1, e2⟩, hm]
      exact ⟨rfl, rfl⟩
    · have hm' : c.m.nodes = pre' ++ a :: n :: [] := by simp [hm]
      have hlt := neighbours_lt hs hm'
      rw [evaluate_between hs hm' hlt.le le_rfl, velocity_between hs hm' hlt.le le_rfl,
        interpolate_right hlt, velocity_right hlt]
      exact ⟨rfl, rfl⟩

example : evaluate 2 demo = .ok (some 7) ∧ evaluateDerivative 2 1 demo = .ok (some (1 / 3)) :=
  C35_interpolates demo_reachable (k := ⟨7, 1 / 3⟩) (by simp [demo, Mgr.knots])

/-! ## C38 -/

/-- **C38 (partial)**, for `fitCurve` and `fitCurveWithDerivatives`. Whatever curve was there before, for
distinct times in any order and as many values: the fit returns, and afterwards there is a knot at each
given time with the given value; its velocity is the given initial (final) derivative for the first
(last) point and the slope of the chord through the two neighbours for the others. Missing:
`fitPeriodicCurve`, see `C38_periodic_wrong`. -/
theorem C38_slopes_partial {c : E3 K V} (hr : Reachable c) (debug : Bool) (ts : List K) (vs : List V)
    (hl : ts.length = vs.length) (hd : ts.Nodup) (d0 dT : V)
    (hc : c.w.calls + ts.length + 1 < 2 ^ 64) :
    ∃ c' ks, fitCurveWithDerivatives debug ts vs d0 dT c = .ok (c', ks) ∧
      ∀ i (hi : i < ts.length), ∃ v, (ts[i], (⟨vs[i], v⟩ : Knot V)) ∈ c'.m.knots ∧
        (i = 0 → v = d0) ∧ (i ≠ 0 → i = ts.length - 1 → v = dT) ∧
        ∀ (_ : 0 < i) (_ : i + 1 < ts.length),
          (ts[i + 1] - ts[i - 1]) • v = vs[i + 1] - vs[i - 1] := by
  obtain ⟨cs, e, hcs, h⟩ := fitLoop_ok ts vs d0 dT hl.le ts.length 0 (by omega)
  obtain ⟨w', m', ks, e', hk, h1, h2, h3⟩ :=
    (C03_batch_insert hr.manager ts cs hc).2 (by omega)
  refine ⟨⟨w', m'⟩, ks, ?_, fun i hi => ?_⟩
  · rw [fitCurveWithDerivatives, if_neg (by simp [hl]), e, Outcome.ok_bind, e']
    rfl
  · obtain ⟨x, q1, q2⟩ := h1 i hi
    have q3 := q2 (fun j hj hij he => by
      have := (List.nodup_iff_injective_getElem.1 hd) (a₁ := ⟨j, hj⟩) (a₂ := ⟨i, hi⟩) he
      simp at this; omega)
    obtain ⟨k, r1, r2, r3, r4, r5⟩ := h i hi
    simp only [Nat.zero_add] at r2 r3 r4 r5
    refine ⟨k.velocity, ?_, r3, r4, fun hi0 hi1 => ?_⟩
    · obtain ⟨n, hn, n1, -, n3⟩ := mem_contents.1 q1
      refine List.mem_map.2 ⟨n, hn, ?_⟩
      rw [n1, n3, q3, r1, ← r2]
    · rw [r5 (by omega) (by omega), calculateSlope]
      have hne : ts[i + 1] - ts[i - 1] ≠ 0 := by
        rw [sub_ne_zero]
        intro he
        have := (List.nodup_iff_injective_getElem.1 hd) (a₁ := ⟨i + 1, by omega⟩)
          (a₂ := ⟨i - 1, by omega⟩) he
        simp at this; omega
      rw [smul_smul, mul_one_div_cancel hne, one_smul]

/-- An instance of C38: the chord of the middle knot. -/
example : ∃ c' ks, fitCurve false [1, 2, 4] [5, 7, (6 : ℚ)] (fresh ⟨0, 0⟩ : E3 ℚ ℚ) = .ok (c', ks) ∧
    ∃ v, ((2 : ℚ), (⟨7, v⟩ : Knot ℚ)) ∈ c'.m.knots ∧ (4 - 1 : ℚ) • v = 6 - 5 := by
  obtain ⟨c', ks, e, h⟩ := C38_slopes_partial (c := (fresh ⟨0, 0⟩ : E3 ℚ ℚ)) ⟨false, ⟨0, 0⟩, [], rfl⟩ false
    [1, 2, 4] [5, 7, (6 : ℚ)] rfl (by simp) 0 0 (by simp [fresh])
  obtain ⟨v, h1, -, -, h2⟩ := h 1 (by decide)
  exact ⟨c', ks, e, v, h1, h2 (by decide) (by decide)⟩

/-- What `fitPeriodicCurve` does: both ends get the slope of the code, everything else is as in C38. -/
theorem periodic_eq (debug : Bool) (ts : List K) (vs : List V) (h2 : 2 ≤ ts.length)
    (hl : ts.length = vs.length) (c : E3 K V) :
    fitPeriodicCurve debug ts vs c =
      fitCurveWithDerivatives debug ts vs
        (calculateSlope ts[ts.length - 2] ts[1] vs[ts.length - 2] vs[1])
        (calculateSlope ts[ts.length - 2] ts[1] vs[ts.length - 2] vs[1]) c := by
  rw [fitPeriodicCurve, if_neg (by omega), List.getElem?_eq_getElem (by omega),
    List.getElem?_eq_getElem (by omega), List.getElem?_eq_getElem (by omega),
    List.getElem?_eq_getElem (by omega)]
  rfl

/-- **C38 is false of `fitPeriodicCurve`.** For four or more strictly increasing times (whatever curve
was there before) both ends get the same velocity `v`, but `v` is the chord from the second-to-last
point to the second one divided by `t[1] - t[n-2]`, which is negative. It is the chord over the
wrapped-around distance `(t[1] - t[0]) + (t[n-1] - t[n-2])` only if these two points coincide. -/
theorem C38_periodic_wrong {c : E3 K V} (hr : Reachable c) (debug : Bool) (ts : List K) (vs : List V)
    (h4 : 4 ≤ ts.length) (hl : ts.length = vs.length) (hinc : ts.Pairwise (· < ·))
    (hc : c.w.calls + ts.length + 1 < 2 ^ 64) :
    ∃ c' ks v, fitPeriodicCurve debug ts vs c = .ok (c', ks) ∧
      (ts[0], (⟨vs[0], v⟩ : Knot V)) ∈ c'.m.knots ∧
      (ts[ts.length - 1], (⟨vs[ts.length - 1], v⟩ : Knot V)) ∈ c'.m.knots ∧
      (ts[1] - ts[ts.length - 2]) • v = vs[1] - vs[ts.length - 2] ∧
      ts[1] - ts[ts.length - 2] < 0 ∧
      (((ts[1] - ts[0]) + (ts[ts.length - 1] - ts[ts.length - 2])) • v = vs[1] - vs[ts.length - 2] →
        vs[1] = vs[ts.length - 2]) := by
  obtain ⟨c', ks, e, h⟩ := C38_slopes_partial hr debug ts vs hl (hinc.imp ne_of_lt)
    (calculateSlope ts[ts.length - 2] ts[1] vs[ts.length - 2] vs[1])
    (calculateSlope ts[ts.length - 2] ts[1] vs[ts.length - 2] vs[1]) hc
  have hlt : ∀ i j (hi : i < ts.length) (hj : j < ts.length), i < j → ts[i] < ts[j] :=
    List.pairwise_iff_getElem.1 hinc
  have hneg : ts[1] - ts[ts.length - 2] < 0 := sub_neg.2 (hlt 1 (ts.length - 2) _ _ (by omega))
  have hv : (ts[1] - ts[ts.length - 2]) •
      calculateSlope ts[ts.length - 2] ts[1] vs[ts.length - 2] vs[1] = vs[1] - vs[ts.length - 2] := by
    simp only [calculateSlope]
    rw [smul_smul, mul_one_div_cancel hneg.ne, one_smul]
  refine ⟨c', ks, _, (periodic_eq debug ts vs (by omega) hl c).trans e, ?_, ?_, hv, hneg, fun hw => ?_⟩
  · obtain ⟨v, h1, h2, -⟩ := h 0 (by omega)
    rw [← h2 rfl]; exact h1
  · obtain ⟨v, h1, -, h2, -⟩ := h (ts.length - 1) (by omega)
    rw [← h2 (by omega) rfl]; exact h1
  · set s := calculateSlope ts[ts.length - 2] ts[1] vs[ts.length - 2] vs[1]
    have h1 := hlt 0 1 (by omega) (by omega) (by omega)
    have h2 := hlt (ts.length - 2) (ts.length - 1) (by omega) (by omega) (by omega)
    have h3 : (((ts[1] - ts[0]) + (ts[ts.length - 1] - ts[ts.length - 2])) -
        (ts[1] - ts[ts.length - 2])) • s = 0 := by rw [sub_smul, hw, hv, sub_self]
    rcases smul_eq_zero.1 h3 with h4 | h4
    · exfalso; linarith
    · rw [h4, smul_zero] at hv
      exact sub_eq_zero.1 hv.symm

/-- The counterexample to C38: points 0, 1, 3, 0 at the times 0, 1, 2, 3. The chord with wrap-around is
(1 - 3) / 2 = -1; the code gives 2. (With three points the code divides 0 by 0, see `Rounding.C124_refuted`.) -/
theorem C38_refuted : ∃ (ts vs : List ℚ) (c' : E3 ℚ ℚ) (ks : List Key) (v : ℚ),
    fitPeriodicCurve false ts vs (fresh ⟨0, 0⟩) = .ok (c', ks) ∧
    ts = [0, 1, 2, 3] ∧ vs = [0, 1, 3, 0] ∧ (0, (⟨0, v⟩ : Knot ℚ)) ∈ c'.m.knots ∧ v = 2 ∧
    v ≠ (1 - 3) / ((1 - 0) + (3 - 2)) := by
  obtain ⟨c', ks, v, e, h1, -, h3, -⟩ := C38_periodic_wrong (c := (fresh ⟨0, 0⟩ : E3 ℚ ℚ))
    ⟨false, ⟨0, 0⟩, [], rfl⟩ false [0, 1, 2, 3] [0, 1, 3, 0] (by simp) rfl (by simp; norm_num)
    (by simp [fresh])
  have hv : v = 2 := by
    simp only [List.length_cons, List.length_nil, List.getElem_cons_succ, List.getElem_cons_zero,
      Nat.reduceAdd, Nat.reduceSub, smul_eq_mul] at h3
    linarith
  exact ⟨_, _, c', ks, v, e, rfl, rfl, h1, hv, by rw [hv]; norm_num⟩

/-! ## C39 -/

/-- **C39 (partial).** On a curve without knots, for strictly increasing times, the knots after the fit
are exactly the given ones. Missing: curves that hold knots, see `C39_keeps_old_knots`. -/
theorem C39_replaces_partial (debug : Bool) (ts : List K) (vs : List V)
    (hl : ts.length = vs.length) (hinc : ts.Pairwise (· < ·)) (d0 dT : V) (w : World) :
    ∃ c' ks, fitCurveWithDerivatives debug ts vs d0 dT (fresh w) = .ok (c', ks) ∧
      c'.m.knots.map (fun x => (x.1, x.2.position)) = ts.zip vs := by
  obtain ⟨cs, e, hcs, h⟩ := fitLoop_ok ts vs d0 dT hl.le ts.length 0 (by omega)
  obtain ⟨w', m', ks, e', -, hk, -⟩ := fill_empty w (cs := cs) (by omega) hinc
  refine ⟨⟨w', m'⟩, ks, ?_, ?_⟩
  · rw [fitCurveWithDerivatives, if_neg (by simp [hl]), e, Outcome.ok_bind, fresh, e']
    rfl
  · simp only [hk]
    refine List.ext_getElem (by simp; omega) fun i h1 h2 => ?_
    simp only [List.length_map, List.length_zip] at h1
    obtain ⟨k, r1, r2, -⟩ := h i (by omega)
    simp only [List.getElem_map, List.getElem_zip, r1, r2, Nat.zero_add]

example : ∃ c' ks, fitCurve true [1, 2, 4] [5, 7, (6 : ℚ)] (fresh ⟨9, 9⟩ : E3 ℚ ℚ) = .ok (c', ks) ∧
    c'.m.knots.map (fun x => (x.1, x.2.position)) = [(1, 5), (2, 7), (4, 6)] :=
  C39_replaces_partial true [1, 2, 4] [5, 7, 6] rfl (by simp; norm_num) 0 0 ⟨9, 9⟩

/-- **C39 is false of `CubicHermiteE3Curve`**: a fit never removes a knot. Every old knot at a time that
is not among the new ones is still there, unchanged. -/
theorem C39_keeps_old_knots {c : E3 K V} (hr : Reachable c) (debug : Bool) (ts : List K) (vs : List V)
    (d0 dT : V) (hc : c.w.calls + ts.length + 1 < 2 ^ 64) (c' : E3 K V) (ks : List Key)
    (e : fitCurveWithDerivatives debug ts vs d0 dT c = .ok (c', ks)) (t : K) (k : Knot V)
    (ht : t ∉ ts) : (t, k) ∈ c'.m.knots ↔ (t, k) ∈ c.m.knots := by
  unfold fitCurveWithDerivatives at e
  split at e
  · cases e
  · obtain ⟨cs, -, h2⟩ := Outcome.bind_eq_ok.1 e
    obtain ⟨⟨w, m, ks'⟩, h3, h4⟩ := Outcome.bind_eq_ok.1 h2
    cases h4
    have hl := (insertCoefficients_ok h3).1
    obtain ⟨w', m', ks, e', hk, -, hf, -⟩ := (C03_batch_insert hr.manager ts cs hc).2 hl
    rw [h3] at e'; cases e'
    constructor
    · intro h
      obtain ⟨n, hn, en⟩ := List.mem_map.1 h
      cases en
      obtain ⟨n', hn', a1, a2, a3⟩ := mem_contents.1 ((hf n.time n.key n.coef ht).1
        (mem_contents.2 ⟨n, hn, rfl, rfl, rfl⟩))
      exact List.mem_map.2 ⟨n', hn', by rw [a1, a3]⟩
    · intro h
      obtain ⟨n, hn, en⟩ := List.mem_map.1 h
      cases en
      obtain ⟨n', hn', a1, a2, a3⟩ := mem_contents.1 ((hf n.time n.key n.coef ht).2
        (mem_contents.2 ⟨n, hn, rfl, rfl, rfl⟩))
      exact List.mem_map.2 ⟨n', hn', by rw [a1, a3]⟩

/-- The counterexample to C39: the demo curve fitted again keeps its knot at time 4. -/
theorem C39_refuted : ∃ (c c' : E3 ℚ ℚ) (ks : List Key), Reachable c ∧
    fitCurve false [0, 1] [8, (9 : ℚ)] c = .ok (c', ks) ∧ (4, (⟨6, 0⟩ : Knot ℚ)) ∈ c'.m.knots := by
  obtain ⟨c', ks, e, -⟩ := C38_slopes_partial demo_reachable false [0, 1] [8, (9 : ℚ)] rfl (by simp) 0 0
    (by simp [demo])
  refine ⟨demo, c', ks, demo_reachable, e, ?_⟩
  exact (C39_keeps_old_knots demo_reachable false [0, 1] [8, 9] 0 0 (by simp [demo]) c' ks e 4 _
    (by simp)).2 (by simp [demo, Mgr.knots])

/-! ## C40 -/

/-- **C40**, first part. If all knots lie on `x(t) = p + t q` and carry the velocity `q`, then in the
domain the curve is `p + t q` with velocity `q` and (from two knots on) acceleration 0. -/
theorem C40_linear {c : E3 K V} (hr : Reachable c) (p q : V)
    (hk : ∀ t k, (t, k) ∈ c.m.knots → k = ⟨p + t • q, q⟩) (hne : c.m.knots ≠ []) (t : K)
    (h0 : c.getMinTime ≤ t) (h1 : t ≤ c.getMaxTime) :
    evaluate t c = .ok (some (p + t • q)) ∧ evaluateDerivative t 1 c = .ok (some q) ∧
    (2 ≤ c.m.knots.length → evaluateDerivative t 2 c = .ok (some 0)) := by
  have hs := hr.sorted
  have hk' : ∀ n ∈ c.m.nodes, n.coef = ⟨p + n.time • q, q⟩ := fun n hn =>
    hk n.time n.coef (List.mem_map.2 ⟨n, hn, rfl⟩)
  by_cases h2 : 2 ≤ c.m.size
  · obtain ⟨pre, a, b, post, hm, ha, hb, hget⟩ := exists_bracket hs h2 h0 h1
    have hlt := neighbours_lt hs hm
    have ea := hk' a (by simp [hm])
    have eb := hk' b (by simp [hm])
    refine ⟨?_, ?_, fun _ => ?_⟩
    · rw [evaluate_between hs hm ha hb, linear_position hlt ea eb]
    · rw [velocity_between hs hm ha hb, linear_velocity hlt ea eb]
    · rw [evaluateDerivative, if_neg (by omega), if_pos rfl, evaluateLinearAcceleration, hget]
      simp only [linear_acceleration hlt ea eb]
  · obtain ⟨n, hn⟩ : ∃ n, c.m.nodes = [n] := by
      have : c.m.nodes ≠ [] := knots_ne_nil.1 hne
      obtain ⟨n, l, hl⟩ := List.exists_cons_of_ne_nil this
      cases l with
      | nil => exact ⟨n, hl⟩
      | cons b l => exact absurd (by simp [Mgr.size, hl]) h2
    have e1 : c.m.getMaxTime = n.time := by simp [Mgr.getMaxTime, hn]
    have e2 : c.m.getMinTime = n.time := by simp [Mgr.getMinTime, hn]
    rw [getMinTime, e2] at h0
    rw [getMaxTime, e1] at h1
    obtain rfl := le_antisymm h0 h1
    have hc := C35_interpolates hr (t := n.time) (k := n.coef) (List.mem_map.2 ⟨n, by simp [hn], rfl⟩)
    rw [hk' n (by simp [hn])] at hc
    refine ⟨hc.1, hc.2, fun h => absurd ?_ h2⟩
    simpa [Mgr.knots, Mgr.size] using h

/-- The demo curve shifted: knots on 1 + 2 t. -/
def line : E3 ℚ ℚ :=
  ⟨⟨2, 2⟩, ⟨[⟨0, 1, 1, ⟨3, 2⟩⟩, ⟨1, 5, 2, ⟨11, 2⟩⟩], [(1, 0), (2, 1)]⟩⟩

theorem line_reachable : Reachable line := by
  refine ⟨false, ⟨0, 0⟩, [.fitDerivatives [1, 5] [3, 11] 2 2], ?_⟩
  simp [run, step, fitCurveWithDerivatives, fitLoop, knotDerivative, fresh,
    Mgr.insertCoefficients, Mgr.insertLoop, Mgr.insertCoefficient, Mgr.empty, scanAtTime, getNextKey,
    newAddr, mapInsert, kmSet, line]

/-- An instance of C40. -/
example : evaluate 4 line = .ok (some (1 + (4 : ℚ) • 2)) := by
  refine (C40_linear line_reachable 1 2 ?_ (by simp [line, Mgr.knots]) 4 ?_ ?_).1
  · intro t k hk
    simp only [line, Mgr.knots, List.map_cons, List.map_nil, List.mem_cons, Prod.mk.injEq,
      List.not_mem_nil, or_false] at hk
    rcases hk with ⟨rfl, rfl⟩ | ⟨rfl, rfl⟩ <;> norm_num
  · simp [line, getMinTime, Mgr.getMinTime]
  · simp [line, getMaxTime, Mgr.getMaxTime]; norm_num

theorem fitLoop_translate (x : V) (ts : List K) (vs : List V) (d0 dT : V) : ∀ n i,
    fitLoop ts (vs.map (· + x)) d0 dT n i =
      (fitLoop ts vs d0 dT n i >>= fun cs => .ok (cs.map fun k => ⟨k.position + x, k.velocity⟩)) := by
  have hk : ∀ i, knotDerivative ts (vs.map (· + x)) d0 dT i = knotDerivative ts vs d0 dT i := by
    intro i
    unfold knotDerivative
    split
    · rfl
    · split
      · rfl
      · rw [List.getElem?_map, List.getElem?_map]
        cases ts[i - 1]? <;> cases ts[i + 1]? <;> cases vs[i - 1]? <;> cases vs[i + 1]? <;>
          simp [calculateSlope]
  intro n
  induction n with
  | zero => intro i; rfl
  | succ n ih =>
    intro i
    rw [fitLoop, fitLoop, hk, ih, List.getElem?_map]
    cases knotDerivative ts vs d0 dT i <;> cases vs[i]? <;> cases fitLoop ts vs d0 dT n (i + 1) <;>
      simp

/-- **C40**, second part: fitting a new curve to data shifted by `x` gives the same curve shifted by `x`:
at every time the two evaluate alike (both fail, or the values differ by `x`), and the first and second
derivatives are the same. -/
theorem C40_translation (x : V) (debug : Bool) (ts : List K) (vs : List V) (hl : ts.length = vs.length)
    (hinc : ts.Pairwise (· < ·)) (d0 dT : V) (w : World) :
    ∃ c1 c2 k1 k2, fitCurveWithDerivatives debug ts vs d0 dT (fresh w) = .ok (c1, k1) ∧
      fitCurveWithDerivatives debug ts (vs.map (· + x)) d0 dT (fresh w) = .ok (c2, k2) ∧
      ∀ t, evaluate t c2 = (evaluate t c1 >>= fun r => .ok (r.map (· + x))) ∧
        evaluateDerivative t 1 c2 = evaluateDerivative t 1 c1 ∧
        evaluateDerivative t 2 c2 = evaluateDerivative t 2 c1 := by
  obtain ⟨cs, e, hcs, h⟩ := fitLoop_ok ts vs d0 dT hl.le ts.length 0 (by omega)
  obtain ⟨w1, m1, ks1, e1, -, hk1, -⟩ := fill_empty w (cs := cs) (by omega) hinc
  obtain ⟨w2, m2, ks2, e2, -, hk2, -⟩ := fill_empty w
    (cs := cs.map fun k => (⟨k.position + x, k.velocity⟩ : Knot V)) (by simp; omega) hinc
  refine ⟨⟨w1, m1⟩, ⟨w2, m2⟩, ks1, ks2, ?_, ?_, ?_⟩
  · rw [fitCurveWithDerivatives, if_neg (by simp [hl]), e, Outcome.ok_bind, fresh, e1]
    rfl
  · rw [fitCurveWithDerivatives, if_neg (by simp [hl]), fitLoop_translate, e, Outcome.ok_bind,
      Outcome.ok_bind, fresh, e2]
    rfl
  · have hrel : m2.knots = m1.knots.map fun p => (p.1, (⟨p.2.position + x, p.2.velocity⟩ : Knot V)) := by
      rw [hk1, hk2, List.zip_map_right]
      rfl
    have hs : Sorted m1.nodes := by
      rw [sorted_iff_knots, hk1, List.map_fst_zip (by omega)]
      exact hinc
    intro t
    obtain ⟨q1, q2, q3⟩ := evaluate_related (c := (⟨w1, m1⟩ : E3 K V)) (c' := ⟨w2, m2⟩) hs
      (f := fun k => ⟨k.position + x, k.velocity⟩) (g := (· + x)) (g1 := id) (g2 := id) hrel
      (fun _ => rfl) (fun _ => rfl) (fun a b a' b' t h1 h2 h3 h4 => by
        simp only [interpolate, interpolateVelocity, interpolateAcceleration, h1, h2, h3, h4, id]
        refine ⟨by module, by module, by module⟩) t
    refine ⟨q1, ?_, ?_⟩
    · rw [q2]; cases evaluateDerivative t 1 (⟨w1, m1⟩ : E3 K V) <;> simp
    · rw [q3]; cases evaluateDerivative t 2 (⟨w1, m1⟩ : E3 K V) <;> simp

/-- An instance of C40: shifting the data by 10. -/
example : ∃ (c1 c2 : E3 ℚ ℚ) (k1 k2 : List Key),
    fitCurve false [1, 2, 4] [5, 7, 6] (fresh ⟨0, 0⟩) = .ok (c1, k1) ∧
    fitCurve false [1, 2, 4] [15, 17, (16 : ℚ)] (fresh ⟨0, 0⟩) = .ok (c2, k2) ∧
    evaluate 3 c2 = (evaluate 3 c1 >>= fun r => .ok (r.map (· + 10))) := by
  obtain ⟨c1, c2, k1, k2, h1, h2, h3⟩ := C40_translation (10 : ℚ) false [1, 2, (4 : ℚ)] [5, 7, 6] rfl
    (by simp; norm_num) 0 0 ⟨0, 0⟩
  refine ⟨c1, c2, k1, k2, h1, ?_, (h3 3).1⟩
  rw [← h2]
  norm_num [fitCurve]

/-! ## C48 -/

/-- **C48** for this class. `fitCurve` with no points is a no-op (it does not even clear).
`fitPeriodicCurve` with no points, or a single one, reads outside the vectors. -/
theorem C48_hermite_e3 (debug : Bool) (c : E3 K V) (d0 dT : V) (t : K) (v : V) :
    fitCurve debug [] [] c = .ok (c, []) ∧ fitCurveWithDerivatives debug [] [] d0 dT c = .ok (c, []) ∧
    fitPeriodicCurve debug [] [] c = .ub ∧ fitPeriodicCurve debug [t] [v] c = .ub :=
  ⟨by simp [fitCurve, fitCurveWithDerivatives, fitLoop, Mgr.insertCoefficients, Mgr.insertLoop],
    by simp [fitCurveWithDerivatives, fitLoop, Mgr.insertCoefficients, Mgr.insertLoop],
    rfl, rfl⟩

/-! ## C50 -/

/-- **C50 is false of `CubicHermiteE3Curve::extend`**: whatever it is given, it returns normally and the
curve is what it was. -/
theorem C50_e3_extend_refuted (ts : List K) (vs : List V) (c : E3 K V) : extend ts vs c = .ok c := rfl

/-- For example, after extending the demo curve up to time 9 the curve still ends at time 4. -/
example : ∃ c', extend [9] [(1 : ℚ)] demo = .ok c' ∧ evaluate 9 c' = .ok none := by
  refine ⟨demo, rfl, ?_⟩
  obtain ⟨⟨r, e, h⟩, -⟩ := C34_domain_partial demo_reachable 9 (by simp [demo, Mgr.knots])
  have : r = none := by
    have h1 : ¬r.isSome := fun x => absurd (h.1 x).2.2 (by
      simp [demo, getMaxTime, Mgr.getMaxTime]; norm_num)
    simpa using h1
  rw [e, this]

end field

/-! ## C36 and C37 -/

section real
variable {V : Type} [NormedAddCommGroup V] [NormedSpace ℝ V]

/-- **C36** (and the first half of C37). For every curve with a knot there are functions `pos` and `vel`
on the domain which are what `evaluate` and `evaluateDerivative(., 1)` return, such that `vel` is the
derivative of `pos` at every time of the domain, knots and ends included (one-sided at the ends), and
`vel` is continuous: the curve is continuously differentiable. -/
theorem C36_continuously_differentiable {c : E3 ℝ V} (hr : Reachable c) (hne : c.m.knots ≠ []) :
    ∃ pos vel : ℝ → V,
      (∀ t ∈ Set.Icc c.getMinTime c.getMaxTime,
        evaluate t c = .ok (some (pos t)) ∧ evaluateDerivative t 1 c = .ok (some (vel t)) ∧
        HasDerivWithinAt pos (vel t) (Set.Icc c.getMinTime c.getMaxTime) t) ∧
      ContinuousOn vel (Set.Icc c.getMinTime c.getMaxTime) := by
  have hs := hr.sorted
  let pos : ℝ → V := fun t => match evaluate t c with | .ok (some v) => v | _ => 0
  let vel : ℝ → V := fun t => match evaluateDerivative t 1 c with | .ok (some v) => v | _ => 0
  have hval : ∀ t ∈ Set.Icc c.getMinTime c.getMaxTime,
      evaluate t c = .ok (some (pos t)) ∧ evaluateDerivative t 1 c = .ok (some (vel t)) := by
    intro t ht
    obtain ⟨⟨r, e, h⟩, r', e', h'⟩ := C34_domain_partial hr t (Or.inl hne)
    obtain ⟨v, rfl⟩ := Option.isSome_iff_exists.1 (h.2 ⟨hne, ht.1, ht.2⟩)
    obtain ⟨v', rfl⟩ := Option.isSome_iff_exists.1 (h'.2 ⟨hne, ht.1, ht.2⟩)
    simp [pos, vel, e, e']
  have hseg : ∀ pre a b post, c.m.nodes = pre ++ a :: b :: post → ∀ t ∈ Set.Icc a.time b.time,
      pos t = interpolate a b t ∧ vel t = interpolateVelocity a b t := by
    intro pre a b post hm t ht
    have h1 := evaluate_between hs hm ht.1 ht.2
    have h2 := velocity_between hs hm ht.1 ht.2
    simp [pos, vel, h1, h2]
  refine ⟨pos, vel, ?_⟩
  have hn := knots_ne_nil.1 hne
  obtain ⟨x, l, hx⟩ := List.exists_cons_of_ne_nil hn
  cases l with
  | nil =>
    have e1 : c.getMinTime = x.time := by simp [getMinTime, Mgr.getMinTime, hx]
    have e2 : c.getMaxTime = x.time := by simp [getMaxTime, Mgr.getMaxTime, hx]
    refine ⟨fun t ht => ⟨(hval t ht).1, (hval t ht).2, ?_⟩, ?_⟩
    · rw [e1, e2, Set.Icc_self]
      have : t = x.time := by rw [e1, e2] at ht; exact le_antisymm ht.2 ht.1
      rw [this]
      exact hasDerivWithinAt_iff_hasFDerivWithinAt.2 (HasFDerivWithinAt.of_subsingleton Set.subsingleton_singleton)
    · rw [e1, e2, Set.Icc_self]
      exact continuousOn_singleton _ _
  | cons y l =>
    have e1 : c.getMinTime = x.time := by simp [getMinTime, Mgr.getMinTime, hx]
    have e2 : c.getMaxTime = ((y :: l).map (·.time)).getLast (by simp) := by
      rw [List.getLast_map]
      simp [getMaxTime, Mgr.getMaxTime, hx, List.getLast?_eq_some_getLast]
    have hp : (x.time :: y.time :: l.map (·.time)).Pairwise (· < ·) := by
      have := sorted_iff_times.1 hs
      rw [hx] at this
      exact this
    have hsplit : ∀ pre a b post, x.time :: y.time :: l.map (·.time) = pre ++ a :: b :: post →
        ∃ pre' na nb post', c.m.nodes = pre' ++ na :: nb :: post' ∧ na.time = a ∧ nb.time = b := by
      intro pre a b post he
      have : c.m.nodes.map (·.time) = pre ++ a :: b :: post := by rw [hx, ← he]; rfl
      obtain ⟨pre', r, er, -, h⟩ := List.map_eq_append_iff.1 this
      obtain ⟨na, r, rfl, ha, h⟩ := List.map_eq_cons_iff.1 h
      obtain ⟨nb, post', rfl, hb, h⟩ := List.map_eq_cons_iff.1 h
      exact ⟨pre', na, nb, post', er, ha, hb⟩
    constructor
    · have key := glue (Q := fun S => ∀ t ∈ S, HasDerivWithinAt pos (vel t) S t)
        (fun a b c hab hbc h1 h2 => glue_deriv pos vel a b c hab hbc h1 h2)
        (l.map (·.time)) x.time y.time hp (fun pre a b post he => by
          obtain ⟨pre', na, nb, post', hm, rfl, rfl⟩ := hsplit pre a b post he
          intro t ht
          have h := hseg pre' na nb post' hm
          rw [(h t ht).2]
          exact (hasDerivAt_interpolate na nb (neighbours_lt hs hm) t).hasDerivWithinAt.congr
            (fun s hs' => (h s hs').1) (h t ht).1)
      intro t ht
      refine ⟨(hval t ht).1, (hval t ht).2, ?_⟩
      rw [e1, e2] at ht ⊢
      exact key t ht
    · have key := glue (Q := fun S => ContinuousOn vel S)
        (fun a b c hab hbc h1 h2 => glue_cont vel a b c hab hbc h1 h2)
        (l.map (·.time)) x.time y.time hp (fun pre a b post he => by
          obtain ⟨pre', na, nb, post', hm, rfl, rfl⟩ := hsplit pre a b post he
          have h := hseg pre' na nb post' hm
          refine ContinuousOn.congr (f := interpolateVelocity na nb) ?_ (fun t ht => (h t ht).2)
          exact fun t _ => (hasDerivAt_velocity na nb t).continuousAt.continuousWithinAt)
      rw [e1, e2]
      exact key

/-- **C37.** Strictly between two neighbouring knots, `evaluateDerivative(t, 1)` is the derivative of the
function computed by `evaluate`, and `evaluateDerivative(t, 2)` (`evaluateLinearAcceleration`) the
derivative of the function computed by `evaluateDerivative(., 1)`: near `t` these calls return, and what
they return has these derivatives at `t`. -/
theorem C37_true_derivatives {c : E3 ℝ V} (hr : Reachable c) (t ta tb : ℝ) (ka kb : Knot V)
    (ha : (ta, ka) ∈ c.m.knots) (hb : (tb, kb) ∈ c.m.knots) (h0 : ta < t) (h1 : t < tb)
    (hno : ∀ s k, (s, k) ∈ c.m.knots → ¬(ta < s ∧ s < tb)) :
    ∃ (pos vel : ℝ → V) (acc : V),
      (∀ s, ta ≤ s → s ≤ tb →
        evaluate s c = .ok (some (pos s)) ∧ evaluateDerivative s 1 c = .ok (some (vel s))) ∧
      HasDerivAt pos (vel t) t ∧ evaluateDerivative t 2 c = .ok (some acc) ∧
      HasDerivAt vel acc t := by
  have hs := hr.sorted
  obtain ⟨na, hna, ea⟩ := List.mem_map.1 ha
  obtain ⟨nb, hnb, eb⟩ := List.mem_map.1 hb
  cases ea; cases eb
  have hmin := (min_le_node hs hna).1
  have hmax := (min_le_node hs hnb).2
  have h2 : 2 ≤ c.m.size := by
    rw [Mgr.size]
    by_contra hlt
    have h3 : c.m.nodes.length ≤ 1 := by omega
    have : na = nb := by
      rcases hl : c.m.nodes with _ | ⟨x, _ | ⟨y, l⟩⟩
      · rw [hl] at hna; simp at hna
      · rw [hl] at hna hnb
        simp only [List.mem_cons, List.not_mem_nil, or_false] at hna hnb
        rw [hna, hnb]
      · rw [hl] at h3; simp at h3
    rw [this] at h0
    exact absurd (h0.trans h1) (lt_irrefl _)
  obtain ⟨pre, a, b, post, hm, hat, hbt, hget⟩ := exists_bracket hs h2 (hmin.trans h0.le) (h1.le.trans hmax)
  have hab := neighbours_lt hs hm
  have hain : (a.time, a.coef) ∈ c.m.knots := List.mem_map.2 ⟨a, by simp [hm], rfl⟩
  have hbin : (b.time, b.coef) ∈ c.m.knots := List.mem_map.2 ⟨b, by simp [hm], rfl⟩
  have hle : a.time ≤ na.time := not_lt.1 fun h => hno _ _ hain ⟨h, hat.trans_lt h1⟩
  have hle' : nb.time ≤ b.time := not_lt.1 fun h => hno _ _ hbin ⟨h0.trans_le hbt, h⟩
  refine ⟨interpolate a b, interpolateVelocity a b, interpolateAcceleration a b t, ?_,
    hasDerivAt_interpolate a b hab t, ?_, hasDerivAt_velocity a b t⟩
  · intro s hs0 hs1
    exact ⟨evaluate_between hs hm (hle.trans hs0) (hs1.trans hle'),
      velocity_between hs hm (hle.trans hs0) (hs1.trans hle')⟩
  · rw [evaluateDerivative, if_neg (by omega), if_pos rfl]
    exact acceleration_between hs hm (hle.trans h0.le) (h1.trans_le hle')

/-- A curve over ℝ for the examples. -/
noncomputable def demoR : E3 ℝ ℝ :=
  ⟨⟨3, 3⟩, ⟨[⟨0, 1, 1, ⟨5, 0⟩⟩, ⟨1, 2, 2, ⟨7, 1 / 3⟩⟩, ⟨2, 4, 3, ⟨6, 0⟩⟩], [(1, 0), (2, 1), (3, 2)]⟩⟩

theorem demoR_reachable : Reachable demoR := by
  refine ⟨false, ⟨0, 0⟩, [.fit [1, 2, 4] [5, 7, 6]], ?_⟩
  simp [run, step, fitCurve, fitCurveWithDerivatives, fitLoop, knotDerivative, fresh,
    Mgr.insertCoefficients, Mgr.insertLoop, Mgr.insertCoefficient, Mgr.empty, scanAtTime, getNextKey,
    newAddr, mapInsert, kmSet, calculateSlope, demoR]
  norm_num

example : ∃ pos vel : ℝ → ℝ, ContinuousOn vel (Set.Icc demoR.getMinTime demoR.getMaxTime) ∧
    evaluate 2 demoR = .ok (some (pos 2)) := by
  obtain ⟨p, v, h1, h2⟩ := C36_continuously_differentiable demoR_reachable (by simp [demoR, Mgr.knots])
  refine ⟨p, v, h2, (h1 2 ?_).1⟩
  constructor <;> simp [demoR, getMinTime, getMaxTime, Mgr.getMinTime, Mgr.getMaxTime]; norm_num

example : ∃ (pos vel : ℝ → ℝ) (acc : ℝ), HasDerivAt pos (vel 3) 3 ∧
    evaluateDerivative 3 2 demoR = .ok (some acc) ∧ HasDerivAt vel acc 3 := by
  obtain ⟨p, v, a, -, h⟩ := C37_true_derivatives demoR_reachable 3 2 4 ⟨7, 1 / 3⟩ ⟨6, 0⟩
    (by simp [demoR, Mgr.knots]) (by simp [demoR, Mgr.knots]) (by norm_num) (by norm_num) (by
      intro s k h
      simp only [demoR, Mgr.knots, List.map_cons, List.map_nil, List.mem_cons, Prod.mk.injEq,
        List.not_mem_nil, or_false] at h
      rcases h with ⟨rfl, -⟩ | ⟨rfl, -⟩ | ⟨rfl, -⟩ <;> norm_num)
  exact ⟨p, v, a, h⟩

end real

end Verif.Hermite.E3

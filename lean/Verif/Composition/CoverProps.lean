import Verif.Composition.CoverLemmas

/-!
# The domain of a composition curve (C81) and emptiness (C82, composition part)

`getMinTime`, `getMaxTime` and `isEmpty` of the composition look at its base, `size` at its correction.
-/

set_option linter.unusedSectionVars false
set_option linter.dupNamespace false

namespace Verif.Composition

open Verif.Manager Verif.Policy Verif.Discrete

variable {K G V : Type} [Field K] [LinearOrder K] [IsStrictOrderedRing K] [Group G]
  [AddCommGroup V] [Module K V]

/-! ## C81 -/

/-- **C81, partial.** After any history of operations that avoids the four things listed in `Gentle`, a
composition curve that is not empty can be evaluated exactly at the times from its `getMinTime` to its
`getMaxTime`. Missing: histories that do one of the four things; each of them can leave a curve that fails
inside its own domain (`C81_remove_refuted`, `C81_no_correction_refuted`, `C81_times_refuted`,
`C81_backward_refuted`). -/
theorem C81_domain_partial (L : ExpLog K G V) {kb kc : Kind} (hkb : kb ≠ .slerpSE3) (hkc : kc ≠ .slerpSE3)
    {w : World} {ops : List (Op K G)} {s : Comp K G} (hg : GentleRun L kb kc (Comp.fresh w) ops)
    (e : run L kb kc (Comp.fresh w) ops = .ok s) (hc : s.w.calls + 1 < 2 ^ 64)
    (hne : isEmpty s = false) (t : K) :
    (∃ v, eval L kb kc t s = .ok v) ↔ getMinTime s ≤ t ∧ t ≤ getMaxTime s := by
  have hr : Reachable L kb kc s := ⟨w, ops, e⟩
  have hcov : Covers s := run_covers hkb hkc ⟨w, [], rfl⟩
    (by intro p hp; simp [Comp.fresh, Mgr.empty, Mgr.knots] at hp) hg e hc
  obtain ⟨hwb, hwc⟩ := (hr.inv hc).wf hc
  have hb : s.base.mgr.knots ≠ [] := by
    intro h
    simp only [Mgr.knots, List.map_eq_nil_iff] at h
    simp [isEmpty, Mgr.isEmpty, h] at hne
  obtain ⟨x, hx, ex⟩ := knots_min hb
  obtain ⟨y, hy, ey⟩ := knots_max hb
  obtain ⟨hq, hlo⟩ := (low_iff hwc.sorted).1 (hcov x hx).1
  have hhi := ((high_iff hwc.sorted).1 (hcov y hy).2).2
  rw [ex] at hlo
  rw [ey] at hhi
  obtain ⟨h1, h2⟩ := C44_domain L hkb hkc hr hc hb hq t
  constructor
  · rintro ⟨v, hv⟩
    by_contra hcon
    rw [h2 (fun h => hcon ⟨h.1, h.2.1⟩)] at hv
    cases hv
  · rintro ⟨ha, hb'⟩
    obtain ⟨q, b, -, -, hv⟩ := h1 ⟨ha, hb', hlo.trans ha, hb'.trans hhi⟩
    exact ⟨_, hv⟩

/-- `Gentle` can be checked by computation. -/
def gentleB [DecidableEq G] (s : Comp K G) : Op K G → Bool
  | .extend [t] _ => decide (s.corr.pol.minMeas = 1 ∨ s.base.mgr.knots = [] ∨ s.base.mgr.getMaxTime < t)
  | .remove t => decide (t ≠ s.corr.mgr.getMinTime ∧ t ≠ s.corr.mgr.getMaxTime)
  | .setTimes ts => decide (ts ≠ [])
  | .setBase _ _ => decide (s.corr.mgr.knots ≠ [])
  | .setPart _ _ => decide (s.corr.mgr.knots ≠ [])
  | _ => true

/-- `GentleRun` can be checked by computation. -/
def gentleRunB [DecidableEq G] (L : ExpLog K G V) (kb kc : Kind) (s : Comp K G) : List (Op K G) → Bool
  | [] => true
  | op :: rest => gentleB s op && match step L kb kc s op with
    | .ok s' => gentleRunB L kb kc s' rest
    | _ => true

theorem gentleRun_of [DecidableEq G] (L : ExpLog K G V) (kb kc : Kind) (ops : List (Op K G)) :
    ∀ s : Comp K G, gentleRunB L kb kc s ops = true → GentleRun L kb kc s ops := by
  induction ops with
  | nil => intro s _; trivial
  | cons op rest ih =>
    intro s h
    simp only [gentleRunB, Bool.and_eq_true] at h
    refine ⟨?_, fun s' e => ih s' (by simpa [e] using h.2)⟩
    have h1 := h.1
    unfold gentleB at h1
    unfold Gentle
    split at h1 <;> first | exact of_decide_eq_true h1 | (split <;> simp_all)

/-- A history with most of the operations in it. -/
def gentleOps : List (Op ℚ (Multiplicative ℚ)) :=
  demoOps ++ [.remove 3, .fold, .transform (.ofAdd 2), .setRatio 1, .extend [9] [.ofAdd 1], .reset [9, 1],
    .setTimes [9, 4, 1], .setBase [1, 9] [.ofAdd 5, .ofAdd 3], .setPart [2] [.ofAdd 1],
    .modify [1, 2, 9] [.ofAdd 4, .ofAdd 4, .ofAdd 1], .clear, .extend [3] [.ofAdd 1], .extend [2] [.ofAdd 1]]

example : ∃ s, run (lineMaps ℚ) .slerp .slerp (Comp.fresh ⟨100, 200⟩) gentleOps = .ok s ∧
    getMinTime s = 2 ∧ ∃ v, eval (lineMaps ℚ) .slerp .slerp 2 s = .ok v := by
  have hrun : (run (lineMaps ℚ) .slerp .slerp (Comp.fresh ⟨100, 200⟩) gentleOps >>= fun s =>
      .ok (s.w.calls, isEmpty s, getMinTime s, getMaxTime s)) =
      .ok (132, false, 2, 3) := by decide +kernel
  obtain ⟨s, e, h⟩ := Outcome.bind_eq_ok.1 hrun
  simp only [Outcome.ok.injEq, Prod.mk.injEq] at h
  refine ⟨s, e, h.2.2.1, ?_⟩
  exact (C81_domain_partial (lineMaps ℚ) (by decide) (by decide)
    (gentleRun_of _ _ _ _ _ (by decide +kernel)) e (by rw [h.1]; norm_num) h.2.1 2).2
    (by rw [h.2.2.1, h.2.2.2]; norm_num)

/-- **C81 is violated by `removeCorrectionCoefficientAtTime`.** Whatever the state, if the correction begins
where the base begins, removing its first knot is accepted, and afterwards the curve has no value at its own
first time. -/
theorem C81_remove_refuted (L : ExpLog K G V) {kb kc : Kind} {s : Comp K G} (hr : Reachable L kb kc s)
    (hc : s.w.calls + 1 < 2 ^ 64) (hq : s.corr.mgr.knots ≠ [])
    (hmin : s.corr.mgr.getMinTime = s.base.mgr.getMinTime) :
    ∃ s', removeCorrection s.base.mgr.getMinTime s = .ok s' ∧ s'.base = s.base ∧
      ∀ v, eval L kb kc (getMinTime s') s' ≠ .ok v := by
  obtain ⟨x, hx, ex⟩ := knots_min hq
  obtain ⟨s', e, hb, hk⟩ := (C60_remove L hr hc s.base.mgr.getMinTime).2
    ⟨x.2, by rw [← hmin, ← ex]; exact hx⟩
  refine ⟨s', e, hb, fun v hv => ?_⟩
  obtain ⟨-, hwc⟩ := (hr.inv hc).wf hc
  have hi' := (hr.step (op := .remove s.base.mgr.getMinTime) (s' := s') e).inv
    (by
      have : s'.w = s.w := by
        unfold removeCorrection at e
        split at e
        · obtain ⟨m, -, e⟩ := Outcome.bind_eq_ok.1 e
          rw [Outcome.ok.injEq] at e; rw [← e]
        · cases e
      rw [this]; exact hc)
  have hs' : Sorted s'.corr.mgr.nodes := by
    have : s'.w = s.w := by
      unfold removeCorrection at e
      split at e
      · obtain ⟨m, -, e⟩ := Outcome.bind_eq_ok.1 e
        rw [Outcome.ok.injEq] at e; rw [← e]
      · cases e
    exact (hi'.wf (by rw [this]; exact hc)).2.sorted
  obtain ⟨q, hq', -⟩ := Outcome.bind_eq_ok.1 hv
  obtain ⟨-, hne, hlo, -⟩ := evaluate_dom L hs' hq'
  obtain ⟨y, hy, ey⟩ := knots_min hne
  obtain ⟨hy1, hy2⟩ := (hk y.1 y.2).1 hy
  have h1 := (mem_range hwc.sorted hy2).1
  rw [getMinTime, hb] at hlo
  rw [← ey] at hlo
  exact hy1 (le_antisymm hlo (hmin ▸ h1))

example : ∃ s', removeCorrection 1 (⟨demo.w, demo.base, { demo.corr with
    mgr := ⟨demo.corr.mgr.nodes.tail, demo.corr.mgr.keyMap⟩ }⟩ : Comp ℚ (Multiplicative ℚ)) = .ok s' ∧
    eval (lineMaps ℚ) .slerp .slerp 1 s' = .abort := by
  refine ⟨_, rfl, by decide +kernel⟩

/-- **C81 is violated by `setBaseCurve` on a curve without correction.** The check at its end compares with
the first and last time of the correction, which are zero when it has no knots; so a base with a single knot
at time zero is accepted. The curve is then not empty, and has a value nowhere. -/
theorem C81_no_correction_refuted (L : ExpLog K G V) (kb kc : Kind) (w : World) (hw : w.calls + 1 < 2 ^ 64)
    (v : G) : ∃ s, setBaseCurve [0] [v] (Comp.fresh w) = .ok s ∧ isEmpty s = false ∧
      s.base.mgr.knots = [(0, v)] ∧ size s = 0 ∧ ∀ t u, eval L kb kc t s ≠ .ok u := by
  obtain ⟨w', m', k, e, hwf, -, hcont⟩ := insert_append (WF.empty (T := K) (C := G) w) hw (t := 0) v
    (by simp [Mgr.contents, Mgr.empty])
  simp only [Mgr.contents, Mgr.empty, List.map_nil, List.nil_append] at hcont
  obtain ⟨n, l, hn, hn', hl⟩ := List.map_eq_cons_iff.1 hcont
  rw [List.map_eq_nil_iff] at hl
  subst hl
  simp only [Prod.mk.injEq] at hn'
  have hk : m'.knots = [(0, v)] := by simp [Mgr.knots, hn, hn'.1, hn'.2.2]
  refine ⟨⟨w', ⟨m', Pol.fresh⟩, ⟨Mgr.empty, Pol.fresh⟩⟩, ?_, ?_, hk, rfl, ?_⟩
  · have hends : m'.getMinTime = 0 ∧ m'.getMaxTime = 0 := by
      simp [Mgr.getMinTime, Mgr.getMaxTime, hn, hn'.1]
    have he : (Mgr.clear (Mgr.empty : Mgr K G)).insertCoefficient w 0 v = .ok (w', m', k) := e
    have hz : (Mgr.empty : Mgr K G).getMinTime = 0 ∧ (Mgr.empty : Mgr K G).getMaxTime = 0 := ⟨rfl, rfl⟩
    simp [setBaseCurve, Comp.fresh, Curve.fitCurve, Curve.clear, Mgr.insertCoefficients, Mgr.insertLoop, he,
      checkEnds, hends, hz]
  · simp [isEmpty, Mgr.isEmpty, hn]
  · intro t u hu
    obtain ⟨q, hq, -⟩ := Outcome.bind_eq_ok.1 hu
    exact (evaluate_dom L (m := (Mgr.empty : Mgr K G)) (by simp [Sorted, Mgr.empty]) hq).2.1 rfl

/-- **C81 is violated by `setCorrectionTimes` with an empty list.** After one measurement at time zero it is
accepted, and afterwards the curve is not empty and has a value nowhere. -/
theorem C81_times_refuted (L : ExpLog K G V) (kb : Kind) {kc : Kind} {s : Comp K G}
    (h0 : s.base.mgr.getMinTime = 0) (h1 : s.base.mgr.getMaxTime = 0) :
    ∃ s', setCorrectionTimes L kc [] s = .ok s' ∧ s'.base = s.base ∧ size s' = 0 ∧
      ∀ t u, eval L kb kc t s' ≠ .ok u := by
  refine ⟨⟨s.w, s.base, s.corr.clear⟩, ?_, rfl, rfl, ?_⟩
  · have hz : (Mgr.clear s.corr.mgr).getMinTime = 0 ∧ (Mgr.clear s.corr.mgr).getMaxTime = 0 := ⟨rfl, rfl⟩
    simp [setCorrectionTimes, collect, Curve.extend, Curve.clear, Mgr.insertCoefficients, Mgr.insertLoop,
      checkEnds, h0, h1, hz]
  · intro t u hu
    obtain ⟨q, hq, -⟩ := Outcome.bind_eq_ok.1 hu
    exact (evaluate_dom L (m := s.corr.mgr.clear) (by simp [Sorted, Mgr.clear]) hq).2.1 rfl

example (v : Multiplicative ℚ) : ∃ s s' : Comp ℚ (Multiplicative ℚ),
    run (lineMaps ℚ) .slerp .slerp (Comp.fresh ⟨100, 200⟩) [.extend [0] [v]] = .ok s ∧
    setCorrectionTimes (lineMaps ℚ) .slerp [] s = .ok s' ∧ isEmpty s' = false ∧
    ∀ t u, eval (lineMaps ℚ) .slerp .slerp t s' ≠ .ok u := by
  obtain ⟨s, ks, e, hk, -⟩ := C44_extend_first (lineMaps ℚ) (kb := .slerp) (kc := .slerp) (by decide)
    ⟨⟨100, 200⟩, [], rfl⟩ (by decide) rfl rfl 0 v
  cases hn : s.base.mgr.nodes with
  | nil => simp [Mgr.knots, hn] at hk
  | cons a l =>
    simp only [Mgr.knots, hn, List.map_cons, List.cons.injEq, Prod.mk.injEq, List.map_eq_nil_iff] at hk
    obtain ⟨⟨ha, -⟩, rfl⟩ := hk
    obtain ⟨s', e', hb, -, h⟩ := C81_times_refuted (lineMaps ℚ) .slerp (kc := .slerp) (s := s)
      (by simp [Mgr.getMinTime, hn, ha]) (by simp [Mgr.getMaxTime, hn, ha])
    exact ⟨s, s', by simp [run, step, e], e', by simp [isEmpty, Mgr.isEmpty, hb, hn], h⟩

/-- **C81 is violated by extending a thinned curve backwards.** A curve with sampling ratio 3 that has seen
two measurements is cleared and given measurements at 5 and at -1: every call returns. The curve from -1 to
5 has no value at 5, because the last knot of the correction was moved to -1. -/
theorem C81_backward_refuted :
    (run (lineMaps ℚ) .slerp .slerp (Comp.fresh ⟨100, 200⟩)
      [.setRatio 3, .extend [1] [.ofAdd 7], .extend [2] [.ofAdd 8], .clear, .extend [5] [.ofAdd 7],
        .extend [-1] [.ofAdd 2]] >>= fun s =>
      .ok (getMinTime s, getMaxTime s, eval (lineMaps ℚ) .slerp .slerp 5 s)) =
    .ok (-1, 5, .abort) := by
  decide +kernel

/-! ## C82 -/

/-- **C82, clearing a composition.** A cleared composition is empty, has no knots and no value anywhere; the
next measurement is taken as on a new curve. -/
theorem C82_composition_clear (L : ExpLog K G V) {kb kc : Kind} (hkc : kc ≠ .slerpSE3) {s : Comp K G}
    (hr : Reachable L kb kc s) (hc : s.w.calls + 5 < 2 ^ 64) :
    isEmpty (clear s) = true ∧ size (clear s) = 0 ∧
    (∀ t u, eval L kb kc t (clear s) ≠ .ok u) ∧
    ∀ t v, ∃ s' ks, extend L kc [t] [v] (clear s) = .ok (s', ks) ∧ s'.base.mgr.knots = [(t, v)] ∧
      ∀ a u, (a, u) ∈ s'.corr.mgr.knots ↔ (a = 0 ∨ a = t) ∧ u = 1 := by
  refine ⟨rfl, rfl, fun t u hu => ?_, fun t v => ?_⟩
  · obtain ⟨q, hq, -⟩ := Outcome.bind_eq_ok.1 hu
    exact (evaluate_dom L (m := s.corr.mgr.clear) (by simp [Sorted, Mgr.clear]) hq).2.1 rfl
  · exact C44_extend_first L hkc (hr.step (op := .clear) rfl) hc rfl rfl t v

/-- **C82, partial for the composition.** On histories as in C81 a composition that is not empty does not
have size zero. Missing: the other histories, and that an empty composition has size zero
(`C82_composition_refuted`). -/
theorem C82_composition_partial (L : ExpLog K G V) {kb kc : Kind} (hkb : kb ≠ .slerpSE3)
    (hkc : kc ≠ .slerpSE3) {w : World} {ops : List (Op K G)} {s : Comp K G}
    (hg : GentleRun L kb kc (Comp.fresh w) ops) (e : run L kb kc (Comp.fresh w) ops = .ok s)
    (hc : s.w.calls + 1 < 2 ^ 64) (hne : isEmpty s = false) :
    size s = s.corr.mgr.knots.length ∧ size s ≠ 0 := by
  have hcov : Covers s := run_covers hkb hkc ⟨w, [], rfl⟩
    (by intro p hp; simp [Comp.fresh, Mgr.empty, Mgr.knots] at hp) hg e hc
  refine ⟨by simp [size, Mgr.size, Mgr.knots], ?_⟩
  cases hn : s.base.mgr.nodes with
  | nil => simp [isEmpty, Mgr.isEmpty, hn] at hne
  | cons a l =>
    obtain ⟨p, hp, -⟩ := (hcov (a.time, a.coef) (by simp [Mgr.knots, hn])).1
    intro h0
    have : s.corr.mgr.nodes = [] := List.length_eq_zero_iff.1 h0
    simp [Mgr.knots, this] at hp

/-- **C82 is violated by the composition.** `isEmpty` looks at the base and `size` at the correction: after
`resetCorrectionCurve({0})` on a new curve it is empty with size one, after `setBaseCurve({0}, {v})` it is not
empty and has size zero. -/
theorem C82_composition_refuted (w : World) (hw : w.calls + 1 < 2 ^ 64) (v : G) :
    (∃ s, resetCorrectionCurve [0] (Comp.fresh w : Comp K G) = .ok s ∧ isEmpty s = true ∧
      size s = 1) ∧
    ∃ s, setBaseCurve [0] [v] (Comp.fresh w : Comp K G) = .ok s ∧ isEmpty s = false ∧
      size s = 0 := by
  have key : ∀ g : G, ∃ w' m' k n, (Mgr.clear (Mgr.empty : Mgr K G)).insertCoefficient w 0 g =
      .ok (w', m', k) ∧ m'.nodes = [n] ∧ n.time = 0 := by
    intro g
    obtain ⟨w', m', k, e, hwf, -, hcont⟩ := insert_append (WF.empty (T := K) (C := G) w) hw (t := 0) g
      (by simp [Mgr.contents, Mgr.empty])
    simp only [Mgr.contents, Mgr.empty, List.map_nil, List.nil_append] at hcont
    obtain ⟨n, l, hn, hn', hl⟩ := List.map_eq_cons_iff.1 hcont
    rw [List.map_eq_nil_iff] at hl
    subst hl
    simp only [Prod.mk.injEq] at hn'
    exact ⟨w', m', k, n, e, hn, hn'.1⟩
  have hz : (Mgr.empty : Mgr K G).getMinTime = 0 ∧ (Mgr.empty : Mgr K G).getMaxTime = 0 := ⟨rfl, rfl⟩
  constructor
  · obtain ⟨w', m', k, n, e, hn, ht⟩ := key 1
    refine ⟨⟨w', ⟨Mgr.empty, Pol.fresh⟩, ⟨m', Pol.fresh⟩⟩, ?_, rfl, by simp [size, Mgr.size, hn]⟩
    have hends : m'.getMinTime = 0 ∧ m'.getMaxTime = 0 := by
      simp [Mgr.getMinTime, Mgr.getMaxTime, hn, ht]
    simp [resetCorrectionCurve, Comp.fresh, Curve.fitCurve, Curve.clear, Mgr.insertCoefficients,
      Mgr.insertLoop, e, checkEnds, hends, hz]
  · obtain ⟨w', m', k, n, e, hn, ht⟩ := key v
    refine ⟨⟨w', ⟨m', Pol.fresh⟩, ⟨Mgr.empty, Pol.fresh⟩⟩, ?_, by simp [isEmpty, Mgr.isEmpty, hn], rfl⟩
    have hends : m'.getMinTime = 0 ∧ m'.getMaxTime = 0 := by
      simp [Mgr.getMinTime, Mgr.getMaxTime, hn, ht]
    simp [setBaseCurve, Comp.fresh, Curve.fitCurve, Curve.clear, Mgr.insertCoefficients,
      Mgr.insertLoop, e, checkEnds, hends, hz]

end Verif.Composition

import Verif.Interface.Props

/-!
# More on the lists of times (C84)

The sizes, and the times in a window.
-/

set_option linter.unusedSectionVars false
set_option linter.dupNamespace false

namespace Verif.Interface

open Verif.Manager Verif.Policy Verif.Discrete Verif.Composition

variable {K G V : Type} [Field K] [LinearOrder K] [IsStrictOrderedRing K] [Group G]
  [AddCommGroup V] [Module K V]

/-- C84, part: the sizes count what the lists of times list. A curve that is no composition has as many base
coefficients as `getCurveTimes` gives times, and no corrections. A composition has as many base coefficients as
`getBaseCurveTimes` gives times, and as many corrections as `getCurveTimes` gives times. -/
theorem C84_sizes_partial (out : List K) :
    (∀ kind (s : Discrete.St K G), (Any.single kind s).baseSize = ((Any.single kind s).getCurveTimes out).length ∧
      (Any.single kind s).size = ((Any.single kind s).getCurveTimes out).length ∧
      (Any.single kind s).correctionSize = 0) ∧
    ∀ kb kc (s : Comp K G), (Any.comp kb kc s).baseSize = ((Any.comp kb kc s).getBaseCurveTimes out).length ∧
      (Any.comp kb kc s).correctionSize = ((Any.comp kb kc s).getCurveTimes out).length := by
  refine ⟨fun kind s => ⟨?_, ?_, rfl⟩, fun kb kc s => ⟨?_, ?_⟩⟩ <;>
    simp [Any.baseSize, Any.size, Any.correctionSize, Any.getCurveTimes, Any.getBaseCurveTimes, Mgr.getTimes, Mgr.size]

example : (create ⟨9, 9⟩ "semi_discrete_composition_curve" >>= fun a => a.feed (lineMaps ℚ) demoXs >>= fun a =>
      .ok (a.baseSize, a.correctionSize)) = .ok (3, 4) ∧
    (create ⟨9, 9⟩ "discrete_curve" >>= fun a => a.feed (lineMaps ℚ) demoXs >>= fun a =>
      .ok (a.baseSize, a.correctionSize)) = .ok (3, 0) := by decide +kernel

/-- C84, part: `getBaseCurveTimesInWindow` of a composition, after any history: for a window that ends
at the last base time and begins after the first, the base times within it, in increasing order. -/
theorem C84_window_partial (L : ExpLog K G V) {kb kc : Kind} {s : Comp K G} (hr : Composition.Reachable L kb kc s)
    (hc : s.w.calls + 1 < 2 ^ 64) (out : List K) {ta tz : K}
    (ha : ((Any.comp kb kc s).getBaseCurveTimes out).head? = some ta)
    (hz : ((Any.comp kb kc s).getBaseCurveTimes out).getLast? = some tz) (h2 : ta < tz) {beg : K} (hb : ta < beg) :
    ∃ r, (Any.comp kb kc s).getBaseCurveTimesInWindow beg tz out = .ok r ∧ r.Pairwise (· < ·) ∧
      ∀ t, t ∈ r ↔ t ∈ (Any.comp kb kc s).getBaseCurveTimes out ∧ beg ≤ t ∧ t ≤ tz := by
  obtain ⟨hwb, -⟩ := (hr.inv hc).wf hc
  have hs := sorted_iff_times.1 hwb.sorted
  change (s.base.mgr.nodes.map (·.time)).head? = some ta at ha
  change (s.base.mgr.nodes.map (·.time)).getLast? = some tz at hz
  change ∃ r, s.base.mgr.getTimesInWindow beg tz = .ok r ∧ r.Pairwise (· < ·) ∧
    ∀ t, t ∈ r ↔ t ∈ s.base.mgr.nodes.map (·.time) ∧ beg ≤ t ∧ t ≤ tz
  have hmin : s.base.mgr.getMinTime = ta := by
    rw [Mgr.getMinTime]
    cases hm : s.base.mgr.nodes with
    | nil => simp [hm] at ha
    | cons a l => simpa [hm] using ha
  have hmax : s.base.mgr.getMaxTime = tz := by
    rw [Mgr.getMaxTime]
    rcases List.eq_nil_or_concat s.base.mgr.nodes with hm | ⟨l, a, hm⟩
    · simp [hm] at hz
    · simpa [hm] using hz
  rw [Mgr.getTimesInWindow, hmin, hmax, if_pos rfl, if_pos hb.le]
  generalize s.base.mgr.nodes.map (·.time) = l at ha hz hs
  match l, ha, hz, hs with
  | [], ha, _, _ => simp at ha
  | [x], ha, hz, _ =>
    simp only [List.head?_cons, Option.some.injEq, List.getLast?_singleton] at ha hz
    exact absurd (ha.symm.trans hz) h2.ne
  | x :: y :: l, ha, hz, hs =>
    obtain rfl : x = ta := by simpa using ha
    rw [windowLoop_ok beg _ (by simp) (by rw [List.pairwise_reverse]; exact hs), Outcome.ok_bind]
    refine ⟨_, rfl, ?_, fun t => ?_⟩
    · rw [← List.filter_reverse, ← List.tail_reverse, List.reverse_reverse, List.tail_cons]
      exact (List.pairwise_cons.1 hs).2.filter _
    · rw [← List.filter_reverse, ← List.tail_reverse, List.reverse_reverse, List.tail_cons, List.mem_filter,
        decide_eq_true_eq]
      constructor
      · rintro ⟨hm, hbt⟩
        refine ⟨List.mem_cons_of_mem _ hm, hbt, ?_⟩
        obtain ⟨l', rfl'⟩ : ∃ l', x :: y :: l = l' ++ [tz] := List.getLast?_eq_some_iff.1 hz
        rw [rfl', List.pairwise_append] at hs
        have : t ∈ l' ++ [tz] := rfl' ▸ List.mem_cons_of_mem _ hm
        rcases List.mem_append.1 this with h | h
        · exact (hs.2.2 t h tz (by simp)).le
        · exact (by simpa using h : t = tz).le
      · rintro ⟨hm, hbt, -⟩
        rcases List.mem_cons.1 hm with rfl | hm
        · exact absurd hb (not_lt.2 hbt)
        · exact ⟨hm, hbt⟩

example : ∃ r, (Any.comp .slerp .slerp (Comp.fresh ⟨9, 9⟩ : Comp ℚ (Multiplicative ℚ))).feed (lineMaps ℚ) demoXs = .ok r ∧
    r.getBaseCurveTimes [] = [1, 2, 4] ∧ r.getBaseCurveTimesInWindow 2 4 [] = .ok [2, 4] := by
  have h : ((Any.comp .slerp .slerp (Comp.fresh ⟨9, 9⟩ : Comp ℚ (Multiplicative ℚ))).feed (lineMaps ℚ) demoXs >>= fun a =>
      .ok (a.getBaseCurveTimes [], a.getBaseCurveTimesInWindow 2 4 [])) = .ok ([1, 2, 4], .ok [2, 4]) := by decide +kernel
  obtain ⟨r, e, h⟩ := Outcome.bind_eq_ok.1 h
  simp only [Outcome.ok.injEq, Prod.mk.injEq] at h
  exact ⟨r, e, h⟩

end Verif.Interface

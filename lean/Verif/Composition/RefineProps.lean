import Verif.Composition.EditProps
import Verif.Discrete.GeodesicProps

/-!
# New correction times that keep the old ones change nothing

C122.
-/

set_option linter.unusedSectionVars false
set_option linter.dupNamespace false

namespace Verif.Composition

open Verif.Manager Verif.Policy Verif.Discrete

variable {K G V : Type} [Field K] [LinearOrder K] [IsStrictOrderedRing K] [Group G]
  [AddCommGroup V] [Module K V]

/-- Between two neighbours of `m'` whose values are on the slerp curve of `m`, with no knot of `m` between them,
both are the same curve. -/
theorem refine_at {L : ExpLog K G V} (hL : Path L) {m m' : Mgr K G} (hs : Sorted m.nodes)
    (hs' : Sorted m'.nodes) {u v : K} {p q : G} (huv : u < v) (hp : (u, p) ∈ m'.knots)
    (hq : (v, q) ∈ m'.knots) (hno' : ∀ x g, (x, g) ∈ m'.knots → ¬(u < x ∧ x < v))
    (hno : ∀ x g, (x, g) ∈ m.knots → ¬(u < x ∧ x < v)) (hep : evaluate L .slerp u m = .ok p)
    (heq : evaluate L .slerp v m = .ok q) {t : K} (h0 : u ≤ t) (h1 : t ≤ v) :
    evaluate L .slerp t m' = evaluate L .slerp t m := by
  obtain ⟨-, hne, hu0, -⟩ := evaluate_dom L hs hep
  obtain ⟨-, -, -, hv1⟩ := evaluate_dom L hs heq
  -- the segment of `m` around both
  obtain ⟨pre, a, b, post, hm, ha, hb⟩ : ∃ pre a b post, m.nodes = pre ++ a :: b :: post ∧ a.time ≤ u ∧ v ≤ b.time := by
    have hmid : u < (u + v) / 2 ∧ (u + v) / 2 < v := ⟨by linarith, by linarith⟩
    rcases inside_cases hs hne (hu0.trans hmid.1.le) (hmid.2.le.trans hv1) with ⟨g, hg⟩ | ⟨pre, a, b, post, hm, ha, hb⟩
    · exact absurd hmid (hno _ _ hg)
    · refine ⟨pre, a, b, post, hm, ?_, ?_⟩
      · by_contra hcon
        exact hno a.time a.coef (mem_knots_of_node (by simp [hm])) ⟨not_le.1 hcon, ha.trans hmid.2⟩
      · by_contra hcon
        exact hno b.time b.coef (mem_knots_of_node (by simp [hm])) ⟨hmid.1.trans hb, not_le.1 hcon⟩
  obtain ⟨pre', a', b', post', hm', e1, e2, e3, e4⟩ := exists_segment hs' hp hq huv hno'
  have hab := neighbours_lt hs hm
  have hd : 0 < b.time - a.time := sub_pos.2 hab
  rw [evaluate_segment L (by simp) hs hm ha (huv.le.trans hb)] at hep
  rw [evaluate_segment L (by simp) hs hm (ha.trans huv.le) hb] at heq
  rw [evaluate_segment L (by simp) hs hm (ha.trans h0) (h1.trans hb),
    evaluate_segment L (by simp) hs' hm' (by rw [e1]; exact h0) (by rw [e3]; exact h1)]
  simp only [between, slerpAt, Outcome.ok.injEq] at hep heq
  simp only [between, slerpAt, e1, e2, e3, e4, ← hep, ← heq]
  set w := L.log (a.coef⁻¹ * b.coef) with hw
  set x := (u - a.time) / (b.time - a.time) with hx
  set y := (v - a.time) / (b.time - a.time) with hy
  have hx0 : 0 ≤ x := div_nonneg (sub_nonneg.2 ha) hd.le
  have hy1 : y ≤ 1 := (div_le_one hd).2 (by linarith)
  have hxy : x < y := (div_lt_div_iff_of_pos_right hd).2 (by linarith)
  have hy0 : 0 < y := hx0.trans_lt hxy
  -- the way from `u` to `v` is the rest of the way to `v`
  have hly : L.log (L.exp (y • w)) = y • w := hL.log_exp _ _ hy0.le hy1
  have hrest := hL.rest (L.exp (y • w)) (x / y) ((t - u) / (v - u)) (div_nonneg hx0 hy0.le)
    ((div_le_one hy0).2 hxy.le) (div_nonneg (sub_nonneg.2 h0) (sub_nonneg.2 huv.le))
    ((div_le_one (sub_pos.2 huv)).2 (by linarith))
  rw [hly, smul_smul, smul_smul, div_mul_cancel₀ _ hy0.ne'] at hrest
  have hB : (a.coef * L.exp (x • w))⁻¹ * (a.coef * L.exp (y • w)) = (L.exp (x • w))⁻¹ * L.exp (y • w) := by
    rw [mul_inv_rev, mul_assoc, inv_mul_cancel_left]
  rw [hB, mul_assoc, hrest]
  have hvu : v - u ≠ 0 := sub_ne_zero.2 huv.ne'
  have hd' := hd.ne'
  have hva : v - a.time ≠ 0 := sub_ne_zero.2 (ha.trans_lt huv).ne'
  congr 4
  rw [hx, hy]
  field_simp
  ring

/-- C122, locally. `setCorrectionTimes(ts)` does not change the curve between two neighbours of the new times
if the correction had no knot between them. -/
theorem C122_local {L : ExpLog K G V} (hL : Path L) {kb : Kind} {s s' : Comp K G}
    (hr : Reachable L kb .slerp s) {ts : List K} (e : setCorrectionTimes L .slerp ts s = .ok s')
    (hc : s'.w.calls + 1 < 2 ^ 64) {u v : K} (hu : u ∈ ts) (hv : v ∈ ts)
    (hno' : ∀ x ∈ ts, ¬(u < x ∧ x < v)) (hno : ∀ x g, (x, g) ∈ s.corr.mgr.knots → ¬(u < x ∧ x < v)) {t : K}
    (h0 : u ≤ t) (h1 : t ≤ v) :
    evaluate L .slerp t s'.corr.mgr = evaluate L .slerp t s.corr.mgr ∧
      eval L kb .slerp t s' = eval L kb .slerp t s := by
  obtain ⟨hbase, hk, hat, -, -⟩ := C57_set_times L hr e hc
  have hst := step_inv (L := L) (kb := kb) (kc := .slerp) (op := .setTimes ts) e
  have hi := hr.inv (show s.w.calls + 1 < 2 ^ 64 by omega)
  obtain ⟨-, hwc⟩ := hi.wf (show s.w.calls + 1 < 2 ^ 64 by omega)
  obtain ⟨-, hwc'⟩ := (hst.2 hi hc).wf hc
  have hval : ∀ x ∈ ts, ∃ g, (x, g) ∈ s'.corr.mgr.knots ∧ evaluate L .slerp x s.corr.mgr = .ok g := by
    intro x hx
    obtain ⟨vals, h1, -⟩ := Outcome.bind_eq_ok.1 e
    obtain ⟨hlen, hvals⟩ := collect_spec h1
    obtain ⟨i, hi, rfl⟩ := List.mem_iff_getElem.1 hx
    have hz : (ts[i], vals[i]) ∈ ts.zip vals :=
      List.mem_iff_getElem.2 ⟨i, by simp only [List.length_zip]; omega, by simp⟩
    exact ⟨vals[i], (hk _ _).2 ⟨hx, hvals _ _ hz⟩, hvals _ _ hz⟩
  have key : evaluate L .slerp t s'.corr.mgr = evaluate L .slerp t s.corr.mgr := by
    obtain ⟨p, hp, hep⟩ := hval u hu
    obtain ⟨q, hq, heq⟩ := hval v hv
    rcases (h0.trans h1).eq_or_lt with rfl | huv
    · obtain rfl := le_antisymm h0 h1
      rw [hep, evaluate_knot L (by simp) hwc'.sorted hp]
    · exact refine_at hL hwc.sorted hwc'.sorted huv hp hq (fun x g hx => hno' x ((hk _ _).1 hx).1) hno hep heq h0 h1
  exact ⟨key, by simp only [eval, key, hbase]⟩

/-- C122. Giving the correction new times among which are all its old ones within the range of the base changes
the curve nowhere. -/
theorem C122_refine {L : ExpLog K G V} (hL : Path L) {kb : Kind} {s s' : Comp K G}
    (hr : Reachable L kb .slerp s) {ts : List K} (e : setCorrectionTimes L .slerp ts s = .ok s')
    (hc : s'.w.calls + 1 < 2 ^ 64) (hts : ts ≠ [])
    (hall : ∀ x g, (x, g) ∈ s.corr.mgr.knots → s.base.mgr.getMinTime ≤ x → x ≤ s.base.mgr.getMaxTime → x ∈ ts) (t : K) :
    eval L kb .slerp t s' = eval L kb .slerp t s := by
  obtain ⟨hbase, hk, hat, hmin, hmax⟩ := C57_set_times L hr e hc
  have hst := step_inv (L := L) (kb := kb) (kc := .slerp) (op := .setTimes ts) e
  have hi := hr.inv (show s.w.calls + 1 < 2 ^ 64 by omega)
  obtain ⟨hwb, hwc⟩ := hi.wf (show s.w.calls + 1 < 2 ^ 64 by omega)
  obtain ⟨-, hwc'⟩ := (hst.2 hi hc).wf hc
  have hs := hwc.sorted
  have hs' := hwc'.sorted
  have hval : ∀ x ∈ ts, ∃ g, (x, g) ∈ s'.corr.mgr.knots := by
    intro x hx
    obtain ⟨vals, h1, -⟩ := Outcome.bind_eq_ok.1 e
    obtain ⟨hlen, hvals⟩ := collect_spec h1
    obtain ⟨i, hi, rfl⟩ := List.mem_iff_getElem.1 hx
    have hz : (ts[i], vals[i]) ∈ ts.zip vals :=
      List.mem_iff_getElem.2 ⟨i, by simp only [List.length_zip]; omega, by simp⟩
    exact ⟨vals[i], (hk _ _).2 ⟨hx, hvals _ _ hz⟩⟩
  obtain ⟨x0, hx0⟩ := List.exists_mem_of_ne_nil ts hts
  obtain ⟨g0, hg0⟩ := hval x0 hx0
  have hne : s'.corr.mgr.knots ≠ [] := List.ne_nil_of_mem hg0
  have hne0 : s.corr.mgr.knots ≠ [] := (evaluate_dom L hs ((hk _ _).1 hg0).2).2.1
  by_cases ht : s'.corr.mgr.getMinTime ≤ t ∧ t ≤ s'.corr.mgr.getMaxTime
  · rcases inside_cases hs' hne ht.1 ht.2 with ⟨g, hg⟩ | ⟨pre, a, b, post, hm, ha, hb⟩
    · exact hat t ((hk _ _).1 hg).1
    · have ha' := min_le_node hs' (n := a) (by simp [hm])
      have hb' := min_le_node hs' (n := b) (by simp [hm])
      refine (C122_local (L := L) hL hr e hc (u := a.time) (v := b.time)
        ((hk a.time a.coef).1 (mem_knots_of_node (by simp [hm]))).1
        ((hk b.time b.coef).1 (mem_knots_of_node (by simp [hm]))).1 ?_ ?_ ha.le hb.le).2
      · rintro x hx ⟨g0, g1⟩
        obtain ⟨g, hg⟩ := hval x hx
        rcases none_between hs' hm _ _ hg with h | h
        · exact absurd g0 (not_lt.2 h)
        · exact absurd g1 (not_lt.2 h)
      · rintro x g hx ⟨g0, g1⟩
        obtain ⟨g', hg'⟩ := hval x (hall x g hx (by rw [← hmin]; exact ha'.1.trans g0.le)
          (by rw [← hmax]; exact g1.le.trans hb'.2))
        rcases none_between hs' hm _ _ hg' with h | h
        · exact absurd g0 (not_lt.2 h)
        · exact absurd g1 (not_lt.2 h)
  · have hout : t < s'.corr.mgr.getMinTime ∨ s'.corr.mgr.getMaxTime < t := by
      rwa [not_and_or, not_le, not_le] at ht
    have hb : evaluate L kb t s.base.mgr = .abort := by
      rw [hmin, hmax] at hout
      refine evaluate_outside L hwb.sorted ?_ (.inr hout)
      by_cases h : s.base.mgr.knots = []
      · right
        have hn : s.base.mgr.nodes = [] := by simpa [Mgr.knots] using h
        rintro rfl
        simp [Mgr.getMinTime, Mgr.getMaxTime, hn] at hout
      · exact .inl h
    have h' : eval L kb .slerp t s' = .abort := by
      simp [eval, evaluate_outside L hs' (.inl hne) (.inr hout)]
    rw [h']
    by_cases hin : s.corr.mgr.getMinTime ≤ t ∧ t ≤ s.corr.mgr.getMaxTime
    · obtain ⟨v, hv⟩ := evaluate_inside L (kind := .slerp) (by simp) hs hne0 hin.1 hin.2
      simp [eval, hv, hb]
    · rw [not_and_or, not_le, not_le] at hin
      simp [eval, evaluate_outside L hs (.inl hne0) (.inr hin)]

/-- The demonstration curve has correction knots at 0, 1, 3 and 4 and base knots from 1 to 4. Adding 2 and 7/2 keeps
the curve everywhere. -/
example : ∃ s', setCorrectionTimes (lineMaps ℚ) .slerp [4, 2, 3, 7 / 2, 1] demo = .ok s' ∧ s'.corr.mgr.size = 5 ∧
    ∀ t, eval (lineMaps ℚ) .slerp .slerp t s' = eval (lineMaps ℚ) .slerp .slerp t demo := by
  obtain ⟨s', e⟩ := C57_set_times_ok (lineMaps ℚ) (kb := .slerp) (kc := .slerp) (by simp) demo_reachable
    (ts := [4, 2, 3, 7 / 2, 1]) (by rw [demo_calls]; norm_num)
    (by decide +kernel) (by decide +kernel) (by decide +kernel) (by decide +kernel) (by decide +kernel) (by decide +kernel)
  have hz : (setCorrectionTimes (lineMaps ℚ) .slerp [4, 2, 3, 7 / 2, 1] demo >>= fun x => .ok (x.corr.mgr.size, x.w.calls)) =
      .ok (5, demo.w.calls + 5) := by decide +kernel
  rw [e] at hz
  simp only [Outcome.ok_bind, Outcome.ok.injEq, Prod.mk.injEq] at hz
  exact ⟨s', e, hz.1, C122_refine line_geodesic.path demo_reachable e (by rw [hz.2, demo_calls]; norm_num) (by simp)
    fun x g h h0 h1 => (by decide +kernel : ∀ p ∈ demo.corr.mgr.knots, demo.base.mgr.getMinTime ≤ p.1 →
      p.1 ≤ demo.base.mgr.getMaxTime → p.1 ∈ [4, 2, 3, 7 / 2, (1 : ℚ)]) (x, g) h h0 h1⟩

/-- Leaving out the knot at 3 changes the curve at 3, but not before 2 if 2 is one of the new times. -/
example : (setCorrectionTimes (lineMaps ℚ) .slerp [4, 1] demo >>= fun s' => eval (lineMaps ℚ) .slerp .slerp 3 s') ≠
    eval (lineMaps ℚ) .slerp .slerp 3 demo ∧
    (setCorrectionTimes (lineMaps ℚ) .slerp [4, 2, 1] demo >>= fun s' => eval (lineMaps ℚ) .slerp .slerp (3 / 2) s') =
    eval (lineMaps ℚ) .slerp .slerp (3 / 2) demo := by decide +kernel

end Verif.Composition

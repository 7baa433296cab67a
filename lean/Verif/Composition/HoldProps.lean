import Verif.Composition.ThinProps

/-!
# Property C157: new measurements are stored relative to the latest correction
-/

set_option linter.unusedSectionVars false

namespace Verif.Composition

open Verif.Manager Verif.Policy Verif.Discrete

variable {K G V : Type} [Field K] [LinearOrder K] [IsStrictOrderedRing K] [Group G] [AddCommGroup V]
  [Module K V]

theorem hold (L : ExpLog K G V) {kind : Kind} (hk : kind ≠ .slerpSE3) {w : World} {c : Curve K G}
    (h : WF w c.mgr) (hw : w.calls + 1 < 2 ^ 64) (hs : c.pol.minMeas = 1 ∨ c.pol.since ≠ 2 ^ 31 - 1)
    {t : K} {v : G} (hne : c.mgr.knots ≠ []) (ht : c.mgr.getMaxTime < t)
    (hv : evaluate L kind c.mgr.getMaxTime c.mgr = .ok v) {r : World × Curve K G × List Nat}
    (e : c.extend w [t] [v] = .ok r) :
    r.2.1.mgr.getMinTime = c.mgr.getMinTime ∧ evaluate L kind t r.2.1.mgr = .ok v ∧
      (Settled c → ∀ x, c.mgr.getMaxTime ≤ x → x ≤ t → evaluate L kind x r.2.1.mgr = .ok v) := by
  have hmem : ∀ x ∈ c.mgr.contents, x.1 < t := by
    rintro ⟨x, k, u⟩ hx
    obtain ⟨n, hn, rfl, -, -⟩ := mem_contents.1 hx
    exact (min_le_node h.sorted hn).2.trans_lt ht
  obtain ⟨w', c', ks, e', hwf, hcl, hpm, hcase⟩ := extend_cases h hw hs t v hmem
  rw [e'] at e
  cases e
  obtain ⟨pre, b, hb⟩ := (List.eq_nil_or_concat c.mgr.knots).resolve_left hne
  rw [List.concat_eq_append] at hb
  have hbv : b.2 = v := by
    rw [max_snoc hb, evaluate_knot L hk h.sorted (v := b.2) (by rw [hb]; simp)] at hv
    exact Outcome.ok.inj hv
  simp only
  rcases hcase with ⟨hk', -⟩ | ⟨h2, hm1, hs0, -, pre', a, b', hkn, hk'⟩
  · refine ⟨min_append (post := []) hne (by simp) hk', evaluate_knot L hk hwf.sorted (by rw [hk']; simp),
      fun _ x h0 h1 => ?_⟩
    exact evaluate_last L hk hwf.sorted (pre := pre) (a := b) (b := (t, v)) (by rw [hk', hb]; simp) hbv
      (by rwa [max_snoc hb] at h0) h1
  · obtain ⟨he, rfl⟩ : pre = pre' ++ [a] ∧ b = b' := by
      rw [hb, show pre' ++ [a, b'] = (pre' ++ [a]) ++ [b'] by simp] at hkn
      have := List.append_inj' hkn rfl
      exact ⟨this.1, by simpa using this.2⟩
    refine ⟨min_append (pre := pre' ++ [a]) (post := [b]) (post' := [(t, v)]) (by simp) (by simp [hkn])
      (by simp [hk']), evaluate_knot L hk hwf.sorted (by rw [hk']; simp), fun hset x h0 h1 => ?_⟩
    have hab : a.2 = b.2 := by
      rcases hset with h | h | h | ⟨p, a', b'', hp, hab⟩
      · exact absurd h hm1
      · exact absurd h hs0
      · omega
      · rw [hkn, show pre' ++ [a, b] = (pre' ++ [a]) ++ [b] by simp,
          show p ++ [a', b''] = (p ++ [a']) ++ [b''] by simp] at hp
        have h1 := List.append_inj' hp rfl
        have h2 := List.append_inj' h1.1 rfl
        have e1 : b = b'' := by simpa using h1.2
        have e2 : a = a' := by simpa using h2.2
        rw [e1, e2, hab]
    have hpw := Interface.knots_pairwise h.sorted
    rw [hkn, List.pairwise_append] at hpw
    have hlt : a.1 < b.1 := by simpa using hpw.2.1
    exact evaluate_last L hk hwf.sorted (b := (t, v)) hk' (by rw [hab, hbv])
      (hlt.le.trans (by rwa [max_snoc hb] at h0)) h1

/-- One measurement after the end of both curves: what is stored. -/
theorem store_one (L : ExpLog K G V) {kb kc : Kind} (hkc : kc ≠ .slerpSE3)
    {s : Comp K G} (hr : Reachable L kb kc s) (hc : s.w.calls + 2 < 2 ^ 64)
    (hb : s.base.mgr.knots ≠ []) (hq : s.corr.mgr.knots ≠ []) {t : K} (ht : s.base.mgr.getMaxTime < t)
    (hct : s.corr.mgr.getMaxTime < t) (hmin : s.corr.mgr.getMinTime ≤ s.base.mgr.getMinTime)
    (hs : s.corr.pol.minMeas = 1 ∨ s.corr.pol.since ≠ 2 ^ 31 - 1) {q : G}
    (hv : evaluate L kc s.corr.mgr.getMaxTime s.corr.mgr = .ok q) (v : G) {s' : Comp K G} {ks : List Nat}
    (e : extend L kc [t] [v] s = .ok (s', ks)) :
    s'.base.mgr.knots = s.base.mgr.knots ++ [(t, q⁻¹ * v)] ∧
      evaluate L kc t s'.corr.mgr = .ok q ∧
      (Settled s.corr → ∀ x, s.corr.mgr.getMaxTime ≤ x → x ≤ t → evaluate L kc x s'.corr.mgr = .ok q) := by
  have hi := hr.inv (show s.w.calls + 1 < 2 ^ 64 by omega)
  obtain ⟨hwb, hwc⟩ := hi.wf (show s.w.calls + 1 < 2 ^ 64 by omega)
  obtain ⟨s'', ks', e', -, ⟨q', hbase, hev⟩, -⟩ := thin_step L hkc hr hc hb hq ht hmin hs v
  rw [e] at e'
  cases e'
  obtain ⟨x1, x2, x3, q0, e1, e2, e3, ev, ex0, ec⟩ := (extend_stages e).some
  have hbn := knots_ne_nil.1 hb
  have hbe : s.base.mgr.isEmpty = false := by simpa [Mgr.isEmpty] using hbn
  have hqe : s.corr.mgr.isEmpty = false := by simpa [Mgr.isEmpty] using knots_ne_nil.1 hq
  have hbm : s.base.mgr.getMinTime ≤ s.base.mgr.getMaxTime := by
    obtain ⟨a, l, hl⟩ := List.exists_cons_of_ne_nil hbn
    have := min_le_node hwb.sorted (show a ∈ s.base.mgr.nodes by simp [hl])
    exact this.1.trans this.2
  have hmx : newMax s t = t := by simp [newMax, hbe, ht]
  have hmn : newMin s t = s.base.mgr.getMinTime := by
    simp only [newMin, hbe, Bool.false_eq_true, if_false]
    rw [if_neg (not_lt.2 (hbm.trans ht.le))]
  simp only [growEmpty, hqe, Bool.false_eq_true, if_false, Outcome.ok.injEq] at e1
  rw [← e1, hmx, growMax, if_pos hct, hv, Outcome.ok_bind] at e2
  obtain ⟨r, ex, e2⟩ := Outcome.bind_eq_ok.1 e2
  cases e2
  obtain ⟨h1, h2, h3⟩ := hold L hkc hwc (by omega) hs hq hct hv ex
  rw [hmn, growMin, if_neg (by simp only; rw [h1]; exact not_lt.2 hmin)] at e3
  have hcorr : s'.corr = r.2.1 := by rw [ec, ← Outcome.ok.inj e3]
  rw [hcorr] at hev ⊢
  rw [h2] at hev
  cases hev
  exact ⟨hbase, h2, h3⟩

/-- **C157.** Measurements `xs` at later and later times, after the end of the base and of the correction
(which reaches back to the beginning of the base), are all accepted, whatever the sampling ratio `m` of
the correction and wherever in a sampling period it is, and the base keeps all of them relative to one
and the same correction: its last value. So the motions between them are the measured ones, and that
correction is still in force at the last of them. -/
theorem C157_stored (L : ExpLog K G V) {kb kc : Kind} (hkc : kc ≠ .slerpSE3)
    {s : Comp K G} (hr : Reachable L kb kc s) (hb : s.base.mgr.knots ≠ []) (hq : s.corr.mgr.knots ≠ [])
    (hmin : s.corr.mgr.getMinTime ≤ s.base.mgr.getMinTime) (m : ℤ) (hm : 0 < m) (hm31 : m < 2 ^ 31)
    (hpm : s.corr.pol.minMeas = m) (ha0 : 0 ≤ s.corr.pol.since) (ha : s.corr.pol.since < m)
    (xs : List (K × G)) (hc : s.w.calls + 2 * xs.length + 1 < 2 ^ 64)
    (hinc : xs.Pairwise fun x y => x.1 < y.1)
    (hlt : ∀ x ∈ xs, s.base.mgr.getMaxTime < x.1 ∧ s.corr.mgr.getMaxTime < x.1) :
    ∃ q s', evaluate L kc s.corr.mgr.getMaxTime s.corr.mgr = .ok q ∧
      run L kb kc s (feedOps xs) = .ok s' ∧
      s'.base.mgr.knots = s.base.mgr.knots ++ xs.map (fun x => (x.1, q⁻¹ * x.2)) ∧
      evaluate L kc s'.corr.mgr.getMaxTime s'.corr.mgr = .ok q := by
  induction xs generalizing s with
  | nil =>
    have hi := hr.inv (show s.w.calls + 1 < 2 ^ 64 by simpa using hc)
    obtain ⟨-, hwc⟩ := hi.wf (show s.w.calls + 1 < 2 ^ 64 by simpa using hc)
    obtain ⟨a, l, hl⟩ := List.exists_cons_of_ne_nil (knots_ne_nil.1 hq)
    have hle := min_le_node hwc.sorted (show a ∈ s.corr.mgr.nodes by simp [hl])
    obtain ⟨q, eq⟩ := evaluate_inside L hkc hwc.sorted hq (hle.1.trans hle.2) le_rfl
    exact ⟨q, s, eq, rfl, by simp, eq⟩
  | cons x xs ih =>
    obtain ⟨t, v⟩ := x
    simp only [List.length_cons] at hc
    rw [List.pairwise_cons] at hinc
    obtain ⟨hlb, hlc⟩ := hlt (t, v) (by simp)
    have hi := hr.inv (show s.w.calls + 1 < 2 ^ 64 by omega)
    obtain ⟨-, hwc⟩ := hi.wf (show s.w.calls + 1 < 2 ^ 64 by omega)
    obtain ⟨a, l, hl⟩ := List.exists_cons_of_ne_nil (knots_ne_nil.1 hq)
    have hle := min_le_node hwc.sorted (show a ∈ s.corr.mgr.nodes by simp [hl])
    obtain ⟨q, eq⟩ := evaluate_inside L hkc hwc.sorted hq (hle.1.trans hle.2) le_rfl
    obtain ⟨s1, ks, e, hcl, -, hq1, hmin1, hpm1, hrng, hgrow, -⟩ :=
      thin_step L hkc hr (by omega) hb hq hlb hmin (.inr (by omega)) v
    obtain ⟨hmax1, -⟩ := hgrow hlc
    obtain ⟨hbase, hev, -⟩ := store_one L hkc hr (by omega) hb hq hlb hlc hmin (.inr (by omega)) eq v e
    have hst : step L kb kc s (.extend [t] [v]) = .ok s1 := by simp [step, e]
    obtain ⟨ha0', ha'⟩ := hrng m hm hpm ha0 ha
    obtain ⟨q', s', eq', er, hk, hl'⟩ := ih (hr.step hst) (by rw [hbase]; simp) hq1
      (by rw [hmin1, min_append (m := s.base.mgr) (post := []) hb (by simp) hbase]; exact hmin)
      (by rw [hpm1, hpm]) ha0' ha' (by omega) hinc.2 (fun y hy => by
        rw [max_snoc hbase, hmax1]; exact ⟨hinc.1 y hy, hinc.1 y hy⟩)
    rw [hmax1, hev] at eq'
    cases eq'
    refine ⟨q, s', eq, ?_, by rw [hk, hbase]; simp, hl'⟩
    simp only [feedOps, List.map_cons, run, hst, Outcome.ok_bind]
    exact er

/-- **C157 (partial)**, between measurements: the last correction is in force on the whole of the new
piece of the domain. Missing: a thinned correction in the middle of a sampling period whose last two
values differ, where it is false, see `C157_refuted`. -/
theorem C157_held_partial (L : ExpLog K G V) {kb kc : Kind} (hkc : kc ≠ .slerpSE3)
    {s s' : Comp K G} (hr : Reachable L kb kc s) (hc : s.w.calls + 2 < 2 ^ 64)
    (hb : s.base.mgr.knots ≠ []) (hq : s.corr.mgr.knots ≠ []) {t : K} (ht : s.base.mgr.getMaxTime < t)
    (hct : s.corr.mgr.getMaxTime < t) (hmin : s.corr.mgr.getMinTime ≤ s.base.mgr.getMinTime)
    (hs : s.corr.pol.since ≠ 2 ^ 31 - 1)
    (hset : s.corr.pol.minMeas = 1 ∨ s.corr.pol.since = 0 ∨ s.corr.mgr.size ≤ 1 ∨
      ∃ pre a b, s.corr.mgr.knots = pre ++ [a, b] ∧ a.2 = b.2) {v : G} {ks : List Nat}
    (e : extend L kc [t] [v] s = .ok (s', ks)) :
    ∃ q, evaluate L kc s.corr.mgr.getMaxTime s.corr.mgr = .ok q ∧
      ∀ x, s.corr.mgr.getMaxTime ≤ x → x ≤ t → evaluate L kc x s'.corr.mgr = .ok q := by
  have hi := hr.inv (show s.w.calls + 1 < 2 ^ 64 by omega)
  obtain ⟨-, hwc⟩ := hi.wf (show s.w.calls + 1 < 2 ^ 64 by omega)
  obtain ⟨a, l, hl⟩ := List.exists_cons_of_ne_nil (knots_ne_nil.1 hq)
  have hle := min_le_node hwc.sorted (show a ∈ s.corr.mgr.nodes by simp [hl])
  obtain ⟨q, eq⟩ := evaluate_inside L hkc hwc.sorted hq (hle.1.trans hle.2) le_rfl
  exact ⟨q, eq, (store_one L hkc hr hc hb hq ht hct hmin (.inr hs) eq v e).2.2 hset⟩

/-- **C157 is false of the code** between measurements otherwise: at the old end of the correction its
value is no longer the last one, but one on the way there from the knot before. -/
theorem C157_refuted (L : ExpLog K G V) {kb : Kind} {s : Comp K G} (hr : Reachable L kb .slerp s)
    (hc : s.w.calls + 2 < 2 ^ 64) (hbk : s.base.mgr.knots ≠ []) {pre : List (Node K G)} {a b : Node K G}
    (hq : s.corr.mgr.nodes = pre ++ [a, b]) {t : K} (ht : s.base.mgr.getMaxTime < t) (hbt : b.time < t)
    (hmin : s.corr.mgr.getMinTime ≤ s.base.mgr.getMinTime) (hm : s.corr.pol.minMeas ≠ 1)
    (hs0 : s.corr.pol.since ≠ 0) (hs : s.corr.pol.since ≠ 2 ^ 31 - 1) (v : G) :
    evaluate L .slerp s.corr.mgr.getMaxTime s.corr.mgr = .ok b.coef ∧
    ∃ s' ks, extend L .slerp [t] [v] s = .ok (s', ks) ∧
      evaluate L .slerp s.corr.mgr.getMaxTime s'.corr.mgr =
        .ok (a.coef * L.exp (((b.time - a.time) / (t - a.time)) • L.log (a.coef⁻¹ * b.coef))) := by
  obtain ⟨h1, s', ks, e, h2⟩ := C55_refuted L hr hc hbk hq ht hbt hmin hm hs0 hs v
  have hx : s.corr.mgr.getMaxTime = b.time := by simp [Mgr.getMaxTime, hq]
  rw [hx]
  exact ⟨h1, s', ks, e, h2⟩

/-- `demo`, in the middle of a sampling period and with a correction of 8 at its end: three measurements
are stored as 2 - 8, 3 - 8 and 9 - 8. -/
example : ∃ s', run (lineMaps ℚ) .slerp .slerp demo
      (feedOps [(5, .ofAdd 2), (6, .ofAdd 3), (7, .ofAdd 9)]) = .ok s' ∧
    s'.base.mgr.knots = demo.base.mgr.knots ++ [(5, .ofAdd (-6)), (6, .ofAdd (-5)), (7, .ofAdd 1)] := by
  have hb : demo.base.mgr.getMaxTime = 4 ∧ demo.corr.mgr.getMaxTime = 4 := by decide +kernel
  have hp : demo.corr.pol.minMeas = 2 ∧ demo.corr.pol.since = 1 := by decide +kernel
  have h8 : evaluate (lineMaps ℚ) .slerp 4 demo.corr.mgr = .ok (.ofAdd 8) := by decide +kernel
  obtain ⟨q, s', eq, er, hk, -⟩ := C157_stored (lineMaps ℚ) (by simp) demo_reachable (by decide +kernel)
    (by decide +kernel) (by decide +kernel) 2 (by omega) (by omega) hp.1 (by omega) (by omega)
    [(5, .ofAdd 2), (6, .ofAdd 3), (7, .ofAdd 9)] (by rw [demo_calls]; decide) (by simp; norm_num)
    (by rw [hb.1, hb.2]; simp; norm_num)
  rw [hb.2, h8] at eq
  cases eq
  refine ⟨s', er, hk.trans ?_⟩
  congr 1
  simp only [List.map_cons, List.map_nil, ← ofAdd_neg, ← ofAdd_add]
  norm_num

/-- After one more measurement the period is complete, and the correction is held. -/
example : ∃ s s', run (lineMaps ℚ) .slerp .slerp demo [.extend [5] [.ofAdd 7]] = .ok s ∧
    run (lineMaps ℚ) .slerp .slerp s [.extend [6] [.ofAdd 3]] = .ok s' ∧
    (∃ q, evaluate (lineMaps ℚ) .slerp 5 s.corr.mgr = .ok q ∧
      ∀ x, 5 ≤ x → x ≤ 6 → evaluate (lineMaps ℚ) .slerp x s'.corr.mgr = .ok q) := by
  have h : (run (lineMaps ℚ) .slerp .slerp demo [.extend [5] [.ofAdd 7]] >>= fun s =>
      extend (lineMaps ℚ) .slerp [6] [.ofAdd 3] s >>= fun r =>
      .ok ([s.w.calls, s.base.mgr.size, s.corr.mgr.size], s.corr.pol.since,
        [s.base.mgr.getMaxTime, s.base.mgr.getMinTime, s.corr.mgr.getMinTime, s.corr.mgr.getMaxTime])) =
      .ok ([112, 5, 4], 0, [5, 1, 0, 5]) := by
    decide +kernel
  obtain ⟨s, e, h⟩ := Outcome.bind_eq_ok.1 h
  obtain ⟨⟨s', ks⟩, e', h⟩ := Outcome.bind_eq_ok.1 h
  simp only [Outcome.ok.injEq, Prod.mk.injEq, List.cons.injEq, and_true] at h
  obtain ⟨⟨hw, hb, hq⟩, hs, hmax, hmin, hmin', hmax'⟩ := h
  have hr : Reachable (lineMaps ℚ) .slerp .slerp s :=
    ⟨⟨100, 200⟩, demoOps ++ [.extend [5] [.ofAdd 7]], by rw [run_append, demo_run]; exact e⟩
  have := C157_held_partial (lineMaps ℚ) (by simp) hr (by rw [hw]; decide)
    (fun h => by simp [Mgr.knots] at h; simp [Mgr.size, h] at hb)
    (fun h => by simp [Mgr.knots] at h; simp [Mgr.size, h] at hq) (by rw [hmax]; norm_num)
    (by rw [hmax']; norm_num) (by rw [hmin, hmin']; norm_num) (by omega) (.inr (.inl hs)) e'
  rw [hmax'] at this
  exact ⟨s, s', e, by simp [run, step, e'], this⟩

/-- The correction of `demo` ends at 4 with 8; after a measurement at 6 it is 16 / 3 there. -/
example : evaluate (lineMaps ℚ) .slerp 4 demo.corr.mgr = .ok (.ofAdd 8) ∧
    (extend (lineMaps ℚ) .slerp [6] [.ofAdd 3] demo >>= fun r =>
      evaluate (lineMaps ℚ) .slerp 4 r.1.corr.mgr) = .ok (.ofAdd (16 / 3)) := by decide +kernel

end Verif.Composition

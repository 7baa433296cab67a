import Verif.Composition.EditProps

/-!
# Lemmas on the range of the correction of a composition curve
-/

set_option linter.unusedSectionVars false
set_option linter.dupNamespace false

namespace Verif.Composition

open Verif.Manager Verif.Policy Verif.Discrete

variable {K G V : Type} [Field K] [LinearOrder K] [IsStrictOrderedRing K] [Group G]
  [AddCommGroup V] [Module K V]

/-- The curve has a knot at or before `t`. -/
def Low (m : Mgr K G) (t : K) : Prop := ∃ p ∈ m.knots, p.1 ≤ t

/-- The curve has a knot at or after `t`. -/
def High (m : Mgr K G) (t : K) : Prop := ∃ p ∈ m.knots, t ≤ p.1

theorem knots_min {m : Mgr K G} (hne : m.knots ≠ []) : ∃ p ∈ m.knots, p.1 = m.getMinTime := by
  cases h : m.nodes with
  | nil => simp [Mgr.knots, h] at hne
  | cons a l => exact ⟨(a.time, a.coef), by simp [Mgr.knots, h], by simp [Mgr.getMinTime, h]⟩

theorem knots_max {m : Mgr K G} (hne : m.knots ≠ []) : ∃ p ∈ m.knots, p.1 = m.getMaxTime := by
  rcases List.eq_nil_or_concat m.nodes with h | ⟨l, a, h⟩
  · simp [Mgr.knots, h] at hne
  · exact ⟨(a.time, a.coef), by simp [Mgr.knots, h], by simp [Mgr.getMaxTime, h]⟩

theorem mem_range {m : Mgr K G} (hs : Sorted m.nodes) {p : K × G} (h : p ∈ m.knots) :
    m.getMinTime ≤ p.1 ∧ p.1 ≤ m.getMaxTime := by
  obtain ⟨n, hn, rfl⟩ := List.mem_map.1 h
  exact min_le_node hs hn

theorem low_iff {m : Mgr K G} (hs : Sorted m.nodes) {t : K} :
    Low m t ↔ m.knots ≠ [] ∧ m.getMinTime ≤ t := by
  constructor
  · rintro ⟨p, hp, h⟩
    exact ⟨List.ne_nil_of_mem hp, (mem_range hs hp).1.trans h⟩
  · rintro ⟨hne, h⟩
    obtain ⟨p, hp, e⟩ := knots_min hne
    exact ⟨p, hp, e ▸ h⟩

theorem high_iff {m : Mgr K G} (hs : Sorted m.nodes) {t : K} :
    High m t ↔ m.knots ≠ [] ∧ t ≤ m.getMaxTime := by
  constructor
  · rintro ⟨p, hp, h⟩
    exact ⟨List.ne_nil_of_mem hp, h.trans (mem_range hs hp).2⟩
  · rintro ⟨hne, h⟩
    obtain ⟨p, hp, e⟩ := knots_max hne
    exact ⟨p, hp, e ▸ h⟩

/-- Every knot of the base lies between two knots of the correction. -/
def Covers (s : Comp K G) : Prop :=
  ∀ p ∈ s.base.mgr.knots, Low s.corr.mgr p.1 ∧ High s.corr.mgr p.1

theorem covers_of_ends {s : Comp K G} (hb : Sorted s.base.mgr.nodes) (hc : s.corr.mgr.knots ≠ [])
    (h0 : s.corr.mgr.getMinTime = s.base.mgr.getMinTime)
    (h1 : s.corr.mgr.getMaxTime = s.base.mgr.getMaxTime) : Covers s := by
  intro p hp
  obtain ⟨a, b⟩ := mem_range hb hp
  obtain ⟨x, hx, ex⟩ := knots_min hc
  obtain ⟨y, hy, ey⟩ := knots_max hc
  exact ⟨⟨x, hx, by rw [ex, h0]; exact a⟩, ⟨y, hy, by rw [ey, h1]; exact b⟩⟩

theorem Covers.of_times {s s' : Comp K G} (h : Covers s)
    (hb : ∀ p ∈ s'.base.mgr.knots, ∃ q ∈ s.base.mgr.knots, q.1 = p.1)
    (hc : ∀ p ∈ s.corr.mgr.knots, ∃ q ∈ s'.corr.mgr.knots, q.1 = p.1) : Covers s' := by
  intro p hp
  obtain ⟨q, hq, e⟩ := hb p hp
  obtain ⟨⟨x, hx, hx'⟩, ⟨y, hy, hy'⟩⟩ := h q hq
  obtain ⟨x', hx1, hx2⟩ := hc x hx
  obtain ⟨y', hy1, hy2⟩ := hc y hy
  exact ⟨⟨x', hx1, by rw [hx2, ← e]; exact hx'⟩, ⟨y', hy1, by rw [hy2, ← e]; exact hy'⟩⟩

theorem mem_times {m : Mgr K G} {t : K} : t ∈ m.getTimes [] ↔ ∃ p ∈ m.knots, p.1 = t := by
  rw [times_knots, List.mem_map]

/-- Adding a knot after all the others, thinned or not, does not move the beginning. -/
theorem extend_low {w w' : World} {c c' : Curve K G} (h : WF w c.mgr) {t : K} {v : G} {ks : List Nat}
    (ht : ∀ p ∈ c.mgr.knots, p.1 < t) (e : c.extend w [t] [v] = .ok (w', c', ks))
    (hc : w'.calls + 1 < 2 ^ 64) {b : K} (hb : Low c.mgr b) : Low c'.mgr b := by
  have hcalls := extend_calls e
  by_cases hsz : c.mgr.isEmpty = true ∨ c.mgr.size = 1
  · simp only [Curve.extend, List.length_cons, List.length_nil, ne_eq, not_true_eq_false, if_false,
      hsz, if_true] at e
    obtain ⟨⟨w1, m1, ks1⟩, h1, h2⟩ := Outcome.bind_eq_ok.1 e
    cases h2
    obtain ⟨p, hp, hpb⟩ := hb
    refine ⟨p, ?_, hpb⟩
    have := (insertMany_mem h h1 hc (by rintro a b b' h h'; simp at h h'; rw [h.2, h'.2]) p.1 p.2).2
      (.inr ⟨by simpa using (ht p hp).ne, hp⟩)
    exact this
  · have hs : c.pol.minMeas = 1 ∨ c.pol.since ≠ 2 ^ 31 - 1 := by
      by_contra hcon
      push Not at hcon
      simp only [Curve.extend, List.length_cons, List.length_nil, ne_eq, not_true_eq_false, if_false,
        hsz, hcon.1, hcon.2, if_true] at e
      cases e
    have ht' : ∀ x ∈ c.mgr.contents, x.1 < t := by
      intro x hx
      exact ht (x.1, x.2.2) (mem_knots.2 ⟨x.2.1, hx⟩)
    obtain ⟨w1, c1, ks1, pre, k, e1, -, -, hcont, hpre⟩ := extend_forward h (by omega) hs v ht'
    rw [e1] at e
    cases e
    obtain ⟨p, hp, hpb⟩ := hb
    obtain ⟨kp, hkp⟩ := mem_knots.1 hp
    have hsorted := contents_sorted h
    rcases hpre with hpre | ⟨last, hne, hpre⟩
    · exact ⟨p, mem_knots.2 ⟨kp, by rw [hcont, ← hpre]; exact List.mem_append_left _ hkp⟩, hpb⟩
    · rw [hpre] at hkp hsorted
      rw [List.mem_append, List.mem_singleton] at hkp
      rcases hkp with hkp | hkp
      · exact ⟨p, mem_knots.2 ⟨kp, by rw [hcont]; exact List.mem_append_left _ hkp⟩, hpb⟩
      · obtain ⟨a, r, hr⟩ := List.exists_cons_of_ne_nil hne
        have ha : a ∈ pre := by rw [hr]; simp
        have hlt := (List.pairwise_append.1 hsorted).2.2 a ha last (List.mem_singleton_self _)
        rw [← hkp] at hlt
        exact ⟨(a.1, a.2.2), mem_knots.2 ⟨a.2.1, by rw [hcont]; exact List.mem_append_left _ ha⟩,
          hlt.le.trans hpb⟩

/-- What a caller must avoid for the correction to keep covering the base: removing an end knot of the
correction, replacing the correction by no knots at all, giving a base to a curve without correction,
extending a thinned curve to a time that is not after the base. -/
def Gentle (s : Comp K G) : Op K G → Prop
  | .extend [t] _ => s.corr.pol.minMeas = 1 ∨ s.base.mgr.knots = [] ∨ s.base.mgr.getMaxTime < t
  | .remove t => t ≠ s.corr.mgr.getMinTime ∧ t ≠ s.corr.mgr.getMaxTime
  | .setTimes ts => ts ≠ []
  | .setBase _ _ => s.corr.mgr.knots ≠ []
  | .setPart _ _ => s.corr.mgr.knots ≠ []
  | _ => True

/-- Every operation of the history is gentle in the state it is executed in. -/
def GentleRun (L : ExpLog K G V) (kb kc : Kind) (s : Comp K G) : List (Op K G) → Prop
  | [] => True
  | op :: rest => Gentle s op ∧ ∀ s', step L kb kc s op = .ok s' → GentleRun L kb kc s' rest

theorem run_append (L : ExpLog K G V) (kb kc : Kind) (ops ops' : List (Op K G)) (s : Comp K G) :
    run L kb kc s (ops ++ ops') = (run L kb kc s ops >>= fun s' => run L kb kc s' ops') := by
  induction ops generalizing s with
  | nil => simp [run]
  | cons op rest ih =>
    simp only [List.cons_append, run]
    cases step L kb kc s op with
    | ok s' => simp [ih]
    | _ => rfl

theorem Reachable.step {L : ExpLog K G V} {kb kc : Kind} {s s' : Comp K G} {op : Op K G}
    (h : Reachable L kb kc s) (e : Composition.step L kb kc s op = .ok s') : Reachable L kb kc s' := by
  obtain ⟨w, ops, h⟩ := h
  exact ⟨w, ops ++ [op], by rw [run_append, h]; simp [run, e]⟩

theorem extend_covers {L : ExpLog K G V} {kc : Kind} {s s' : Comp K G} {t : K} {v : G} {ks : List Nat}
    (hi : Inv s) (hcov : Covers s)
    (hg : s.corr.pol.minMeas = 1 ∨ s.base.mgr.knots = [] ∨ s.base.mgr.getMaxTime < t)
    (e : extend L kc [t] [v] s = .ok (s', ks)) (hc : s'.w.calls + 1 < 2 ^ 64) : Covers s' := by
  obtain ⟨g⟩ := extend_stages e
  have hcs := g.calls
  obtain ⟨hwb0, hwc0⟩ := hi.wf (show s.w.calls + 1 < 2 ^ 64 by omega)
  obtain ⟨hw1, hw2, hw3, hst, hsb⟩ := g.steps hi hc
  have hwb : WF g.x3.w s.base.mgr :=
    ((hst.other s.base.mgr).reachable hi.base).WF (show g.x3.w.calls + 1 < 2 ^ 64 by omega)
  obtain ⟨hk, -⟩ := extend_one_mem hwb hi.ratio g.ex hc
  obtain ⟨-, hne, h0, h1⟩ := evaluate_dom L hw3.sorted g.ev
  have hlow : Low s'.corr.mgr t := by rw [g.ec]; exact (low_iff hw3.sorted).2 ⟨hne, h0⟩
  have hhigh : High s'.corr.mgr t := by rw [g.ec]; exact (high_iff hw3.sorted).2 ⟨hne, h1⟩
  intro p hp
  rcases (hk p.1 p.2).1 hp with ⟨hpt, -⟩ | ⟨-, hold⟩
  · rw [hpt]; exact ⟨hlow, hhigh⟩
  · obtain ⟨pl, ph⟩ := hcov p hold
    rcases hg with hm | hm | hm
    · have hgr := g.grown hi hm hc
      obtain ⟨x, hx, hx'⟩ := pl
      obtain ⟨y, hy, hy'⟩ := ph
      exact ⟨⟨x, hgr.1 x hx, hx'⟩, ⟨y, hgr.1 y hy, hy'⟩⟩
    · rw [hm] at hold; simp at hold
    · obtain ⟨pmin, pmax⟩ := mem_range hwb0.sorted hold
      have hpt : p.1 < t := pmax.trans_lt hm
      refine ⟨?_, ?_⟩
      · have hbne : s.base.mgr.isEmpty = false := by
          cases hn : s.base.mgr.nodes with
          | nil => simp [Mgr.knots, hn] at hold
          | cons => simp [Mgr.isEmpty, hn]
        have hcne : s.corr.mgr.isEmpty = false := by
          obtain ⟨x, hx, -⟩ := pl
          cases hn : s.corr.mgr.nodes with
          | nil => simp [Mgr.knots, hn] at hx
          | cons => simp [Mgr.isEmpty, hn]
        have hlo : newMin s t = s.base.mgr.getMinTime := by
          have : ¬ t < s.base.mgr.getMinTime := not_lt.2 (pmin.trans hpt.le)
          simp [newMin, hbne, this]
        have e1 := g.e1
        have e2 := g.e2
        have e3 := g.e3
        simp only [growEmpty, hcne, Bool.false_eq_true, if_false, Outcome.ok.injEq] at e1
        have l1 : ∀ b, Low s.corr.mgr b → Low g.x2.corr.mgr b := by
          intro b hb
          have hx1 : g.x1.corr = s.corr := by rw [← e1]
          unfold growMax at e2
          split at e2
          · rename_i hlt
            obtain ⟨q, -, e2⟩ := Outcome.bind_eq_ok.1 e2
            obtain ⟨⟨w', c', ks'⟩, he, e2⟩ := Outcome.bind_eq_ok.1 e2
            rw [← e1] at he hlt
            have hx2 : c' = g.x2.corr ∧ w' = g.x2.w := by
              rw [Outcome.ok.injEq] at e2; rw [← e2]; exact ⟨rfl, rfl⟩
            simp only [List.nil_append] at he
            have := extend_low hwc0 (fun p hp => (mem_range hwc0.sorted hp).2.trans_lt hlt) he
              (by rw [hx2.2]; omega) hb
            rwa [hx2.1] at this
          · rw [Outcome.ok.injEq] at e2
            rw [← e2, hx1]
            exact hb
        have hbmin : Low s.corr.mgr s.base.mgr.getMinTime := by
          obtain ⟨p0, hp0, ep0⟩ := knots_min (m := s.base.mgr) (List.ne_nil_of_mem hold)
          rw [← ep0]
          exact (hcov p0 hp0).1
        have hnot : ¬ newMin s t < g.x2.corr.mgr.getMinTime := by
          rw [hlo]
          exact not_lt.2 ((low_iff hw2.sorted).1 (l1 _ hbmin)).2
        simp only [growMin, hnot, if_false, Outcome.ok.injEq] at e3
        rw [g.ec, ← e3]
        exact l1 _ pl
      · obtain ⟨y, hy, hy'⟩ := hhigh
        exact ⟨y, hy, hpt.le.trans hy'⟩

/-- One gentle operation. -/
theorem step_covers {L : ExpLog K G V} {kb kc : Kind} (hkb : kb ≠ .slerpSE3) (hkc : kc ≠ .slerpSE3)
    {s s' : Comp K G} {op : Op K G} (hr : Reachable L kb kc s) (hcov : Covers s) (hg : Gentle s op)
    (e : step L kb kc s op = .ok s') (hc : s'.w.calls + 1 < 2 ^ 64) : Covers s' := by
  have hst := step_inv e
  have hcs : s.w.calls + 1 < 2 ^ 64 := by have := hst.1; omega
  have hi := hr.inv hcs
  obtain ⟨hwb, hwc⟩ := hi.wf hcs
  obtain ⟨hwb', hwc'⟩ := (hst.2 hi hc).wf hc
  cases op with
  | extend ts vs =>
    obtain ⟨⟨s1, ks⟩, h1, h2⟩ := Outcome.bind_eq_ok.1 e
    cases h2
    obtain ⟨t, v, rfl, rfl⟩ := extend_shape h1
    exact extend_covers hi hcov hg h1 hc
  | fold =>
    obtain ⟨h1, h2, -⟩ := C44_fold L hkb hkc hr e hc
    refine hcov.of_times (fun p hp => ?_) (fun p hp => ?_)
    · exact mem_times.1 (h1 ▸ mem_times.2 ⟨p, hp, rfl⟩)
    · exact mem_times.1 (h2 ▸ mem_times.2 ⟨p, hp, rfl⟩)
  | setTimes ts =>
    obtain ⟨hb, hk, -, h0, h1⟩ := C57_set_times (kb := kb) L hr e hc
    refine covers_of_ends hwb'.sorted ?_ (by rw [h0, hb]) (by rw [h1, hb])
    obtain ⟨a, r, har⟩ := List.exists_cons_of_ne_nil (show ts ≠ [] from hg)
    obtain ⟨vals, hv, -⟩ := Outcome.bind_eq_ok.1 e
    rw [har] at hv
    obtain ⟨v, hv, -⟩ := Outcome.bind_eq_ok.1 hv
    exact List.ne_nil_of_mem ((hk a v).2 ⟨by simp [har], hv⟩)
  | clear =>
    cases e
    intro p hp
    simp [clear, Curve.clear, Mgr.clear, Mgr.knots] at hp
  | remove t =>
    obtain ⟨hno, hyes⟩ := C60_remove L hr hcs t
    by_cases hex : ∃ u, (t, u) ∈ s.corr.mgr.knots
    · obtain ⟨s1, e1, hb, hk⟩ := hyes hex
      simp only [step, e1, Outcome.ok.injEq] at e
      subst e
      have hne : s.corr.mgr.knots ≠ [] := by obtain ⟨u, hu⟩ := hex; exact List.ne_nil_of_mem hu
      intro p hp
      rw [hb] at hp
      obtain ⟨pl, ph⟩ := hcov p hp
      have pl' := ((low_iff hwc.sorted).1 pl).2
      have ph' := ((high_iff hwc.sorted).1 ph).2
      obtain ⟨x, hx, ex⟩ := knots_min hne
      obtain ⟨y, hy, ey⟩ := knots_max hne
      refine ⟨⟨x, (hk x.1 x.2).2 ⟨?_, hx⟩, ex ▸ pl'⟩, ⟨y, (hk y.1 y.2).2 ⟨?_, hy⟩, ey ▸ ph'⟩⟩
      · rw [ex]; exact hg.1.symm
      · rw [ey]; exact hg.2.symm
    · push Not at hex
      rw [step, hno hex] at e
      cases e
  | setCorr t v =>
    obtain ⟨hno, hyes⟩ := C60_set (kb := kb) L hkc hr hcs t v
    by_cases hex : ∃ u, (t, u) ∈ s.corr.mgr.knots
    · obtain ⟨s1, e1, hb, hk, -⟩ := hyes hex
      simp only [step, e1, Outcome.ok.injEq] at e
      subst e
      refine hcov.of_times (fun p hp => ⟨p, hb ▸ hp, rfl⟩) (fun p hp => ?_)
      by_cases hpt : p.1 = t
      · exact ⟨(t, v), (hk t v).2 (.inl ⟨rfl, rfl⟩), hpt.symm⟩
      · exact ⟨p, (hk p.1 p.2).2 (.inr ⟨hpt, hp⟩), rfl⟩
    · push Not at hex
      rw [step, hno hex] at e
      cases e
  | transform X =>
    obtain ⟨s1, e1, hq, hk, -⟩ := C58_transform (kc := kc) L hkb hr hcs X
    simp only [step, e1, Outcome.ok.injEq] at e
    subst e
    refine hcov.of_times (fun p hp => ?_) (fun p hp => ⟨p, by rw [hq]; exact hp, rfl⟩)
    rw [hk] at hp
    obtain ⟨q, hq, rfl⟩ := List.mem_map.1 hp
    exact ⟨q, hq, rfl⟩
  | reset ts =>
    obtain ⟨⟨w1, c1, ks⟩, h1, e⟩ := Outcome.bind_eq_ok.1 e
    obtain ⟨rfl, h0, h2⟩ := checkEnds_eq e
    by_cases hts : ts = []
    · subst hts
      simp only [Curve.fitCurve, List.map_nil, List.length_nil, ne_eq, not_true_eq_false, if_false,
        lt_irrefl, Outcome.ok.injEq] at h1
      cases h1
      exact hcov
    · refine covers_of_ends hwb'.sorted ?_ h0 h2
      simp only [Curve.fitCurve, List.length_map, ne_eq, not_true_eq_false, if_false,
        List.length_pos_iff.2 hts, if_true] at h1
      obtain ⟨⟨w2, m2, ks2⟩, h3, h1⟩ := Outcome.bind_eq_ok.1 h1
      cases h1
      have hwe : WF s.w (Mgr.empty : Mgr K G) := WF.empty s.w
      obtain ⟨a, r, har⟩ := List.exists_cons_of_ne_nil hts
      have := (insertMany_mem hwe h3 hc (by
        intro t v v' hv hv'
        have h1 := (List.of_mem_zip hv).2
        have h2 := (List.of_mem_zip hv').2
        simp only [List.mem_map] at h1 h2
        obtain ⟨-, -, rfl⟩ := h1
        obtain ⟨-, -, rfl⟩ := h2
        rfl) a 1).2 (.inl (by simp [har]))
      exact List.ne_nil_of_mem this
  | setBase ts vs =>
    obtain ⟨⟨w1, c1, ks⟩, h1, e⟩ := Outcome.bind_eq_ok.1 e
    obtain ⟨rfl, h0, h2⟩ := checkEnds_eq e
    exact covers_of_ends hwb'.sorted hg h0 h2
  | setPart ts vs =>
    obtain ⟨⟨w1, c1⟩, h1, e⟩ := Outcome.bind_eq_ok.1 e
    obtain ⟨rfl, h0, h2⟩ := checkEnds_eq e
    exact covers_of_ends hwb'.sorted hg h0 h2
  | modify ts vs =>
    obtain ⟨m, h1, e⟩ := Outcome.bind_eq_ok.1 e
    obtain ⟨rfl, h0, h2⟩ := checkEnds_eq e
    refine hcov.of_times (fun p hp => ?_) (fun p hp => ⟨p, hp, rfl⟩)
    obtain ⟨n, hn, rfl⟩ := List.mem_map.1 hp
    obtain ⟨y, hy, -, ey, -⟩ := mem_of_frame (modBatch_frame h1).1 hn
    exact ⟨(y.time, y.coef), List.mem_map_of_mem (f := fun n : Node K G => (n.time, n.coef)) hy, ey⟩
  | setRatio n => cases e; exact hcov
  | others k a => cases e; exact hcov

/-- A gentle history. -/
theorem run_covers {L : ExpLog K G V} {kb kc : Kind} (hkb : kb ≠ .slerpSE3) (hkc : kc ≠ .slerpSE3)
    {ops : List (Op K G)} : ∀ {s s' : Comp K G}, Reachable L kb kc s → Covers s →
    GentleRun L kb kc s ops → run L kb kc s ops = .ok s' → s'.w.calls + 1 < 2 ^ 64 → Covers s' := by
  induction ops with
  | nil => intro s s' _ h _ e _; simp only [run, Outcome.ok.injEq] at e; exact e ▸ h
  | cons op rest ih =>
    intro s s' hr h hg e hc
    obtain ⟨s1, e1, e2⟩ := Outcome.bind_eq_ok.1 e
    have := run_calls e2
    exact ih (hr.step e1) (step_covers hkb hkc hr h hg.1 e1 (by omega)) (hg.2 s1 e1) e2 hc

end Verif.Composition

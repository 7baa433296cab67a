import Verif.Composition.Lemmas
import Verif.Discrete.SE2

/-!
# Properties of the composition curve

C44, C55, C57-C60 and the composition part of C50.
-/

set_option linter.unusedSectionVars false
set_option linter.dupNamespace false

namespace Verif.Composition

open Verif.Manager Verif.Policy Verif.Discrete

variable {K G V : Type} [Field K] [LinearOrder K] [IsStrictOrderedRing K] [Group G]
  [AddCommGroup V] [Module K V]

/-! ## A state reached -/

/-- Three measurements, then two corrections set, the correction thinned by 2. -/
def demoOps : List (Op ℚ (Multiplicative ℚ)) :=
  [.setRatio 2, .extend [1] [.ofAdd 5], .others 3 1, .extend [2] [.ofAdd 6], .extend [3] [.ofAdd 4],
    .setCorr 0 (.ofAdd 1), .setCorr 3 (.ofAdd 4), .extend [4] [.ofAdd 4], .setCorr 4 (.ofAdd 8)]

/-- What `demoOps` leads to. -/
def demo : Comp ℚ (Multiplicative ℚ) :=
  match run (lineMaps ℚ) .slerp .slerp (Comp.fresh ⟨100, 200⟩) demoOps with
  | .ok s => s
  | _ => Comp.fresh ⟨0, 0⟩

theorem demo_run : run (lineMaps ℚ) .slerp .slerp (Comp.fresh ⟨100, 200⟩) demoOps = .ok demo := by
  have h : (match run (lineMaps ℚ) .slerp .slerp (Comp.fresh ⟨100, 200⟩) demoOps with
    | .ok _ => true | _ => false) = true := by decide +kernel
  unfold demo
  split at h
  · rename_i s e; rw [e]
  · cases h

theorem demo_reachable : Reachable (lineMaps ℚ) .slerp .slerp demo := ⟨⟨100, 200⟩, demoOps, demo_run⟩

theorem demo_calls : demo.w.calls = 111 := by decide +kernel

example : demo.base.mgr.knots = [(1, .ofAdd 5), (2, .ofAdd 6), (3, .ofAdd 4), (4, .ofAdd 0)] ∧
    demo.corr.mgr.knots = [(0, .ofAdd 1), (1, .ofAdd 0), (3, .ofAdd 4), (4, .ofAdd 8)] := by
  decide +kernel

/-! ## C44 -/

/-- C44, domain. A composition of two nonempty curves has a value at `t` exactly when `t` is in the time
ranges of both; the value is the correction's value times the base's. -/
theorem C44_domain (L : ExpLog K G V) {kb kc : Kind} (hkb : kb ≠ .slerpSE3) (hkc : kc ≠ .slerpSE3)
    {s : Comp K G} (hr : Reachable L kb kc s) (hc : s.w.calls + 1 < 2 ^ 64)
    (hb : s.base.mgr.knots ≠ []) (hq : s.corr.mgr.knots ≠ []) (t : K) :
    (s.base.mgr.getMinTime ≤ t ∧ t ≤ s.base.mgr.getMaxTime ∧
      s.corr.mgr.getMinTime ≤ t ∧ t ≤ s.corr.mgr.getMaxTime →
        ∃ q b, evaluate L kc t s.corr.mgr = .ok q ∧ evaluate L kb t s.base.mgr = .ok b ∧
          eval L kb kc t s = .ok (q * b)) ∧
    (¬(s.base.mgr.getMinTime ≤ t ∧ t ≤ s.base.mgr.getMaxTime ∧
      s.corr.mgr.getMinTime ≤ t ∧ t ≤ s.corr.mgr.getMaxTime) → eval L kb kc t s = .abort) := by
  obtain ⟨hwb, hwc⟩ := (hr.inv hc).wf hc
  constructor
  · rintro ⟨h1, h2, h3, h4⟩
    obtain ⟨q, eq⟩ := evaluate_inside L hkc hwc.sorted hq h3 h4
    obtain ⟨b, eb⟩ := evaluate_inside L hkb hwb.sorted hb h1 h2
    exact ⟨q, b, eq, eb, by simp [eval, eq, eb]⟩
  · intro h
    by_cases hin : s.corr.mgr.getMinTime ≤ t ∧ t ≤ s.corr.mgr.getMaxTime
    · obtain ⟨q, eq⟩ := evaluate_inside L hkc hwc.sorted hq hin.1 hin.2
      have : t < s.base.mgr.getMinTime ∨ s.base.mgr.getMaxTime < t := by
        by_contra h'
        push Not at h'
        exact h ⟨h'.1, h'.2, hin.1, hin.2⟩
      simp [eval, eq, evaluate_outside (kind := kb) L hwb.sorted (.inl hb) (.inr this)]
    · have : t < s.corr.mgr.getMinTime ∨ s.corr.mgr.getMaxTime < t := by
        by_contra h'
        push Not at h'
        exact hin h'
      simp [eval, evaluate_outside (kind := kc) L hwc.sorted (.inl hq) (.inr this)]

example : eval (lineMaps ℚ) .slerp .slerp 2 demo = .ok (.ofAdd 8) ∧
    eval (lineMaps ℚ) .slerp .slerp (7 / 2) demo = .ok (.ofAdd 8) ∧
    eval (lineMaps ℚ) .slerp .slerp (1 / 2) demo = .abort := by decide +kernel

/-- C44, extending. Whenever extending with `(t, v)` returns, whatever the corrections and the thinning,
the curve has value `v` at `t`. -/
theorem C44_extend (L : ExpLog K G V) {kb kc : Kind} (hkb : kb ≠ .slerpSE3) {s s' : Comp K G}
    (hr : Reachable L kb kc s) {t : K} {v : G} {ks : List Nat}
    (e : extend L kc [t] [v] s = .ok (s', ks)) (hc : s'.w.calls + 1 < 2 ^ 64) :
    eval L kb kc t s' = .ok v := by
  obtain ⟨g⟩ := extend_stages e
  have hcs := g.calls
  have hi := hr.inv (show s.w.calls + 1 < 2 ^ 64 by omega)
  obtain ⟨-, -, hw3, hst, hsb⟩ := g.steps hi hc
  have hwb : WF g.x3.w s.base.mgr :=
    ((hst.other s.base.mgr).reachable hi.base).WF (show g.x3.w.calls + 1 < 2 ^ 64 by omega)
  have hwb' := hsb.WF hwb hc
  have hk := (extend_one_mem hwb hi.ratio g.ex hc).1
  have h1 : evaluate L kb t s'.base.mgr = .ok (g.q⁻¹ * v) :=
    evaluate_knot L hkb hwb'.sorted ((hk _ _).2 (.inl ⟨rfl, rfl⟩))
  simp [eval, g.ec, g.ev, h1]

/-- C44, extending forwards. It does return when `t` is after the base, the correction reaches back to
the beginning of the base, and the counter of the sampling policy is not at its maximum. -/
theorem C44_extend_ok (L : ExpLog K G V) {kb kc : Kind} (hkc : kc ≠ .slerpSE3) {s : Comp K G}
    (hr : Reachable L kb kc s) (hc : s.w.calls + 2 < 2 ^ 64) (hb : s.base.mgr.knots ≠ [])
    (hq : s.corr.mgr.knots ≠ []) {t : K} (ht : s.base.mgr.getMaxTime < t)
    (hmin : s.corr.mgr.getMinTime ≤ s.base.mgr.getMinTime) (hs : s.corr.pol.since ≠ 2 ^ 31 - 1) (v : G) : ∃ r, extend L kc [t] [v] s = .ok r := by
  have hi := hr.inv (show s.w.calls + 1 < 2 ^ 64 by omega)
  obtain ⟨hwb, hwc⟩ := hi.wf (show s.w.calls + 1 < 2 ^ 64 by omega)
  have hbn := knots_ne_nil.1 hb
  have hqn := knots_ne_nil.1 hq
  have hbe : s.base.mgr.isEmpty = false := by simpa [Mgr.isEmpty] using hbn
  have hqe : s.corr.mgr.isEmpty = false := by simpa [Mgr.isEmpty] using hqn
  have hbm : s.base.mgr.getMinTime ≤ s.base.mgr.getMaxTime := by
    obtain ⟨a, l, hl⟩ := List.exists_cons_of_ne_nil hbn
    have := min_le_node hwb.sorted (show a ∈ s.base.mgr.nodes by simp [hl])
    exact this.1.trans this.2
  have hmx : newMax s t = t := by simp [newMax, hbe, ht]
  have hmn : newMin s t = s.base.mgr.getMinTime := by
    simp only [newMin, hbe, Bool.false_eq_true, if_false]
    rw [if_neg (not_lt.2 (hbm.trans ht.le))]
  have e1 : growEmpty (newMin s t) ⟨s.w, s.corr, [], []⟩ = .ok ⟨s.w, s.corr, [], []⟩ := by
    simp [growEmpty, hqe]
  have htb : ∀ x ∈ s.base.mgr.contents, x.1 < t := by
    rintro ⟨x, k, u⟩ hx
    obtain ⟨n, hn, rfl, -, -⟩ := mem_contents.1 hx
    exact (min_le_node hwb.sorted hn).2.trans_lt ht
  have key : ∃ x, growMax L kc t ⟨s.w, s.corr, [], []⟩ = .ok x ∧ WF x.w x.corr.mgr ∧
      x.w.calls ≤ s.w.calls + 1 ∧ s.w.calls ≤ x.w.calls ∧ s.w.nextAddr ≤ x.w.nextAddr ∧
      x.corr.mgr.knots ≠ [] ∧
      x.corr.mgr.getMinTime ≤ s.base.mgr.getMinTime ∧ t ≤ x.corr.mgr.getMaxTime := by
    by_cases hlt : s.corr.mgr.getMaxTime < t
    · have hcm : s.corr.mgr.getMinTime ≤ s.corr.mgr.getMaxTime := by
        obtain ⟨a, l, hl⟩ := List.exists_cons_of_ne_nil hqn
        have := min_le_node hwc.sorted (show a ∈ s.corr.mgr.nodes by simp [hl])
        exact this.1.trans this.2
      obtain ⟨q, eq⟩ := evaluate_inside L hkc hwc.sorted hq hcm le_rfl
      have htc : ∀ x ∈ s.corr.mgr.contents, x.1 < t := by
        rintro ⟨x, k, u⟩ hx
        obtain ⟨n, hn, rfl, -, -⟩ := mem_contents.1 hx
        exact (min_le_node hwc.sorted hn).2.trans_lt hlt
      obtain ⟨w', c', ks, pre, k, e, hwf, hcl, hcont, hpre⟩ :=
        extend_forward hwc (by omega) (.inr hs) q htc
      have hst : Steps ⟨s.w, s.corr.mgr⟩ ⟨w', c'.mgr⟩ :=
        extend_steps (fun t' ht' => .inr (.inr (by
          simp only [List.cons.injEq, and_true] at ht'
          subst ht'
          exact fun x hx => (htc x hx).ne))) e
      have hmem : (t, k, q) ∈ c'.mgr.contents := by simp [hcont]
      obtain ⟨n, hn, hnt, -, -⟩ := mem_contents.1 hmem
      refine ⟨⟨w', c', [t], [q]⟩, ?_, hwf, hcl, hst.calls, ?_, ?_, ?_, ?_⟩
      · simp [growMax, hlt, eq, Work.push, e]
      · obtain ⟨l, -, er⟩ := hst
        exact run_addr_mono er
      · rw [knots_eq_contents, hcont]; simp
      · have hhead : ∀ (x : K × Nat × G) (m : Mgr K G), m.contents.head? = some x →
            m.getMinTime = x.1 := by
          intro x m h
          unfold Mgr.getMinTime
          cases hnn : m.nodes with
          | nil => simp [Mgr.contents, hnn] at h
          | cons a l => simp [Mgr.contents, hnn] at h; rw [← h]
        have hpne : pre ≠ [] := by
          rcases hpre with h | ⟨last, h, -⟩
          · rw [← h]; simpa [Mgr.contents] using hqn
          · exact h
        obtain ⟨p, lp, hp⟩ := List.exists_cons_of_ne_nil hpne
        have h1 : c'.mgr.getMinTime = p.1 := hhead p _ (by rw [hcont, hp]; rfl)
        have h2 : s.corr.mgr.getMinTime = p.1 := by
          apply hhead p
          rcases hpre with h | ⟨last, -, h⟩
          · rw [h, hp]; rfl
          · rw [h, hp]; rfl
        rw [h1, ← h2]
        exact hmin
      · rw [← hnt]
        exact (min_le_node hwf.sorted hn).2
    · exact ⟨_, by simp [growMax, hlt]; rfl, hwc, by simp, by simp, by simp, hq, hmin, not_lt.1 hlt⟩
  obtain ⟨x, e2, hwx, hcx, hcx', hax, hxne, hx1, hx2⟩ := key
  have e3 : growMin L kc (newMin s t) x = .ok x := by
    simp [growMin, hmn, not_lt.2 hx1]
  obtain ⟨q, eq⟩ := evaluate_inside L hkc hwx.sorted hxne (hx1.trans (hbm.trans ht.le)) hx2
  obtain ⟨w', b', ks, -, -, e4, -⟩ := extend_forward (hwb.mono hcx' hax) (by omega)
    (.inl hi.ratio) (q⁻¹ * v) htb
  refine ⟨(⟨w', b', x.corr⟩, ks), ?_⟩
  simp only [extend, e1, Outcome.ok_bind, hmx, e2, e3, eq, e4]

/-- C44, first measurement. On an empty composition any first measurement is accepted, becomes the only
knot of the base as it is, and the correction is the identity from 0 to `t` (or `t` to 0). -/
theorem C44_extend_first (L : ExpLog K G V) {kb kc : Kind} (hkc : kc ≠ .slerpSE3) {s : Comp K G}
    (hr : Reachable L kb kc s) (hc : s.w.calls + 5 < 2 ^ 64) (hb : s.base.mgr.knots = [])
    (hq : s.corr.mgr.knots = []) (t : K) (v : G) :
    ∃ s' ks, extend L kc [t] [v] s = .ok (s', ks) ∧ s'.base.mgr.knots = [(t, v)] ∧
      ∀ a u, (a, u) ∈ s'.corr.mgr.knots ↔ (a = 0 ∨ a = t) ∧ u = 1 := by
  have hi := hr.inv (show s.w.calls + 1 < 2 ^ 64 by omega)
  obtain ⟨hwb, hwc⟩ := hi.wf (show s.w.calls + 1 < 2 ^ 64 by omega)
  have hbn : s.base.mgr.nodes = [] := by simpa [Mgr.knots] using hb
  have hqn : s.corr.mgr.nodes = [] := by simpa [Mgr.knots] using hq
  have hmn : newMin s t = min t 0 := by
    simp only [newMin, Mgr.isEmpty, hbn, List.isEmpty_nil, if_true]
    split
    · rename_i h; rw [min_eq_left h.le]
    · rename_i h; rw [min_eq_right (not_lt.1 h)]
  have hmx : newMax s t = max t 0 := by
    simp only [newMax, Mgr.isEmpty, hbn, List.isEmpty_nil, if_true]
    split
    · rename_i h; rw [max_eq_left h.le]
    · rename_i h; rw [max_eq_right (not_lt.1 h)]
  obtain ⟨w1, c1, ks1, e1, hw1, hc1, hc1', ha1, hk1⟩ := extend_list (w := s.w) (c := s.corr) [min t 0] [1] hwc rfl
    (by simp only [List.length_cons, List.length_nil]; omega) (.inr hqn)
    (by rintro a b b' h h'; simp at h h'; rw [h.2, h'.2])
  simp only [List.length_cons, List.length_nil] at hc1
  have hk1' : ∀ a u, (a, u) ∈ c1.mgr.knots ↔ a = min t 0 ∧ u = 1 := by
    intro a u; rw [hk1, hq]; simp
  have hkn1 : c1.mgr.knots = [(min t 0, 1)] := by
    have hp : c1.mgr.knots.Pairwise fun a b => a.1 < b.1 := by
      have := sorted_iff_knots.1 hw1.sorted
      rwa [List.pairwise_map] at this
    exact eq_of_mem_iff hp (by simp) (by rintro ⟨a, u⟩; rw [hk1']; simp)
  have g1 : growEmpty (newMin s t) ⟨s.w, s.corr, [], []⟩ = .ok ⟨w1, c1, [min t 0], [1]⟩ := by
    simp [growEmpty, Mgr.isEmpty, hqn, Work.push, hmn, e1]
  have ends1 : c1.mgr.getMinTime = min t 0 ∧ c1.mgr.getMaxTime = min t 0 := by
    cases hn : c1.mgr.nodes with
    | nil => simp [Mgr.knots, hn] at hkn1
    | cons a l =>
      simp only [Mgr.knots, hn, List.map_cons, List.cons.injEq, Prod.mk.injEq, List.map_eq_nil_iff] at hkn1
      obtain ⟨⟨h1, -⟩, rfl⟩ := hkn1
      simp [Mgr.getMinTime, Mgr.getMaxTime, hn, h1]
  have key : ∃ x, growMax L kc (newMax s t) ⟨w1, c1, [min t 0], [1]⟩ = .ok x ∧ WF x.w x.corr.mgr ∧
      x.w.calls ≤ w1.calls + 2 ∧ w1.nextAddr ≤ x.w.nextAddr ∧ w1.calls ≤ x.w.calls ∧
      (∀ a u, (a, u) ∈ x.corr.mgr.knots ↔ (a = 0 ∨ a = t) ∧ u = 1) := by
    by_cases h0 : t = 0
    · subst h0
      refine ⟨_, by simp [growMax, ends1, hmx]; rfl, hw1, by simp, by simp, by simp, fun a u => ?_⟩
      rw [hk1']; simp
    · have hlt : min t 0 < max t 0 := by
        rcases lt_or_gt_of_ne h0 with h | h
        · simp [h.le, h]
        · simp [h.le, h]
      have eq : evaluate L kc (min t 0) c1.mgr = .ok 1 :=
        evaluate_knot L hkc hw1.sorted ((hk1' _ _).2 ⟨rfl, rfl⟩)
      obtain ⟨w2, c2, ks2, e2, hw2, hc2, hc2', ha2, hk2⟩ := extend_list (w := w1) (c := c1)
        [min t 0, max t 0] [1, 1] hw1 rfl
        (by simp only [List.length_cons, List.length_nil]; omega) (.inl (by simp)) (by
          intro a u u' h h'
          simp only [List.zip_cons_cons, List.zip_nil_right, List.mem_cons, Prod.mk.injEq,
            List.not_mem_nil, or_false] at h h'
          rcases h with h | h <;> rcases h' with h' | h' <;> rw [h.2, h'.2])
      refine ⟨⟨w2, c2, [min t 0, max t 0], [1, 1]⟩, ?_, hw2, by simpa using hc2, ha2, hc2',
        fun a u => ?_⟩
      · simp [growMax, ends1, hmx, hlt, eq, Work.push, e2]
      · rw [hk2, hkn1]
        simp only [List.zip_cons_cons, List.zip_nil_right, List.mem_cons, Prod.mk.injEq,
            List.not_mem_nil, or_false, not_or]
        rcases lt_or_gt_of_ne h0 with h | h
        · simp only [min_eq_left h.le, max_eq_right h.le]
          constructor
          · rintro ((⟨rfl, rfl⟩ | ⟨rfl, rfl⟩) | ⟨⟨a1, a2⟩, a3, a4⟩)
            exacts [⟨.inr rfl, rfl⟩, ⟨.inl rfl, rfl⟩, absurd a3 a1]
          · rintro ⟨rfl | rfl, rfl⟩
            exacts [.inl (.inr ⟨rfl, rfl⟩), .inl (.inl ⟨rfl, rfl⟩)]
        · simp only [min_eq_right h.le, max_eq_left h.le]
          constructor
          · rintro ((⟨rfl, rfl⟩ | ⟨rfl, rfl⟩) | ⟨⟨a1, a2⟩, a3, a4⟩)
            exacts [⟨.inl rfl, rfl⟩, ⟨.inr rfl, rfl⟩, absurd a3 a1]
          · rintro ⟨rfl | rfl, rfl⟩
            exacts [.inl (.inl ⟨rfl, rfl⟩), .inl (.inr ⟨rfl, rfl⟩)]
  obtain ⟨x, g2, hwx, hcx, hax, hcx', hkx⟩ := key
  have hmem : (min t 0, (1 : G)) ∈ x.corr.mgr.knots := by
    rw [hkx]
    refine ⟨?_, rfl⟩
    rcases le_total t 0 with h | h
    · exact .inr (min_eq_left h)
    · exact .inl (min_eq_right h)
  have g3 : growMin L kc (newMin s t) x = .ok x := by
    obtain ⟨n, hn, e⟩ := List.mem_map.1 hmem
    simp only [Prod.mk.injEq] at e
    have := (min_le_node hwx.sorted hn).1
    rw [e.1] at this
    simp [growMin, hmn, not_lt.2 this]
  have ev : evaluate L kc t x.corr.mgr = .ok 1 :=
    evaluate_knot L hkc hwx.sorted ((hkx _ _).2 ⟨.inr rfl, rfl⟩)
  obtain ⟨w3, b3, ks3, e3, hw3, -, -, -, hk3⟩ := extend_list (w := x.w) (c := s.base) [t] [v]
    (hwb.mono (hc1'.trans hcx') (ha1.trans hax)) rfl
    (by simp only [List.length_cons, List.length_nil]; omega) (.inr hbn)
    (by rintro a b b' h h'; simp at h h'; rw [h.2, h'.2])
  refine ⟨⟨w3, b3, x.corr⟩, ks3, ?_, ?_, hkx⟩
  · have e3' : s.base.extend x.w [t] [1⁻¹ * v] = .ok (w3, b3, ks3) := by simpa using e3
    simp only [extend, g1, Outcome.ok_bind, g2, g3, ev, e3']
  · have hp : b3.mgr.knots.Pairwise fun a b => a.1 < b.1 := by
      have := sorted_iff_knots.1 hw3.sorted
      rwa [List.pairwise_map] at this
    exact eq_of_mem_iff hp (by simp) (by rintro ⟨a, u⟩; rw [hk3, hb]; simp)

/-- Extending `demo` at 6 (the correction's last knot is moved) and at 9/2. -/
example : (extend (lineMaps ℚ) .slerp [6] [.ofAdd 3] demo >>= fun r =>
      eval (lineMaps ℚ) .slerp .slerp 6 r.1) = .ok (.ofAdd 3) ∧
    (extend (lineMaps ℚ) .slerp [9 / 2] [.ofAdd 3] demo >>= fun r =>
      eval (lineMaps ℚ) .slerp .slerp (9 / 2) r.1) = .ok (.ofAdd 3) := by decide +kernel

example : ∃ r, extend (lineMaps ℚ) .slerp [6] [.ofAdd 3] demo = .ok r :=
  C44_extend_ok (lineMaps ℚ) (kb := .slerp) (by simp) demo_reachable (by rw [demo_calls]; norm_num)
    (by decide +kernel) (by decide +kernel) (by decide +kernel) (by decide +kernel)
    (by decide +kernel) _

/-- C44, folding. `foldInCorrections` keeps the knot times of both curves, makes every correction the
identity, and leaves the value of the composition at every knot of the base unchanged; afterwards
the base alone has the value of the composition wherever the correction reaches. -/
theorem C44_fold (L : ExpLog K G V) {kb kc : Kind} (hkb : kb ≠ .slerpSE3) (hkc : kc ≠ .slerpSE3)
    {s s' : Comp K G} (hr : Reachable L kb kc s) (e : foldInCorrections L kb kc s = .ok s')
    (hc : s'.w.calls + 1 < 2 ^ 64) :
    s'.base.mgr.getTimes [] = s.base.mgr.getTimes [] ∧
    s'.corr.mgr.getTimes [] = s.corr.mgr.getTimes [] ∧
    (∀ t v, (t, v) ∈ s'.corr.mgr.knots → v = 1) ∧
    (∀ t v, (t, v) ∈ s'.base.mgr.knots → eval L kb kc t s = .ok v ∧ eval L kb kc t s' = .ok v) ∧
    (∀ t, s.corr.mgr.knots ≠ [] → s.corr.mgr.getMinTime ≤ t → t ≤ s.corr.mgr.getMaxTime →
      eval L kb kc t s' = evaluate L kb t s'.base.mgr) := by
  have hcalls := (step_inv (L := L) (kb := kb) (kc := kc) (op := .fold) e).1
  have hi := hr.inv (show s.w.calls + 1 < 2 ^ 64 by omega)
  obtain ⟨hwb, hwc⟩ := hi.wf (show s.w.calls + 1 < 2 ^ 64 by omega)
  obtain ⟨vals, h1, e⟩ := Outcome.bind_eq_ok.1 e
  obtain ⟨⟨w1, b1, ks1⟩, h2, e⟩ := Outcome.bind_eq_ok.1 e
  obtain ⟨⟨w2, c2, ks2⟩, h3, e⟩ := Outcome.bind_eq_ok.1 e
  cases e
  obtain ⟨hlen, hvals⟩ := collect_spec h1
  have hsb : Sorted b1.mgr.nodes ∧ b1.mgr.knots = (s.base.mgr.getTimes []).zip vals := by
    obtain ⟨w', m', ks, e, a, b, -⟩ := fill_empty s.w hlen (times_sorted hwb.sorted)
    rw [clear_extend_eq, e] at h2
    cases h2
    exact ⟨a, b⟩
  have hsc : Sorted c2.mgr.nodes ∧ c2.mgr.knots =
      (s.corr.mgr.getTimes []).zip ((s.corr.mgr.getTimes []).map fun _ => 1) := by
    obtain ⟨w', m', ks, e, a, b, -⟩ := fill_empty (C := G) w1
      (cs := (s.corr.mgr.getTimes []).map fun _ => 1) (by simp) (times_sorted hwc.sorted)
    rw [clear_extend_eq, e] at h3
    cases h3
    exact ⟨a, b⟩
  have hone : ∀ t v, (t, v) ∈ c2.mgr.knots → v = 1 := by
    intro t v h
    rw [hsc.2] at h
    have := (List.of_mem_zip h).2
    simp at this
    exact this.2
  have hcmap : c2.mgr.knots = s.corr.mgr.knots.map fun p => (p.1, (1 : G)) := by
    rw [hsc.2, times_knots]
    induction s.corr.mgr.knots with
    | nil => rfl
    | cons p l ih => simpa using ih
  have hbt : b1.mgr.getTimes [] = s.base.mgr.getTimes [] := by
    rw [times_knots b1.mgr, hsb.2, List.map_fst_zip hlen.le]
  have hcorr1 : ∀ t, s.corr.mgr.knots ≠ [] → s.corr.mgr.getMinTime ≤ t →
      t ≤ s.corr.mgr.getMaxTime → evaluate L kc t c2.mgr = .ok 1 := by
    intro t hne h0 h1
    refine evaluate_const L hkc hsc.1 (fun p hp => hone p.1 p.2 hp) ?_ ?_ ?_
    · rw [hcmap]; simpa using hne
    · rwa [related_min (f := fun _ => (1 : G)) hcmap]
    · rwa [related_max (f := fun _ => (1 : G)) hcmap]
  refine ⟨hbt, ?_, hone, ?_, ?_⟩
  · show c2.mgr.getTimes [] = _
    rw [times_knots c2.mgr, hcmap, times_knots s.corr.mgr]; simp [Function.comp_def]
  · intro t v h
    have hev : eval L kb kc t s = .ok v := hvals t v (by rw [← hsb.2]; exact h)
    refine ⟨hev, ?_⟩
    obtain ⟨q, hq, -⟩ := Outcome.bind_eq_ok.1 hev
    obtain ⟨-, hne, h0, h1⟩ := evaluate_dom L hwc.sorted hq
    have := evaluate_knot L hkb hsb.1 h
    simp [eval, hcorr1 t hne h0 h1, this]
  · intro t hne h0 h1
    simp only [eval, hcorr1 t hne h0 h1, Outcome.ok_bind, one_mul]
    cases evaluate L kb t b1.mgr <;> rfl

/-- C44, folding, when it returns: whenever the correction reaches all knots of the base. -/
theorem C44_fold_ok (L : ExpLog K G V) {kb kc : Kind} (hkb : kb ≠ .slerpSE3) (hkc : kc ≠ .slerpSE3)
    {s : Comp K G} (hr : Reachable L kb kc s) (hc : s.w.calls + 1 < 2 ^ 64)
    (hq : s.corr.mgr.knots ≠ []) (h0 : s.corr.mgr.getMinTime ≤ s.base.mgr.getMinTime)
    (h1 : s.base.mgr.getMaxTime ≤ s.corr.mgr.getMaxTime) :
    ∃ s', foldInCorrections L kb kc s = .ok s' := by
  obtain ⟨hwb, hwc⟩ := (hr.inv hc).wf hc
  obtain ⟨vals, hv⟩ := collect_ok (f := fun t => eval L kb kc t s) (ts := s.base.mgr.getTimes []) (by
    intro t ht
    rw [times_knots] at ht
    obtain ⟨⟨t', v⟩, hm, rfl⟩ := List.mem_map.1 ht
    obtain ⟨n, hn, e⟩ := List.mem_map.1 hm
    cases e
    have hb := evaluate_knot L hkb hwb.sorted hm
    have hmm := min_le_node hwb.sorted hn
    obtain ⟨q, eq⟩ := evaluate_inside L hkc hwc.sorted hq (h0.trans hmm.1) (hmm.2.trans h1)
    exact ⟨q * n.coef, by simp [eval, eq, hb]⟩)
  obtain ⟨hlen, -⟩ := collect_spec hv
  obtain ⟨w1, m1, ks1, e1, -⟩ := fill_empty s.w hlen (times_sorted hwb.sorted)
  obtain ⟨w2, m2, ks2, e2, -⟩ := fill_empty (C := G) w1
    (cs := (s.corr.mgr.getTimes []).map fun _ => 1) (by simp) (times_sorted hwc.sorted)
  exact ⟨⟨w2, ⟨m1, s.base.pol⟩, ⟨m2, s.corr.pol⟩⟩, by
    simp only [foldInCorrections, hv, Outcome.ok_bind, clear_extend_eq, e1, e2]⟩

example : (foldInCorrections (lineMaps ℚ) .slerp .slerp demo >>= fun s' =>
      .ok (s'.base.mgr.knots, s'.corr.mgr.knots)) =
    .ok ([(1, .ofAdd 5), (2, .ofAdd 8), (3, .ofAdd 8), (4, .ofAdd 8)],
      [(0, .ofAdd 0), (1, .ofAdd 0), (3, .ofAdd 0), (4, .ofAdd 0)]) := by decide +kernel

example : ∃ s', foldInCorrections (lineMaps ℚ) .slerp .slerp demo = .ok s' :=
  C44_fold_ok (lineMaps ℚ) (by simp) (by simp) demo_reachable (by rw [demo_calls]; norm_num)
    (by decide +kernel) (by decide +kernel) (by decide +kernel)

/-! ## C55: the past -/

/-- C55, partial. As long as the correction keeps every measurement (sampling ratio 1), extending at `t`
changes no value at any other time at which the curve had a value. Missing: larger sampling ratios,
see `C55_refuted`. -/
theorem C55_past_partial (L : ExpLog K G V) {kb kc : Kind} {s s' : Comp K G}
    (hr : Reachable L kb kc s) (hm : s.corr.pol.minMeas = 1) {t : K} {v : G} {ks : List Nat}
    (e : extend L kc [t] [v] s = .ok (s', ks)) (hc : s'.w.calls + 1 < 2 ^ 64) {t' : K} {v' : G}
    (ht : t' ≠ t) (h : eval L kb kc t' s = .ok v') : eval L kb kc t' s' = .ok v' := by
  obtain ⟨g⟩ := extend_stages e
  have hcs := g.calls
  have hi := hr.inv (show s.w.calls + 1 < 2 ^ 64 by omega)
  have hi' := (extend_inv e).2 hi hc
  obtain ⟨hwb0, hwc0⟩ := hi.wf (show s.w.calls + 1 < 2 ^ 64 by omega)
  obtain ⟨hwb', hwc'⟩ := hi'.wf hc
  obtain ⟨-, -, -, hst, hsb⟩ := g.steps hi hc
  have hwb : WF g.x3.w s.base.mgr :=
    ((hst.other s.base.mgr).reachable hi.base).WF (show g.x3.w.calls + 1 < 2 ^ 64 by omega)
  obtain ⟨hk, hlt⟩ := extend_one_mem hwb hi.ratio g.ex hc
  obtain ⟨q, hq, h⟩ := Outcome.bind_eq_ok.1 h
  obtain ⟨b, hb, h⟩ := Outcome.bind_eq_ok.1 h
  have hq' := evaluate_grown L hwc0.sorted hwc'.sorted (g.grown hi hm hc) hq
  have hb' : evaluate L kb t' s'.base.mgr = .ok b := by
    obtain ⟨hkk, hne, h0, h1⟩ := evaluate_dom L hwb0.sorted hb
    rcases Nat.lt_or_ge s.base.mgr.size 2 with hsz | hsz
    · cases hn : s.base.mgr.nodes with
      | nil => simp [Mgr.knots, hn] at hne
      | cons a l =>
        cases l with
        | cons b l => simp [Mgr.size, hn] at hsz
        | nil =>
          have e1 : s.base.mgr.getMinTime = a.time := by simp [Mgr.getMinTime, hn]
          have e2 : s.base.mgr.getMaxTime = a.time := by simp [Mgr.getMaxTime, hn]
          have ht' : t' = a.time := le_antisymm (e2 ▸ h1) (e1 ▸ h0)
          subst ht'
          have hk' : (a.time, a.coef) ∈ s.base.mgr.knots := by simp [Mgr.knots, hn]
          rw [evaluate_knot L hkk hwb0.sorted hk'] at hb
          rw [evaluate_knot L hkk hwb'.sorted ((hk _ _).2 (.inr ⟨ht, hk'⟩)), hb]
    · have hlt := hlt hsz
      have hall : ∀ p ∈ s.base.mgr.knots, p.1 < t := by
        intro p hp
        obtain ⟨n, hn, rfl⟩ := List.mem_map.1 hp
        exact (min_le_node hwb0.sorted hn).2.trans_lt hlt
      refine evaluate_grown L hwb0.sorted hwb'.sorted (grown_of_mem (t := t) (v := g.q⁻¹ * v) ?_
        (.inr hall)) hb
      intro a u
      rw [hk]
      constructor
      · rintro (h | ⟨-, h⟩)
        exacts [.inl h, .inr h]
      · rintro (h | h)
        exacts [.inl h, .inr ⟨(hall _ h).ne, h⟩]
  cases h
  simp [eval, hq', hb']

/-- C55, refuted. When the correction is thinned and in the middle of a sampling period, extending at a
time after both curves moves the correction's last knot `(tb, B)` to the new time, so the correction
at `tb` changes from `B` to a value on the way from the previous knot `(ta, A)`. -/
theorem C55_refuted (L : ExpLog K G V) {kb : Kind} {s : Comp K G} (hr : Reachable L kb .slerp s)
    (hc : s.w.calls + 2 < 2 ^ 64) (hb : s.base.mgr.knots ≠ []) {pre : List (Node K G)}
    {a b : Node K G} (hq : s.corr.mgr.nodes = pre ++ [a, b]) {t : K}
    (ht : s.base.mgr.getMaxTime < t) (htc : b.time < t)
    (hmin : s.corr.mgr.getMinTime ≤ s.base.mgr.getMinTime) (hm : s.corr.pol.minMeas ≠ 1)
    (hs0 : s.corr.pol.since ≠ 0) (hs : s.corr.pol.since ≠ 2 ^ 31 - 1) (v : G) :
    evaluate L .slerp b.time s.corr.mgr = .ok b.coef ∧
    ∃ s' ks, extend L .slerp [t] [v] s = .ok (s', ks) ∧
      evaluate L .slerp b.time s'.corr.mgr =
        .ok (a.coef * L.exp (((b.time - a.time) / (t - a.time)) • L.log (a.coef⁻¹ * b.coef))) := by
  have hi := hr.inv (show s.w.calls + 1 < 2 ^ 64 by omega)
  obtain ⟨hwb, hwc⟩ := hi.wf (show s.w.calls + 1 < 2 ^ 64 by omega)
  have hqne : s.corr.mgr.knots ≠ [] := by simp [Mgr.knots, hq]
  have hbn := knots_ne_nil.1 hb
  have hab := neighbours_lt hwc.sorted (post := []) hq
  have hmaxb : s.corr.mgr.getMaxTime = b.time := by simp [Mgr.getMaxTime, hq]
  have heb : evaluate L .slerp b.time s.corr.mgr = .ok b.coef :=
    evaluate_knot L (by simp) hwc.sorted (by simp [Mgr.knots, hq])
  refine ⟨heb, ?_⟩
  obtain ⟨⟨s', ks⟩, e⟩ := C44_extend_ok L (by simp) hr hc hb hqne ht hmin hs v
  refine ⟨s', ks, e, ?_⟩
  obtain ⟨g⟩ := extend_stages e
  have hbe : s.base.mgr.isEmpty = false := by simpa [Mgr.isEmpty] using hbn
  have hqe : s.corr.mgr.isEmpty = false := by simp [Mgr.isEmpty, hq]
  have hbm : s.base.mgr.getMinTime ≤ s.base.mgr.getMaxTime := by
    obtain ⟨a, l, hl⟩ := List.exists_cons_of_ne_nil hbn
    have := min_le_node hwb.sorted (show a ∈ s.base.mgr.nodes by simp [hl])
    exact this.1.trans this.2
  have hmx : newMax s t = t := by simp [newMax, hbe, ht]
  have hmn : newMin s t = s.base.mgr.getMinTime := by
    simp only [newMin, hbe, Bool.false_eq_true, if_false]
    rw [if_neg (not_lt.2 (hbm.trans ht.le))]
  have e1 := g.e1
  simp only [growEmpty, hqe, Bool.false_eq_true, if_false, Outcome.ok.injEq] at e1
  have hsz : ¬(s.corr.mgr.isEmpty = true ∨ s.corr.mgr.size = 1) := by simp [hqe, Mgr.size, hq]
  have hcont : s.corr.mgr.contents = (pre.map (fun n => (n.time, n.key, n.coef)) ++
      [(a.time, a.key, a.coef)]) ++ [(b.time, b.key, b.coef)] := by simp [Mgr.contents, hq]
  have htall : ∀ x ∈ s.corr.mgr.contents, x.1 < t := by
    rintro ⟨x, k, u⟩ hx
    obtain ⟨n, hn, rfl, -, -⟩ := mem_contents.1 hx
    exact ((min_le_node hwc.sorted hn).2.trans_eq hmaxb).trans_lt htc
  obtain ⟨n, w', m', hn, em, hwf', -, hcont'⟩ := moveLast hwc hcont b.coef htall
  have hs1 : ¬ s.corr.pol.since + 1 = 1 := by omega
  have e2 := g.e2
  rw [← e1, hmx] at e2
  simp only [growMax, hmaxb, htc, if_true, heb, Outcome.ok_bind, Work.push, List.nil_append,
    Curve.extend, List.length_cons, List.length_nil, ne_eq, not_true_eq_false, if_false, hsz, hm, hs,
    addOrMove, if_neg hs1, hn, em, Outcome.ok.injEq] at e2
  have hx2 : g.x2.corr.mgr = m' := by rw [← e2]
  have hmem : ∀ x ∈ s.corr.mgr.nodes, x.time ≤ b.time := fun x hx =>
    ((min_le_node hwc.sorted hx).2.trans_eq hmaxb)
  have hmin' : m'.getMinTime = s.corr.mgr.getMinTime := by
    have h1 : (m'.contents.map (·.1)).head? = (s.corr.mgr.contents.map (·.1)).head? := by
      rw [hcont, hcont']; cases pre <;> simp
    simp only [Mgr.contents, List.map_map, List.head?_map] at h1
    unfold Mgr.getMinTime
    cases h2 : m'.nodes <;> cases h3 : s.corr.mgr.nodes <;> simp [h2, h3] at h1 ⊢
    exact h1
  have e3 := g.e3
  rw [growMin, hx2, hmn, hmin', if_neg (not_lt.2 hmin), Outcome.ok.injEq] at e3
  rw [g.ec, ← e3, hx2]
  simp only [Mgr.contents] at hcont'
  obtain ⟨l1, l2, hl, hp1, hp2⟩ := List.map_eq_append_iff.1 hcont'
  obtain ⟨l3, l4, rfl, hp3, hp4⟩ := List.map_eq_append_iff.1 hp1
  obtain ⟨a', r, rfl, ha', hr'⟩ := List.map_eq_cons_iff.1 hp4
  rw [List.map_eq_nil_iff] at hr'
  subst hr'
  obtain ⟨b', r, rfl, hb', hr'⟩ := List.map_eq_cons_iff.1 hp2
  rw [List.map_eq_nil_iff] at hr'
  subst hr'
  simp only [Prod.mk.injEq] at ha' hb'
  have hm' : m'.nodes = l3 ++ a' :: b' :: [] := by simp [hl]
  rw [evaluate_segment L (by simp) hwf'.sorted hm' (by rw [ha'.1]; exact hab.le)
    (by rw [hb'.1]; exact htc.le)]
  simp only [between, slerpAt, ha'.1, ha'.2.2, hb'.1, hb'.2.2]

/-- The value at 4 changes from 8 to 16/3 when `demo` is extended at 6. -/
example : eval (lineMaps ℚ) .slerp .slerp 4 demo = .ok (.ofAdd 8) ∧
    (extend (lineMaps ℚ) .slerp [6] [.ofAdd 3] demo >>= fun r =>
      eval (lineMaps ℚ) .slerp .slerp 4 r.1) = .ok (.ofAdd (16 / 3)) := by decide +kernel

/-- The same history without thinning: the value at 4 stays. -/
example : (run (lineMaps ℚ) .slerp .slerp (Comp.fresh ⟨100, 200⟩) demoOps.tail >>= fun s =>
    eval (lineMaps ℚ) .slerp .slerp 4 s) = .ok (.ofAdd 8) ∧
    (run (lineMaps ℚ) .slerp .slerp (Comp.fresh ⟨100, 200⟩) (demoOps.tail ++ [.extend [6] [.ofAdd 3]])
      >>= fun s => eval (lineMaps ℚ) .slerp .slerp 4 s) = .ok (.ofAdd 8) := by decide +kernel

end Verif.Composition

import Verif.Discrete.Distances
import Verif.Composition.Lemmas

/-!
# How fast discrete and slerp curves move, and how far they are from the motion their knots were taken from

C127.
-/

set_option linter.unusedSectionVars false
set_option linter.dupNamespace false

namespace Verif.Discrete

open Verif.Manager Verif.Policy

variable {K G V : Type} [Field K] [LinearOrder K] [IsStrictOrderedRing K] [Group G]
  [AddCommGroup V] [Module K V]

/-- Between two neighbours. -/
theorem Measured.slerp {L : ExpLog K G V} {d : G → G → K} {κ : K} (hd : Measured L d κ) {a b : Node K G} (hab : a.time < b.time)
    {s t : K} (h0 : a.time ≤ s) (hst : s ≤ t) (h1 : t ≤ b.time) :
    d (slerpAt L a b s) (slerpAt L a b t) ≤ κ * ((t - s) / (b.time - a.time) * d a.coef b.coef) := by
  have hdt : 0 < b.time - a.time := sub_pos.2 hab
  have h := hd.way (a.coef⁻¹ * b.coef) ((s - a.time) / (b.time - a.time)) ((t - a.time) / (b.time - a.time))
    (div_nonneg (sub_nonneg.2 h0) hdt.le) ((div_le_div_iff_of_pos_right hdt).2 (by linarith))
    ((div_le_one hdt).2 (by linarith))
  have e := hd.left a.coef 1 (a.coef⁻¹ * b.coef)
  rw [mul_one, mul_inv_cancel_left] at e
  rw [slerpAt, slerpAt, hd.left, e]
  refine h.trans (le_of_eq ?_)
  rw [← sub_div]
  congr 3
  ring

theorem Measured.nonneg {L : ExpLog K G V} {d : G → G → K} {κ : K} (hd : Measured L d κ) (g h : G) : 0 ≤ d g h := by
  have := hd.triangle g h g
  rw [hd.self, hd.symm h g] at this
  linarith

/-- A slerp curve passes its knots at the pace they set. -/
theorem pace_sorted {L : ExpLog K G V} {d : G → G → K} {κ : K} (hd : Measured L d κ) {m : Mgr K G} (hsort : Sorted m.nodes) {Ω : K}
    (hsteps : m.knots.IsChain fun x y => d x.2 y.2 ≤ Ω * (y.1 - x.1)) {s t : K} {p q : G} (hst : s ≤ t)
    (hp : evaluate L .slerp s m = .ok p) (hq : evaluate L .slerp t m = .ok q) : d p q ≤ κ * Ω * (t - s) := by
  rcases hst.eq_or_lt with rfl | hlt
  · rw [hp] at hq
    cases hq
    simp [hd.self]
  obtain ⟨-, hne, hs0, hs1⟩ := Composition.evaluate_dom L hsort hp
  obtain ⟨-, -, ht0, ht1⟩ := Composition.evaluate_dom L hsort hq
  have key : ∀ {u : K}, m.getMinTime ≤ u → u ≤ m.getMaxTime →
      ∃ pre a b post, m.nodes = pre ++ a :: b :: post ∧ a.time ≤ u ∧ u ≤ b.time := by
    have h2 : 2 ≤ m.size := by
      by_contra hcon
      obtain ⟨n, l, hn⟩ := List.exists_cons_of_ne_nil (knots_ne_nil.1 hne)
      obtain rfl : l = [] := by
        rw [Mgr.size, hn] at hcon
        cases l with
        | nil => rfl
        | cons x l => simp at hcon
      have e1 : m.getMinTime = n.time := by simp [Mgr.getMinTime, hn]
      have e2 : m.getMaxTime = n.time := by simp [Mgr.getMaxTime, hn]
      rw [e1] at hs0
      rw [e2] at ht1
      linarith
    intro u hu0 hu1
    obtain ⟨pre, a, b, post, hm, ha, hb, -⟩ := exists_bracket hsort h2 hu0 hu1
    exact ⟨pre, a, b, post, hm, ha, hb⟩
  -- the pace between neighbours
  have hseg : ∀ {pre post : List (Node K G)} {a b : Node K G}, m.nodes = pre ++ a :: b :: post →
      d a.coef b.coef ≤ Ω * (b.time - a.time) := by
    intro pre post a b hm
    have := hsteps
    simp only [Mgr.knots, hm, List.map_append, List.map_cons] at this
    rw [List.isChain_append_cons_cons] at this
    exact this.2.1
  have hin : ∀ {pre post : List (Node K G)} {a b : Node K G} {u v : K}, m.nodes = pre ++ a :: b :: post →
      a.time ≤ u → u ≤ v → v ≤ b.time → d (slerpAt L a b u) (slerpAt L a b v) ≤ κ * Ω * (v - u) := by
    intro pre post a b u v hm h0 h1 h2
    have hab := neighbours_lt hsort hm
    have hdt : 0 < b.time - a.time := sub_pos.2 hab
    refine (hd.slerp hab h0 h1 h2).trans ?_
    have := mul_le_mul_of_nonneg_left (hseg hm) (div_nonneg (sub_nonneg.2 h1) hdt.le)
    refine (mul_le_mul_of_nonneg_left this (zero_le_one.trans hd.one_le)).trans (le_of_eq ?_)
    field_simp
  have hknots : ∀ (i j : ℕ) (hi : i < m.nodes.length) (hj : j < m.nodes.length), i ≤ j →
      d m.nodes[i].coef m.nodes[j].coef ≤ Ω * (m.nodes[j].time - m.nodes[i].time) := by
    intro i j hi hj hij
    induction j with
    | zero =>
      obtain rfl : i = 0 := by omega
      simp [hd.self]
    | succ j ih =>
      rcases hij.eq_or_lt with rfl | hlt
      · simp [hd.self]
      · have h1 := ih (by omega) (by omega)
        have h2 := List.isChain_iff_getElem.1 hsteps j (by simp [Mgr.knots]; omega)
        simp only [Mgr.knots, List.getElem_map] at h2
        have h3 := hd.triangle m.nodes[i].coef m.nodes[j].coef m.nodes[j + 1].coef
        linarith
  have mono : ∀ i j (hi : i < m.nodes.length) (hj : j < m.nodes.length), i ≤ j → m.nodes[i].time ≤ m.nodes[j].time := by
    intro i j hi hj hij
    rcases hij.eq_or_lt with rfl | hlt
    · exact le_rfl
    · exact (List.pairwise_iff_getElem.1 hsort i j hi hj hlt).le
  obtain ⟨pre, a, b, post, hm, h1, h2⟩ := key hs0 hs1
  obtain ⟨pre', a', b', post', hm', h1', h2'⟩ := key ht0 ht1
  rw [evaluate_segment L (by simp) hsort hm h1 h2] at hp
  rw [evaluate_segment L (by simp) hsort hm' h1' h2'] at hq
  simp only [between, Outcome.ok.injEq] at hp hq
  subst hp hq
  have ia : ∀ (hi : pre.length < m.nodes.length), m.nodes[pre.length] = a := by intro hi; simp [hm]
  have ib : ∀ (hi : pre.length + 1 < m.nodes.length), m.nodes[pre.length + 1] = b := by intro hi; simp [hm]
  have ia' : ∀ (hi : pre'.length < m.nodes.length), m.nodes[pre'.length] = a' := by intro hi; simp [hm']
  have ib' : ∀ (hi : pre'.length + 1 < m.nodes.length), m.nodes[pre'.length + 1] = b' := by intro hi; simp [hm']
  have lp : pre.length + 1 < m.nodes.length := by simp [hm]
  have lp' : pre'.length + 1 < m.nodes.length := by simp [hm']
  rcases lt_trichotomy pre.length pre'.length with hl | hl | hl
  · have k := hknots (pre.length + 1) pre'.length lp (by omega) (by omega)
    rw [ib, ia'] at k
    have k1 := hin hm h1 h2 le_rfl
    have k2 := hin hm' le_rfl h1' h2'
    rw [slerpAt_right L (neighbours_lt hsort hm)] at k1
    rw [slerpAt_left] at k2
    have t1 := hd.triangle (slerpAt L a b s) b.coef (slerpAt L a' b' t)
    have t2 := hd.triangle b.coef a'.coef (slerpAt L a' b' t)
    have k3 := mul_le_mul_of_nonneg_right hd.one_le ((hd.nonneg _ _).trans k)
    nlinarith
  · have ea : a = a' := by rw [← ia (by omega), ← ia' (by omega)]; simp only [hl]
    have eb : b = b' := by rw [← ib lp, ← ib' lp']; simp only [hl]
    subst ea eb
    exact hin hm h1 hst h2'
  · exfalso
    have k := mono (pre'.length + 1) pre.length lp' (by omega) (by omega)
    rw [ib', ia] at k
    linarith

/-- C127, pace. If neighbouring knots of a slerp curve differ by at most `Ω` times the time between them, then any two
values of the curve differ by at most `κ Ω` times the time between them. -/
theorem C127_pace {L : ExpLog K G V} {d : G → G → K} {κ : K} (hd : Measured L d κ) {c : St K G} (hr : Reachable L .slerp c)
    (hc : c.w.calls + 1 < 2 ^ 64) {Ω : K} (hsteps : c.c.knots.IsChain fun x y => d x.2 y.2 ≤ Ω * (y.1 - x.1))
    {s t : K} {p q : G} (hst : s ≤ t) (hp : evaluate L .slerp s c.c.mgr = .ok p)
    (hq : evaluate L .slerp t c.c.mgr = .ok q) : d p q ≤ κ * Ω * (t - s) :=
  pace_sorted hd (hr.WF hc).sorted (by simpa only [curve_knots] using hsteps) hst hp hq

/-- The two knots around a time, and where they and the motion are. -/
theorem around {L : ExpLog K G V} {d : G → G → K} {κ : K} (hd : Measured L d κ) {m : Mgr K G} (hs : Sorted m.nodes)
    (hne : m.knots ≠ []) {Ω h ε : K} {R : K → G}
    (hR : ∀ s t, m.getMinTime ≤ s → s ≤ t → t ≤ m.getMaxTime → d (R s) (R t) ≤ Ω * (t - s))
    (hk : ∀ x v, (x, v) ∈ m.knots → d (R x) v ≤ ε) (hgap : m.knots.IsChain fun x y => y.1 - x.1 ≤ h)
    {t : K} (h0 : m.getMinTime ≤ t) (h1 : t ≤ m.getMaxTime) :
    (∃ v, (t, v) ∈ m.knots ∧ d v (R t) ≤ ε) ∨ ∃ pre a b post, m.nodes = pre ++ a :: b :: post ∧ a.time < t ∧ t < b.time ∧
      b.time - a.time ≤ h ∧ d a.coef (R t) ≤ ε + Ω * (t - a.time) ∧ d b.coef (R t) ≤ ε + Ω * (b.time - t) ∧
      d a.coef b.coef ≤ 2 * ε + Ω * (b.time - a.time) := by
  rcases inside_cases hs hne h0 h1 with ⟨v, hv⟩ | ⟨pre, a, b, post, hm, ha, hb⟩
  · exact .inl ⟨v, hv, by rw [hd.symm]; exact hk t v hv⟩
  · right
    have na := min_le_node hs (n := a) (by simp [hm])
    have nb := min_le_node hs (n := b) (by simp [hm])
    have ka := hk _ _ (mem_knots_of_node (m := m) (n := a) (by simp [hm]))
    have kb := hk _ _ (mem_knots_of_node (m := m) (n := b) (by simp [hm]))
    have hg := hgap
    simp only [Mgr.knots, hm, List.map_append, List.map_cons] at hg
    rw [List.isChain_append_cons_cons] at hg
    have r1 := hR a.time t na.1 ha.le h1
    have r2 := hR t b.time h0 hb.le nb.2
    have r3 := hR a.time b.time na.1 (ha.trans hb).le nb.2
    refine ⟨pre, a, b, post, hm, ha, hb, hg.2.1, ?_, ?_, ?_⟩
    · have := hd.triangle a.coef (R a.time) (R t)
      rw [hd.symm a.coef (R a.time)] at this
      linarith
    · have := hd.triangle (R t) (R b.time) b.coef
      rw [hd.symm _ (R t)]
      linarith
    · have t1 := hd.triangle a.coef (R a.time) b.coef
      have t2 := hd.triangle (R a.time) (R b.time) b.coef
      rw [hd.symm a.coef (R a.time)] at t1
      linarith

theorem discrete_sorted {L : ExpLog K G V} {d : G → G → K} {κ : K} (hd : Measured L d κ) {m : Mgr K G} (hs : Sorted m.nodes)
    {Ω h ε : K} (hΩ : 0 ≤ Ω) (hh : 0 ≤ h) {R : K → G}
    (hR : ∀ s t, m.getMinTime ≤ s → s ≤ t → t ≤ m.getMaxTime → d (R s) (R t) ≤ Ω * (t - s))
    (hk : ∀ x v, (x, v) ∈ m.knots → d (R x) v ≤ ε) (hgap : m.knots.IsChain fun x y => y.1 - x.1 ≤ h)
    (hne : m.knots ≠ []) {t : K} (h0 : m.getMinTime ≤ t) (h1 : t ≤ m.getMaxTime) :
    ∃ p, evaluate L .discrete t m = .ok p ∧ d p (R t) ≤ ε + Ω * h / 2 := by
  have hΩh := mul_nonneg hΩ hh
  rcases around hd hs hne hR hk hgap h0 h1 with ⟨v, hv, e⟩ | ⟨pre, a, b, post, hm, ha, hb, hg, da, db, -⟩
  · exact ⟨v, evaluate_knot L (by simp) hs hv, by linarith⟩
  · refine ⟨_, evaluate_segment L (by simp) hs hm ha.le hb.le, ?_⟩
    simp only [between, nearer]
    split
    · next hcase => nlinarith
    · next hcase => nlinarith

theorem slerp_sorted {L : ExpLog K G V} {d : G → G → K} {κ : K} (hd : Measured L d κ) {m : Mgr K G} (hs : Sorted m.nodes)
    {Ω h ε : K} (hΩ : 0 ≤ Ω) (hh : 0 ≤ h) {R : K → G}
    (hR : ∀ s t, m.getMinTime ≤ s → s ≤ t → t ≤ m.getMaxTime → d (R s) (R t) ≤ Ω * (t - s))
    (hk : ∀ x v, (x, v) ∈ m.knots → d (R x) v ≤ ε) (hgap : m.knots.IsChain fun x y => y.1 - x.1 ≤ h)
    (hne : m.knots ≠ []) {t : K} (h0 : m.getMinTime ≤ t) (h1 : t ≤ m.getMaxTime) :
    ∃ p, evaluate L .slerp t m = .ok p ∧ d p (R t) ≤ (1 + κ) * (ε + Ω * h / 2) := by
  have hΩh := mul_nonneg hΩ hh
  rcases around hd hs hne hR hk hgap h0 h1 with ⟨v, hv, e⟩ | ⟨pre, a, b, post, hm, ha, hb, hg, da, db, dab⟩
  · refine ⟨v, evaluate_knot L (by simp) hs hv, ?_⟩
    have := hd.nonneg v (R t)
    have := hd.one_le
    nlinarith
  · refine ⟨_, evaluate_segment L (by simp) hs hm ha.le hb.le, ?_⟩
    simp only [between]
    have hdt : 0 < b.time - a.time := sub_pos.2 (ha.trans hb)
    have hdab := hd.nonneg a.coef b.coef
    have hκ := zero_le_one.trans hd.one_le
    have hhalf : d a.coef b.coef / 2 ≤ ε + Ω * h / 2 := by nlinarith
    rcases le_total (t - a.time) (b.time - t) with hcase | hcase
    · have k := hd.slerp (L := L) (ha.trans hb) le_rfl ha.le hb.le
      rw [slerpAt_left, hd.symm] at k
      have hx : (t - a.time) / (b.time - a.time) ≤ 1 / 2 := by
        rw [div_le_div_iff₀ hdt two_pos]; linarith
      have hm1 := mul_le_mul_of_nonneg_left ((show (t - a.time) / (b.time - a.time) * d a.coef b.coef ≤ d a.coef b.coef / 2 by
        nlinarith).trans hhalf) hκ
      have := hd.triangle (slerpAt L a b t) a.coef (R t)
      nlinarith
    · have k := hd.slerp (L := L) (ha.trans hb) ha.le hb.le le_rfl
      rw [slerpAt_right L (ha.trans hb)] at k
      have hx : (b.time - t) / (b.time - a.time) ≤ 1 / 2 := by
        rw [div_le_div_iff₀ hdt two_pos]; linarith
      have hm1 := mul_le_mul_of_nonneg_left ((show (b.time - t) / (b.time - a.time) * d a.coef b.coef ≤ d a.coef b.coef / 2 by
        nlinarith).trans hhalf) hκ
      have := hd.triangle (slerpAt L a b t) b.coef (R t)
      nlinarith

/-- C127, the nearest knot. If the knots of a discrete curve are, to within `ε`, at most `h` apart samples of a motion `R`
that goes no faster than `Ω`, then the curve is nowhere further from the motion than `ε + Ω h / 2`. -/
theorem C127_discrete {L : ExpLog K G V} {d : G → G → K} {κ : K} (hd : Measured L d κ) {c : St K G} (hr : Reachable L .discrete c)
    (hc : c.w.calls + 1 < 2 ^ 64) {Ω h ε : K} (hΩ : 0 ≤ Ω) (hh : 0 ≤ h) {R : K → G}
    (hR : ∀ s t, c.c.mgr.getMinTime ≤ s → s ≤ t → t ≤ c.c.mgr.getMaxTime → d (R s) (R t) ≤ Ω * (t - s))
    (hk : ∀ x v, (x, v) ∈ c.c.knots → d (R x) v ≤ ε) (hgap : c.c.knots.IsChain fun x y => y.1 - x.1 ≤ h)
    (hne : c.c.knots ≠ []) {t : K} (h0 : c.c.mgr.getMinTime ≤ t) (h1 : t ≤ c.c.mgr.getMaxTime) :
    ∃ p, evaluate L .discrete t c.c.mgr = .ok p ∧ d p (R t) ≤ ε + Ω * h / 2 := by
  simp only [curve_knots] at *
  exact discrete_sorted hd (hr.WF hc).sorted hΩ hh hR hk hgap hne h0 h1

/-- C127, slerp. If the knots of a slerp curve are, to within `ε`, at most `h` apart samples of a motion `R` that goes no
faster than `Ω`, then the curve is nowhere further from the motion than `(1 + κ) (ε + Ω h / 2)`. -/
theorem C127_slerp {L : ExpLog K G V} {d : G → G → K} {κ : K} (hd : Measured L d κ) {c : St K G} (hr : Reachable L .slerp c)
    (hc : c.w.calls + 1 < 2 ^ 64) {Ω h ε : K} (hΩ : 0 ≤ Ω) (hh : 0 ≤ h) {R : K → G}
    (hR : ∀ s t, c.c.mgr.getMinTime ≤ s → s ≤ t → t ≤ c.c.mgr.getMaxTime → d (R s) (R t) ≤ Ω * (t - s))
    (hk : ∀ x v, (x, v) ∈ c.c.knots → d (R x) v ≤ ε) (hgap : c.c.knots.IsChain fun x y => y.1 - x.1 ≤ h)
    (hne : c.c.knots ≠ []) {t : K} (h0 : c.c.mgr.getMinTime ≤ t) (h1 : t ≤ c.c.mgr.getMaxTime) :
    ∃ p, evaluate L .slerp t c.c.mgr = .ok p ∧ d p (R t) ≤ (1 + κ) * (ε + Ω * h / 2) := by
  simp only [curve_knots] at *
  exact slerp_sorted hd (hr.WF hc).sorted hΩ hh hR hk hgap hne h0 h1

/-- C127, fitting. Let `fitCurve` be given samples `vs` at increasing times `ts`, at most `h` apart, that are within `ε` of
a motion `R` that goes no faster than `Ω`. The discrete curve with these knots is nowhere further from the motion than
`ε + Ω h / 2`, and the slerp curve nowhere further than `(1 + κ) (ε + Ω h / 2)`. -/
theorem C127_fit {L : ExpLog K G V} {d : G → G → K} {κ : K} (hd : Measured L d κ) {ts : List K} {vs : List G}
    (hl : ts.length = vs.length) (hpos : 0 < ts.length) (hinc : ts.Pairwise (· < ·)) {Ω h ε : K} (hΩ : 0 ≤ Ω) (hh : 0 ≤ h)
    {R : K → G} (hR : ∀ s t, ts[0] ≤ s → s ≤ t → t ≤ ts[ts.length - 1] → d (R s) (R t) ≤ Ω * (t - s))
    (hv : ∀ (i : ℕ) (hi : i < ts.length), d (R ts[i]) vs[i] ≤ ε)
    (hgap : ∀ (i : ℕ) (hi : i + 1 < ts.length), ts[i + 1] - ts[i] ≤ h) (w : World) (c : Curve K G) :
    ∃ w' c' ks, c.fitCurve w ts vs = .ok (w', c', ks) ∧ ∀ t, ts[0] ≤ t → t ≤ ts[ts.length - 1] →
      (∃ p, evaluate L .discrete t c'.mgr = .ok p ∧ d p (R t) ≤ ε + Ω * h / 2) ∧
      ∃ p, evaluate L .slerp t c'.mgr = .ok p ∧ d p (R t) ≤ (1 + κ) * (ε + Ω * h / 2) := by
  obtain ⟨w', m', ks, e, hs, hk, -⟩ := fill_empty w hl hinc
  refine ⟨w', { c with mgr := m' }, ks, ?_, fun t h0 h1 => ?_⟩
  · have e' : c.clear.mgr.insertCoefficients w ts vs = .ok (w', m', ks) := e
    simp only [Curve.fitCurve, hl, ne_eq, not_true_eq_false, if_false, hl ▸ hpos, if_true, e']
    rfl
  · have hne : m'.knots ≠ [] := by
      intro he
      rw [hk] at he
      have := congrArg List.length he
      simp only [List.length_zip, List.length_nil] at this
      omega
    have hts : m'.knots.map Prod.fst = ts := by rw [hk, List.map_fst_zip hl.le]
    have hmin : m'.getMinTime = ts[0] := by
      subst hts
      obtain ⟨n, l, hn⟩ := List.exists_cons_of_ne_nil (knots_ne_nil.1 hne)
      simp [Mgr.getMinTime, Mgr.knots, hn]
    have hmax : m'.getMaxTime = ts[ts.length - 1] := by
      subst hts
      obtain ⟨l, n, hn⟩ := List.eq_nil_or_concat' m'.nodes |>.resolve_left (knots_ne_nil.1 hne)
      simp [Mgr.getMaxTime, Mgr.knots, hn]
    have hkn : ∀ x v, (x, v) ∈ m'.knots → d (R x) v ≤ ε := by
      intro x v hx
      rw [hk] at hx
      obtain ⟨i, hi, ei⟩ := List.mem_iff_getElem.1 hx
      simp only [List.length_zip, lt_inf_iff] at hi
      simp only [List.getElem_zip, Prod.mk.injEq] at ei
      rw [← ei.1, ← ei.2]
      exact hv i hi.1
    have hg : m'.knots.IsChain fun x y => y.1 - x.1 ≤ h := by
      rw [hk, List.isChain_iff_getElem]
      intro i hi
      simp only [List.length_zip, lt_inf_iff] at hi
      simp only [List.getElem_zip]
      exact hgap i hi.1
    rw [← hmin] at h0 hR
    rw [← hmax] at h1 hR
    exact ⟨discrete_sorted hd hs hΩ hh hR hkn hg hne h0 h1, slerp_sorted hd hs hΩ hh hR hkn hg hne h0 h1⟩

/-! ## Examples -/

example := C127_pace line_measured (demo_reachable .slerp) demo_calls (Ω := 2) (by decide +kernel) (s := 1 / 2) (t := 5)
  (p := .ofAdd 2) (q := .ofAdd 6) (by norm_num) (by decide +kernel) (by decide +kernel)

/-- The knots of `demo` are within three of a walk at unit speed. -/
theorem demo_walk (x : ℚ) (v : Multiplicative ℚ) (h : (x, v) ∈ demo.c.knots) :
    |v.toAdd - (Multiplicative.ofAdd (2 + x)).toAdd| ≤ 3 := by
  simp [demo, Curve.knots, Mgr.contents] at h
  rcases h with ⟨rfl, rfl⟩ | ⟨rfl, rfl⟩ | ⟨rfl, rfl⟩ | ⟨rfl, rfl⟩ <;> norm_num [abs_le]

theorem walk_speed (s t : ℚ) (h : s ≤ t) :
    |(Multiplicative.ofAdd (2 + t)).toAdd - (Multiplicative.ofAdd (2 + s)).toAdd| ≤ 1 * (t - s) := by
  simp only [toAdd_ofAdd, add_sub_add_left_eq_sub, one_mul]
  rw [abs_of_nonneg (by linarith)]

example := C127_discrete line_measured (demo_reachable .discrete) demo_calls (Ω := 1) (h := 3) (ε := 3) (by norm_num)
  (by norm_num) (R := fun t => .ofAdd (2 + t)) (fun s t _ h _ => walk_speed s t h) demo_walk (by decide +kernel) (by decide)
  (t := 5 / 2) (by decide +kernel) (by decide +kernel)

example := C127_slerp line_measured (demo_reachable .slerp) demo_calls (Ω := 1) (h := 3) (ε := 3) (by norm_num)
  (by norm_num) (R := fun t => .ofAdd (2 + t)) (fun s t _ h _ => walk_speed s t h) demo_walk (by decide +kernel) (by decide)
  (t := 5 / 2) (by decide +kernel) (by decide +kernel)

/-- A body that tumbles and moves about in space, sampled ten times a second: how far a fitted slerp curve is from it,
in attitude and in position. -/
example (w : World) (c : Curve ℝ Pose3) {R : ℝ → Pose3} {ω v : ℝ} (hω : 0 ≤ ω) (hv : 0 ≤ v)
    (hrot : ∀ s t, s ≤ t → SO3.angle (R s).rot (R t).rot ≤ ω * (t - s))
    (hpos : ∀ s t, s ≤ t → Kindr.vecNorm ((R t).pos - (R s).pos) ≤ v * (t - s)) (n : ℕ) :
    ∃ w' c' ks, c.fitCurve w ((List.range (n + 1)).map fun i : ℕ => (i / 10 : ℝ))
        ((List.range (n + 1)).map fun i : ℕ => R (i / 10)) = .ok (w', c', ks) ∧
      ∀ t : ℝ, 0 ≤ t → t ≤ n / 10 → ∃ p, evaluate pose3Maps .slerp t c'.mgr = .ok p ∧
        SO3.angle p.rot (R t).rot ≤ ω / 10 ∧ Kindr.vecNorm ((R t).pos - p.pos) ≤ v / 10 := by
  have hinc : ((List.range (n + 1)).map fun i : ℕ => (i / 10 : ℝ)).Pairwise (· < ·) := by
    rw [List.pairwise_map]
    refine List.pairwise_lt_range.imp ?_
    intro a b hab
    have : (a : ℝ) < b := by exact_mod_cast hab
    linarith
  have hgap : ∀ (i : ℕ) (hi : i + 1 < ((List.range (n + 1)).map fun i : ℕ => (i / 10 : ℝ)).length),
      ((List.range (n + 1)).map fun i : ℕ => (i / 10 : ℝ))[i + 1] -
        ((List.range (n + 1)).map fun i : ℕ => (i / 10 : ℝ))[i] ≤ 1 / 10 := by
    intro i hi
    simp only [List.getElem_map, List.getElem_range]
    push_cast
    linarith
  obtain ⟨w', c', ks, e, h1⟩ := C127_fit pose3_measured_angle (ts := (List.range (n + 1)).map fun i : ℕ => (i / 10 : ℝ))
    (vs := (List.range (n + 1)).map fun i : ℕ => R (i / 10)) (by simp) (by simp) hinc hω (h := 1 / 10) (ε := 0) (by norm_num)
    (R := R) (fun s t _ h _ => hrot s t h) (by
      intro i hi
      simp only [List.getElem_map, List.getElem_range]
      exact (SO3.angle_self _).le) hgap w c
  obtain ⟨w2, c2, ks2, e2, h2⟩ := C127_fit pose3_measured_dist (ts := (List.range (n + 1)).map fun i : ℕ => (i / 10 : ℝ))
    (vs := (List.range (n + 1)).map fun i : ℕ => R (i / 10)) (by simp) (by simp) hinc hv (h := 1 / 10) (ε := 0) (by norm_num)
    (R := R) (fun s t _ h _ => hpos s t h) (by
      intro i hi
      simp [Kindr.vecNorm]) hgap w c
  rw [e] at e2
  cases e2
  refine ⟨w', c', ks, e, fun t h0 hn => ?_⟩
  obtain ⟨-, p, hp, hb⟩ := h1 t (by simpa using h0) (by simpa using hn)
  obtain ⟨-, q, hq, hb'⟩ := h2 t (by simpa using h0) (by simpa using hn)
  rw [hp] at hq
  cases hq
  exact ⟨p, hp, by linarith, by linarith⟩

end Verif.Discrete

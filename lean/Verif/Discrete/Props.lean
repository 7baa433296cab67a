import Verif.Discrete.Lemmas
import Verif.Discrete.SE2
import Verif.Manager.Props

/-!
# Properties of the discrete, semi-discrete and slerp curves (C42, C43, C50 and C51-C56)

`hc : s.w.calls + 1 < 2 ^ 64` says that the process-wide key counter has not wrapped around.
-/

set_option linter.unusedSectionVars false
set_option linter.dupNamespace false

namespace Verif.Discrete

open Verif.Manager Verif.Policy

variable {K G V : Type} [Field K] [LinearOrder K] [IsStrictOrderedRing K] [Group G]
  [AddCommGroup V] [Module K V]

/-- A history used in the examples: a fit, a replaced value, an appended knot. -/
def demoOps : List (Op ℚ (Multiplicative ℚ)) :=
  [.fit [4, 0, 1] [.ofAdd 7, .ofAdd 1, .ofAdd 2], .set [1] [.ofAdd 3], .extend [6] [.ofAdd 5]]

/-- The curve reached by `demoOps`. -/
def demo : St ℚ (Multiplicative ℚ) :=
  ⟨⟨104, 204⟩, ⟨⟨[⟨201, 0, 102, .ofAdd 1⟩, ⟨202, 1, 103, .ofAdd 3⟩, ⟨200, 4, 101, .ofAdd 7⟩,
    ⟨203, 6, 104, .ofAdd 5⟩], [(104, 203), (101, 200), (102, 201), (103, 202)]⟩, ⟨0, 1⟩⟩⟩

theorem demo_reachable (kind : Kind) : Reachable (lineMaps ℚ) kind demo :=
  ⟨⟨100, 200⟩, demoOps, ⟨trivial, fun _ _ => ⟨trivial, fun s' e => ⟨Or.inl (by
    rename_i s h1
    cases h1
    cases e
    rfl), fun _ _ => trivial⟩⟩⟩, rfl⟩

theorem demo_calls : demo.w.calls + 1 < 2 ^ 64 := by decide

/-! ## C42 -/

theorem curve_knots (c : Curve K G) : c.knots = c.mgr.knots := (knots_eq_contents c.mgr).symm

/-- A discrete curve returns the value of the nearest knot. -/
theorem nearest_sorted (L : ExpLog K G V) {m : Mgr K G} (hs : Sorted m.nodes) {t : K} (hne : m.knots ≠ [])
    (h0 : m.getMinTime ≤ t) (h1 : t ≤ m.getMaxTime) :
    ∃ t0 v0, (t0, v0) ∈ m.knots ∧ evaluate L .discrete t m = .ok v0 ∧
      ∀ t1 v1, (t1, v1) ∈ m.knots → |t0 - t| < |t1 - t| ∨ (|t0 - t| = |t1 - t| ∧ t0 ≤ t1) := by
  rcases Nat.lt_or_ge m.size 2 with hsz | hsz
  · cases hn : m.nodes with
    | nil => exact absurd hn (knots_ne_nil.1 hne)
    | cons a l =>
      cases l with
      | cons b l => simp [Mgr.size, hn] at hsz
      | nil =>
        have e1 : m.getMinTime = a.time := by simp [Mgr.getMinTime, hn]
        have e2 : m.getMaxTime = a.time := by simp [Mgr.getMaxTime, hn]
        have : t = a.time := le_antisymm (e2 ▸ h1) (e1 ▸ h0)
        have hk : m.knots = [(a.time, a.coef)] := by simp [Mgr.knots, hn]
        refine ⟨a.time, a.coef, by simp [hk], ?_, ?_⟩
        · rw [this]; exact evaluate_knot L (by simp) hs (by simp [hk])
        · intro t1 v1 h
          rw [hk, List.mem_singleton] at h
          cases h
          exact Or.inr ⟨rfl, le_rfl⟩
  · obtain ⟨pre, a, b, post, hm, ha, hb, -⟩ := exists_bracket hs hsz h0 h1
    have hlt := neighbours_lt hs hm
    have hall : ∀ n ∈ m.nodes, n.time ≤ a.time ∧ (n.time = a.time → n = a) ∨ b.time ≤ n.time := by
      intro n hn
      have hs' := hs
      rw [hm, Sorted, List.pairwise_append, List.pairwise_cons, List.pairwise_cons] at hs'
      rw [hm, List.mem_append, List.mem_cons, List.mem_cons] at hn
      rcases hn with hn | rfl | rfl | hn
      · have := hs'.2.2 n hn a (by simp)
        exact Or.inl ⟨this.le, fun e => absurd e this.ne⟩
      · exact Or.inl ⟨le_rfl, fun _ => rfl⟩
      · exact Or.inr le_rfl
      · exact Or.inr (hs'.2.1.2.1 n hn).le
    rw [evaluate_segment L (by simp) hs hm ha hb]
    simp only [between, nearer]
    have hka : (a.time, a.coef) ∈ m.knots := List.mem_map.2 ⟨a, by simp [hm], rfl⟩
    have hkb : (b.time, b.coef) ∈ m.knots := List.mem_map.2 ⟨b, by simp [hm], rfl⟩
    have ea : |a.time - t| = t - a.time := by rw [abs_sub_comm]; exact abs_of_nonneg (by linarith)
    have eb : |b.time - t| = b.time - t := abs_of_nonneg (by linarith)
    split
    · rename_i hcl
      refine ⟨a.time, a.coef, hka, rfl, fun t1 v1 h => ?_⟩
      obtain ⟨n, hn, e⟩ := List.mem_map.1 h
      cases e
      rw [ea]
      rcases hall n hn with ⟨h2, h3⟩ | h2
      · rcases h2.lt_or_eq with h2 | h2
        · left; rw [abs_sub_comm, abs_of_nonneg (by linarith)]; linarith
        · right; rw [h3 h2, ea]; exact ⟨rfl, le_rfl⟩
      · rw [abs_of_nonneg (show 0 ≤ n.time - t by linarith)]
        rcases (show t - a.time ≤ n.time - t by linarith).lt_or_eq with h | h
        · exact Or.inl h
        · exact Or.inr ⟨h, by linarith⟩
    · rename_i hcl
      have hcl := lt_of_not_ge hcl
      refine ⟨b.time, b.coef, hkb, rfl, fun t1 v1 h => ?_⟩
      obtain ⟨n, hn, e⟩ := List.mem_map.1 h
      cases e
      rw [eb]
      rcases hall n hn with ⟨h2, h3⟩ | h2
      · left; rw [abs_sub_comm, abs_of_nonneg (by linarith)]; linarith
      · rw [abs_of_nonneg (show 0 ≤ n.time - t by linarith)]
        rcases (show b.time - t ≤ n.time - t by linarith).lt_or_eq with h | h
        · exact Or.inl h
        · exact Or.inr ⟨h, h2⟩

/-- C42. Between its first and last knot times a discrete curve returns the value of a knot nearest in
time to `t`, the earliest one if there are several. -/
theorem C42_nearest (L : ExpLog K G V) {s : St K G} (hr : Reachable L .discrete s)
    (hc : s.w.calls + 1 < 2 ^ 64) {t : K} (hne : s.c.knots ≠ [])
    (h0 : s.c.mgr.getMinTime ≤ t) (h1 : t ≤ s.c.mgr.getMaxTime) :
    ∃ t0 v0, (t0, v0) ∈ s.c.knots ∧ evaluate L .discrete t s.c.mgr = .ok v0 ∧
      ∀ t1 v1, (t1, v1) ∈ s.c.knots → |t0 - t| < |t1 - t| ∨ (|t0 - t| = |t1 - t| ∧ t0 ≤ t1) := by
  rw [curve_knots] at *
  exact nearest_sorted L (hr.WF hc).sorted hne h0 h1

/-- C42, outside. Before the first and after the last knot, and at any time other than zero on an empty
curve, evaluation aborts; on an empty curve at time zero it is undefined behaviour. -/
theorem C42_outside (L : ExpLog K G V) {kind : Kind} {s : St K G} (hr : Reachable L kind s)
    (hc : s.w.calls + 1 < 2 ^ 64) (t : K) :
    (s.c.knots ≠ [] → t < s.c.mgr.getMinTime ∨ s.c.mgr.getMaxTime < t →
      evaluate L kind t s.c.mgr = .abort) ∧
    (s.c.knots = [] → t ≠ 0 → evaluate L kind t s.c.mgr = .abort) ∧
    (s.c.knots = [] → t = 0 → kind ≠ .slerpSE3 → evaluate L kind t s.c.mgr = .ub) := by
  have hs := (hr.WF hc).sorted
  rw [curve_knots]
  refine ⟨fun h h' => evaluate_outside L hs (Or.inl h) (Or.inr h'),
    fun h h' => evaluate_outside L hs (Or.inr h') (Or.inl h), ?_⟩
  rintro h rfl hk
  rw [evaluate_eq L hk hs, evalWith_empty h]
  rfl

/-- Knots at 0, 1, 4, 6. Exactly half way between two knots the earlier one counts. -/
example : evaluate (lineMaps ℚ) .discrete 1 demo.c.mgr = .ok (.ofAdd 3) ∧
    evaluate (lineMaps ℚ) .discrete 2 demo.c.mgr = .ok (.ofAdd 3) ∧
    evaluate (lineMaps ℚ) .discrete (5 / 2) demo.c.mgr = .ok (.ofAdd 3) ∧
    evaluate (lineMaps ℚ) .discrete 3 demo.c.mgr = .ok (.ofAdd 7) ∧
    evaluate (lineMaps ℚ) .discrete 6 demo.c.mgr = .ok (.ofAdd 5) ∧
    evaluate (lineMaps ℚ) .discrete 7 demo.c.mgr = .abort := by decide +kernel

example := C42_nearest (lineMaps ℚ) (demo_reachable .discrete) demo_calls (t := 5 / 2)
  (by decide) (by decide +kernel) (by decide +kernel)

/-! ## C43 -/

/-- C43, knots. Semi-discrete and slerp curves (and discrete ones) return the knot's value at a knot. -/
theorem C43_knot (L : ExpLog K G V) {kind : Kind} (hk : kind ≠ .slerpSE3) {s : St K G}
    (hr : Reachable L kind s) (hc : s.w.calls + 1 < 2 ^ 64) {t : K} {v : G}
    (h : (t, v) ∈ s.c.knots) : evaluate L kind t s.c.mgr = .ok v := by
  rw [curve_knots] at h
  exact evaluate_knot L hk (hr.WF hc).sorted h

/-- C43, between. Between two neighbouring knots `(ta, A)` and `(tb, B)` a semi-discrete or slerp curve
returns `A * exp (alpha * log (A⁻¹ * B))` with `alpha` the fraction of the time elapsed. -/
theorem C43_between (L : ExpLog K G V) {s : St K G} (hr : Reachable L .slerp s)
    (hc : s.w.calls + 1 < 2 ^ 64) {ta tb : K} {A B : G} (ha : (ta, A) ∈ s.c.knots)
    (hb : (tb, B) ∈ s.c.knots) (hab : ta < tb)
    (hno : ∀ x v, (x, v) ∈ s.c.knots → ¬(ta < x ∧ x < tb)) {t : K} (h0 : ta ≤ t) (h1 : t ≤ tb) :
    evaluate L .slerp t s.c.mgr =
      .ok (A * L.exp (((t - ta) / (tb - ta)) • L.log (A⁻¹ * B))) := by
  simp only [curve_knots] at *
  have hs := (hr.WF hc).sorted
  obtain ⟨pre, a, b, post, hm, rfl, rfl, rfl, rfl⟩ := exists_segment hs ha hb hab hno
  exact evaluate_segment L (by simp) hs hm h0 h1

/-- C43, transformation. `transformCurve(X)` returns normally, keeps every time and every key, multiplies
every knot by `X` from the left, leaves the sampling policy alone and draws no key; evaluating
afterwards gives `X` times what evaluating gave before, at every time (and fails exactly where it
failed before). -/
theorem C43_transform (L : ExpLog K G V) {kind : Kind} (hk : kind ≠ .slerpSE3) {s : St K G}
    (hr : Reachable L kind s) (hc : s.w.calls + 1 < 2 ^ 64) (X : G) :
    ∃ c', transformCurve L kind X s.w s.c = .ok (s.w, c') ∧ c'.pol = s.c.pol ∧
      (∀ o, c'.mgr.getTimes o = s.c.mgr.getTimes o) ∧ (∀ o, c'.mgr.getKeys o = s.c.mgr.getKeys o) ∧
      c'.mgr.contents = s.c.mgr.contents.map (fun x => (x.1, x.2.1, X * x.2.2)) ∧
      (∀ x k v, (x, k, v) ∈ s.c.mgr.contents → c'.mgr.getCoefficientByKey k = .ok (X * v) ∧
        c'.mgr.getCoefficientTimeByKey k = .ok x) ∧
      ∀ t, evaluate L kind t c'.mgr = (evaluate L kind t s.c.mgr >>= fun v => .ok (X * v)) := by
  have hwf := hr.WF hc
  obtain ⟨c', e, hwf', hp, hcont⟩ := transform_spec L hk X hwf hc
  have hkn : c'.mgr.knots = s.c.mgr.knots.map fun p => (p.1, X * p.2) := by
    rw [knots_eq_contents, knots_eq_contents, hcont]
    simp [Function.comp_def]
  refine ⟨c', e, hp, fun o => ?_, fun o => ?_, hcont, ?_, evaluate_mul L hk hwf.sorted X hkn⟩
  · rw [times_eq_contents, times_eq_contents, hcont]; simp [Function.comp_def]
  · have : ∀ m : Mgr K G, m.getKeys o = m.contents.map (·.2.1) := fun m => by
      simp [Mgr.getKeys, Mgr.appendKeys, Mgr.contents]
    rw [this, this, hcont]; simp [Function.comp_def]
  · intro x k v hx
    exact getByKey_spec hwf' (by rw [hcont]; exact List.mem_map.2 ⟨(x, k, v), hx, rfl⟩)

example : evaluate (lineMaps ℚ) .slerp 2 demo.c.mgr = .ok (.ofAdd (13 / 3)) ∧
    evaluate (lineMaps ℚ) .slerp 4 demo.c.mgr = .ok (.ofAdd 7) ∧
    evaluate (lineMaps ℚ) .slerp 6 demo.c.mgr = .ok (.ofAdd 5) := by decide +kernel

example := C43_between (lineMaps ℚ) (demo_reachable .slerp) demo_calls (ta := 1) (tb := 4)
  (A := .ofAdd 3) (B := .ofAdd 7) (by decide +kernel) (by decide +kernel) (by decide +kernel)
  (by
    intro x v h
    have : x = 0 ∨ x = 1 ∨ x = 4 ∨ x = 6 := by
      simp [demo, Curve.knots, Mgr.contents] at h
      rcases h with h | h | h | h <;> simp [h.1]
    rcases this with rfl | rfl | rfl | rfl <;> decide +kernel)
  (t := 2) (by decide +kernel) (by decide +kernel)

example := C43_transform (lineMaps ℚ) (kind := .slerp) (by decide) (demo_reachable .slerp) demo_calls
  (.ofAdd 10)

/-- The theorems apply to poses of the plane with the textbook exponential. -/
example (X : Pose2) (w : World) (hw : w.calls + 1 < 2 ^ 64) :=
  C43_transform se2Maps (kind := .slerp) (by decide) (s := ⟨w, ⟨Mgr.empty, Pol.fresh⟩⟩)
    ⟨w, [], trivial, rfl⟩ hw X

/-! ## C51: value expressions -/

/-- C51, partial. Wherever it returns, the value expression of a discrete curve, evaluated with the knots' own
values for the keys, is what `evaluate` returns. It returns exactly between the first and the last
knot time of a curve with at least two knots. Missing: `SemiDiscreteSE3Curve`, see
`C51_semidiscrete_refuted`. -/
theorem C51_discrete_partial (L : ExpLog K G V) {s : St K G} (hr : Reachable L .discrete s)
    (hc : s.w.calls + 1 < 2 ^ 64) (t : K) :
    (2 ≤ s.c.mgr.size ∧ s.c.mgr.getMinTime ≤ t ∧ t ≤ s.c.mgr.getMaxTime →
      ∃ ex, valueExprDiscrete t s.c.mgr = .ok ex ∧
        ex.value L s.c.mgr.getCoefficientByKey = evaluate L .discrete t s.c.mgr) ∧
    (¬(2 ≤ s.c.mgr.size ∧ s.c.mgr.getMinTime ≤ t ∧ t ≤ s.c.mgr.getMaxTime) →
      valueExprDiscrete t s.c.mgr = .abort) := by
  have hwf := hr.WF hc
  have hs := hwf.sorted
  constructor
  · rintro ⟨hsz, h0, h1⟩
    obtain ⟨pre, a, b, post, hm, ha, hb, e⟩ := exists_bracket hs hsz h0 h1
    have hka := (getByKey_spec hwf (mem_contents.2 ⟨a, by simp [hm], rfl, rfl, rfl⟩)).1
    have hkb := (getByKey_spec hwf (mem_contents.2 ⟨b, by simp [hm], rfl, rfl, rfl⟩)).1
    refine ⟨_, by rw [valueExprDiscrete, e], ?_⟩
    rw [evaluate_segment L (by simp) hs hm ha hb]
    simp only [between, nearer]
    split
    · exact hka
    · exact hkb
  · intro h
    have := mt (getAt_isSome_iff hs t).1 h
    rw [valueExprDiscrete, show s.c.mgr.getCoefficientsAt t = none by simpa using this]

/-- C51, partial, slerp. The same for `SlerpSE2Curve`. -/
theorem C51_slerp_partial (L : ExpLog K G V) {s : St K G} (hr : Reachable L .slerp s)
    (hc : s.w.calls + 1 < 2 ^ 64) (t : K) :
    (2 ≤ s.c.mgr.size ∧ s.c.mgr.getMinTime ≤ t ∧ t ≤ s.c.mgr.getMaxTime →
      ∃ ex, valueExprSlerp L t s.c.mgr = .ok ex ∧
        ex.value L s.c.mgr.getCoefficientByKey = evaluate L .slerp t s.c.mgr) ∧
    (¬(2 ≤ s.c.mgr.size ∧ s.c.mgr.getMinTime ≤ t ∧ t ≤ s.c.mgr.getMaxTime) →
      valueExprSlerp L t s.c.mgr = .abort) := by
  have hwf := hr.WF hc
  have hs := hwf.sorted
  constructor
  · rintro ⟨hsz, h0, h1⟩
    obtain ⟨pre, a, b, post, hm, ha, hb, e⟩ := exists_bracket hs hsz h0 h1
    have hlt := neighbours_lt hs hm
    have hne : b.time - a.time ≠ 0 := sub_ne_zero.2 hlt.ne'
    have hka := (getByKey_spec hwf (mem_contents.2 ⟨a, by simp [hm], rfl, rfl, rfl⟩)).1
    have hkb := (getByKey_spec hwf (mem_contents.2 ⟨b, by simp [hm], rfl, rfl, rfl⟩)).1
    have eva := evaluate_knot L (kind := .slerp) (by simp) hs
      (List.mem_map.2 ⟨a, by simp [hm], rfl⟩ : (a.time, a.coef) ∈ s.c.mgr.knots)
    have evb := evaluate_knot L (kind := .slerp) (by simp) hs
      (List.mem_map.2 ⟨b, by simp [hm], rfl⟩ : (b.time, b.coef) ∈ s.c.mgr.knots)
    rw [evaluate_segment L (by simp) hs hm ha hb]
    simp only [valueExprSlerp, e, between]
    split
    · rename_i h
      have : t = a.time := by
        rcases div_eq_zero_iff.1 h with h | h
        · exact sub_eq_zero.1 h
        · exact absurd h hne
      subst this
      exact ⟨_, rfl, by rw [slerpAt_left]; exact hka⟩
    · split
      · rename_i h
        have : t = b.time := by
          have := (div_eq_one_iff_eq hne).1 h
          linarith
        subst this
        exact ⟨_, rfl, by rw [slerpAt_right L hlt]; exact hkb⟩
      · refine ⟨_, by rw [eva, evb]; rfl, ?_⟩
        simp only [Expr.value, hka, hkb, Outcome.ok_bind, slerpAt]
  · intro h
    have := mt (getAt_isSome_iff hs t).1 h
    rw [valueExprSlerp, show s.c.mgr.getCoefficientsAt t = none by simpa using this]

/-- C51, refuted for `SemiDiscreteSE3Curve`: strictly between two neighbouring knots its expression is
one of the two keys, hence has the value of that knot, whereas `evaluate` interpolates. -/
theorem C51_semidiscrete_refuted (L : ExpLog K G V) {s : St K G} (hr : Reachable L .slerp s)
    (hc : s.w.calls + 1 < 2 ^ 64) {ta tb : K} {A B : G} (ha : (ta, A) ∈ s.c.knots)
    (hb : (tb, B) ∈ s.c.knots) (hab : ta < tb)
    (hno : ∀ x v, (x, v) ∈ s.c.knots → ¬(ta < x ∧ x < tb)) {t : K} (h0 : ta < t) (h1 : t < tb) :
    ∃ ex, valueExprDiscrete t s.c.mgr = .ok ex ∧
      ex.value L s.c.mgr.getCoefficientByKey = .ok (if tb - t ≥ t - ta then A else B) ∧
      evaluate L .slerp t s.c.mgr =
        .ok (A * L.exp (((t - ta) / (tb - ta)) • L.log (A⁻¹ * B))) := by
  have hC := C43_between L hr hc ha hb hab hno h0.le h1.le
  simp only [curve_knots] at ha hb hno
  have hwf := hr.WF hc
  obtain ⟨pre, a, b, post, hm, rfl, rfl, rfl, rfl⟩ := exists_segment hwf.sorted ha hb hab hno
  have hka := (getByKey_spec hwf (mem_contents.2 ⟨a, by simp [hm], rfl, rfl, rfl⟩)).1
  have hkb := (getByKey_spec hwf (mem_contents.2 ⟨b, by simp [hm], rfl, rfl, rfl⟩)).1
  refine ⟨_, by rw [valueExprDiscrete, getAt_interior hwf.sorted hm h0.le h1], ?_, hC⟩
  split
  · exact hka
  · exact hkb

/-- Between the knots 1 and 4: the expression says 3, `evaluate` says 13/3. -/
example : (valueExprDiscrete 2 demo.c.mgr >>= fun ex =>
      ex.value (lineMaps ℚ) demo.c.mgr.getCoefficientByKey) = .ok (.ofAdd 3) ∧
    (valueExprSlerp (lineMaps ℚ) 2 demo.c.mgr >>= fun ex =>
      ex.value (lineMaps ℚ) demo.c.mgr.getCoefficientByKey) = .ok (.ofAdd (13 / 3)) ∧
    evaluate (lineMaps ℚ) .slerp 2 demo.c.mgr = .ok (.ofAdd (13 / 3)) := by decide +kernel

/-! ## C52: slope -/

/-- C52, refuted. Strictly between two neighbouring knots the first derivative reported by the discrete
curves is the slope taken backwards, `log (B⁻¹ * A) / (tb - ta)`; for a logarithm with
`log g⁻¹ = - log g` that is minus the slope `log (A⁻¹ * B) / (tb - ta)` of the segment. -/
theorem C52_refuted (L : ExpLog K G V) {kind : Kind} {s : St K G} (hr : Reachable L kind s)
    (hc : s.w.calls + 1 < 2 ^ 64) {ta tb : K} {A B : G} (ha : (ta, A) ∈ s.c.knots)
    (hb : (tb, B) ∈ s.c.knots) (hab : ta < tb)
    (hno : ∀ x v, (x, v) ∈ s.c.knots → ¬(ta < x ∧ x < tb)) {t : K} (h0 : ta < t) (h1 : t < tb)
    (hinv : ∀ g, L.log g⁻¹ = - L.log g) :
    evaluateDerivative L t 1 s.c.mgr = .ok (-((1 / (tb - ta)) • L.log (A⁻¹ * B))) := by
  simp only [curve_knots] at ha hb hno
  have hs := (hr.WF hc).sorted
  obtain ⟨pre, a, b, post, hm, rfl, rfl, rfl, rfl⟩ := exists_segment hs ha hb hab hno
  have hn0 : ¬ t < s.c.mgr.getMinTime :=
    not_lt.2 ((min_le_node hs (by simp [hm] : a ∈ s.c.mgr.nodes)).1.trans h0.le)
  have hn1 : ¬ s.c.mgr.getMaxTime < t :=
    not_lt.2 (h1.le.trans (min_le_node hs (by simp [hm] : b ∈ s.c.mgr.nodes)).2)
  rw [evaluateDerivative, if_neg hn0, if_neg hn1, getAt_interior hs hm h0.le h1]
  simp only [if_true]
  rw [show b.coef⁻¹ * a.coef = (a.coef⁻¹ * b.coef)⁻¹ by group, hinv, smul_neg]

/-- The segment from (1, 3) to (4, 7) rises, the reported slope is negative. -/
example : evaluateDerivative (lineMaps ℚ) 2 1 demo.c.mgr = .ok (-(4 / 3)) := by decide +kernel

/-- C52, partial. The reported derivative is the slope of the segment exactly when the two knots have the
same value. Missing: all other segments, see `C52_refuted`. -/
theorem C52_rest_partial (L : ExpLog K G V) {kind : Kind} {s : St K G} (hr : Reachable L kind s)
    (hc : s.w.calls + 1 < 2 ^ 64) {ta tb : K} {A B : G} (ha : (ta, A) ∈ s.c.knots)
    (hb : (tb, B) ∈ s.c.knots) (hab : ta < tb)
    (hno : ∀ x v, (x, v) ∈ s.c.knots → ¬(ta < x ∧ x < tb)) {t : K} (h0 : ta < t) (h1 : t < tb)
    (hinv : ∀ g, L.log g⁻¹ = - L.log g) :
    evaluateDerivative L t 1 s.c.mgr = .ok ((1 / (tb - ta)) • L.log (A⁻¹ * B)) ↔ A = B := by
  rw [C52_refuted L hr hc ha hb hab hno h0 h1 hinv]
  constructor
  · intro h
    have h2 : (2 : K) • ((1 / (tb - ta)) • L.log (A⁻¹ * B)) = 0 := by
      rw [two_smul]
      exact neg_eq_iff_add_eq_zero.1 (Outcome.ok.inj h)
    have hd : (2 : K) * (1 / (tb - ta)) ≠ 0 := mul_ne_zero two_ne_zero (one_div_ne_zero (sub_pos.2 hab).ne')
    rw [smul_smul] at h2
    have h3 : L.log (A⁻¹ * B) = 0 := by
      have := congrArg (fun x => (2 * (1 / (tb - ta)))⁻¹ • x) h2
      simpa only [smul_smul, inv_mul_cancel₀ hd, one_smul, smul_zero] using this
    have h4 : A⁻¹ * B = 1 := by rw [← L.exp_log (A⁻¹ * B), h3, ← L.log_one, L.exp_log]
    exact (inv_mul_eq_one.1 h4)
  · rintro rfl
    rw [inv_mul_cancel, L.log_one, smul_zero, neg_zero]

/-- On the rising segment of the demo curve the report is wrong. -/
example : evaluateDerivative (lineMaps ℚ) 2 1 demo.c.mgr ≠
    .ok ((1 / (4 - 1) : ℚ) • (lineMaps ℚ).log ((.ofAdd 3)⁻¹ * .ofAdd 7)) := by
  rw [ne_eq, C52_rest_partial (lineMaps ℚ) (demo_reachable .slerp) (by decide) (by decide +kernel)
    (by decide +kernel) (by norm_num) ?_ (by norm_num) (by norm_num) fun g => rfl]
  · decide
  · intro x v h
    simp [demo, Curve.knots, Mgr.contents] at h
    rcases h with ⟨rfl, -⟩ | ⟨rfl, -⟩ | ⟨rfl, -⟩ | ⟨rfl, -⟩ <;> norm_num

/-! ## C53: fitting replaces, setting merges -/

/-- C53. `fitCurve` with distinct times replaces all knots by the given ones; `setCurve` overwrites the
value at the given times and keeps every knot at other times, with its key. -/
theorem C53_fit_replaces (L : ExpLog K G V) {kind : Kind} {s : St K G} (hr : Reachable L kind s)
    {ts : List K} {vs : List G} (hl : ts.length = vs.length) (hd : ts.Nodup)
    (hc : s.w.calls + ts.length + 1 < 2 ^ 64) (hne : ts ≠ []) :
    (∃ w' c' ks, s.c.fitCurve s.w ts vs = .ok (w', c', ks) ∧ c'.knots.Perm (ts.zip vs) ∧
      (c'.mgr.getTimes []).Pairwise (· < ·)) ∧
    (∃ w' c', s.c.setCurve s.w ts vs = .ok (w', c') ∧
      (∀ t v, (t, v) ∈ c'.knots ↔ (t, v) ∈ ts.zip vs ∨ (t ∉ ts ∧ (t, v) ∈ s.c.knots)) ∧
      (∀ t k v, t ∉ ts → ((t, k, v) ∈ c'.mgr.contents ↔ (t, k, v) ∈ s.c.mgr.contents))) := by
  have hpos : 0 < ts.length := List.length_pos_iff.2 hne
  constructor
  · obtain ⟨w', m', ks, e, hs, hp, -⟩ := fill_nodup s.w hl hd
    refine ⟨w', { s.c with mgr := m' }, ks, ?_, ?_, sorted_iff_times.1 hs⟩
    · have e' : s.c.clear.mgr.insertCoefficients s.w ts vs = .ok (w', m', ks) := e
      simp only [Curve.fitCurve, hl, ne_eq, not_true_eq_false, if_false, hl ▸ hpos, if_true, e']
      rfl
    · rw [curve_knots]; exact hp
  · have hwf := hr.WF (by omega)
    have hC3 := (C03_batch_insert hr.manager ts vs hc).2 hl
    obtain ⟨w', m', ks, e, hk, hidx, hframe, hkeep⟩ := hC3
    refine ⟨w', { s.c with mgr := m' }, ?_, ?_, hframe⟩
    · simp only [Curve.setCurve, hl, ne_eq, not_true_eq_false, if_false, hl ▸ hpos, if_true]
      rw [show s.c.mgr.insertCoefficients s.w ts vs = .ok (w', m', ks) from e]
      rfl
    · have hwf' : WF w' m' := by
        obtain ⟨_, hl2⟩ := insertCoefficients_ok e
        obtain ⟨w2, m2, ks2, e2, hle⟩ := insertLoop_ok hwf (ts.zip vs)
          (by simp only [List.length_zip, hl, min_self]; omega)
        rw [hl2] at e2
        cases e2
        refine (insertLoop_WF hwf hl2 ?_).1
        simp only [List.length_zip, hl, min_self] at hle
        omega
      have hval : ∀ i (hi : i < ts.length), ∃ k, (ts[i], k, vs[i]) ∈ m'.contents := by
        intro i hi
        obtain ⟨v, hv, hv2⟩ := hidx i hi
        refine ⟨ks[i], ?_⟩
        rwa [hv2 (fun j hj hij h => by
          have := (hd.getElem_inj_iff).1 h
          omega)] at hv
      intro t v
      simp only [curve_knots, knots_eq_contents]
      constructor
      · intro h
        obtain ⟨⟨t', k, v'⟩, hx, e⟩ := List.mem_map.1 h
        simp only [Prod.mk.injEq] at e
        obtain ⟨rfl, rfl⟩ := e
        by_cases ht : t' ∈ ts
        · left
          obtain ⟨i, hi, rfl⟩ := List.mem_iff_getElem.1 ht
          obtain ⟨k2, hk2⟩ := hval i hi
          have := (hwf'.cont_time_inj hx hk2).2
          subst this
          exact List.mem_iff_getElem.2 ⟨i, by simp only [List.length_zip]; omega, by simp⟩
        · exact Or.inr ⟨ht, List.mem_map.2 ⟨(t', k, v'), (hframe t' k v' ht).1 hx, rfl⟩⟩
      · rintro (h | ⟨ht, h⟩)
        · obtain ⟨i, hi, e⟩ := List.mem_iff_getElem.1 h
          have hi' : i < ts.length := by simp only [List.length_zip] at hi; omega
          obtain ⟨k, hk2⟩ := hval i hi'
          simp only [List.getElem_zip, Prod.mk.injEq] at e
          obtain ⟨rfl, rfl⟩ := e
          exact List.mem_map.2 ⟨_, hk2, rfl⟩
        · obtain ⟨⟨t', k, v'⟩, hx, e⟩ := List.mem_map.1 h
          simp only [Prod.mk.injEq] at e
          obtain ⟨rfl, rfl⟩ := e
          exact List.mem_map.2 ⟨(t', k, v'), (hframe t' k v' ht).2 hx, rfl⟩

example := C53_fit_replaces (lineMaps ℚ) (demo_reachable .slerp) (ts := [5, 1])
  (vs := [.ofAdd 8, .ofAdd 9]) rfl (by decide +kernel) (by decide +kernel) (by simp)

example : (demo.c.setCurve demo.w [5, 1] [.ofAdd 8, .ofAdd 9] >>= fun r => .ok r.2.knots) =
      .ok [(0, .ofAdd 1), (1, .ofAdd 9), (4, .ofAdd 7), (5, .ofAdd 8), (6, .ofAdd 5)] ∧
    (demo.c.fitCurve demo.w [5, 1] [.ofAdd 8, .ofAdd 9] >>= fun r => .ok r.2.1.knots) =
      .ok [(1, .ofAdd 9), (5, .ofAdd 8)] := by decide +kernel

/-! ## C54: prior factors -/

/-- C54, partial. Inside the time range of a curve with at least two knots, `addPriorFactors` ties the
two knots around the time to their present values. Missing: anything outside that range, see
`C54_refuted`. -/
theorem C54_prior_partial (L : ExpLog K G V) {kind : Kind} {s : St K G} (hr : Reachable L kind s)
    (hc : s.w.calls + 1 < 2 ^ 64) {t : K} (h2 : 2 ≤ s.c.mgr.size) (h0 : s.c.mgr.getMinTime ≤ t)
    (h1 : t ≤ s.c.mgr.getMaxTime) :
    ∃ pre ta ka va tb kb vb post,
      s.c.mgr.contents = pre ++ (ta, ka, va) :: (tb, kb, vb) :: post ∧ ta ≤ t ∧ t ≤ tb ∧
      addPriorFactors t s.c.mgr = .ok [(ka, va), (kb, vb)] := by
  obtain ⟨pre, a, b, post, hm, ha, hb, e⟩ := exists_bracket (hr.WF hc).sorted h2 h0 h1
  exact ⟨pre.map fun n => (n.time, n.key, n.coef), a.time, a.key, a.coef, b.time, b.key, b.coef,
    post.map fun n => (n.time, n.key, n.coef), by simp [Mgr.contents, hm], ha, hb,
    by rw [addPriorFactors, e]⟩

/-- C54, refuted. Everywhere else it dereferences uninitialised iterators. -/
theorem C54_refuted (L : ExpLog K G V) {kind : Kind} {s : St K G} (hr : Reachable L kind s)
    (hc : s.w.calls + 1 < 2 ^ 64) {t : K}
    (h : s.c.mgr.size ≤ 1 ∨ t < s.c.mgr.getMinTime ∨ s.c.mgr.getMaxTime < t) :
    addPriorFactors t s.c.mgr = .ub := by
  have : s.c.mgr.getCoefficientsAt t = none := by
    have := mt (getAt_isSome_iff (hr.WF hc).sorted t).1 (by
      rintro ⟨a, b, c⟩
      rcases h with h | h | h
      · omega
      · exact absurd h (not_lt.2 b)
      · exact absurd h (not_lt.2 c))
    simpa using this
  rw [addPriorFactors, this]

example : addPriorFactors 2 demo.c.mgr = .ok [(103, .ofAdd 3), (101, .ofAdd 7)] ∧
    addPriorFactors 7 demo.c.mgr = .ub := by decide +kernel

/-! ## C56: a measurement at the time of the last knot -/

/-- C56, refuted. On a thinning curve in the middle of a sampling period, extending with a measurement at
the time of the last knot loses that knot instead of updating it, and leaves its key dangling. -/
theorem C56_refuted (L : ExpLog K G V) {kind : Kind} {s : St K G} (hr : Reachable L kind s)
    (hc : s.w.calls + 1 < 2 ^ 64) {n : Node K G} (hn : s.c.mgr.nodes.getLast? = some n)
    (h2 : 2 ≤ s.c.mgr.size) (hm : s.c.pol.minMeas ≠ 1) (hs0 : s.c.pol.since ≠ 0)
    (hs31 : s.c.pol.since ≠ 2 ^ 31 - 1) (v : G) :
    ∃ w' c' ks, s.c.extend s.w [n.time] [v] = .ok (w', c', ks) ∧
      (∀ k v', (n.time, k, v') ∉ c'.mgr.contents) ∧ c'.mgr.getCoefficientByKey n.key = .ub := by
  obtain ⟨w', m', e, h1, h3⟩ :=
    C11_move_onto_itself_corrupts hr.manager hc (List.mem_of_getLast? hn) v
  have hne : ¬(s.c.mgr.isEmpty = true ∨ s.c.mgr.size = 1) := by
    rintro (h | h)
    · simp only [Mgr.isEmpty, List.isEmpty_iff] at h
      simp [Mgr.size, h] at h2
    · omega
  have hs1 : ¬ s.c.pol.since + 1 = 1 := by omega
  refine ⟨w', ⟨m', { s.c.pol with
    since := if s.c.pol.since + 1 = s.c.pol.minMeas then 0 else s.c.pol.since + 1 }⟩, [], ?_, h1, h3⟩
  simp only [Curve.extend, List.length_singleton, ne_eq, not_true_eq_false, if_false, if_neg hne,
    if_neg hm, if_neg hs31, addOrMove, if_neg hs1, hn]
  rw [show s.c.mgr.modifyCoefficient s.w n.addr n.time v = .ok (w', m') from e]
  rfl

/-- Ratio 3, measurements at 0, 1, 2, 3 and again 3: the knot at 3 is gone. -/
example : ((Curve.fresh 3 : Curve ℚ (Multiplicative ℚ)).feed ⟨0, 0⟩
      [(0, .ofAdd 1), (1, .ofAdd 2), (2, .ofAdd 3), (3, .ofAdd 4)] >>= fun r => .ok r.2.knots) =
      .ok [(0, .ofAdd 1), (1, .ofAdd 2), (3, .ofAdd 4)] ∧
    ((Curve.fresh 3 : Curve ℚ (Multiplicative ℚ)).feed ⟨0, 0⟩
      [(0, .ofAdd 1), (1, .ofAdd 2), (2, .ofAdd 3), (3, .ofAdd 4), (3, .ofAdd 5)] >>= fun r =>
        .ok r.2.knots) = .ok [(0, .ofAdd 1), (1, .ofAdd 2)] := by decide +kernel

/-! ## C50 -/

/-- C50 for the slerp and discrete curves: the unimplemented operations abort in every state;
evaluating a `SlerpSE3Curve` aborts at every time; transforming one aborts unless it is empty. What
is missing of C50: see `C50_e3_extend_refuted`, `C50_transform_refuted`, `C50_composition_refuted`. -/
theorem C50_discrete_partial (L : ExpLog K G V) (op : Missing) (m : Mgr K G) (t : K) (X : G) (w : World)
    (c : Curve K G) :
    callMissing op m = .abort ∧ evaluate L .slerpSE3 t m = .abort ∧
      (c.knots ≠ [] → transformCurve L .slerpSE3 X w c = .abort) := by
  refine ⟨rfl, rfl, fun h => ?_⟩
  rw [curve_knots, knots_ne_nil] at h
  obtain ⟨a, l, e⟩ := List.exists_cons_of_ne_nil h
  simp [transformCurve, Mgr.getTimes, e, transformLoop, evaluate]

example : transformCurve (lineMaps ℚ) .slerpSE3 (.ofAdd 1) demo.w demo.c = .abort :=
  (C50_discrete_partial (lineMaps ℚ) .twistA demo.c.mgr 0 (.ofAdd 1) demo.w demo.c).2.2 (by decide)

end Verif.Discrete

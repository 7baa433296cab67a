import Verif.Rounding.NearestModel
import Verif.Rounding.ErrorLemmas
import Verif.Rounding.Lemmas
import Verif.Discrete.Props

/-!
# C150: the nearest knot, in rounded arithmetic
-/

set_option linter.unusedSectionVars false
set_option linter.dupNamespace false

namespace Verif.Rounding

open Verif.Manager Verif.Discrete

variable {K G V : Type} [Field K] [LinearOrder K] [IsStrictOrderedRing K] [Group G] [AddCommGroup V] [Module K V]
  (R : Rounding K)

/-- With exact arithmetic this is the model of `Verif/Discrete/Model.lean`. -/
theorem link_discrete (L : ExpLog K G V) (t : K) (m : Mgr K G) :
    evaluateDiscrete (exact K) t m = Discrete.evaluate L .discrete t m ∧
    (discreteLeaf (exact K) t m >>= fun k => .ok (Expr.leaf k)) = valueExprDiscrete t m := by
  rw [evaluateDiscrete, discreteLeaf, Discrete.evaluate, valueExprDiscrete]
  cases m.getCoefficientsAt t with
  | none => exact ⟨rfl, rfl⟩
  | some p =>
    have e : nearFirst (exact K) p.1.time p.2.time t = decide (p.2.time - t ≥ t - p.1.time) := rfl
    by_cases h : p.2.time - t ≥ t - p.1.time
    · simp [nearer, e, h]
    · simp [nearer, e, h]

theorem evaluateDiscrete_last {m : Mgr K G} (hs : Sorted m.nodes) {n : Node K G} (hn : m.nodes.getLast? = some n) :
    evaluateDiscrete R n.time m = .ok n.coef := by
  have hmax : m.getMaxTime = n.time := by rw [Mgr.getMaxTime, hn]
  rw [evaluateDiscrete]
  split
  · rename_i h
    obtain ⟨f, hf⟩ : ∃ f, m.nodes.head? = some f := by
      cases hh : m.nodes with
      | nil => rw [hh] at hn; simp at hn
      | cons f l => exact ⟨f, rfl⟩
    have hmin : m.getMinTime = f.time := by
      rw [Mgr.getMinTime]
      cases hh : m.nodes with
      | nil => rw [hh] at hn; simp at hn
      | cons g l => rw [hh] at hf; simp at hf; rw [hf]
    have : f = n := hs.inj (List.mem_of_head? hf) (List.mem_of_getLast? hn) (hmin ▸ h.2)
    rw [hf, this]
    rfl
  · rw [if_pos hmax.symm, hn]
    rfl

/-- What a discrete curve is on its domain: the last knot at its time, otherwise the choice between two neighbours. -/
theorem evaluateDiscrete_cases {m : Mgr K G} (hs : Sorted m.nodes) (hne : m.nodes ≠ []) {t : K}
    (h0 : m.getMinTime ≤ t) (h1 : t ≤ m.getMaxTime) :
    (∃ n, m.nodes.getLast? = some n ∧ n.time = t ∧ evaluateDiscrete R t m = .ok n.coef) ∨
    (t ≠ m.getMaxTime ∧ ∃ pre a b post, m.nodes = pre ++ a :: b :: post ∧ a.time ≤ t ∧ t ≤ b.time ∧
      m.getCoefficientsAt t = some (a, b) ∧
      evaluateDiscrete R t m = .ok (if nearFirst R a.time b.time t then a.coef else b.coef)) := by
  by_cases ht : t = m.getMaxTime
  · obtain ⟨n, hn⟩ : ∃ n, m.nodes.getLast? = some n := ⟨_, List.getLast?_eq_some_getLast hne⟩
    have hmax : m.getMaxTime = n.time := by rw [Mgr.getMaxTime, hn]
    exact .inl ⟨n, hn, by rw [ht, hmax], by rw [ht, hmax]; exact evaluateDiscrete_last R hs hn⟩
  · refine .inr ⟨ht, ?_⟩
    have hsz : 2 ≤ m.size := by
      cases hn : m.nodes with
      | nil => exact absurd hn hne
      | cons a l =>
        cases l with
        | cons b l => simp [Mgr.size, hn]
        | nil =>
          have e1 : m.getMinTime = a.time := by simp [Mgr.getMinTime, hn]
          have e2 : m.getMaxTime = a.time := by simp [Mgr.getMaxTime, hn]
          exact absurd (le_antisymm h1 (by rw [e2, ← e1]; exact h0)) ht
    obtain ⟨pre, a, b, post, hm, ha, hb, hg⟩ := exists_bracket hs hsz h0 h1
    refine ⟨pre, a, b, post, hm, ha, hb, hg, ?_⟩
    rw [evaluateDiscrete, if_neg (fun h => ht h.1.symm), if_neg ht, hg]

/-- C150. In rounded arithmetic a discrete curve returns, between its first and last knot times, the value of a knot
that is nearest as far as the rounded distances tell; so with relative error `u` no knot is nearer by more than the factor
`(1 - u) / (1 + u)`. At a knot it returns the value of that knot. -/
theorem C150_nearest (L : ExpLog K G V) {s : Discrete.St K G} (hr : Discrete.Reachable L .discrete s)
    (hc : s.w.calls + 1 < 2 ^ 64) {t : K} (hne : s.c.knots ≠ []) (h0 : s.c.mgr.getMinTime ≤ t)
    (h1 : t ≤ s.c.mgr.getMaxTime) :
    ∃ t0 v0, (t0, v0) ∈ s.c.knots ∧ evaluateDiscrete R t s.c.mgr = .ok v0 ∧
      (∀ t1 v1, (t1, v1) ∈ s.c.knots → R.rnd |t0 - t| ≤ R.rnd |t1 - t|) ∧
      (∀ u, 0 ≤ u → Precise R u → ∀ t1 v1, (t1, v1) ∈ s.c.knots → (1 - u) * |t0 - t| ≤ (1 + u) * |t1 - t|) ∧
      ((∀ t1 v1, (t1, v1) ∈ s.c.knots → R.rnd t1 = t1) → R.rnd t = t → ∀ v1, (t, v1) ∈ s.c.knots → t0 = t ∧ v0 = v1) := by
  have hs := (hr.WF hc).sorted
  rw [curve_knots] at *
  obtain ⟨t0, v0, hk, he, hnear⟩ : ∃ t0 v0, (t0, v0) ∈ s.c.mgr.knots ∧ evaluateDiscrete R t s.c.mgr = .ok v0 ∧
      ∀ t1 v1, (t1, v1) ∈ s.c.mgr.knots → R.rnd |t0 - t| ≤ R.rnd |t1 - t| := by
    rcases evaluateDiscrete_cases R hs (knots_ne_nil.1 hne) h0 h1 with ⟨n, hn, rfl, e⟩ | ⟨-, pre, a, b, post, hm, ha, hb, -, e⟩
    · refine ⟨n.time, n.coef, List.mem_map.2 ⟨n, List.mem_of_getLast? hn, rfl⟩, e, fun t1 v1 _ => R.mono ?_⟩
      rw [sub_self, abs_zero]
      exact abs_nonneg _
    · have hall : ∀ n ∈ s.c.mgr.nodes, n.time ≤ a.time ∨ b.time ≤ n.time := by
        intro n hn
        have hs' := hs
        rw [hm, Sorted, List.pairwise_append, List.pairwise_cons, List.pairwise_cons] at hs'
        rw [hm, List.mem_append, List.mem_cons, List.mem_cons] at hn
        rcases hn with hn | rfl | rfl | hn
        · exact .inl (hs'.2.2 n hn a (by simp)).le
        · exact .inl le_rfl
        · exact .inr le_rfl
        · exact .inr (hs'.2.1.2.1 n hn).le
      have ea : |a.time - t| = t - a.time := by rw [abs_sub_comm]; exact abs_of_nonneg (by linarith)
      have eb : |b.time - t| = b.time - t := abs_of_nonneg (by linarith)
      have far : ∀ n ∈ s.c.mgr.nodes, t - a.time ≤ |n.time - t| ∨ b.time - t ≤ |n.time - t| := by
        intro n hn
        rcases hall n hn with h | h
        · left; rw [abs_sub_comm, abs_of_nonneg (by linarith)]; linarith
        · right; rw [abs_of_nonneg (by linarith)]; linarith
      rw [e]
      cases hcl : nearFirst R a.time b.time t with
      | true =>
        refine ⟨a.time, a.coef, List.mem_map.2 ⟨a, by simp [hm], rfl⟩, rfl, fun t1 v1 h => ?_⟩
        obtain ⟨n, hn, e⟩ := List.mem_map.1 h
        cases e
        rw [ea]
        rw [nearFirst, decide_eq_true_eq] at hcl
        rcases far n hn with h | h
        · exact R.mono h
        · exact hcl.trans (R.mono h)
      | false =>
        refine ⟨b.time, b.coef, List.mem_map.2 ⟨b, by simp [hm], rfl⟩, rfl, fun t1 v1 h => ?_⟩
        obtain ⟨n, hn, e⟩ := List.mem_map.1 h
        cases e
        rw [eb]
        rw [nearFirst, decide_eq_false_iff_not, not_le] at hcl
        rcases far n hn with h | h
        · exact hcl.le.trans (R.mono h)
        · exact R.mono h
  refine ⟨t0, v0, hk, he, hnear, fun u hu hp t1 v1 h => ?_, fun hrep ht v1 h => ?_⟩
  · have h2 := abs_le.1 (hp |t0 - t|)
    have h3 := abs_le.1 (hp |t1 - t|)
    rw [abs_abs] at h2 h3
    have := hnear t1 v1 h
    nlinarith [h2.1, h3.2]
  · have h2 := hnear t v1 h
    rw [sub_self, abs_zero, rnd_zero] at h2
    have h3 : R.rnd |t0 - t| = 0 := le_antisymm h2 (by rw [← rnd_zero (R := R)]; exact R.mono (abs_nonneg _))
    have h4 : t0 = t := by
      rcases le_total t t0 with h5 | h5
      · rw [abs_of_nonneg (by linarith)] at h3
        exact R.sub_ne (hrep t0 v0 hk) ht h3
      · rw [abs_sub_comm, abs_of_nonneg (by linarith)] at h3
        exact (R.sub_ne ht (hrep t0 v0 hk) h3).symm
    refine ⟨h4, ?_⟩
    obtain ⟨n, hn, e⟩ := List.mem_map.1 hk
    obtain ⟨n', hn', e'⟩ := List.mem_map.1 h
    cases e
    cases e'
    rw [hs.inj hn hn' h4]

/-- C150: if the distances to the two neighbours are representable, the choice is the exact one. -/
theorem C150_exact (L : ExpLog K G V) {m : Mgr K G} {t : K}
    (h : ∀ a b, m.getCoefficientsAt t = some (a, b) → R.rnd (t - a.time) = t - a.time ∧ R.rnd (b.time - t) = b.time - t) :
    evaluateDiscrete R t m = Discrete.evaluate L .discrete t m := by
  rw [← (link_discrete L t m).1, evaluateDiscrete, evaluateDiscrete]
  cases hg : m.getCoefficientsAt t with
  | none => rfl
  | some p =>
    obtain ⟨a, b⟩ := p
    obtain ⟨e1, e2⟩ := h a b hg
    simp only [nearFirst, e1, e2]
    rfl

/-- C150: the expression handed to the optimiser names the knot whose value `evaluate` returns, in rounded arithmetic
too. -/
theorem C150_expression (L : ExpLog K G V) {s : Discrete.St K G} (hr : Discrete.Reachable L .discrete s)
    (hc : s.w.calls + 1 < 2 ^ 64) (hrep : ∀ t1 v1, (t1, v1) ∈ s.c.knots → R.rnd t1 = t1) (h2 : 2 ≤ s.c.mgr.size) {t : K}
    (h0 : s.c.mgr.getMinTime ≤ t) (h1 : t ≤ s.c.mgr.getMaxTime) :
    ∃ k v, discreteLeaf R t s.c.mgr = .ok k ∧ s.c.mgr.getCoefficientByKey k = .ok v ∧
      evaluateDiscrete R t s.c.mgr = .ok v := by
  have hw := hr.WF hc
  have hs := hw.sorted
  rw [curve_knots] at hrep
  have byKey : ∀ n ∈ s.c.mgr.nodes, s.c.mgr.getCoefficientByKey n.key = .ok n.coef := by
    intro n hn
    rw [Mgr.getCoefficientByKey, hw.keyOf n hn]
    simp only [nodeAt_eq_some hw.addrNodup hn, Outcome.deref_some, Outcome.ok_bind]
  have hne : s.c.mgr.nodes ≠ [] := by rintro h; rw [Mgr.size, h] at h2; simp at h2
  rcases evaluateDiscrete_cases R hs hne h0 h1 with ⟨n, hn, rfl, e⟩ | ⟨-, pre, a, b, post, hm, ha, hb, hg, e⟩
  · obtain ⟨pre, a, b, post, hm, ha, hb, hg⟩ := exists_bracket hs h2 h0 h1
    have hlt := neighbours_lt hs hm
    have hmax : ∀ x ∈ s.c.mgr.nodes, x.time ≤ n.time := by
      intro x hx
      have := List.dropLast_append_getLast hne
      rw [List.getLast?_eq_some_getLast hne] at hn
      cases hn
      rw [Sorted, ← this, List.pairwise_append] at hs
      rw [← this] at hx
      rcases List.mem_append.1 hx with h | h
      · exact (hs.2.2 x h _ (by simp)).le
      · rw [List.mem_singleton.1 h]
    have hbn : b = n := hs.inj (by simp [hm]) (List.mem_of_getLast? hn) (le_antisymm (hmax b (by simp [hm])) hb)
    subst hbn
    refine ⟨b.key, b.coef, ?_, byKey b (by simp [hm]), e⟩
    rw [discreteLeaf, hg]
    have : nearFirst R a.time b.time b.time = false := by
      rw [nearFirst, decide_eq_false_iff_not, sub_self, rnd_zero, not_le]
      refine lt_of_le_of_ne (by rw [← rnd_zero (R := R)]; exact R.mono (by linarith)) fun h => hlt.ne' ?_
      exact R.sub_ne (hrep _ b.coef (List.mem_map.2 ⟨b, by simp [hm], rfl⟩))
        (hrep _ a.coef (List.mem_map.2 ⟨a, by simp [hm], rfl⟩)) h.symm
    simp [this]
  · rw [discreteLeaf, hg, e]
    simp only
    split
    · exact ⟨a.key, a.coef, rfl, byKey a (by simp [hm]), rfl⟩
    · exact ⟨b.key, b.coef, rfl, byKey b (by simp [hm]), rfl⟩

/-- C150 is not C42: in `double`, with knots at -1 and 3 + 2^-49, the value at 1 + 5 * 2^-52 is that of the first knot,
although the second is nearer. -/
theorem C150_refuted : ∃ m : Mgr ℚ (Multiplicative ℚ), m.knots = [(-1, .ofAdd 10), (3 + 1 / 2 ^ 49, .ofAdd 20)] ∧
    toDouble (3 + 1 / 2 ^ 49 : ℚ) = 3 + 1 / 2 ^ 49 ∧ toDouble (1 + 5 / 2 ^ 52 : ℚ) = 1 + 5 / 2 ^ 52 ∧
    evaluateDiscrete (double ℚ) (1 + 5 / 2 ^ 52) m = .ok (.ofAdd 10) ∧
    |(3 + 1 / 2 ^ 49 : ℚ) - (1 + 5 / 2 ^ 52)| < |(-1 : ℚ) - (1 + 5 / 2 ^ 52)| ∧
    Discrete.evaluate (lineMaps ℚ) .discrete (1 + 5 / 2 ^ 52) m = .ok (.ofAdd 20) := by
  refine ⟨⟨[⟨0, -1, 1, .ofAdd 10⟩, ⟨1, 3 + 1 / 2 ^ 49, 2, .ofAdd 20⟩], [(1, 0), (2, 1)]⟩, by decide +kernel, ?_, ?_, ?_, ?_, ?_⟩
  all_goals decide +kernel

/-- An instance of C150: four knots, between the second and the third. -/
example := C150_nearest (double ℚ) (lineMaps ℚ) (demo_reachable .discrete) demo_calls (t := 5 / 2) (by decide)
  (by decide +kernel) (by decide +kernel)

example := C150_expression (double ℚ) (lineMaps ℚ) (demo_reachable .discrete) demo_calls (by
  intro t1 v1 h
  have : ∀ p ∈ Discrete.demo.c.knots, (double ℚ).rnd p.1 = p.1 := by decide +kernel
  exact this _ h) (by decide) (t := 5 / 2) (by decide +kernel) (by decide +kernel)

end Verif.Rounding

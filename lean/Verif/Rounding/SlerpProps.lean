import Verif.Rounding.SlerpModel
import Verif.Rounding.Props
import Verif.Rounding.ErrorLemmas
import Verif.Discrete.AccuracyProps

/-!
# C152: slerp curves with rounded times
-/

set_option linter.unusedSectionVars false
set_option linter.dupNamespace false

namespace Verif.Rounding

open Verif.Manager Verif.Discrete

variable {K G V : Type} [Field K] [LinearOrder K] [IsStrictOrderedRing K] [Group G] [AddCommGroup V] [Module K V]
  (R : Rounding K)

/-- With exact arithmetic this is the model of `Verif/Discrete/Model.lean`. -/
theorem link_slerp (L : ExpLog K G V) (t : K) (m : Mgr K G) :
    evaluateSlerp (exact K) L t m = Discrete.evaluate L .slerp t m ∧
    slerpExpr (exact K) L t m = valueExprSlerp L t m := by
  have e : ∀ t, evaluateSlerp (exact K) L t m = Discrete.evaluate L .slerp t m := fun t => rfl
  refine ⟨e t, ?_⟩
  rw [slerpExpr, valueExprSlerp]
  cases m.getCoefficientsAt t with
  | none => rfl
  | some p => simp only [e]; rfl

variable (L : ExpLog K G V) {m : Mgr K G}

theorem slerpAt_left (a b : Node K G) : slerpAt R L a b a.time = a.coef := by
  rw [slerpAt, alpha_left, zero_smul, L.exp_zero, mul_one]

theorem slerpAt_right {a b : Node K G} (ha : R.rnd a.time = a.time) (hb : R.rnd b.time = b.time) (h : a.time < b.time) :
    slerpAt R L a b b.time = b.coef := by
  rw [slerpAt, alpha_right R ha hb h, one_smul, L.exp_log, mul_inv_cancel_left]

theorem evaluateSlerp_eq (hs : Sorted m.nodes) (hrep : ∀ n ∈ m.nodes, R.rnd n.time = n.time) (t : K) :
    evaluateSlerp R L t m = (evalWith id (slerpAt R L) t m >>= orAbort) := by
  unfold evaluateSlerp evalWith
  split
  · cases m.nodes.head? <;> rfl
  · rename_i h1
    split
    · rename_i h2
      subst h2
      rcases List.eq_nil_or_concat m.nodes with hn | ⟨l, b, hn⟩
      · simp [Mgr.getMaxTime, Mgr.getMinTime, hn] at h1
      · rcases List.eq_nil_or_concat l with hl | ⟨pre, a, hl⟩
        · simp [Mgr.getMaxTime, Mgr.getMinTime, hn, hl] at h1
        · subst hl
          have hm : m.nodes = pre ++ a :: b :: [] := by simp [hn]
          have e1 : m.getMaxTime = b.time := by simp [Mgr.getMaxTime, hm]
          rw [e1, getAt_max hm]
          simp [hn, orAbort, slerpAt_right R L (hrep a (by simp [hm])) (hrep b (by simp [hm])) (neighbours_lt hs hm)]
    · cases m.getCoefficientsAt t with
      | none => rfl
      | some p => rfl

theorem evaluateSlerp_knot (hs : Sorted m.nodes) (hrep : ∀ n ∈ m.nodes, R.rnd n.time = n.time) {t : K} {v : G}
    (h : (t, v) ∈ m.knots) : evaluateSlerp R L t m = .ok v := by
  obtain ⟨x, e, hx⟩ := evalWith_knot (single := (id : G → G)) (f := slerpAt R L) hs (id : G → G)
    (fun a b _ _ _ => slerpAt_left R L a b)
    (fun a b ha hb hab => slerpAt_right R L (hrep a ha) (hrep b hb) hab) h
  rw [evaluateSlerp_eq R L hs hrep, e, ← (show x = v from hx)]
  rfl

theorem evaluateSlerp_segment (hs : Sorted m.nodes) (hrep : ∀ n ∈ m.nodes, R.rnd n.time = n.time)
    {pre post : List (Node K G)} {a b : Node K G} (hm : m.nodes = pre ++ a :: b :: post) {t : K} (h0 : a.time ≤ t)
    (h1 : t ≤ b.time) : evaluateSlerp R L t m = .ok (slerpAt R L a b t) := by
  obtain ⟨x, e, hx⟩ := evalWith_between (single := (id : G → G)) (f := slerpAt R L) hs (id : G → G)
    (fun a b _ _ _ => slerpAt_left R L a b)
    (fun a b ha hb hab => slerpAt_right R L (hrep a ha) (hrep b hb) hab) hm h0 h1
  rw [evaluateSlerp_eq R L hs hrep, e, ← (show x = slerpAt R L a b t from hx)]
  rfl

theorem rep_nodes (h : ∀ t v, (t, v) ∈ m.knots → R.rnd t = t) : ∀ n ∈ m.nodes, R.rnd n.time = n.time :=
  fun n hn => h n.time n.coef (List.mem_map.2 ⟨n, hn, rfl⟩)

section
variable {s : Discrete.St K G} (hr : Discrete.Reachable L .slerp s) (hc : s.w.calls + 1 < 2 ^ 64)
  (hrep : ∀ t v, (t, v) ∈ s.c.knots → R.rnd t = t)
include hr hc hrep

/-- C152: with the times computed in rounded arithmetic a slerp curve still hits its knots exactly. -/
theorem C152_knots {t : K} {v : G} (h : (t, v) ∈ s.c.knots) : evaluateSlerp R L t s.c.mgr = .ok v := by
  rw [curve_knots] at h hrep
  exact evaluateSlerp_knot R L (hr.WF hc).sorted (rep_nodes R hrep) h

/-- C152: between two neighbouring knots it stays on the way from the one to the other, never moves backwards on it,
starts at the one and ends at the other; with relative error `u` the fraction of the way is wrong by at most `4 u`. -/
theorem C152_between {ta tb : K} {A B : G} (ha : (ta, A) ∈ s.c.knots) (hb : (tb, B) ∈ s.c.knots) (hab : ta < tb)
    (hno : ∀ x v, (x, v) ∈ s.c.knots → ¬(ta < x ∧ x < tb)) :
    ∃ f : K → K, (∀ t, ta ≤ t → t ≤ tb → 0 ≤ f t ∧ f t ≤ 1 ∧
        evaluateSlerp R L t s.c.mgr = .ok (A * L.exp (f t • L.log (A⁻¹ * B)))) ∧
      (∀ t t', t ≤ t' → f t ≤ f t') ∧ f ta = 0 ∧ f tb = 1 ∧
      ∀ u, 0 ≤ u → u ≤ 1 / 2 ^ 20 → Precise R u → ∀ t, ta ≤ t → t ≤ tb → |f t - (t - ta) / (tb - ta)| ≤ 4 * u := by
  have hs := (hr.WF hc).sorted
  simp only [curve_knots] at *
  obtain ⟨e1, e2, e3, e4⟩ := C97_alpha R (hrep _ _ ha) (hrep _ _ hb) hab
  obtain ⟨pre, a, b, post, hm, rfl, rfl, rfl, rfl⟩ := exists_segment hs ha hb hab hno
  exact ⟨alpha R a.time b.time, fun t h0 h1 => ⟨(e4 t h0 h1).1, (e4 t h0 h1).2,
    evaluateSlerp_segment R L hs (rep_nodes R hrep) hm h0 h1⟩, e3, e1, e2,
    fun u hu hu1 hP t h0 h1 => alpha_near hP hu hu1 hab h0 h1⟩

/-- C152: on its whole domain a slerp curve with rounded times is near the exact one: no further away than `4 κ u` times
the distance of neighbouring knots. Outside both fail alike. -/
theorem C152_near {d : G → G → K} {κ : K} (hd : Measured L d κ) {u : K} (hu : 0 ≤ u) (hu1 : u ≤ 1 / 2 ^ 20)
    (hP : Precise R u) {D : K} (hD : 0 ≤ D) (hsteps : s.c.knots.IsChain fun x y => d x.2 y.2 ≤ D) (t : K) :
    (s.c.knots ≠ [] ∧ s.c.mgr.getMinTime ≤ t ∧ t ≤ s.c.mgr.getMaxTime →
      ∃ p q, evaluateSlerp R L t s.c.mgr = .ok p ∧ Discrete.evaluate L .slerp t s.c.mgr = .ok q ∧
        d p q ≤ κ * (4 * u * D)) ∧
    (¬(s.c.knots ≠ [] ∧ s.c.mgr.getMinTime ≤ t ∧ t ≤ s.c.mgr.getMaxTime) →
      evaluateSlerp R L t s.c.mgr = Discrete.evaluate L .slerp t s.c.mgr) := by
  have hs := (hr.WF hc).sorted
  simp only [curve_knots] at *
  have hk0 : 0 ≤ κ := zero_le_one.trans hd.one_le
  have hB : 0 ≤ κ * (4 * u * D) := by positivity
  constructor
  · rintro ⟨hne, h0, h1⟩
    by_cases h2 : 2 ≤ s.c.mgr.size
    · obtain ⟨pre, a, b, post, hm, ha, hb, -⟩ := exists_bracket hs h2 h0 h1
      have hab := neighbours_lt hs hm
      refine ⟨_, _, evaluateSlerp_segment R L hs (rep_nodes R hrep) hm ha hb,
        evaluate_segment L (by simp) hs hm ha hb, ?_⟩
      obtain ⟨-, -, -, e4⟩ := C97_alpha R (rep_nodes R hrep a (by simp [hm])) (rep_nodes R hrep b (by simp [hm])) hab
      have hdt : 0 < b.time - a.time := sub_pos.2 hab
      have hx0 : 0 ≤ (t - a.time) / (b.time - a.time) := div_nonneg (sub_nonneg.2 ha) hdt.le
      have hx1 : (t - a.time) / (b.time - a.time) ≤ 1 := (div_le_one hdt).2 (by linarith)
      have hnear := alpha_near hP hu hu1 hab ha hb
      have hAB : d 1 (a.coef⁻¹ * b.coef) ≤ D := by
        have e := hd.left a.coef 1 (a.coef⁻¹ * b.coef)
        rw [mul_one, mul_inv_cancel_left] at e
        rw [← e]
        have := hsteps
        simp only [Mgr.knots, hm, List.map_append, List.map_cons] at this
        rw [List.isChain_append_cons_cons] at this
        exact this.2.1
      have way : ∀ x y : K, 0 ≤ x → x ≤ 1 → 0 ≤ y → y ≤ 1 → |x - y| ≤ 4 * u →
          d (L.exp (x • L.log (a.coef⁻¹ * b.coef))) (L.exp (y • L.log (a.coef⁻¹ * b.coef))) ≤ κ * (4 * u * D) := by
        intro x y hx0 hx1 hy0 hy1 hxy
        have hn := hd.nonneg 1 (a.coef⁻¹ * b.coef)
        rcases le_total x y with h | h
        · refine (hd.way _ x y hx0 h hy1).trans (mul_le_mul_of_nonneg_left (mul_le_mul ?_ hAB hn (by positivity)) hk0)
          have := (abs_le.1 hxy).1
          linarith
        · rw [hd.symm]
          refine (hd.way _ y x hy0 h hx1).trans (mul_le_mul_of_nonneg_left (mul_le_mul ?_ hAB hn (by positivity)) hk0)
          have := (abs_le.1 hxy).2
          linarith
      rw [slerpAt, between, Discrete.slerpAt, hd.left]
      swap
      · simp
      exact way _ _ (e4 t ha hb).1 (e4 t ha hb).2 hx0 hx1 hnear
    · obtain ⟨n, l, hn⟩ := List.exists_cons_of_ne_nil (knots_ne_nil.1 hne)
      obtain rfl : l = [] := by
        rw [Mgr.size, hn] at h2
        cases l with
        | nil => rfl
        | cons x l => simp at h2
      have e1 : s.c.mgr.getMinTime = n.time := by simp [Mgr.getMinTime, hn]
      have e2 : s.c.mgr.getMaxTime = n.time := by simp [Mgr.getMaxTime, hn]
      have ht : t = n.time := le_antisymm (e2 ▸ h1) (e1 ▸ h0)
      have hk : (t, n.coef) ∈ s.c.mgr.knots := by simp [Mgr.knots, hn, ht]
      exact ⟨_, _, evaluateSlerp_knot R L hs (rep_nodes R hrep) hk, evaluate_knot L (by simp) hs hk, by rw [hd.self]; exact hB⟩
  · intro hout
    rw [evaluateSlerp, Discrete.evaluate]
    have hg : s.c.mgr.getCoefficientsAt t = none := by
      cases hg : s.c.mgr.getCoefficientsAt t with
      | none => rfl
      | some p =>
        have := (getAt_isSome_iff hs t).1 (by rw [hg]; rfl)
        refine absurd ⟨?_, this.2⟩ hout
        intro h
        have h' : s.c.mgr.nodes = [] := by simpa [Mgr.knots] using h
        simp [Mgr.size, h'] at this
    simp only [hg]

/-- C152: the expression handed to the optimiser has the value that `evaluate` returns, with rounded times as well. -/
theorem C152_expression (h2 : 2 ≤ s.c.mgr.size) {t : K} (h0 : s.c.mgr.getMinTime ≤ t) (h1 : t ≤ s.c.mgr.getMaxTime) :
    ∃ ex, slerpExpr R L t s.c.mgr = .ok ex ∧
      ex.value L s.c.mgr.getCoefficientByKey = evaluateSlerp R L t s.c.mgr := by
  have hwf := hr.WF hc
  have hs := hwf.sorted
  rw [curve_knots] at hrep
  obtain ⟨pre, a, b, post, hm, ha, hb, e⟩ := exists_bracket hs h2 h0 h1
  have hka := (getByKey_spec hwf (mem_contents.2 ⟨a, by simp [hm], rfl, rfl, rfl⟩)).1
  have hkb := (getByKey_spec hwf (mem_contents.2 ⟨b, by simp [hm], rfl, rfl, rfl⟩)).1
  have hin : ∀ n ∈ s.c.mgr.nodes, evaluateSlerp R L n.time s.c.mgr = .ok n.coef := fun n hn =>
    evaluateSlerp_knot R L hs (rep_nodes R hrep) (List.mem_map.2 ⟨n, hn, rfl⟩)
  rw [slerpExpr, e, evaluateSlerp_segment R L hs (rep_nodes R hrep) hm ha hb, slerpAt]
  simp only
  rw [hin a (by simp [hm]), hin b (by simp [hm])]
  split_ifs with h3 h4
  · refine ⟨_, rfl, ?_⟩
    rw [Expr.value, hka, h3, zero_smul, L.exp_zero, mul_one]
  · refine ⟨_, rfl, ?_⟩
    rw [Expr.value, hkb, h4, one_smul, L.exp_log, mul_inv_cancel_left]
  · refine ⟨_, rfl, ?_⟩
    rw [Expr.value, hka, hkb]
    rfl

end

/-- Steady motion is not kept to the last bit: in `double`, with knots at -1 and 1, the curve arrives before time 1. -/
theorem C152_early : ∃ m : Mgr ℚ (Multiplicative ℚ), m.knots = [(-1, .ofAdd 10), (1, .ofAdd 20)] ∧
    toDouble (1 - 1 / 2 ^ 53 : ℚ) = 1 - 1 / 2 ^ 53 ∧
    evaluateSlerp (double ℚ) (lineMaps ℚ) (1 - 1 / 2 ^ 53) m = .ok (.ofAdd 20) ∧
    Discrete.evaluate (lineMaps ℚ) .slerp (1 - 1 / 2 ^ 53) m ≠ .ok (.ofAdd 20) := by
  refine ⟨⟨[⟨0, -1, 1, .ofAdd 10⟩, ⟨1, 1, 2, .ofAdd 20⟩], [(1, 0), (2, 1)]⟩, by decide +kernel, ?_, ?_, ?_⟩
  all_goals decide +kernel

theorem demo_double : ∀ t v, (t, v) ∈ Discrete.demo.c.knots → (double ℚ).rnd t = t := by
  intro t1 v1 h
  have : ∀ p ∈ Discrete.demo.c.knots, (double ℚ).rnd p.1 = p.1 := by decide +kernel
  exact this _ h

/-- Instances of C152: four knots, in `double`. -/
example := C152_knots (double ℚ) (lineMaps ℚ) (Discrete.demo_reachable .slerp) Discrete.demo_calls demo_double (t := 4) (v := .ofAdd 7)
  (by decide +kernel)

example := C152_expression (double ℚ) (lineMaps ℚ) (Discrete.demo_reachable .slerp) Discrete.demo_calls demo_double (by decide) (t := 5 / 2)
  (by decide +kernel) (by decide +kernel)

example := C152_near (double ℚ) (lineMaps ℚ) (Discrete.demo_reachable .slerp) Discrete.demo_calls demo_double line_measured
  (by norm_num) (by norm_num) precise_double (D := 100) (by norm_num) (by decide +kernel) (5 / 2)

example := C152_between (double ℚ) (lineMaps ℚ) (Discrete.demo_reachable .slerp) Discrete.demo_calls demo_double (ta := 1) (tb := 4)
  (A := .ofAdd 3) (B := .ofAdd 7) (by decide +kernel) (by decide +kernel) (by decide +kernel)
  (by
    intro x v h
    have : x = 0 ∨ x = 1 ∨ x = 4 ∨ x = 6 := by
      simp [Discrete.demo, Policy.Curve.knots, Mgr.contents] at h
      rcases h with h | h | h | h <;> simp [h.1]
    rcases this with rfl | rfl | rfl | rfl <;> norm_num)

end Verif.Rounding

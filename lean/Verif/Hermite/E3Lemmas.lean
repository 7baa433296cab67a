import Verif.Hermite.E3Model
import Verif.Manager.CurveLemmas
import Mathlib.Tactic.Module
import Mathlib.Tactic.FieldSimp
import Mathlib.Tactic.Ring
import Mathlib.Tactic.Linarith
import Mathlib.Analysis.Calculus.Deriv.Shift
import Mathlib.Analysis.Calculus.Deriv.Pow

/-!
# Lemmas about `CubicHermiteE3Curve`
-/

set_option linter.unusedSectionVars false
set_option linter.dupNamespace false

namespace Verif.Hermite

open Verif.Manager

namespace E3

section field
variable {K V : Type} [Field K] [LinearOrder K] [IsStrictOrderedRing K] [AddCommGroup V] [Module K V]

/-! ## Histories -/

theorem step_is_run {debug : Bool} {c c' : E3 K V} {op : Op K V} (e : step debug c op = .ok c') :
    ∃ ops, SafeRun c ops ∧ Manager.run c ops = .ok c' := by
  have hfit : ∀ ts vs d0 dT, (fitCurveWithDerivatives debug ts vs d0 dT c >>= fun r => .ok r.1) = .ok c' →
      ∃ ops, SafeRun c ops ∧ Manager.run c ops = .ok c' := by
    intro ts vs d0 dT e
    obtain ⟨⟨c1, ks⟩, h1, h2⟩ := Outcome.bind_eq_ok.1 e
    cases h2
    unfold fitCurveWithDerivatives at h1
    split at h1
    · cases h1
    · obtain ⟨cs, -, h2⟩ := Outcome.bind_eq_ok.1 h1
      obtain ⟨⟨w, m, ks'⟩, h3, h4⟩ := Outcome.bind_eq_ok.1 h2
      cases h4
      refine ⟨[.insertMany ts cs], ⟨trivial, fun _ _ => trivial⟩, ?_⟩
      simp [Manager.run, Manager.step, h3]
  cases op with
  | fit ts vs => exact hfit ts vs 0 0 e
  | fitDerivatives ts vs d0 dT => exact hfit ts vs d0 dT e
  | fitPeriodic ts vs =>
    simp only [step, fitPeriodicCurve] at e
    split at e
    · cases e
    · obtain ⟨r, h1, h2⟩ := Outcome.bind_eq_ok.1 e
      obtain ⟨ta, -, h1⟩ := Outcome.bind_eq_ok.1 h1
      obtain ⟨tb, -, h1⟩ := Outcome.bind_eq_ok.1 h1
      obtain ⟨va, -, h1⟩ := Outcome.bind_eq_ok.1 h1
      obtain ⟨vb, -, h1⟩ := Outcome.bind_eq_ok.1 h1
      exact hfit ts vs _ _ (by rw [h1]; exact h2)
  | extend ts vs => simp only [step, extend] at e; cases e; exact ⟨[], trivial, rfl⟩
  | clear => cases e; exact ⟨[.clear], ⟨trivial, fun _ _ => trivial⟩, rfl⟩

theorem run_append {s : St K (Knot V)} {a b : List (Manager.Op K (Knot V))} :
    Manager.run s (a ++ b) = (Manager.run s a >>= fun s' => Manager.run s' b) := by
  induction a generalizing s with
  | nil => rfl
  | cons op rest ih =>
    simp only [List.cons_append, Manager.run]
    cases Manager.step s op <;> simp [ih]

theorem safe_append {s s' : St K (Knot V)} {a b : List (Manager.Op K (Knot V))} (ha : SafeRun s a)
    (e : Manager.run s a = .ok s') (hb : SafeRun s' b) : SafeRun s (a ++ b) := by
  induction a generalizing s with
  | nil => simp only [Manager.run] at e; cases e; exact hb
  | cons op rest ih =>
    obtain ⟨s1, h1, h2⟩ := Outcome.bind_eq_ok.1 e
    refine ⟨ha.1, fun s2 h => ?_⟩
    rw [h1] at h; cases h
    exact ih (ha.2 _ h1) h2

theorem run_is_run {debug : Bool} {ops : List (Op K V)} : ∀ {c c' : E3 K V},
    run debug c ops = .ok c' → ∃ l, SafeRun c l ∧ Manager.run c l = .ok c' := by
  induction ops with
  | nil => intro c c' e; simp only [run] at e; cases e; exact ⟨[], trivial, rfl⟩
  | cons op rest ih =>
    intro c c' e
    obtain ⟨c1, h1, h2⟩ := Outcome.bind_eq_ok.1 e
    obtain ⟨l1, s1, r1⟩ := step_is_run h1
    obtain ⟨l2, s2, r2⟩ := ih h2
    exact ⟨l1 ++ l2, safe_append s1 r1 s2, by rw [run_append, r1]; exact r2⟩

theorem Reachable.manager {c : E3 K V} (h : Reachable c) : Manager.Reachable c := by
  obtain ⟨debug, w, ops, e⟩ := h
  obtain ⟨l, hs, hr⟩ := run_is_run e
  exact ⟨w, l, hs, hr⟩

theorem fit_sorted {debug : Bool} {ts : List K} {vs : List V} {d0 dT : V} {c c' : E3 K V}
    {ks : List Key} (hs : Sorted c.m.nodes)
    (e : fitCurveWithDerivatives debug ts vs d0 dT c = .ok (c', ks)) : Sorted c'.m.nodes := by
  unfold fitCurveWithDerivatives at e
  split at e
  · cases e
  · obtain ⟨cs, -, h2⟩ := Outcome.bind_eq_ok.1 e
    obtain ⟨⟨w, m, ks'⟩, h3, h4⟩ := Outcome.bind_eq_ok.1 h2
    cases h4
    exact insertCoefficients_sorted hs h3

theorem step_sorted {debug : Bool} {c c' : E3 K V} {op : Op K V} (hs : Sorted c.m.nodes)
    (e : step debug c op = .ok c') : Sorted c'.m.nodes := by
  cases op with
  | fit ts vs =>
    obtain ⟨⟨c1, ks⟩, h1, h2⟩ := Outcome.bind_eq_ok.1 e
    cases h2; exact fit_sorted hs h1
  | fitDerivatives ts vs d0 dT =>
    obtain ⟨⟨c1, ks⟩, h1, h2⟩ := Outcome.bind_eq_ok.1 e
    cases h2; exact fit_sorted hs h1
  | fitPeriodic ts vs =>
    simp only [step, fitPeriodicCurve] at e
    split at e
    · cases e
    · obtain ⟨r, h1, h2⟩ := Outcome.bind_eq_ok.1 e
      obtain ⟨ta, -, h1⟩ := Outcome.bind_eq_ok.1 h1
      obtain ⟨tb, -, h1⟩ := Outcome.bind_eq_ok.1 h1
      obtain ⟨va, -, h1⟩ := Outcome.bind_eq_ok.1 h1
      obtain ⟨vb, -, h1⟩ := Outcome.bind_eq_ok.1 h1
      cases h2; exact fit_sorted hs h1
  | extend ts vs => simp only [step, extend] at e; cases e; exact hs
  | clear => cases e; simp [clear, Mgr.clear, Sorted]

/-- Every curve a program can hold has strictly increasing knot times. -/
theorem Reachable.sorted {c : E3 K V} (h : Reachable c) : Sorted c.m.nodes := by
  obtain ⟨debug, w, ops, e⟩ := h
  have : ∀ (ops : List (Op K V)) (c0 c : E3 K V), Sorted c0.m.nodes → run debug c0 ops = .ok c →
      Sorted c.m.nodes := by
    intro ops
    induction ops with
    | nil => intro c0 c hs e; simp only [run] at e; cases e; exact hs
    | cons op rest ih =>
      intro c0 c hs e
      obtain ⟨c1, h1, h2⟩ := Outcome.bind_eq_ok.1 e
      exact ih c1 c (step_sorted hs h1) h2
  exact this ops _ c (by simp [fresh, Mgr.empty, Sorted]) e

/-! ## The formulas at the knots -/

theorem interpolate_left (a b : Node K (Knot V)) : interpolate a b a.time = a.coef.position := by
  simp [interpolate]

theorem interpolate_right {a b : Node K (Knot V)} (h : a.time < b.time) :
    interpolate a b b.time = b.coef.position := by
  have : b.time - a.time ≠ 0 := (sub_pos.2 h).ne'
  simp only [interpolate, div_self this]
  norm_num

theorem velocity_left (a b : Node K (Knot V)) :
    interpolateVelocity a b a.time = a.coef.velocity := by
  simp [interpolateVelocity]

theorem velocity_right {a b : Node K (Knot V)} (h : a.time < b.time) :
    interpolateVelocity a b b.time = b.coef.velocity := by
  have : b.time - a.time ≠ 0 := (sub_pos.2 h).ne'
  simp only [interpolateVelocity, div_self this]
  norm_num

theorem evaluate_between {c : E3 K V} (hs : Sorted c.m.nodes) {pre post : List (Node K (Knot V))}
    {a b : Node K (Knot V)} (hm : c.m.nodes = pre ++ a :: b :: post) {t : K} (h0 : a.time ≤ t)
    (h1 : t ≤ b.time) : evaluate t c = .ok (some (interpolate a b t)) := by
  rw [evaluate, if_neg (not_single hs hm t)]
  rcases getAt_between hs hm h0 h1 with h | ⟨x, -, rfl, -, h⟩
  · rw [h]
  · rw [h]
    simp only
    rw [interpolate_left, interpolate_right (neighbours_lt hs hm)]

theorem velocity_between {c : E3 K V} (hs : Sorted c.m.nodes) {pre post : List (Node K (Knot V))}
    {a b : Node K (Knot V)} (hm : c.m.nodes = pre ++ a :: b :: post) {t : K} (h0 : a.time ≤ t)
    (h1 : t ≤ b.time) : evaluateDerivative t 1 c = .ok (some (interpolateVelocity a b t)) := by
  rw [evaluateDerivative, if_pos rfl, if_neg (not_single hs hm t)]
  rcases getAt_between hs hm h0 h1 with h | ⟨x, -, rfl, -, h⟩
  · rw [h]
  · rw [h]
    simp only
    rw [velocity_left, velocity_right (neighbours_lt hs hm)]

theorem acceleration_between {c : E3 K V} (hs : Sorted c.m.nodes) {pre post : List (Node K (Knot V))}
    {a b : Node K (Knot V)} (hm : c.m.nodes = pre ++ a :: b :: post) {t : K} (h0 : a.time ≤ t)
    (h1 : t < b.time) : evaluateLinearAcceleration t c = .ok (some (interpolateAcceleration a b t)) := by
  rw [evaluateLinearAcceleration, getAt_interior hs hm h0 h1]

theorem linear_position {a b : Node K (Knot V)} (h : a.time < b.time) {p q : V}
    (ea : a.coef = ⟨p + a.time • q, q⟩) (eb : b.coef = ⟨p + b.time • q, q⟩) (t : K) :
    interpolate a b t = p + t • q := by
  have hne : b.time - a.time ≠ 0 := (sub_pos.2 h).ne'
  simp only [interpolate, ea, eb]
  match_scalars
  · ring
  · field_simp
    ring

theorem linear_velocity {a b : Node K (Knot V)} (h : a.time < b.time) {p q : V}
    (ea : a.coef = ⟨p + a.time • q, q⟩) (eb : b.coef = ⟨p + b.time • q, q⟩) (t : K) :
    interpolateVelocity a b t = q := by
  have hne : b.time - a.time ≠ 0 := (sub_pos.2 h).ne'
  simp only [interpolateVelocity, ea, eb]
  match_scalars
  · ring
  · field_simp
    ring

theorem linear_acceleration {a b : Node K (Knot V)} (h : a.time < b.time) {p q : V}
    (ea : a.coef = ⟨p + a.time • q, q⟩) (eb : b.coef = ⟨p + b.time • q, q⟩) (t : K) :
    interpolateAcceleration a b t = 0 := by
  have hne : b.time - a.time ≠ 0 := (sub_pos.2 h).ne'
  simp only [interpolateAcceleration, ea, eb]
  match_scalars
  · ring
  · field_simp
    ring

/-- Evaluation of two curves whose knots have the same times and related values. -/
theorem evaluate_related {c c' : E3 K V} (hs : Sorted c.m.nodes) {f : Knot V → Knot V} {g g1 g2 : V → V}
    (h : c'.m.knots = c.m.knots.map fun p => (p.1, f p.2))
    (hf : ∀ k, (f k).position = g k.position) (hf1 : ∀ k, (f k).velocity = g1 k.velocity)
    (hg : ∀ (a b a' b' : Node K (Knot V)) t, a'.time = a.time → b'.time = b.time → a'.coef = f a.coef →
      b'.coef = f b.coef → interpolate a' b' t = g (interpolate a b t) ∧
      interpolateVelocity a' b' t = g1 (interpolateVelocity a b t) ∧
      interpolateAcceleration a' b' t = g2 (interpolateAcceleration a b t)) (t : K) :
    evaluate t c' = (evaluate t c >>= fun r => .ok (r.map g)) ∧
    evaluateDerivative t 1 c' = (evaluateDerivative t 1 c >>= fun r => .ok (r.map g1)) ∧
    evaluateDerivative t 2 c' = (evaluateDerivative t 2 c >>= fun r => .ok (r.map g2)) := by
  have hh : c'.m.nodes.head?.map (·.coef) = c.m.nodes.head?.map fun n => f n.coef := by
    have := congrArg (fun l => l.head?.map Prod.snd) h
    simpa [Mgr.knots, Function.comp_def] using this
  have key := related_getAt h hs t
  simp only [evaluate, evaluateDerivative, evaluateLinearAcceleration, related_min h, related_max h,
    if_true, show (2 : Nat) ≠ 1 by decide, if_false]
  refine ⟨?_, ?_, ?_⟩
  · split
    · cases h1 : c.m.nodes.head? <;> cases h2 : c'.m.nodes.head? <;> simp [h1, h2] at hh ⊢
      rw [hh, hf]
    · rcases key with ⟨e, e'⟩ | ⟨a, b, a', b', e, e', h1, h2, h3, h4⟩
      · rw [e, e']; rfl
      · rw [e, e']
        simp [hg a b a' b' t h1 h2 h3 h4]
  · split
    · cases h1 : c.m.nodes.head? <;> cases h2 : c'.m.nodes.head? <;> simp [h1, h2] at hh ⊢
      rw [hh, hf1]
    · rcases key with ⟨e, e'⟩ | ⟨a, b, a', b', e, e', h1, h2, h3, h4⟩
      · rw [e, e']; rfl
      · rw [e, e']
        simp [hg a b a' b' t h1 h2 h3 h4]
  · rcases key with ⟨e, e'⟩ | ⟨a, b, a', b', e, e', h1, h2, h3, h4⟩
    · rw [e, e']; rfl
    · rw [e, e']
      simp [hg a b a' b' t h1 h2 h3 h4]

/-! ## Fitting -/

theorem fitLoop_ok (ts : List K) (vs : List V) (d0 dT : V) (hl : ts.length ≤ vs.length) :
    ∀ n i, ∀ _ : i + n = ts.length, ∃ cs, fitLoop ts vs d0 dT n i = .ok cs ∧ ∃ hc : cs.length = n,
      ∀ j (hj : j < n), ∃ k : Knot V, cs[j] = k ∧
        k.position = vs[i + j]'(by omega) ∧ (i + j = 0 → k.velocity = d0) ∧
        (i + j ≠ 0 → i + j = ts.length - 1 → k.velocity = dT) ∧
        ∀ (_ : i + j ≠ 0) (_ : i + j ≠ ts.length - 1), k.velocity =
          calculateSlope (ts[i + j - 1]'(by omega)) (ts[i + j + 1]'(by omega))
            (vs[i + j - 1]'(by omega)) (vs[i + j + 1]'(by omega)) := by
  intro n
  induction n with
  | zero => intro i _; exact ⟨[], rfl, rfl, fun j hj => absurd hj (by omega)⟩
  | succ n ih =>
    intro i hi
    obtain ⟨cs, e, hc, h⟩ := ih (i + 1) (by omega)
    have hk : ∃ d, knotDerivative ts vs d0 dT i = .ok d ∧ (i = 0 → d = d0) ∧
        (i ≠ 0 → i = ts.length - 1 → d = dT) ∧ ∀ (_ : i ≠ 0) (_ : i ≠ ts.length - 1), d =
          calculateSlope (ts[i - 1]'(by omega)) (ts[i + 1]'(by omega))
            (vs[i - 1]'(by omega)) (vs[i + 1]'(by omega)) := by
      unfold knotDerivative
      by_cases h0 : i = 0
      · exact ⟨d0, by rw [if_pos h0], fun _ => rfl, fun h => absurd h0 h, fun h => absurd h0 h⟩
      · by_cases h1 : i = ts.length - 1
        · exact ⟨dT, by rw [if_neg h0, if_pos h1], fun h => absurd h h0, fun _ _ => rfl,
            fun _ h => absurd h1 h⟩
        · refine ⟨calculateSlope (ts[i - 1]'(by omega)) (ts[i + 1]'(by omega))
            (vs[i - 1]'(by omega)) (vs[i + 1]'(by omega)), ?_, fun h => absurd h h0,
            fun _ h => absurd h h1, fun _ _ => rfl⟩
          rw [if_neg h0, if_neg h1, List.getElem?_eq_getElem (by omega),
            List.getElem?_eq_getElem (by omega), List.getElem?_eq_getElem (by omega),
            List.getElem?_eq_getElem (by omega)]
          rfl
    obtain ⟨d, ed, k1, k2, k3⟩ := hk
    refine ⟨⟨vs[i]'(by omega), d⟩ :: cs, ?_, by simp [hc], ?_⟩
    · rw [fitLoop, ed, List.getElem?_eq_getElem (by omega : i < vs.length), e]
      rfl
    · intro j hj
      cases j with
      | zero => exact ⟨_, rfl, rfl, k1, k2, k3⟩
      | succ j =>
        obtain ⟨k, q1, q2, q3, q4, q5⟩ := h j (by omega)
        have hij : i + (j + 1) = i + 1 + j := by omega
        refine ⟨k, q1, ?_, ?_, ?_, ?_⟩
        · simp only [hij]; exact q2
        · simp only [hij]; exact q3
        · simp only [hij]; exact q4
        · simp only [hij]; exact q5

end field

/-! ## Derivatives -/

section real
variable {V : Type} [NormedAddCommGroup V] [NormedSpace ℝ V]

theorem hasDerivAt_interpolate (a b : Node ℝ (Knot V)) (h : a.time < b.time) (t : ℝ) :
    HasDerivAt (interpolate a b) (interpolateVelocity a b t) t := by
  have hd : b.time - a.time ≠ 0 := (sub_pos.2 h).ne'
  set dt := b.time - a.time with hdt
  have hα : HasDerivAt (fun s => (s - a.time) / dt) (1 / dt) t :=
    ((hasDerivAt_id t).sub_const _).div_const dt
  set α := (t - a.time) / dt with hα'
  have h2 : HasDerivAt (fun s => (s - a.time) / dt * ((s - a.time) / dt)) (2 * α * (1 / dt)) t :=
    (hα.mul hα).congr_deriv (by ring)
  have h3 : HasDerivAt (fun s => (s - a.time) / dt * ((s - a.time) / dt) * ((s - a.time) / dt))
      (3 * (α * α) * (1 / dt)) t := (h2.mul hα).congr_deriv (by ring)
  have e0 := (((h3.const_mul 2).sub (h2.const_mul 3)).add_const 1).smul_const a.coef.position
  have e1 := ((h3.const_mul (-2)).add (h2.const_mul 3)).smul_const b.coef.position
  have e2 := ((((h3.sub (h2.const_mul 2)).add hα)).mul_const dt).smul_const a.coef.velocity
  have e3 := ((h3.sub h2).mul_const dt).smul_const b.coef.velocity
  refine (((e0.add e1).add e2).add e3).congr_deriv ?_
  simp only [interpolateVelocity, ← hdt, ← hα']
  have q2 : (3 * (α * α) * (1 / dt) - 2 * (2 * α * (1 / dt)) + 1 / dt) * dt =
      3 * (α * α) - 4 * α + 1 := by field_simp; ring
  have q3 : (3 * (α * α) * (1 / dt) - 2 * α * (1 / dt)) * dt = 3 * (α * α) - 2 * α := by
    field_simp
  rw [q2, q3]
  module

theorem hasDerivAt_velocity (a b : Node ℝ (Knot V)) (t : ℝ) :
    HasDerivAt (interpolateVelocity a b) (interpolateAcceleration a b t) t := by
  set dt := b.time - a.time with hdt
  have hα : HasDerivAt (fun s => (s - a.time) / dt) (1 / dt) t :=
    ((hasDerivAt_id t).sub_const _).div_const dt
  set α := (t - a.time) / dt with hα'
  have h2 : HasDerivAt (fun s => (s - a.time) / dt * ((s - a.time) / dt)) (2 * α * (1 / dt)) t :=
    (hα.mul hα).congr_deriv (by ring)
  have e0 := (((h2.sub hα).const_mul 6).mul_const (1 / dt)).smul_const a.coef.position
  have e1 := (((h2.const_mul 3).sub (hα.const_mul 4)).add_const 1).smul_const a.coef.velocity
  have e2 := (((hα.sub h2).const_mul 6).mul_const (1 / dt)).smul_const b.coef.position
  have e3 := ((h2.const_mul 3).sub (hα.const_mul 2)).smul_const b.coef.velocity
  refine (((e0.add e1).add e2).add e3).congr_deriv ?_
  simp only [interpolateAcceleration, ← hdt, ← hα']
  module

end real

end E3

/-- Gluing along the knots: what holds on every segment and is kept by gluing two intervals at a common
end holds on the whole domain. -/
theorem glue {Q : Set ℝ → Prop}
    (hu : ∀ a b c : ℝ, a ≤ b → b ≤ c → Q (Set.Icc a b) → Q (Set.Icc b c) → Q (Set.Icc a c)) :
    ∀ (l : List ℝ) (x y : ℝ), (x :: y :: l).Pairwise (· < ·) →
      (∀ pre a b post, x :: y :: l = pre ++ a :: b :: post → Q (Set.Icc a b)) →
      Q (Set.Icc x ((y :: l).getLast (by simp))) := by
  intro l
  induction l with
  | nil => intro x y _ h; exact h [] x y [] rfl
  | cons z l ih =>
    intro x y hp h
    have h1 := h [] x y (z :: l) rfl
    have h2 := ih y z hp.of_cons (fun pre a b post e => h (x :: pre) a b post (by rw [e]; rfl))
    rw [List.getLast_cons (by simp)]
    refine hu x y _ ?_ ?_ h1 h2
    · exact ((List.pairwise_cons.1 hp).1 y (by simp)).le
    · exact ((List.pairwise_cons.1 hp.of_cons).1 _ (List.getLast_mem _)).le

theorem glue_deriv {V : Type} [NormedAddCommGroup V] [NormedSpace ℝ V] (f f' : ℝ → V) (a b c : ℝ)
    (hab : a ≤ b) (hbc : b ≤ c)
    (h1 : ∀ t ∈ Set.Icc a b, HasDerivWithinAt f (f' t) (Set.Icc a b) t)
    (h2 : ∀ t ∈ Set.Icc b c, HasDerivWithinAt f (f' t) (Set.Icc b c) t) :
    ∀ t ∈ Set.Icc a c, HasDerivWithinAt f (f' t) (Set.Icc a c) t := by
  intro t _
  rw [← Set.Icc_union_Icc_eq_Icc hab hbc]
  refine HasDerivWithinAt.union ?_ ?_
  · by_cases h : t ∈ Set.Icc a b
    · exact h1 t h
    · exact hasDerivWithinAt_iff_hasFDerivWithinAt.2 (HasFDerivWithinAt.of_notMem_closure <| by rwa [isClosed_Icc.closure_eq])
  · by_cases h : t ∈ Set.Icc b c
    · exact h2 t h
    · exact hasDerivWithinAt_iff_hasFDerivWithinAt.2 (HasFDerivWithinAt.of_notMem_closure <| by rwa [isClosed_Icc.closure_eq])

theorem glue_cont {V : Type} [TopologicalSpace V] (f : ℝ → V) (a b c : ℝ) (hab : a ≤ b) (hbc : b ≤ c)
    (h1 : ContinuousOn f (Set.Icc a b)) (h2 : ContinuousOn f (Set.Icc b c)) :
    ContinuousOn f (Set.Icc a c) := by
  rw [← Set.Icc_union_Icc_eq_Icc hab hbc]
  exact h1.union_of_isClosed h2 isClosed_Icc isClosed_Icc

end Verif.Hermite

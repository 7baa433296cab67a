import Verif.Hermite.ExtendProps
import Verif.PolyCurve.LengthProps
import Verif.Discrete.OutcomeProps

/-!
# Property C130: exactly how each call of a Hermite curve ends

For every reachable curve and every call: whether it returns, throws, aborts, or is undefined behaviour.
-/

set_option linter.unusedSectionVars false
set_option linter.dupNamespace false

namespace Verif.Hermite

open Verif.Manager Verif.Kindr
open Verif.Discrete (Ends ends_intro ends_bind)

/-! ## `CubicHermiteE3Curve` -/

section e3
variable {K V : Type} [Field K] [LinearOrder K] [IsStrictOrderedRing K] [AddCommGroup V] [Module K V]

theorem deref_some {α : Type} {l : List α} {i : Nat} (h : i < l.length) : Outcome.deref l[i]? = .ok (l[i]) := by
  simp [Outcome.deref, h]

theorem deref_none {α : Type} {l : List α} {i : Nat} (h : l.length ≤ i) : Outcome.deref l[i]? = .ub := by
  simp [Outcome.deref, h]

theorem fill_ends {T C : Type} [LinearOrder T] [Zero T] {s : St T C} (hr : Manager.Reachable s) (ts : List T) (vs : List C)
    (hc : s.w.calls + ts.length + 1 < 2 ^ 64) :
    Ends (s.m.insertCoefficients s.w ts vs) (ts.length = vs.length) False := by
  obtain ⟨h1, h2⟩ := C03_batch_insert hr ts vs hc
  refine ends_intro (fun h => ?_) (fun h => h.elim) (fun h _ => h1 h) (fun _ h => h)
  obtain ⟨w', m', ks, e, -⟩ := h2 h
  exact ⟨_, e⟩

/-- C130, fits of a `CubicHermiteE3Curve`. With `assert` a fit returns exactly for lists of equal length and aborts
otherwise. Without it the fit returns exactly when there are values for all times and is undefined behaviour otherwise:
it never aborts. -/
theorem C130_e3_fit {c : E3 K V} (hr : E3.Reachable c) (debug : Bool) (ts : List K) (vs : List V)
    (hc : c.w.calls + ts.length + 1 < 2 ^ 64) (d0 dT : V) :
    Ends (E3.fitCurveWithDerivatives debug ts vs d0 dT c)
      (ts.length = vs.length ∨ (debug = false ∧ ts.length ≤ vs.length)) (debug = false ∧ vs.length < ts.length) := by
  have good : ts.length ≤ vs.length → ¬(debug = true ∧ ts.length ≠ vs.length) →
      ∃ r, E3.fitCurveWithDerivatives debug ts vs d0 dT c = .ok r := by
    intro h h'
    rw [E3.fitCurveWithDerivatives, if_neg h']
    obtain ⟨cs, e, hl, -⟩ := E3.fitLoop_ok ts vs d0 dT h ts.length 0 (by omega)
    obtain ⟨r, e'⟩ := (fill_ends hr.manager ts cs hc).1.mpr (by omega)
    rw [e, Outcome.ok_bind, e']
    exact ⟨_, rfl⟩
  refine ends_intro (fun h => ?_) (fun h => ?_) (fun h h' => ?_) (fun h h' => ?_)
  · rcases h with h | ⟨h, h'⟩
    · exact good (by omega) (by simp [h])
    · exact good h' (by simp [h])
  · obtain ⟨rfl, h⟩ := h
    exact (PolyCurve.C108_e3_release (by omega) d0 dT c).2.1 h
  · have hne : ts.length ≠ vs.length := fun e => h (.inl e)
    have hd : debug = true := by
      cases debug
      · exact absurd (lt_of_not_ge fun h1 => h (.inr ⟨rfl, h1⟩)) (fun h1 => h' ⟨rfl, h1⟩)
      · rfl
    subst hd
    exact (PolyCurve.C108_e3_release hne d0 dT c).1
  · rcases h with h | ⟨-, h⟩ <;> exact absurd h'.2 (by omega)

/-- C130, periodic fits of a `CubicHermiteE3Curve`. The slope at the ends is computed before the lengths are compared:
fewer than two times, or no value for the second or the last but one time, is undefined behaviour with or without
`assert`. -/
theorem C130_e3_periodic {c : E3 K V} (hr : E3.Reachable c) (debug : Bool) (ts : List K) (vs : List V)
    (hc : c.w.calls + ts.length + 1 < 2 ^ 64) :
    Ends (E3.fitPeriodicCurve debug ts vs c)
      (2 ≤ ts.length ∧ (ts.length = vs.length ∨ (debug = false ∧ ts.length ≤ vs.length)))
      (ts.length < 2 ∨ vs.length ≤ max (ts.length - 2) 1 ∧ vs.length < ts.length ∨
        debug = false ∧ vs.length < ts.length) := by
  unfold E3.fitPeriodicCurve
  by_cases h2 : ts.length < 2
  · rw [if_pos h2]
    exact ends_intro (fun h => by omega) (fun _ => rfl) (fun _ h => absurd (.inl h2) h) (fun h => by omega)
  rw [if_neg h2, deref_some (by omega : ts.length - 2 < ts.length), Outcome.ok_bind,
    deref_some (by omega : 1 < ts.length), Outcome.ok_bind]
  by_cases h3 : vs.length ≤ max (ts.length - 2) 1
  · have hlt : vs.length < ts.length := by omega
    have hub : ∀ f : V → V → Outcome (E3 K V × List Key),
        (Outcome.deref vs[ts.length - 2]? >>= fun va => Outcome.deref vs[1]? >>= fun vb => f va vb) = .ub := by
      intro f
      by_cases h4 : vs.length ≤ ts.length - 2
      · rw [deref_none h4]; rfl
      · rw [deref_some (by omega), Outcome.ok_bind, deref_none (by omega)]; rfl
    rw [hub]
    exact ends_intro (fun h => by omega) (fun _ => rfl) (fun _ h => absurd (.inr (.inl ⟨h3, hlt⟩)) h) (fun h => by omega)
  · rw [deref_some (by omega : ts.length - 2 < vs.length), Outcome.ok_bind, deref_some (by omega : 1 < vs.length),
      Outcome.ok_bind]
    have := C130_e3_fit hr debug ts vs hc (E3.calculateSlope ts[ts.length - 2] ts[1] vs[ts.length - 2] vs[1])
      (E3.calculateSlope ts[ts.length - 2] ts[1] vs[ts.length - 2] vs[1])
    rw [show (2 ≤ ts.length ∧ (ts.length = vs.length ∨ (debug = false ∧ ts.length ≤ vs.length))) ↔
      (ts.length = vs.length ∨ (debug = false ∧ ts.length ≤ vs.length)) from ⟨And.right, fun h => ⟨by omega, h⟩⟩,
      show (ts.length < 2 ∨ vs.length ≤ max (ts.length - 2) 1 ∧ vs.length < ts.length ∨
        debug = false ∧ vs.length < ts.length) ↔ (debug = false ∧ vs.length < ts.length) from
        ⟨fun h => by rcases h with h | h | h; exacts [absurd h h2, absurd h.1 h3, h], fun h => .inr (.inr h)⟩]
    exact this

/-- C130, reading a `CubicHermiteE3Curve`: a call never aborts or throws. The position and the first derivative are
undefined behaviour exactly on an empty curve at time zero; derivatives of other orders always return. -/
theorem C130_e3_reads {c : E3 K V} (hr : E3.Reachable c) (t : K) (order : ℕ) :
    Ends (E3.evaluate t c) (c.m.knots ≠ [] ∨ t ≠ 0) (c.m.knots = [] ∧ t = 0) ∧
    Ends (E3.evaluateDerivative t order c) (order ≠ 1 ∨ c.m.knots ≠ [] ∨ t ≠ 0)
      (order = 1 ∧ c.m.knots = [] ∧ t = 0) ∧
    ∃ r, E3.evaluateLinearAcceleration t c = .ok r := by
  have hacc : ∃ r, E3.evaluateLinearAcceleration t c = .ok r := by
    unfold E3.evaluateLinearAcceleration
    split <;> exact ⟨_, rfl⟩
  refine ⟨ends_intro (fun h => ?_) (fun h => ?_) (fun h h' => by tauto) (fun h => by tauto),
    ends_intro (fun h => ?_) (fun h => ?_) (fun h h' => by tauto) (fun h => by tauto), hacc⟩
  · obtain ⟨⟨r, e, -⟩, -⟩ := E3.C34_domain_partial hr t h
    exact ⟨r, e⟩
  · obtain ⟨h, rfl⟩ := h
    exact (E3.C34_refuted c h).1
  · by_cases h1 : order = 1
    · subst h1
      obtain ⟨-, r, e, -⟩ := E3.C34_domain_partial hr t (h.resolve_left (fun h => h rfl))
      exact ⟨r, e⟩
    · rw [E3.evaluateDerivative, if_neg h1]
      split
      · exact hacc
      · exact ⟨_, rfl⟩
  · obtain ⟨rfl, h, rfl⟩ := h
    exact (E3.C34_refuted c h).2

end e3

/-! ## `CubicHermiteSE3Curve` -/

section se3

theorem upd_steps {w : World} {m m' : Mgr ℝ HKnot} {k : Key} {x : HKnot} (h : m.updateCoefficientByKey k x = .ok m') :
    Steps ⟨w, m⟩ ⟨w, m'⟩ :=
  Steps.one (op := .updKey k x) trivial (by simp [Manager.step, h])

theorem rem_steps {w : World} {m m' : Mgr ℝ HKnot} {t : ℝ} (h : m.removeCoefficientAtTime t = .ok m') :
    Steps ⟨w, m⟩ ⟨w, m'⟩ :=
  Steps.one (op := .removeAt t) trivial (by simp [Manager.step, h])

theorem insert_steps' {p p' : HPol} {c c' : SE3} {t : ℝ} {k : HKnot} (h : HPol.insert p c t k = .ok (p', c')) :
    Steps c c' := by
  obtain ⟨⟨w1, m1, k1⟩, h1, h2⟩ := Outcome.bind_eq_ok.1 h
  cases h2
  exact Manager.insert_steps h1

theorem default_steps {L : LogMap} {p p' : HPol} {c c' : SE3} {t : ℝ} {v : Pose}
    (h : HPol.defaultExtend L p c t v = .ok (p', c')) : Steps c c' := by
  unfold HPol.defaultExtend at h
  simp only at h
  split at h
  · exact insert_steps' h
  · split at h
    · obtain ⟨n, -, h⟩ := Outcome.bind_eq_ok.1 h
      obtain ⟨m, h1, h⟩ := Outcome.bind_eq_ok.1 h
      refine Steps.trans (s' := ⟨c.w, m⟩) ?_ (insert_steps' h)
      exact upd_steps h1
    · obtain ⟨n, -, h⟩ := Outcome.bind_eq_ok.1 h
      obtain ⟨r, -, h⟩ := Outcome.bind_eq_ok.1 h
      obtain ⟨m, h1, h⟩ := Outcome.bind_eq_ok.1 h
      refine Steps.trans (s' := ⟨c.w, m⟩) ?_ (insert_steps' h)
      exact upd_steps h1

theorem extendOne_steps {L : LogMap} {p p' : HPol} {c c' : SE3} {t : ℝ} {v : Pose}
    (h : HPol.extendOne L p c t v = .ok (p', c')) : Steps c c' := by
  unfold HPol.extendOne at h
  split at h
  · cases h
  · split at h
    · exact default_steps h
    · split at h
      · obtain ⟨n, -, h⟩ := Outcome.bind_eq_ok.1 h
        obtain ⟨m, h1, h⟩ := Outcome.bind_eq_ok.1 h
        refine Steps.trans (s' := ⟨c.w, m⟩) ?_ (default_steps h)
        exact rem_steps h1
      · unfold HPol.interpolationExtend at h
        simp only at h
        split at h
        · obtain ⟨n, -, h⟩ := Outcome.bind_eq_ok.1 h
          exact insert_steps' h
        · obtain ⟨n, -, h⟩ := Outcome.bind_eq_ok.1 h
          obtain ⟨r, -, h⟩ := Outcome.bind_eq_ok.1 h
          obtain ⟨m, h1, h⟩ := Outcome.bind_eq_ok.1 h
          split at h
          · cases h
          · refine Steps.trans (s' := ⟨c.w, m⟩) ?_ (insert_steps' h)
            exact rem_steps h1

theorem policyExtend_steps {L : LogMap} (ts : List ℝ) : ∀ {vs : List Pose} {p p' : HPol} {c c' : SE3},
    HPol.extend L p c ts vs = .ok (p', c') → Steps c c' := by
  induction ts with
  | nil => intro vs p p' c c' h; rw [HPol.extend] at h; cases h; exact Steps.refl _
  | cons t ts ih =>
    intro vs p p' c c' h
    cases vs with
    | nil => rw [HPol.extend] at h; cases h
    | cons v vs =>
      rw [HPol.extend] at h
      obtain ⟨⟨p1, c1⟩, h1, h2⟩ := Outcome.bind_eq_ok.1 h
      exact (extendOne_steps h1).trans (ih h2)

theorem fit_steps' {L : LogMap} {ts : List ℝ} {vs : List Pose} {d0 dT : Twist} {c c' : SE3} {ks : List Key}
    (h : SE3.fitCurveWithDerivatives L ts vs d0 dT c = .ok (c', ks)) : Steps c c' := by
  unfold SE3.fitCurveWithDerivatives at h
  split at h
  · cases h
  · obtain ⟨cs, -, h⟩ := Outcome.bind_eq_ok.1 h
    obtain ⟨⟨w, m, ks'⟩, h1, h⟩ := Outcome.bind_eq_ok.1 h
    cases h
    exact (Manager.clear_steps c.w c.m).trans (Manager.insertMany_steps h1)

theorem SE3.step_steps {L : LogMap} {c c' : SE3} {op : SE3.Op} (h : SE3.step L c op = .ok c') : Steps c c' := by
  cases op with
  | fit ts vs =>
    obtain ⟨⟨c1, ks⟩, h1, h2⟩ := Outcome.bind_eq_ok.1 h
    cases h2; exact fit_steps' h1
  | fitDerivatives ts vs d0 dT =>
    obtain ⟨⟨c1, ks⟩, h1, h2⟩ := Outcome.bind_eq_ok.1 h
    cases h2; exact fit_steps' h1
  | fitPeriodic ts vs =>
    obtain ⟨⟨c1, ks⟩, h1, h2⟩ := Outcome.bind_eq_ok.1 h
    cases h2
    unfold SE3.fitPeriodicCurve at h1
    split at h1
    · cases h1
    · obtain ⟨ta, -, h1⟩ := Outcome.bind_eq_ok.1 h1
      obtain ⟨tb, -, h1⟩ := Outcome.bind_eq_ok.1 h1
      obtain ⟨va, -, h1⟩ := Outcome.bind_eq_ok.1 h1
      obtain ⟨vb, -, h1⟩ := Outcome.bind_eq_ok.1 h1
      exact fit_steps' h1
  | extend ts vs => simp only [SE3.step, SE3.extend] at h; cases h
  | extendWith p ts vs =>
    obtain ⟨⟨p1, c1⟩, h1, h2⟩ := Outcome.bind_eq_ok.1 h
    cases h2; exact policyExtend_steps ts h1
  | transform T => simp only [SE3.step, SE3.transformCurve] at h; cases h; exact Steps.refl _
  | clear => cases h; exact Manager.clear_steps c.w c.m

theorem SE3.Reachable.manager {L : LogMap} {c : SE3} (h : SE3.Reachable L c) : Manager.Reachable c := by
  obtain ⟨w, ops, -, e⟩ := h
  have : ∀ (ops : List SE3.Op) (c0 c : SE3), SE3.run L c0 ops = .ok c → Steps c0 c := by
    intro ops
    induction ops with
    | nil => intro c0 c e; simp only [SE3.run] at e; cases e; exact Steps.refl _
    | cons op rest ih =>
      intro c0 c e
      obtain ⟨c1, h1, h2⟩ := Outcome.bind_eq_ok.1 e
      exact (SE3.step_steps h1).trans (ih c1 c h2)
  exact (this ops _ c e).reachable ⟨w, [], trivial, rfl⟩

/-- C130, fits of a `CubicHermiteSE3Curve`: they return exactly for lists of equal length and abort otherwise. -/
theorem C130_se3_fit (L : LogMap) {c : SE3} (hr : SE3.Reachable L c) (ts : List ℝ) (vs : List Pose)
    (hc : c.w.calls + ts.length + 1 < 2 ^ 64) (d0 dT : Twist) :
    Ends (SE3.fitCurveWithDerivatives L ts vs d0 dT c) (ts.length = vs.length) False := by
  refine ends_intro (fun h => ?_) (fun h => h.elim) (fun h _ => ?_) (fun _ h => h)
  · rw [SE3.fitCurveWithDerivatives, if_neg (by simp [h])]
    obtain ⟨cs, e, hl, -⟩ := SE3.fitLoop_ok L ts vs d0 dT h.le ts.length 0 (by omega)
    have hcl : Manager.Reachable c.clear := (Manager.clear_steps c.w c.m).reachable hr.manager
    obtain ⟨r, e'⟩ := (fill_ends hcl ts cs hc).1.mpr (by omega)
    simp only [e, Outcome.ok_bind, e']
    exact ⟨_, rfl⟩
  · rw [SE3.fitCurveWithDerivatives, if_pos h]

/-- C130, periodic fits of a `CubicHermiteSE3Curve`: undefined behaviour exactly with fewer than two times or without a
value for the second or the last but one time; otherwise as the other fits. -/
theorem C130_se3_periodic (L : LogMap) {c : SE3} (hr : SE3.Reachable L c) (ts : List ℝ) (vs : List Pose)
    (hc : c.w.calls + ts.length + 1 < 2 ^ 64) :
    Ends (SE3.fitPeriodicCurve L ts vs c) (2 ≤ ts.length ∧ ts.length = vs.length)
      (ts.length < 2 ∨ vs.length ≤ max (ts.length - 2) 1 ∧ vs.length < ts.length) := by
  unfold SE3.fitPeriodicCurve
  by_cases h2 : ts.length < 2
  · rw [if_pos h2]
    exact ends_intro (fun h => by omega) (fun _ => rfl) (fun _ h => absurd (.inl h2) h) (fun h => by omega)
  rw [if_neg h2, deref_some (by omega : ts.length - 2 < ts.length), Outcome.ok_bind,
    deref_some (by omega : 1 < ts.length), Outcome.ok_bind]
  by_cases h3 : vs.length ≤ max (ts.length - 2) 1
  · have hlt : vs.length < ts.length := by omega
    have hub : ∀ f : Pose → Pose → Outcome (SE3 × List Key),
        (Outcome.deref vs[ts.length - 2]? >>= fun va => Outcome.deref vs[1]? >>= fun vb => f va vb) = .ub := by
      intro f
      by_cases h4 : vs.length ≤ ts.length - 2
      · rw [deref_none h4]; rfl
      · rw [deref_some (by omega), Outcome.ok_bind, deref_none (by omega)]; rfl
    rw [hub]
    exact ends_intro (fun h => by omega) (fun _ => rfl) (fun _ h => absurd (.inr ⟨h3, hlt⟩) h) (fun h => by omega)
  · rw [deref_some (by omega : ts.length - 2 < vs.length), Outcome.ok_bind, deref_some (by omega : 1 < vs.length),
      Outcome.ok_bind]
    have := C130_se3_fit L hr ts vs hc (SE3.calculateSlope L ts[ts.length - 2] ts[1] vs[ts.length - 2] vs[1])
      (SE3.calculateSlope L ts[ts.length - 2] ts[1] vs[ts.length - 2] vs[1])
    rw [show (2 ≤ ts.length ∧ ts.length = vs.length) ↔ ts.length = vs.length from
        ⟨And.right, fun h => ⟨by omega, h⟩⟩,
      show (ts.length < 2 ∨ vs.length ≤ max (ts.length - 2) 1 ∧ vs.length < ts.length) ↔ False from
        ⟨fun h => by rcases h with h | h; exacts [h2 h, h3 h.1], False.elim⟩]
    exact this

/-- C130, reading a `CubicHermiteSE3Curve`: as `C130_e3_reads`. -/
theorem C130_se3_reads (L : LogMap) {c : SE3} (hr : SE3.Reachable L c) (t : ℝ) (order : ℕ) :
    Ends (SE3.evaluate L t c) (c.m.knots ≠ [] ∨ t ≠ 0) (c.m.knots = [] ∧ t = 0) ∧
    Ends (SE3.evaluateDerivative L t order c) (order ≠ 1 ∨ c.m.knots ≠ [] ∨ t ≠ 0)
      (order = 1 ∧ c.m.knots = [] ∧ t = 0) ∧
    ∃ r, SE3.evaluateLinearAcceleration t c = .ok r := by
  refine ⟨ends_intro (fun h => ?_) (fun h => ?_) (fun h h' => by tauto) (fun h => by tauto),
    ends_intro (fun h => ?_) (fun h => ?_) (fun h h' => by tauto) (fun h => by tauto), ?_⟩
  · obtain ⟨⟨r, e, -⟩, -⟩ := SE3.C34_domain_partial hr t h
    exact ⟨r, e⟩
  · obtain ⟨h, rfl⟩ := h
    exact (SE3.C34_refuted L c h).1
  · by_cases h1 : order = 1
    · subst h1
      obtain ⟨-, r, e, -⟩ := SE3.C34_domain_partial hr t (h.resolve_left (fun h => h rfl))
      exact ⟨r, e⟩
    · rw [SE3.evaluateDerivative, if_neg h1]
      exact ⟨_, rfl⟩
  · obtain ⟨rfl, h, rfl⟩ := h
    exact (SE3.C34_refuted L c h).2
  · obtain ⟨r, e, -⟩ := SE3.C34_acceleration_domain hr t
    exact ⟨r, e⟩

/-! ### Extending through a policy -/

/-- Specification: an interpolated knot is to be replaced, but it cannot be, because the curve has only one knot or the
counter is at its maximum. -/
def Stuck (p : HPol) (c : SE3) (t : ℝ) : Prop :=
  ¬(p.minMeas ≤ p.since ∧ p.lastExtend + p.period < t) ∧ p.since ≠ 0 ∧ (c.m.size = 1 ∨ p.since = 2 ^ 31 - 1)

/-- The measurement is later than all knots. -/
def Later (c : SE3) (t : ℝ) : Prop := c.m.size = 0 ∨ c.m.getMaxTime < t

theorem later_contents {c : SE3} (hw : WF c.w c.m) {t : ℝ} (h : Later c t) : ∀ x ∈ c.m.contents, x.1 < t := by
  intro x hx
  rcases List.eq_nil_or_concat c.m.contents with e | ⟨ys, y, e⟩
  · rw [e] at hx; simp at hx
  · rw [List.concat_eq_append] at e
    rcases h with h | h
    · rw [size_of_contents, e] at h; simp at h
    · rw [maxTime_of e] at h
      have hs := Policy.contents_sorted hw
      rw [e, List.pairwise_append] at hs
      rw [e, List.mem_append] at hx
      rcases hx with hx | hx
      · exact (hs.2.2 x hx y (by simp)).trans h
      · simp only [List.mem_singleton] at hx
        subst hx
        exact h

theorem last_of {A B : Type} {l : List (A × B)} {t : A} (h : l.getLast?.map Prod.fst = some t) :
    ∃ pre x, l = pre ++ [(t, x)] := by
  obtain ⟨⟨t', x⟩, h1, rfl⟩ := Option.map_eq_some_iff.1 h
  obtain ⟨ys, e⟩ := List.getLast?_eq_some_iff.1 h1
  exact ⟨ys, x, e⟩

/-- What one measurement leaves behind. -/
structure Grown (p : HPol) (c : SE3) (t : ℝ) (p' : HPol) (c' : SE3) : Prop where
  wf : WF c'.w c'.m
  calls : c'.w.calls = c.w.calls + 1
  last : ∃ pre x, c'.m.contents = pre ++ [(t, x)]
  since : p'.since = 0 ∨ (p'.since = p.since + 1 ∧ 2 ≤ c'.m.size)

theorem default_grown (L : LogMap) (p : HPol) {w : World} {m : Mgr ℝ HKnot} (hw : WF w m) (hc : w.calls + 1 < 2 ^ 64)
    {t : ℝ} (ht : ∀ x ∈ m.contents, x.1 < t) (v : Pose) :
    ∃ p' c', HPol.defaultExtend L p ⟨w, m⟩ t v = .ok (p', c') ∧ Grown p ⟨w, m⟩ t p' c' := by
  rcases List.eq_nil_or_concat m.contents with e | ⟨ys, y, e⟩
  · obtain ⟨c', k, e1, h1, h2, h3⟩ := HPol.default_empty L p hw hc e t v
    exact ⟨_, c', e1, h1, h2, last_of (by rw [h3]; simp), .inl rfl⟩
  · rw [List.concat_eq_append] at e
    rcases List.eq_nil_or_concat ys with rfl | ⟨zs, z, rfl⟩
    · obtain ⟨c', k, e1, h1, h2, h3⟩ := HPol.default_one L p hw hc e v (ht y (by simp [e]))
      exact ⟨_, c', e1, h1, h2, last_of (by rw [h3]; simp), .inl rfl⟩
    · rw [List.concat_eq_append, List.append_assoc] at e
      obtain ⟨c', k, e1, h1, h2, h3⟩ := HPol.default_many L p hw hc e v ht
      exact ⟨_, c', e1, h1, h2, last_of (by rw [h3]; simp), .inl rfl⟩

theorem one_grown (L : LogMap) (p : HPol) {c : SE3} (hw : WF c.w c.m) (hc : c.w.calls + 1 < 2 ^ 64)
    {t : ℝ} (ht : Later c t) (hs : c.m.size = 0 ∨ ¬Stuck p c t) (v : Pose) :
    ∃ p' c', HPol.extendOne L p c t v = .ok (p', c') ∧ Grown p c t p' c' := by
  obtain ⟨w, m⟩ := c
  have hct := later_contents hw ht
  simp only at hw hc hct hs
  unfold HPol.extendOne
  simp only
  rw [if_neg (not_not.2 (Or.symm ht))]
  by_cases h0 : m.size = 0
  · rw [if_pos h0]
    exact default_grown L p hw hc hct v
  rw [if_neg h0]
  have hs := hs.resolve_left h0
  obtain ⟨pre, a, e⟩ : ∃ pre a, m.contents = pre ++ [a] := by
    rcases List.eq_nil_or_concat m.contents with e | ⟨ys, y, e⟩
    · rw [size_of_contents, e] at h0; exact absurd rfl h0
    · exact ⟨ys, y, by simpa using e⟩
  obtain ⟨n, hn, hn1, -, -⟩ := last_node e
  by_cases hcond : p.since ≥ p.minMeas ∧ p.lastExtend + p.period < t
  · rw [if_pos hcond]
    obtain ⟨ta, ka, ca⟩ := a
    obtain ⟨m', er, hw', hcont⟩ := remove_last hw e
    simp only [hn, Outcome.deref, Outcome.ok_bind, hn1, er]
    obtain ⟨p', c', e1, g⟩ := default_grown L p hw' hc (t := t) (fun x hx => hct x (by
      rw [e]; exact List.mem_append_left _ (hcont ▸ hx))) v
    exact ⟨p', c', e1, g.wf, g.calls, g.last, g.since⟩
  · rw [if_neg hcond]
    by_cases hz : p.since = 0
    · obtain ⟨c', k, e1, h1, h2, h3⟩ := HPol.interp_first L p hw hc hz e v hct
      refine ⟨_, c', e1, h1, h2, last_of (by rw [h3]; simp), .inr ⟨rfl, ?_⟩⟩
      rw [size_of_contents, h3]; simp
    · have hns : m.size ≠ 1 ∧ p.since ≠ 2 ^ 31 - 1 := by
        constructor
        · exact fun h => hs ⟨hcond, hz, .inl h⟩
        · exact fun h => hs ⟨hcond, hz, .inr h⟩
      rcases List.eq_nil_or_concat pre with rfl | ⟨zs, z, rfl⟩
      · rw [size_of_contents, e] at hns; exact absurd rfl hns.1
      · rw [List.concat_eq_append, List.append_assoc] at e
        obtain ⟨c', k, e1, h1, h2, h3⟩ := HPol.interp_next L p hw hc hz hns.2 e v hct
        refine ⟨_, c', e1, h1, h2, last_of (by rw [h3]; simp), .inr ⟨rfl, ?_⟩⟩
        rw [size_of_contents, h3]; simp

/-- C130, one measurement through a policy in any state. It aborts exactly when it is not later than all knots; it is
undefined behaviour exactly when it is but the policy is stuck; otherwise it returns. -/
theorem C130_policy (L : LogMap) {c : SE3} (hr : SE3.Reachable L c) (hc : c.w.calls + 1 < 2 ^ 64) (p : HPol) (t : ℝ)
    (v : Pose) :
    Ends (HPol.extendOne L p c t v) (Later c t ∧ (c.m.size = 0 ∨ ¬Stuck p c t))
      (c.m.size ≠ 0 ∧ Later c t ∧ Stuck p c t) := by
  have hw := hr.manager.WF hc
  refine ends_intro (fun h => ?_) (fun h => ?_) (fun h h' => ?_) (fun h => by tauto)
  · obtain ⟨p', c', e, -⟩ := one_grown L p hw hc h.1 h.2 v
    exact ⟨_, e⟩
  · obtain ⟨h0, hl, hcond, hz, h1⟩ := h
    unfold HPol.extendOne
    rw [if_neg (not_not.2 (Or.symm hl)), if_neg h0, if_neg hcond]
    unfold HPol.interpolationExtend
    simp only [if_neg hz]
    obtain ⟨pre, a, e⟩ : ∃ pre a, c.m.contents = pre ++ [a] := by
      rcases List.eq_nil_or_concat c.m.contents with e | ⟨ys, y, e⟩
      · rw [size_of_contents, e] at h0; exact absurd rfl h0
      · exact ⟨ys, y, by simpa using e⟩
    rcases List.eq_nil_or_concat pre with rfl | ⟨zs, z, rfl⟩
    · have h2 : c.m.size = 1 := by rw [size_of_contents, e]; rfl
      obtain ⟨n, hn, -⟩ := last_node e
      have hnone : c.m.getCoefficientsAt n.time = none := by
        have := mt (getAt_isSome_iff hw.sorted n.time).1 (by
          intro h
          have := h.1
          omega)
        simpa using this
      simp only [hn, Outcome.deref, Outcome.ok_bind, hnone]
      rfl
    · rw [List.concat_eq_append, List.append_assoc] at e
      have h3 : p.since = 2 ^ 31 - 1 := h1.resolve_left (by rw [size_of_contents, e]; simp)
      obtain ⟨x, y, hl', hg, -, ⟨hy1, -, -⟩⟩ := last_two e
      obtain ⟨tb, kb, cb⟩ := a
      simp only at hy1
      obtain ⟨m', er, -⟩ := remove_last hw (pre := zs ++ [z]) (t := tb) (k := kb) (c0 := cb) (by simp [e])
      simp only [hl', Outcome.deref, Outcome.ok_bind, hg, hy1 ▸ er, if_pos h3]
  · have hl : ¬Later c t := by tauto
    unfold HPol.extendOne
    rw [if_pos (fun h => hl (Or.symm h))]

/-- The times are later than all knots and than each other. -/
def Forward (c : SE3) (ts : List ℝ) : Prop := ts.Pairwise (· < ·) ∧ ∀ t ∈ ts, Later c t

theorem walk (L : LogMap) : ∀ (ts : List ℝ) (vs : List Pose) (p : HPol) (c : SE3), WF c.w c.m →
    c.w.calls + ts.length + 1 < 2 ^ 64 → (p.since = 0 ∨ c.m.size ≠ 1) → 0 ≤ p.since → p.since + ts.length < 2 ^ 31 →
    Ends (HPol.extend L p c ts vs) (Forward c (ts.take vs.length) ∧ ts.length ≤ vs.length)
      (Forward c (ts.take vs.length) ∧ vs.length < ts.length) := by
  intro ts
  induction ts with
  | nil =>
    intro vs p c _ _ _ _ _
    rw [HPol.extend]
    exact ends_intro (fun _ => ⟨_, rfl⟩) (fun h => by simp at h) (fun h => absurd (by simp [Forward]) h)
      (fun _ h => by simp at h)
  | cons t ts ih =>
    intro vs p c hw hc hp h0 h1
    cases vs with
    | nil =>
      rw [HPol.extend]
      exact ends_intro (fun h => by simp at h) (fun _ => rfl) (fun _ h => absurd (by simp [Forward]) h)
        (fun h _ => by simp at h)
    | cons v vs =>
      rw [HPol.extend]
      simp only [List.length_cons] at hc h1 ⊢
      simp only [List.take_succ_cons]
      by_cases hl : Later c t
      · have hns : c.m.size = 0 ∨ ¬Stuck p c t := by
          right
          rintro ⟨-, hz, hh⟩
          rcases hp with hp | hp
          · exact hz hp
          · rcases hh with hh | hh
            · exact hp hh
            · push_cast at h1; omega
        obtain ⟨p', c', e, g⟩ := one_grown L p hw (by omega) hl hns v
        obtain ⟨pre, x, hlast⟩ := g.last
        have hmax : c'.m.getMaxTime = t := maxTime_of hlast
        have hsz : c'.m.size ≠ 0 := by rw [size_of_contents, hlast]; simp
        have hlater : ∀ u, Later c' u ↔ t < u := fun u => by
          simp only [Later, hmax]
          exact ⟨fun h => h.resolve_left hsz, .inr⟩
        have hfw : Forward c (t :: ts.take vs.length) ↔ Forward c' (ts.take vs.length) := by
          simp only [Forward, List.pairwise_cons, List.mem_cons, forall_eq_or_imp, hlater]
          constructor
          · rintro ⟨⟨h1, h2⟩, -⟩; exact ⟨h2, h1⟩
          · rintro ⟨h2, h1⟩
            refine ⟨⟨h1, h2⟩, hl, fun u hu => ?_⟩
            rcases hl with hl | hl
            · exact .inl hl
            · exact .inr (hl.trans (h1 u hu))
        rw [e, Outcome.ok_bind, hfw]
        have := ih vs p' c' g.wf (by rw [g.calls]; omega) (by
            rcases g.since with h | h
            · exact .inl h
            · right; have := h.2; omega) (by rcases g.since with h | h <;> omega)
          (by rcases g.since with h | h <;> push_cast at h1 <;> omega)
        simpa only [Nat.add_le_add_iff_right, Nat.add_lt_add_iff_right] using this
      · have hnf : ¬Forward c (t :: ts.take vs.length) := fun h => hl (h.2 t (by simp))
        have : HPol.extendOne L p c t v = .abort := by
          unfold HPol.extendOne
          rw [if_pos (fun h => hl (Or.symm h))]
        rw [this]
        exact ends_intro (fun h => absurd h.1 hnf) (fun h => absurd h.1 hnf) (fun _ _ => rfl) (fun h => absurd h.1 hnf)

/-- C130, many measurements through a policy. If the policy starts with its counter at zero, or on a curve that does not have
exactly one knot, and fewer than 2^31 measurements are counted: the call returns exactly when the measurements go
forwards in time and there is a value for every time; it is undefined behaviour exactly when a value is missing and the
measurements before it go forwards; otherwise it aborts. -/
theorem C130_policy_many (L : LogMap) {c : SE3} (hr : SE3.Reachable L c) (p : HPol) (ts : List ℝ) (vs : List Pose)
    (hc : c.w.calls + ts.length + 1 < 2 ^ 64) (hp : p.since = 0 ∨ c.m.size ≠ 1) (h0 : 0 ≤ p.since)
    (h1 : p.since + ts.length < 2 ^ 31) :
    Ends (HPol.extend L p c ts vs) (Forward c (ts.take vs.length) ∧ ts.length ≤ vs.length)
      (Forward c (ts.take vs.length) ∧ vs.length < ts.length) :=
  walk L ts vs p c (hr.manager.WF (by omega)) hc hp h0 h1

/-- C130, the undefined case is reached in normal use: give two measurements through a policy that keeps fewer than all
of them, fit the curve to a single pose, and give the next measurement through the same policy. Fitting does not reset the
policy, which wants to replace a knot that is gone. -/
theorem C130_refit (L : LogMap) (w : World) (hw : w.calls + 6 < 2 ^ 64) (n : Int) (hn : 2 ≤ n) (period : ℝ)
    {t1 t2 t3 t4 : ℝ} (h12 : t1 < t2) (h34 : t3 < t4) {v1 v2 v3 : Pose} (v4 : Pose)
    (hu : Quaternion.normSq v1.rotation = 1 ∧ Quaternion.normSq v2.rotation = 1 ∧ Quaternion.normSq v3.rotation = 1) :
    ∃ p c c' ks, HPol.extend L (HPol.make n period) (SE3.fresh w) [t1, t2] [v1, v2] = .ok (p, c) ∧
      SE3.fitCurve L [t3] [v3] c = .ok (c', ks) ∧ HPol.extend L p c' [t4] [v4] = .ub := by
  obtain ⟨c1, k1, e1, hw1, hc1, hcont1⟩ := HPol.default_empty L (HPol.make n period) (WF.empty w) (by omega)
    (by simp [Mgr.contents, Mgr.empty]) t1 v1
  have o1 : HPol.extendOne L (HPol.make n period) (SE3.fresh w) t1 v1 = .ok
      ({ HPol.make n period with since := 0, lastExtend := t1 }, c1) := by
    unfold HPol.extendOne
    rw [if_neg (by simp [SE3.fresh, Mgr.empty, Mgr.size]), if_pos (by simp [SE3.fresh, Mgr.empty, Mgr.size])]
    exact e1
  obtain ⟨c2, k2, e2, hw2, hc2, hcont2⟩ := HPol.interp_first L
    { HPol.make n period with since := 0, lastExtend := t1 } hw1 (by omega) rfl (pre := []) hcont1 v2 (t := t2)
    (by simpa [hcont1] using h12)
  have hs1 : c1.m.size = 1 := by rw [size_of_contents, hcont1]; rfl
  have o2 : HPol.extendOne L { HPol.make n period with since := 0, lastExtend := t1 } c1 t2 v2 = .ok
      ({ HPol.make n period with since := 0 + 1, lastExtend := t1 }, c2) := by
    unfold HPol.extendOne
    rw [if_neg (not_not.2 (.inl (by rw [maxTime_of (pre := []) hcont1]; exact h12))), if_neg (by omega), if_neg]
    · exact e2
    · simp only [HPol.make, ge_iff_le]
      omega
  have e : HPol.extend L (HPol.make n period) (SE3.fresh w) [t1, t2] [v1, v2] = .ok
      ({ HPol.make n period with since := 0 + 1, lastExtend := t1 }, c2) := by
    rw [HPol.extend, o1, Outcome.ok_bind, HPol.extend, o2, Outcome.ok_bind, HPol.extend]
  have hr2 : SE3.Reachable L c2 := ⟨w, [.extendWith (HPol.make n period) [t1, t2] [v1, v2]], by
    simp [SE3.Op.UnitRotations, hu.1, hu.2.1], by simp [SE3.run, SE3.step, e]⟩
  obtain ⟨⟨c3, ks⟩, e3⟩ := (C130_se3_fit L hr2 [t3] [v3] (by simp; omega) Twist.zero Twist.zero).1.mpr rfl
  have hr3 : SE3.Reachable L c3 := ⟨w, [.extendWith (HPol.make n period) [t1, t2] [v1, v2], .fit [t3] [v3]], by
    simp [SE3.Op.UnitRotations, hu.1, hu.2.1, hu.2.2], by
      simp [SE3.run, SE3.step, e, SE3.fitCurve, e3]⟩
  obtain ⟨c', ks', cs, e3', h1, h2, hs, hperm⟩ := SE3.fit_ok L [t3] [v3] rfl (by simp) Twist.zero Twist.zero c2
  rw [e3] at e3'
  obtain ⟨rfl, rfl⟩ := Prod.mk.inj (Outcome.ok.inj e3')
  have hlen : c3.m.knots.length = 1 := by
    rw [hperm.length_eq]
    simp [h2]
  have hsz : c3.m.size = 1 := by simpa [Mgr.knots, Mgr.size] using hlen
  obtain ⟨x, hx⟩ := List.length_eq_one_iff.1 hlen
  have hxt : x.1 = t3 := by
    rw [hx] at hperm
    obtain ⟨k, rfl⟩ := List.length_eq_one_iff.1 h2
    simpa using congrArg Prod.fst (List.singleton_inj.1 (List.perm_singleton.1 (by simpa using hperm)))
  have hmax : c3.m.getMaxTime = t3 := by
    have hc := hx
    rw [knots_of_contents] at hc
    obtain ⟨y, rest, hy, hy', hr⟩ := List.map_eq_cons_iff.1 hc
    rw [List.map_eq_nil_iff] at hr
    subst hr
    rw [maxTime_of (pre := []) hy, ← hxt, ← hy']
  have hcalls : c3.w.calls + 1 < 2 ^ 64 := by
    obtain ⟨k, rfl⟩ := List.length_eq_one_iff.1 h2
    rw [SE3.fitCurveWithDerivatives, if_neg (by simp), h1, Outcome.ok_bind] at e3
    obtain ⟨⟨w4, m4, ks4⟩, h4, h5⟩ := Outcome.bind_eq_ok.1 e3
    cases h5
    obtain ⟨w', m', k', h7, -, h8, -⟩ := Policy.insert_append (WF.empty c2.w) (by omega) k (t := t3)
      (by simp [Mgr.contents, Mgr.empty])
    have h6 := (SE3.insertCoefficients_one h7).symm.trans h4
    cases h6
    simp only
    omega
  refine ⟨_, c2, c3, ks, e, e3, ?_⟩
  rw [HPol.extend, (C130_policy L hr3 hcalls _ t4 v4).2.1.mpr ⟨by omega, .inr (by rw [hmax]; exact h34), ?_, ?_, .inl hsz⟩]
  · rfl
  · simp only [HPol.make]
    omega
  · simp

/-- C130 has instances of every kind. -/
example (L : LogMap) : (∃ r, E3.fitPeriodicCurve false [0, 1] [5, (7 : ℚ)] E3.demo = .ok r) ∧
    E3.fitPeriodicCurve true [0, 1, 2] [5, (7 : ℚ)] E3.demo = .abort ∧
    E3.fitPeriodicCurve true [0, 1, 2, 3] [5, (7 : ℚ)] E3.demo = .ub ∧
    (∃ r, SE3.evaluate L 0 SE3.demo = .ok r) ∧ SE3.evaluate L 0 (SE3.fresh ⟨0, 0⟩) = .ub := by
  refine ⟨?_, ?_, ?_, ?_, ?_⟩
  · exact (C130_e3_periodic E3.demo_reachable false [0, 1] [5, 7] (by decide +kernel)).1.2 (by simp)
  · exact (C130_e3_periodic E3.demo_reachable true [0, 1, 2] [5, 7] (by decide +kernel)).2.2.2 (by simp)
  · exact (C130_e3_periodic E3.demo_reachable true [0, 1, 2, 3] [5, 7] (by decide +kernel)).2.1.2 (by simp)
  · exact (C130_se3_reads L (SE3.demo_reachable L) 0 0).1.1.2 (.inl (by simp [SE3.demo, Mgr.knots]))
  · exact (C130_se3_reads L (c := SE3.fresh ⟨0, 0⟩) ⟨_, [], by simp, rfl⟩ 0 0).1.2.1.2 ⟨rfl, rfl⟩

/-- The hypotheses of `C130_refit` can be met. -/
example (L : LogMap) : ∃ p c c' ks,
    HPol.extend L (HPol.make 3 0) (SE3.fresh ⟨0, 0⟩) [0, 1] [⟨![0, 0, 0], 1⟩, ⟨![1, 0, 0], 1⟩] = .ok (p, c) ∧
      SE3.fitCurve L [2] [⟨![0, 2, 0], 1⟩] c = .ok (c', ks) ∧ HPol.extend L p c' [3] [⟨![0, 3, 0], 1⟩] = .ub :=
  C130_refit L ⟨0, 0⟩ (by norm_num) 3 (by norm_num) 0 (by norm_num) (by norm_num) _ (by simp)

end se3

end Verif.Hermite

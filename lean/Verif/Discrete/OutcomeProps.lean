import Verif.Discrete.Props
import Verif.Manager.OutcomeProps

/-!
# Property C129: exactly how each call of a discrete or slerp curve ends

For every reachable curve and every call: whether it returns, aborts, or is undefined behaviour.
-/

set_option linter.unusedSectionVars false
set_option linter.dupNamespace false

namespace Verif.Discrete

open Verif.Manager Verif.Policy

variable {K G V : Type} [Field K] [LinearOrder K] [IsStrictOrderedRing K] [Group G]
  [AddCommGroup V] [Module K V]

/-- Specification: the one changing call that is undefined behaviour. The counter of the sampling policy overflows. -/
def Undefined (s : St K G) : Op K G → Prop
  | .extend [_] [_] => 2 ≤ s.c.mgr.size ∧ s.c.pol.minMeas ≠ 1 ∧ s.c.pol.since = 2 ^ 31 - 1
  | _ => False

/-- Specification: the changing calls that return. Lists must have the same length; a single measurement that makes a new
last knot must be later than the last knot; a `SlerpSE3Curve` can be transformed only when it is empty; updates must name
known keys. -/
def Accepted (kind : Kind) (s : St K G) : Op K G → Prop
  | .fit ts vs => ts.length = vs.length
  | .set ts vs => ts.length = vs.length
  | .extend [t] [_] => s.c.mgr.size ≤ 1 ∨ (s.c.pol.minMeas = 1 ∧ s.c.mgr.getMaxTime < t) ∨
      (s.c.pol.minMeas ≠ 1 ∧ s.c.pol.since ≠ 2 ^ 31 - 1 ∧ (s.c.pol.since = 0 → s.c.mgr.getMaxTime < t))
  | .extend ts vs => ts.length = vs.length
  | .clear => True
  | .transform _ => kind ≠ .slerpSE3 ∨ s.c.knots = []
  | .setRatio _ => True
  | .update l => ∀ p ∈ l, p.1 ∈ s.c.mgr.getKeys []
  | .others _ _ => True

/-- The number of keys a call may draw. -/
def draws : Op K G → Nat
  | .fit ts _ => ts.length
  | .set ts _ => ts.length
  | .extend ts _ => ts.length
  | _ => 0

/-- What "returns, aborts or is undefined behaviour exactly when" means. -/
def Ends {α : Type} (o : Outcome α) (P Q : Prop) : Prop :=
  ((∃ a, o = .ok a) ↔ P) ∧ (o = .ub ↔ Q) ∧ (o = .abort ↔ ¬P ∧ ¬Q)

theorem ends_intro {α : Type} {o : Outcome α} {P Q : Prop} (h1 : P → ∃ a, o = .ok a) (h2 : Q → o = .ub)
    (h3 : ¬P → ¬Q → o = .abort) (h4 : P → ¬Q) : Ends o P Q := by
  by_cases hP : P
  · have hQ := h4 hP
    obtain ⟨a, e⟩ := h1 hP
    simp [Ends, e, hP, hQ]
  · by_cases hQ : Q
    · simp [Ends, h2 hQ, hP, hQ]
    · simp [Ends, h3 hP hQ, hP, hQ]

theorem ends_bind {α β : Type} {o : Outcome α} {f : α → β} {P Q : Prop} (h : Ends o P Q) :
    Ends (o >>= fun a => Outcome.ok (f a)) P Q := by
  obtain ⟨h1, h2, h3⟩ := h
  cases o with
  | ok a =>
    refine ⟨⟨fun _ => h1.mp ⟨a, rfl⟩, fun _ => ⟨f a, rfl⟩⟩, ⟨fun e => (nomatch e), fun q => (nomatch h2.mpr q)⟩,
      ⟨fun e => (nomatch e), fun q => (nomatch h3.mpr q)⟩⟩
  | abort =>
    refine ⟨⟨fun ⟨_, e⟩ => (nomatch e), fun p => ?_⟩, ⟨fun e => (nomatch e), fun q => (nomatch h2.mpr q)⟩,
      ⟨fun _ => h3.mp rfl, fun _ => rfl⟩⟩
    obtain ⟨a, e⟩ := h1.mpr p
    cases e
  | throw =>
    refine ⟨⟨fun ⟨_, e⟩ => (nomatch e), fun p => ?_⟩, ⟨fun e => (nomatch e), fun q => (nomatch h2.mpr q)⟩,
      ⟨fun e => (nomatch e), fun q => (nomatch h3.mpr q)⟩⟩
    obtain ⟨a, e⟩ := h1.mpr p
    cases e
  | ub =>
    refine ⟨⟨fun ⟨_, e⟩ => (nomatch e), fun p => ?_⟩, ⟨fun _ => h2.mp rfl, fun _ => rfl⟩,
      ⟨fun e => (nomatch e), fun q => (nomatch h3.mpr q)⟩⟩
    obtain ⟨a, e⟩ := h1.mpr p
    cases e

theorem insertMany_ends {w : World} {m : Mgr K G} (hr : Manager.Reachable ⟨w, m⟩) (ts : List K) (vs : List G)
    (hc : w.calls + ts.length + 1 < 2 ^ 64) : Ends (m.insertCoefficients w ts vs) (ts.length = vs.length) False := by
  obtain ⟨h1, h2⟩ := C03_batch_insert hr ts vs hc
  refine ends_intro (fun h => ?_) (fun h => h.elim) (fun h _ => h1 h) (fun _ h => h)
  obtain ⟨w', m', ks, e, -⟩ := h2 h
  exact ⟨_, e⟩

theorem addEnd_ends {w : World} {m : Mgr K G} (hr : Manager.Reachable ⟨w, m⟩) (hc : w.calls + 1 < 2 ^ 64)
    (hne : m.size ≠ 0) (t : K) (v : G) : Ends (m.addCoefficientAtEnd w t v) (m.getMaxTime < t) False := by
  obtain ⟨h1, h2⟩ := C12_add_at_end hr hc hne t v
  refine ends_intro (fun h => ?_) (fun h => h.elim) (fun h _ => h1 (not_lt.1 h)) (fun _ h => h)
  obtain ⟨w', m', k, e, -⟩ := h2 h
  exact ⟨_, e⟩

theorem move_ok {w : World} {m : Mgr K G} (hr : Manager.Reachable ⟨w, m⟩) (hc : w.calls + 1 < 2 ^ 64) {n : Node K G}
    (hn : n ∈ m.nodes) (t : K) (v : G) : ∃ r, m.modifyCoefficient w n.addr t v = .ok r := by
  rw [Mgr.modifyCoefficient, nodeAt_eq_some (hr.WF hc).addrNodup hn]
  exact ⟨_, rfl⟩

theorem single_ends {s : St K G} (hr : Manager.Reachable s.mgr) (hc : s.w.calls + 2 < 2 ^ 64) (t : K) (v : G) :
    Ends (s.c.extend s.w [t] [v])
      (s.c.mgr.size ≤ 1 ∨ (s.c.pol.minMeas = 1 ∧ s.c.mgr.getMaxTime < t) ∨
        (s.c.pol.minMeas ≠ 1 ∧ s.c.pol.since ≠ 2 ^ 31 - 1 ∧ (s.c.pol.since = 0 → s.c.mgr.getMaxTime < t)))
      (2 ≤ s.c.mgr.size ∧ s.c.pol.minMeas ≠ 1 ∧ s.c.pol.since = 2 ^ 31 - 1) := by
  have hr' : Manager.Reachable ⟨s.w, s.c.mgr⟩ := hr
  unfold Curve.extend
  simp only [List.length_singleton, ne_eq, not_true_eq_false, if_false]
  have hsz : (s.c.mgr.isEmpty = true ∨ s.c.mgr.size = 1) ↔ s.c.mgr.size ≤ 1 := by
    simp only [Mgr.isEmpty, Mgr.size, List.isEmpty_iff, ← List.length_eq_zero_iff]
    omega
  by_cases h1 : s.c.mgr.size ≤ 1
  · rw [if_pos (hsz.mpr h1)]
    obtain ⟨r, e⟩ := (insertMany_ends hr' [t] [v] (by simp; omega)).1.mpr rfl
    rw [e]
    exact ends_intro (fun _ => ⟨_, rfl⟩) (fun h => absurd h.1 (by omega)) (fun h => absurd (Or.inl h1) h)
      (fun _ h => absurd h.1 (by omega))
  · rw [if_neg (mt hsz.mp h1)]
    have he := addEnd_ends hr' (by omega) (by omega) t v
    by_cases h2 : s.c.pol.minMeas = 1
    · rw [if_pos h2]
      have : (s.c.mgr.size ≤ 1 ∨ (s.c.pol.minMeas = 1 ∧ s.c.mgr.getMaxTime < t) ∨
          (s.c.pol.minMeas ≠ 1 ∧ s.c.pol.since ≠ 2 ^ 31 - 1 ∧ (s.c.pol.since = 0 → s.c.mgr.getMaxTime < t))) ↔
          s.c.mgr.getMaxTime < t := by tauto
      have h' : (2 ≤ s.c.mgr.size ∧ s.c.pol.minMeas ≠ 1 ∧ s.c.pol.since = 2 ^ 31 - 1) ↔ False := by tauto
      rw [this, h']
      exact ends_bind he
    · rw [if_neg h2]
      by_cases h3 : s.c.pol.since = 2 ^ 31 - 1
      · rw [if_pos h3]
        exact ends_intro (fun h => by tauto) (fun _ => rfl) (fun _ h => absurd ⟨by omega, h2, h3⟩ h) (fun h => by tauto)
      · rw [if_neg h3]
        have : (s.c.mgr.size ≤ 1 ∨ (s.c.pol.minMeas = 1 ∧ s.c.mgr.getMaxTime < t) ∨
            (s.c.pol.minMeas ≠ 1 ∧ s.c.pol.since ≠ 2 ^ 31 - 1 ∧ (s.c.pol.since = 0 → s.c.mgr.getMaxTime < t))) ↔
            (s.c.pol.since = 0 → s.c.mgr.getMaxTime < t) := by tauto
        have h' : (2 ≤ s.c.mgr.size ∧ s.c.pol.minMeas ≠ 1 ∧ s.c.pol.since = 2 ^ 31 - 1) ↔ False := by tauto
        rw [this, h']
        refine ends_bind ?_
        rw [addOrMove]
        by_cases h4 : s.c.pol.since = 0
        · rw [if_pos (by omega)]
          have h'' : (s.c.pol.since = 0 → s.c.mgr.getMaxTime < t) ↔ s.c.mgr.getMaxTime < t := by tauto
          rw [h'']
          exact ends_bind he
        · rw [if_neg (by omega)]
          have hne : s.c.mgr.nodes ≠ [] := by
            intro e
            simp [Mgr.size, e] at h1
          rw [List.getLast?_eq_some_getLast hne]
          simp only
          obtain ⟨r, e⟩ := move_ok hr' (by omega) (List.getLast_mem hne) t v
          rw [e]
          exact ends_intro (fun _ => ⟨_, rfl⟩) (fun h => h.elim) (fun h _ => absurd (fun h' => absurd h' h4) h) (fun _ h => h)

/-- C129, changing. Every changing call on a reachable curve returns exactly when `Accepted`, is undefined behaviour exactly
when `Undefined`, aborts otherwise, and never throws. -/
theorem C129_calls (L : ExpLog K G V) {kind : Kind} {s : St K G} (hr : Reachable L kind s) (op : Op K G)
    (hc : s.w.calls + draws op + 1 < 2 ^ 64) :
    ((∃ s', step L kind s op = .ok s') ↔ Accepted kind s op) ∧ (step L kind s op = .ub ↔ Undefined s op) ∧
      (step L kind s op = .abort ↔ ¬Accepted kind s op ∧ ¬Undefined s op) := by
  have hm := hr.manager
  have hm' : Manager.Reachable ⟨s.w, s.c.mgr⟩ := hm
  have triv : ∀ x : St K G, Ends (.ok x) True False := fun x =>
    ends_intro (fun _ => ⟨x, rfl⟩) (fun h => h.elim) (fun h => absurd trivial h) (fun _ h => h)
  have many : ∀ ts vs, s.w.calls + ts.length + 1 < 2 ^ 64 →
      Ends (s.c.mgr.insertCoefficients s.w ts vs) (ts.length = vs.length) False := fun ts vs h =>
    insertMany_ends hm' ts vs h
  cases op with
  | fit ts vs =>
    refine ends_bind (f := fun r : World × Curve K G × List Nat => (⟨r.1, r.2.1⟩ : St K G)) ?_
    unfold Curve.fitCurve
    have hcl : Manager.Reachable ⟨s.w, s.c.clear.mgr⟩ := (clear_steps s.w s.c.mgr).reachable hm'
    split
    · rename_i h
      exact ends_intro (fun e => absurd e h) (fun h => h.elim) (fun _ _ => rfl) (fun _ h => h)
    · rename_i h
      push Not at h
      split
      · obtain ⟨r, e⟩ := (insertMany_ends hcl ts vs hc).1.mpr h
        rw [e]
        exact ends_intro (fun _ => ⟨_, rfl⟩) (fun h => h.elim) (fun h' => absurd h h') (fun _ h => h)
      · exact ends_intro (fun _ => ⟨_, rfl⟩) (fun h => h.elim) (fun h' => absurd h h') (fun _ h => h)
  | set ts vs =>
    refine ends_bind (f := fun r : World × Curve K G => (⟨r.1, r.2⟩ : St K G)) ?_
    unfold Curve.setCurve
    split
    · rename_i h
      exact ends_intro (fun e => absurd e h) (fun h => h.elim) (fun _ _ => rfl) (fun _ h => h)
    · rename_i h
      push Not at h
      split
      · obtain ⟨r, e⟩ := (many ts vs hc).1.mpr h
        rw [e]
        exact ends_intro (fun _ => ⟨_, rfl⟩) (fun h => h.elim) (fun h' => absurd h h') (fun _ h => h)
      · exact ends_intro (fun _ => ⟨_, rfl⟩) (fun h => h.elim) (fun h' => absurd h h') (fun _ h => h)
  | extend ts vs =>
    refine ends_bind (f := fun r : World × Curve K G × List Nat => (⟨r.1, r.2.1⟩ : St K G)) ?_
    have hc' : s.w.calls + ts.length + 1 < 2 ^ 64 := hc
    have gen : (∀ t v, ¬(ts = [t] ∧ vs = [v])) → Ends (s.c.extend s.w ts vs) (ts.length = vs.length) False := by
      intro hno
      unfold Curve.extend
      split
      · rename_i h
        exact ends_intro (fun e => absurd e h) (fun h => h.elim) (fun _ _ => rfl) (fun _ h => h)
      · split
        · exact absurd ⟨rfl, rfl⟩ (hno _ _)
        · exact ends_bind (many ts vs hc')
    match ts, vs with
    | [t], [v] => exact single_ends hm (by simpa using hc') t v
    | [], vs => exact gen (by simp)
    | [t], [] => exact gen (by simp)
    | [t], _ :: _ :: _ => exact gen (by simp)
    | _ :: _ :: _, vs => exact gen (by simp)
  | clear => exact triv _
  | setRatio n => exact triv _
  | others k a => exact triv _
  | transform X =>
    refine ends_bind (f := fun r : World × Curve K G => (⟨r.1, r.2⟩ : St K G)) ?_
    have hc' : s.w.calls + 1 < 2 ^ 64 := by simpa [draws] using hc
    refine ends_intro (fun h => ?_) (fun h => h.elim) (fun h _ => ?_) (fun _ h => h)
    · by_cases hk : kind = .slerpSE3
      · have hkn := h.resolve_left (fun h => h hk)
        have : s.c.mgr.nodes = [] := by simpa [Curve.knots, Mgr.contents] using hkn
        simp [transformCurve, Mgr.getTimes, this, transformLoop]
      · obtain ⟨c', e, -⟩ := C43_transform L hk hr hc' X
        exact ⟨_, e⟩
    · have h : ¬(kind ≠ .slerpSE3 ∨ s.c.knots = []) := h
      push Not at h
      obtain ⟨h1, h2⟩ := h
      subst h1
      exact (C50_discrete_partial L .setTimeRange s.c.mgr 0 X s.w s.c).2.2 h2
  | update l =>
    refine ends_bind (f := fun m : Mgr K G => (⟨s.w, { s.c with mgr := m }⟩ : St K G)) ?_
    obtain ⟨h1, h2⟩ := C63_update_many hm (by simpa [draws] using hc) l []
    refine ends_intro (fun h => ?_) (fun h => h.elim) (fun h _ => ?_) (fun _ h => h)
    · obtain ⟨m', e, -⟩ := h2 h
      exact ⟨_, e⟩
    · refine h1 ?_
      by_contra hcon
      push Not at hcon
      exact h fun p hp => hcon p hp

/-- The time is covered by two knots. -/
def Spanned (s : St K G) (t : K) : Prop := 2 ≤ s.c.mgr.size ∧ s.c.mgr.getMinTime ≤ t ∧ t ≤ s.c.mgr.getMaxTime

/-- C129, reading. On a reachable curve: a `SlerpSE3Curve` aborts on every evaluation; the others return a value exactly
from the first to the last knot of a curve that has knots, are undefined behaviour exactly on an empty curve at time zero,
and abort otherwise. Derivatives and value expressions return exactly at times covered by two knots and abort otherwise;
prior factors return exactly there and are undefined behaviour otherwise. -/
theorem C129_reads (L : ExpLog K G V) {kind : Kind} {s : St K G} (hr : Reachable L kind s)
    (hc : s.w.calls + 1 < 2 ^ 64) (t : K) (order : ℕ) :
    Ends (evaluate L kind t s.c.mgr)
      (kind ≠ .slerpSE3 ∧ s.c.knots ≠ [] ∧ s.c.mgr.getMinTime ≤ t ∧ t ≤ s.c.mgr.getMaxTime)
      (kind ≠ .slerpSE3 ∧ s.c.knots = [] ∧ t = 0) ∧
    Ends (evaluateDerivative L t order s.c.mgr) (Spanned s t) False ∧
    Ends (valueExprDiscrete t s.c.mgr) (Spanned s t) False ∧
    Ends (valueExprSlerp L t s.c.mgr) (Spanned s t) False ∧
    Ends (addPriorFactors t s.c.mgr) (Spanned s t) (¬Spanned s t) := by
  have hs := (hr.WF hc).sorted
  have hiff : (s.c.mgr.getCoefficientsAt t).isSome ↔ Spanned s t := getAt_isSome_iff hs t
  have hnone : ¬Spanned s t → s.c.mgr.getCoefficientsAt t = none := fun h => by
    have := mt hiff.1 h
    simpa using this
  refine ⟨?_, ?_, ?_, ?_, ?_⟩
  · obtain ⟨h1, h2, h3⟩ := C42_outside L hr hc t
    refine ends_intro (fun h => ?_) (fun h => h3 h.2.1 h.2.2 h.1) (fun h h' => ?_) (fun h h' => h.2.1 h'.2.1)
    · exact evaluate_inside L h.1 hs (by rw [← curve_knots]; exact h.2.1) h.2.2.1 h.2.2.2
    · by_cases hk : kind = .slerpSE3
      · subst hk; rfl
      · by_cases hn : s.c.knots = []
        · exact h2 hn fun e => h' ⟨hk, hn, e⟩
        · refine h1 hn ?_
          by_contra hcon
          push Not at hcon
          exact h ⟨hk, hn, hcon.1, hcon.2⟩
  · refine ends_intro (fun h => ?_) (fun h => h.elim) (fun h _ => ?_) (fun _ h => h)
    · obtain ⟨⟨a, b⟩, e⟩ := Option.isSome_iff_exists.1 (hiff.2 h)
      rw [evaluateDerivative, if_neg (not_lt.2 h.2.1), if_neg (not_lt.2 h.2.2), e]
      by_cases ho : order = 1
      · exact ⟨_, by simp only; rw [if_pos ho]⟩
      · exact ⟨0, by simp only; rw [if_neg ho]⟩
    · rw [evaluateDerivative, hnone h]
      split
      · rfl
      · split <;> rfl
  · refine ends_intro (fun h => ?_) (fun h => h.elim) (fun h _ => ?_) (fun _ h => h)
    · obtain ⟨⟨a, b⟩, e⟩ := Option.isSome_iff_exists.1 (hiff.2 h)
      rw [valueExprDiscrete, e]
      exact ⟨_, rfl⟩
    · rw [valueExprDiscrete, hnone h]
  · refine ends_intro (fun h => ?_) (fun h => h.elim) (fun h _ => ?_) (fun _ h => h)
    · obtain ⟨pre, a, b, post, hm, ha, hb, e⟩ := exists_bracket hs h.1 h.2.1 h.2.2
      have eva := evaluate_knot L (kind := .slerp) (by simp) hs
        (List.mem_map.2 ⟨a, by simp [hm], rfl⟩ : (a.time, a.coef) ∈ s.c.mgr.knots)
      have evb := evaluate_knot L (kind := .slerp) (by simp) hs
        (List.mem_map.2 ⟨b, by simp [hm], rfl⟩ : (b.time, b.coef) ∈ s.c.mgr.knots)
      simp only [valueExprSlerp, e, eva, evb, Outcome.ok_bind]
      split
      · exact ⟨_, rfl⟩
      · split
        · exact ⟨_, rfl⟩
        · exact ⟨_, rfl⟩
    · rw [valueExprSlerp, hnone h]
  · refine ends_intro (fun h => ?_) (fun h => ?_) (fun h h' => absurd h h') (fun h h' => h' h)
    · obtain ⟨⟨a, b⟩, e⟩ := Option.isSome_iff_exists.1 (hiff.2 h)
      rw [addPriorFactors, e]
      exact ⟨_, rfl⟩
    · rw [addPriorFactors, hnone h]

/-- C129, the counter. It takes 2^31 - 1 calls of `extend` since a knot was last made to come near the undefined call: along
every history the counter is never more than the number of single measurements given so far. -/
theorem C129_counter (L : ExpLog K G V) {kind : Kind} (w : World) (ops : List (Op K G)) {s : St K G}
    (e : run L kind ⟨w, ⟨Mgr.empty, Pol.fresh⟩⟩ ops = .ok s) :
    0 ≤ s.c.pol.since ∧
      s.c.pol.since ≤ (ops.filter fun op => match op with | .extend [_] [_] => true | _ => false).length := by
  have one : ∀ (op : Op K G) (a b : St K G), step L kind a op = .ok b → 0 ≤ a.c.pol.since → 0 ≤ b.c.pol.since ∧
      b.c.pol.since ≤ a.c.pol.since + ([op].filter fun op => match op with | .extend [_] [_] => true | _ => false).length := by
    intro op a b h h0
    cases op with
    | fit ts vs =>
      obtain ⟨⟨w1, c1, k1⟩, h1, h2⟩ := Outcome.bind_eq_ok.1 h
      cases h2
      unfold Curve.fitCurve at h1
      split at h1
      · cases h1
      · split at h1
        · obtain ⟨⟨w2, m2, k2⟩, -, h4⟩ := Outcome.bind_eq_ok.1 h1
          cases h4
          exact ⟨h0, by simp [Curve.clear]⟩
        · cases h1; exact ⟨h0, by simp⟩
    | set ts vs =>
      obtain ⟨⟨w1, c1⟩, h1, h2⟩ := Outcome.bind_eq_ok.1 h
      cases h2
      unfold Curve.setCurve at h1
      split at h1
      · cases h1
      · split at h1
        · obtain ⟨⟨w2, m2, k2⟩, -, h4⟩ := Outcome.bind_eq_ok.1 h1
          cases h4
          exact ⟨h0, by simp⟩
        · cases h1; exact ⟨h0, by simp⟩
    | extend ts vs =>
      obtain ⟨⟨w1, c1, k1⟩, h1, h2⟩ := Outcome.bind_eq_ok.1 h
      cases h2
      unfold Curve.extend at h1
      split at h1
      · cases h1
      · split at h1
        · split at h1
          · obtain ⟨⟨w2, m2, k2⟩, -, h4⟩ := Outcome.bind_eq_ok.1 h1
            cases h4
            exact ⟨h0, by simp⟩
          · split at h1
            · obtain ⟨⟨w2, m2, k2⟩, -, h4⟩ := Outcome.bind_eq_ok.1 h1
              cases h4
              exact ⟨h0, by simp⟩
            · split at h1
              · cases h1
              · obtain ⟨⟨w2, m2, k2⟩, -, h4⟩ := Outcome.bind_eq_ok.1 h1
                cases h4
                simp only [List.filter_cons_of_pos, List.filter_nil, List.length_singleton]
                constructor <;> split <;> push_cast <;> omega
        · obtain ⟨⟨w2, m2, k2⟩, -, h4⟩ := Outcome.bind_eq_ok.1 h1
          cases h4
          exact ⟨h0, by simp⟩
    | clear => cases h; exact ⟨h0, by simp [Curve.clear]⟩
    | transform X =>
      obtain ⟨⟨w1, c1⟩, h1, h2⟩ := Outcome.bind_eq_ok.1 h
      cases h2
      obtain ⟨⟨w2, m2⟩, -, h4⟩ := Outcome.bind_eq_ok.1 h1
      cases h4
      exact ⟨h0, by simp⟩
    | setRatio n => cases h; exact ⟨h0, by simp [Pol.setRatio]⟩
    | update l =>
      obtain ⟨m1, h1, h2⟩ := Outcome.bind_eq_ok.1 h
      cases h2
      exact ⟨h0, by simp⟩
    | others k a => cases h; exact ⟨h0, by simp⟩
  have gen : ∀ (ops : List (Op K G)) (a b : St K G), run L kind a ops = .ok b → 0 ≤ a.c.pol.since →
      0 ≤ b.c.pol.since ∧ b.c.pol.since ≤ a.c.pol.since +
        (ops.filter fun op => match op with | .extend [_] [_] => true | _ => false).length := by
    intro ops
    induction ops with
    | nil => intro a b h h0; cases h; exact ⟨h0, by simp⟩
    | cons op ops ih =>
      intro a b h h0
      obtain ⟨a', h1, h2⟩ := Outcome.bind_eq_ok.1 h
      obtain ⟨p1, p2⟩ := one op a a' h1 h0
      obtain ⟨q1, q2⟩ := ih a' b h2 p1
      refine ⟨q1, ?_⟩
      rw [← List.singleton_append, List.filter_append, List.length_append]
      push_cast
      omega
  have := gen ops _ s e (by simp [Pol.fresh])
  simpa [Pol.fresh] using this

/-- C129 has instances of every kind. -/
example : (∃ s', step (lineMaps ℚ) .slerp demo (.extend [9] [.ofAdd 1]) = .ok s') ∧
    step (lineMaps ℚ) .slerp demo (.extend [2, 3] [.ofAdd 1]) = .abort ∧
    step (lineMaps ℚ) .slerp demo (.update [(99, .ofAdd 1)]) = .abort := by
  refine ⟨?_, ?_, ?_⟩
  · refine (C129_calls (lineMaps ℚ) (demo_reachable .slerp) _ (by decide +kernel)).1.2 (.inr (.inl ?_))
    decide +kernel
  · refine (C129_calls (lineMaps ℚ) (demo_reachable .slerp) _ (by decide +kernel)).2.2.2 ⟨?_, id⟩
    simp [Accepted]
  · refine (C129_calls (lineMaps ℚ) (demo_reachable .slerp) _ (by decide +kernel)).2.2.2 ⟨?_, id⟩
    have : (99 : ℕ) ∉ demo.c.mgr.getKeys [] := by decide +kernel
    simpa [Accepted] using this

end Verif.Discrete

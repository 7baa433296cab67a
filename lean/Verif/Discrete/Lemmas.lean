import Verif.Discrete.Model
import Verif.Manager.EvalLemmas
import Verif.Policy.Lemmas
import Mathlib.Tactic.Linarith
import Mathlib.Tactic.FieldSimp

/-!
# Lemmas about the discrete, semi-discrete and slerp curves
-/

set_option linter.unusedSectionVars false
set_option linter.dupNamespace false

namespace Verif.Manager

variable {T C : Type} [LinearOrder T] [Zero T]

theorem run_append {s : St T C} {a b : List (Op T C)} :
    run s (a ++ b) = (run s a >>= fun s' => run s' b) := by
  induction a generalizing s with
  | nil => rfl
  | cons op rest ih =>
    simp only [List.cons_append, run]
    cases step s op <;> simp [ih]

theorem safeRun_append {s s' : St T C} {a b : List (Op T C)} (ha : SafeRun s a)
    (e : run s a = .ok s') (hb : SafeRun s' b) : SafeRun s (a ++ b) := by
  induction a generalizing s with
  | nil => simp only [run] at e; cases e; exact hb
  | cons op rest ih =>
    obtain ⟨s1, h1, h2⟩ := Outcome.bind_eq_ok.1 e
    refine ⟨ha.1, fun s2 h => ?_⟩
    rw [h1] at h; cases h
    exact ih (ha.2 _ h1) h2

/-- A manager state is reached from another one by a history of its operations. -/
def Steps (s s' : St T C) : Prop := ∃ l, SafeRun s l ∧ run s l = .ok s'

theorem Steps.refl (s : St T C) : Steps s s := ⟨[], trivial, rfl⟩

theorem Steps.trans {s s' s'' : St T C} (h : Steps s s') (h' : Steps s' s'') : Steps s s'' := by
  obtain ⟨l, a, b⟩ := h
  obtain ⟨l', a', b'⟩ := h'
  exact ⟨l ++ l', safeRun_append a b a', by rw [run_append, b]; exact b'⟩

theorem Steps.one {s s' : St T C} {op : Op T C} (hs : SafeOp s op) (e : step s op = .ok s') :
    Steps s s' := ⟨[op], ⟨hs, fun _ _ => trivial⟩, by simp [run, e]⟩

theorem Steps.reachable {s s' : St T C} (h : Steps s s') (hr : Reachable s) : Reachable s' := by
  obtain ⟨w, l, a, b⟩ := hr
  obtain ⟨l', a', b'⟩ := h
  exact ⟨w, l ++ l', safeRun_append a b a', by rw [run_append, b]; exact b'⟩

theorem Steps.WF {s s' : St T C} (h : Steps s s') (hw : WF s.w s.m) (hc : s'.w.calls + 1 < 2 ^ 64) :
    WF s'.w s'.m := by
  obtain ⟨l, a, b⟩ := h
  exact (run_WF hw a b hc).1

theorem Steps.calls {s s' : St T C} (h : Steps s s') : s.w.calls ≤ s'.w.calls := by
  obtain ⟨l, a, b⟩ := h
  exact run_calls_mono b

theorem insertMany_steps {w w' : World} {m m' : Mgr T C} {ts : List T} {vs : List C} {ks : List Key}
    (h : m.insertCoefficients w ts vs = .ok (w', m', ks)) : Steps ⟨w, m⟩ ⟨w', m'⟩ :=
  Steps.one (op := .insertMany ts vs) trivial (by simp [step, h])

theorem insert_steps {w w' : World} {m m' : Mgr T C} {t : T} {v : C} {k : Key}
    (h : m.insertCoefficient w t v = .ok (w', m', k)) : Steps ⟨w, m⟩ ⟨w', m'⟩ :=
  Steps.one (op := .insert t v) trivial (by simp [step, h])

theorem clear_steps (w : World) (m : Mgr T C) : Steps ⟨w, m⟩ ⟨w, m.clear⟩ :=
  Steps.one (op := .clear) trivial rfl

theorem others_steps (w : World) (m : Mgr T C) (k a : Nat) :
    Steps ⟨w, m⟩ ⟨⟨w.calls + k, w.nextAddr + a⟩, m⟩ :=
  Steps.one (op := .others k a) trivial rfl

end Verif.Manager

namespace Verif.Policy

open Verif.Manager

variable {T C : Type} [LinearOrder T] [Zero T]

theorem fit_steps {w w' : World} {c c' : Curve T C} {ts : List T} {vs : List C} {ks : List Key}
    (e : c.fitCurve w ts vs = .ok (w', c', ks)) : Steps ⟨w, c.mgr⟩ ⟨w', c'.mgr⟩ := by
  unfold Curve.fitCurve at e
  split at e
  · cases e
  · split at e
    · obtain ⟨⟨w1, m1, ks1⟩, h1, h2⟩ := Outcome.bind_eq_ok.1 e
      cases h2
      exact (clear_steps w c.mgr).trans (insertMany_steps h1)
    · cases e; exact Steps.refl _

theorem set_steps {w w' : World} {c c' : Curve T C} {ts : List T} {vs : List C}
    (e : c.setCurve w ts vs = .ok (w', c')) : Steps ⟨w, c.mgr⟩ ⟨w', c'.mgr⟩ := by
  unfold Curve.setCurve at e
  split at e
  · cases e
  · split at e
    · obtain ⟨⟨w1, m1, ks1⟩, h1, h2⟩ := Outcome.bind_eq_ok.1 e
      cases h2
      exact insertMany_steps h1
    · cases e; exact Steps.refl _

theorem extend_steps {w w' : World} {c c' : Curve T C} {ts : List T} {vs : List C} {ks : List Key}
    (hs : ∀ t, ts = [t] → c.pol.minMeas = 1 ∨ c.mgr.size ≤ 1 ∨ ∀ x ∈ c.mgr.contents, x.1 ≠ t)
    (e : c.extend w ts vs = .ok (w', c', ks)) : Steps ⟨w, c.mgr⟩ ⟨w', c'.mgr⟩ := by
  unfold Curve.extend at e
  split at e
  · cases e
  · split at e
    · rename_i t v _
      split at e
      · obtain ⟨⟨w1, m1, ks1⟩, h1, h2⟩ := Outcome.bind_eq_ok.1 e
        cases h2
        exact insertMany_steps h1
      · rename_i hne
        split at e
        · obtain ⟨⟨w1, m1, k1⟩, h1, h2⟩ := Outcome.bind_eq_ok.1 e
          cases h2
          exact Steps.one (op := .addEnd t v) trivial (by simp [Manager.step, h1])
        · rename_i hmm
          split at e
          · cases e
          · obtain ⟨⟨w1, m1, k1⟩, h1, h2⟩ := Outcome.bind_eq_ok.1 e
            cases h2
            unfold addOrMove at h1
            split at h1
            · obtain ⟨⟨w2, m2, k2⟩, h3, h4⟩ := Outcome.bind_eq_ok.1 h1
              cases h4
              exact Steps.one (op := .addEnd t v) trivial (by simp [Manager.step, h3])
            · split at h1
              · cases h1
              · rename_i itPrev _
                obtain ⟨⟨w2, m2⟩, h3, h4⟩ := Outcome.bind_eq_ok.1 h1
                cases h4
                refine Steps.one (op := .move itPrev.addr t v) ?_ (by simp [Manager.step, h3])
                rcases hs t rfl with h | h | h
                · exact absurd h hmm
                · exfalso
                  apply hne
                  rcases Nat.le_one_iff_eq_zero_or_eq_one.1 h with h | h
                  · left
                    simpa [Mgr.isEmpty, Mgr.size] using h
                  · exact Or.inr h
                · exact h
    · obtain ⟨⟨w1, m1, ks1⟩, h1, h2⟩ := Outcome.bind_eq_ok.1 e
      cases h2
      exact insertMany_steps h1

end Verif.Policy

namespace Verif.Discrete

open Verif.Manager Verif.Policy

variable {K G V : Type} [Field K] [LinearOrder K] [IsStrictOrderedRing K] [Group G]
  [AddCommGroup V] [Module K V]

theorem ExpLog.exp_zero (L : ExpLog K G V) : L.exp 0 = 1 := by rw [← L.log_one, L.exp_log]

/-- The manager part of a state. -/
abbrev St.mgr (s : St K G) : Manager.St K G := ⟨s.w, s.c.mgr⟩

theorem transformLoop_steps {L : ExpLog K G V} {kind : Kind} {X : G} {ts : List K} :
    ∀ {w w' : World} {m m' : Mgr K G}, transformLoop L kind X w m ts = .ok (w', m') →
      Steps ⟨w, m⟩ ⟨w', m'⟩ := by
  induction ts with
  | nil => intro w w' m m' e; simp only [transformLoop] at e; cases e; exact Steps.refl _
  | cons t rest ih =>
    intro w w' m m' e
    simp only [transformLoop] at e
    obtain ⟨v, -, e⟩ := Outcome.bind_eq_ok.1 e
    obtain ⟨⟨w1, m1, k⟩, h1, e⟩ := Outcome.bind_eq_ok.1 e
    exact (insert_steps h1).trans (ih e)

theorem transform_steps {L : ExpLog K G V} {kind : Kind} {X : G} {w w' : World} {c c' : Curve K G}
    (e : transformCurve L kind X w c = .ok (w', c')) : Steps ⟨w, c.mgr⟩ ⟨w', c'.mgr⟩ := by
  obtain ⟨⟨w1, m1⟩, h1, h2⟩ := Outcome.bind_eq_ok.1 e
  cases h2
  exact transformLoop_steps h1

theorem step_steps {L : ExpLog K G V} {kind : Kind} {s s' : St K G} {op : Op K G} (hs : Safe s op)
    (e : step L kind s op = .ok s') : Steps s.mgr s'.mgr := by
  cases op with
  | fit ts vs =>
    obtain ⟨⟨w1, m1, ks1⟩, h1, h2⟩ := Outcome.bind_eq_ok.1 e
    cases h2
    exact fit_steps h1
  | set ts vs =>
    obtain ⟨⟨w1, m1⟩, h1, h2⟩ := Outcome.bind_eq_ok.1 e
    cases h2
    exact set_steps h1
  | extend ts vs =>
    obtain ⟨⟨w1, m1, ks1⟩, h1, h2⟩ := Outcome.bind_eq_ok.1 e
    cases h2
    refine extend_steps ?_ h1
    rintro t rfl
    match vs with
    | [v] => exact hs
    | [] => simp [Curve.extend] at h1
    | _ :: _ :: _ => simp [Curve.extend] at h1
  | clear => cases e; exact clear_steps _ _
  | transform X =>
    obtain ⟨⟨w1, m1⟩, h1, h2⟩ := Outcome.bind_eq_ok.1 e
    cases h2
    exact transform_steps h1
  | setRatio n => cases e; exact Steps.refl _
  | update l =>
    obtain ⟨m1, h1, h2⟩ := Outcome.bind_eq_ok.1 e
    cases h2
    exact Steps.one (op := .updKeys l) trivial (by simp [Manager.step, St.mgr, h1])
  | others k a => cases e; exact others_steps _ _ _ _

theorem run_steps {L : ExpLog K G V} {kind : Kind} {ops : List (Op K G)} : ∀ {s s' : St K G},
    SafeRun L kind s ops → run L kind s ops = .ok s' → Steps s.mgr s'.mgr := by
  induction ops with
  | nil => intro s s' _ e; simp only [run] at e; cases e; exact Steps.refl _
  | cons op rest ih =>
    intro s s' hs e
    obtain ⟨s1, h1, h2⟩ := Outcome.bind_eq_ok.1 e
    exact (step_steps hs.1 h1).trans (ih (hs.2 _ h1) h2)

theorem Reachable.manager {L : ExpLog K G V} {kind : Kind} {s : St K G} (h : Reachable L kind s) :
    Manager.Reachable s.mgr := by
  obtain ⟨w, ops, hs, e⟩ := h
  exact (run_steps hs e).reachable ⟨w, [], trivial, rfl⟩

theorem Reachable.WF {L : ExpLog K G V} {kind : Kind} {s : St K G} (h : Reachable L kind s)
    (hc : s.w.calls + 1 < 2 ^ 64) : WF s.w s.c.mgr := h.manager.WF hc

/-! ### The evaluators -/

/-- The formula between two knots. -/
def between (L : ExpLog K G V) : Kind → Node K G → Node K G → K → G
  | .discrete => nearer
  | _ => slerpAt L

theorem nearer_left {a b : Node K G} (h : a.time < b.time) : nearer a b a.time = a.coef := by
  rw [nearer, if_pos]; simpa using h.le

theorem nearer_right {a b : Node K G} (h : a.time < b.time) : nearer a b b.time = b.coef := by
  rw [nearer, if_neg]; simpa using h

theorem slerpAt_left (L : ExpLog K G V) (a b : Node K G) : slerpAt L a b a.time = a.coef := by
  simp [slerpAt, L.exp_zero]

theorem slerpAt_right (L : ExpLog K G V) {a b : Node K G} (h : a.time < b.time) :
    slerpAt L a b b.time = b.coef := by
  have : b.time - a.time ≠ 0 := sub_ne_zero.2 h.ne'
  simp [slerpAt, div_self this, L.exp_log]

theorem between_left (L : ExpLog K G V) (kind : Kind) {a b : Node K G} (h : a.time < b.time) :
    between L kind a b a.time = a.coef := by
  cases kind
  exacts [nearer_left h, slerpAt_left L a b, slerpAt_left L a b]

theorem between_right (L : ExpLog K G V) (kind : Kind) {a b : Node K G} (h : a.time < b.time) :
    between L kind a b b.time = b.coef := by
  cases kind
  exacts [nearer_right h, slerpAt_right L h, slerpAt_right L h]

/-- `none` of `evalWith` is a failed `CHECK` here. -/
def orAbort {X : Type} : Option X → Outcome X
  | none => .abort
  | some x => .ok x

theorem evaluate_eq (L : ExpLog K G V) {kind : Kind} (hk : kind ≠ .slerpSE3) {m : Mgr K G}
    (hs : Sorted m.nodes) (t : K) :
    evaluate L kind t m = (evalWith id (between L kind) t m >>= orAbort) := by
  have key : ∀ f : Node K G → Node K G → K → G,
      (∀ a b : Node K G, a.time < b.time → f a b b.time = b.coef) →
      (if m.getMaxTime = t ∧ m.getMinTime = t then
        Outcome.deref m.nodes.head? >>= fun n => .ok n.coef
      else if t = m.getMaxTime then
        Outcome.deref m.nodes.getLast? >>= fun n => .ok n.coef
      else
        match m.getCoefficientsAt t with
        | none => .abort
        | some (a, b) => .ok (f a b t)) = (evalWith id f t m >>= orAbort) := by
    intro f hf
    unfold evalWith
    split
    · cases m.nodes.head? <;> rfl
    · rename_i h1
      split
      · rename_i h2
        subst h2
        rcases List.eq_nil_or_concat m.nodes with hn | ⟨l, b, hn⟩
        · simp [Mgr.getMaxTime, Mgr.getMinTime, hn] at h1
        · rcases List.eq_nil_or_concat l with hl | ⟨pre, a, hl⟩
          · simp [Mgr.getMaxTime, Mgr.getMinTime, hn, hl] at h1
          · subst hl
            have hm : m.nodes = pre ++ a :: b :: [] := by simp [hn]
            have e1 : m.getMaxTime = b.time := by simp [Mgr.getMaxTime, hm]
            rw [e1, getAt_max hm]
            simp [hn, orAbort, hf a b (neighbours_lt hs hm)]
      · cases m.getCoefficientsAt t with
        | none => rfl
        | some p => rfl
  cases kind with
  | slerpSE3 => exact absurd rfl hk
  | discrete => exact key _ fun a b h => nearer_right h
  | slerp => exact key _ fun a b h => slerpAt_right L h

theorem evaluate_knot (L : ExpLog K G V) {kind : Kind} (hk : kind ≠ .slerpSE3) {m : Mgr K G}
    (hs : Sorted m.nodes) {t : K} {v : G} (h : (t, v) ∈ m.knots) : evaluate L kind t m = .ok v := by
  obtain ⟨x, e, hx⟩ := evalWith_knot (single := (id : G → G)) (f := between L kind) hs (id : G → G)
    (fun a b _ _ hab => between_left L kind hab) (fun a b _ _ hab => between_right L kind hab) h
  rw [evaluate_eq L hk hs, e, ← (show x = v from hx)]
  rfl

theorem evaluate_segment (L : ExpLog K G V) {kind : Kind} (hk : kind ≠ .slerpSE3) {m : Mgr K G}
    (hs : Sorted m.nodes) {pre post : List (Node K G)} {a b : Node K G}
    (hm : m.nodes = pre ++ a :: b :: post) {t : K} (h0 : a.time ≤ t) (h1 : t ≤ b.time) :
    evaluate L kind t m = .ok (between L kind a b t) := by
  obtain ⟨x, e, hx⟩ := evalWith_between (single := (id : G → G)) (f := between L kind) hs (id : G → G)
    (fun a b _ _ hab => between_left L kind hab) (fun a b _ _ hab => between_right L kind hab) hm h0 h1
  rw [evaluate_eq L hk hs, e, ← (show x = between L kind a b t from hx)]
  rfl

theorem evaluate_outside (L : ExpLog K G V) {kind : Kind} {m : Mgr K G}
    (hs : Sorted m.nodes) {t : K} (hne : m.knots ≠ [] ∨ t ≠ 0)
    (h : m.knots = [] ∨ t < m.getMinTime ∨ m.getMaxTime < t) : evaluate L kind t m = .abort := by
  by_cases hk : kind = .slerpSE3
  · subst hk; rfl
  · obtain ⟨r, e, hr⟩ := evalWith_domain (single := (id : G → G)) (f := between L kind) hs t hne
    have : r = none := by
      cases r with
      | none => rfl
      | some x =>
        obtain ⟨a, b, c⟩ := hr.1 rfl
        rcases h with h | h | h
        · exact absurd h a
        · exact absurd h (not_lt.2 b)
        · exact absurd h (not_lt.2 c)
    rw [evaluate_eq L hk hs, e, this]
    rfl

theorem evaluate_inside (L : ExpLog K G V) {kind : Kind} (hk : kind ≠ .slerpSE3) {m : Mgr K G}
    (hs : Sorted m.nodes) {t : K} (hne : m.knots ≠ []) (h0 : m.getMinTime ≤ t)
    (h1 : t ≤ m.getMaxTime) : ∃ v, evaluate L kind t m = .ok v := by
  obtain ⟨r, e, hr⟩ := evalWith_domain (single := (id : G → G)) (f := between L kind) hs t (Or.inl hne)
  obtain ⟨v, rfl⟩ := Option.isSome_iff_exists.1 (hr.2 ⟨hne, h0, h1⟩)
  exact ⟨v, by rw [evaluate_eq L hk hs, e]; rfl⟩

/-- Left multiplication of all knots multiplies every value. -/
theorem evaluate_mul (L : ExpLog K G V) {kind : Kind} (hk : kind ≠ .slerpSE3) {m m' : Mgr K G}
    (hs : Sorted m.nodes) (X : G) (h : m'.knots = m.knots.map fun p => (p.1, X * p.2)) (t : K) :
    evaluate L kind t m' = (evaluate L kind t m >>= fun v => .ok (X * v)) := by
  have hs' : Sorted m'.nodes := related_sorted (f := fun v => X * v) h hs
  rw [evaluate_eq L hk hs, evaluate_eq L hk hs',
    evalWith_related (single := (id : G → G)) (f := between L kind) (single' := id)
      (f' := between L kind) hs (F := fun v => X * v) (fun v => X * v) h (fun _ _ => rfl) t]
  · cases evalWith id (between L kind) t m with
    | ok r => cases r <;> rfl
    | _ => rfl
  · intro a b a' b' _ _ _ h1 h2 h3 h4
    cases kind with
    | discrete =>
      simp only [between, nearer, h1, h2, h3, h4]
      split <;> rfl
    | slerp =>
      simp only [between, slerpAt, h1, h2, h3, h4, mul_inv_rev]
      rw [show a.coef⁻¹ * X⁻¹ * (X * b.coef) = a.coef⁻¹ * b.coef by group, mul_assoc]
    | slerpSE3 => exact absurd rfl hk

/-! ### `transformCurve` -/

theorem transformLoop_spec (L : ExpLog K G V) {kind : Kind} (hk : kind ≠ .slerpSE3) (X : G)
    (post : List (K × Key × G)) : ∀ {w : World} {m : Mgr K G} {pre : List (K × Key × G)},
    WF w m → w.calls + 1 < 2 ^ 64 → m.contents = pre ++ post →
    ∃ m', transformLoop L kind X w m (post.map (·.1)) = .ok (w, m') ∧ WF w m' ∧
      m'.contents = pre ++ post.map fun x => (x.1, x.2.1, X * x.2.2) := by
  induction post with
  | nil => intro w m pre h _ hc; exact ⟨m, rfl, h, by simpa using hc⟩
  | cons x post ih =>
    obtain ⟨t, k, v⟩ := x
    intro w m pre h hw hc
    have hmem : (t, k, v) ∈ m.contents := by rw [hc]; simp
    have hkn : (t, v) ∈ m.knots := by
      obtain ⟨n, hn, rfl, rfl, rfl⟩ := mem_contents.1 hmem
      exact List.mem_map.2 ⟨n, hn, rfl⟩
    have ev := evaluate_knot L hk h.sorted hkn
    obtain ⟨w', m', k', e, hwf, hcont, hcase⟩ := insert_spec h hw t (X * v)
    have hww : w' = w ∧ k' = k := by
      rcases hcase with ⟨h1, ⟨c0, h2⟩, _⟩ | ⟨_, _, _, h2, _⟩
      · exact ⟨h1, (h.cont_time_inj h2 hmem).1⟩
      · exact absurd hmem (h2 _ _)
    obtain ⟨rfl, rfl⟩ := hww
    have hsort := contents_sorted h
    rw [hc, List.pairwise_append, List.pairwise_cons] at hsort
    have hc' : m'.contents = (pre ++ [(t, k', X * v)]) ++ post := by
      apply eq_of_mem_iff (contents_sorted hwf)
      · rw [List.append_assoc, List.pairwise_append]
        refine ⟨hsort.1, ?_, ?_⟩
        · simp only [List.cons_append, List.nil_append, List.pairwise_cons]
          exact ⟨fun a ha => hsort.2.1.1 a ha, hsort.2.1.2⟩
        · intro a ha b hb
          simp only [List.cons_append, List.nil_append, List.mem_cons] at hb
          rcases hb with rfl | hb
          · exact hsort.2.2 a ha (t, k', v) (by simp)
          · exact hsort.2.2 a ha b (by simp [hb])
      · rintro ⟨t', k2, v'⟩
        rw [hcont, hc]
        simp only [List.mem_append, List.mem_cons, List.not_mem_nil, or_false, Prod.mk.injEq]
        constructor
        · rintro (hx | ⟨hne, hx | hx | hx⟩)
          · exact .inl (.inr hx)
          · exact .inl (.inl hx)
          · exact absurd hx.1 hne
          · exact .inr hx
        · rintro ((hx | hx) | hx)
          · exact .inr ⟨(hsort.2.2 _ hx (t, k', v) (by simp)).ne, .inl hx⟩
          · exact .inl hx
          · exact .inr ⟨(hsort.2.1.1 _ hx).ne', .inr (.inr hx)⟩
    obtain ⟨m2, e2, hwf2, hc2⟩ := ih hwf hw hc'
    refine ⟨m2, ?_, hwf2, by rw [hc2]; simp⟩
    simp only [List.map_cons, transformLoop, ev, Outcome.ok_bind, e, e2]

theorem times_eq_contents (m : Mgr K G) (o : List K) : m.getTimes o = m.contents.map (·.1) := by
  simp [Mgr.getTimes, Mgr.contents]

theorem knots_eq_contents (m : Mgr K G) : m.knots = m.contents.map fun x => (x.1, x.2.2) := by
  simp [Mgr.knots, Mgr.contents]

theorem transform_spec (L : ExpLog K G V) {kind : Kind} (hk : kind ≠ .slerpSE3) (X : G) {w : World}
    {c : Curve K G} (h : WF w c.mgr) (hw : w.calls + 1 < 2 ^ 64) :
    ∃ c', transformCurve L kind X w c = .ok (w, c') ∧ WF w c'.mgr ∧ c'.pol = c.pol ∧
      c'.mgr.contents = c.mgr.contents.map fun x => (x.1, x.2.1, X * x.2.2) := by
  obtain ⟨m', e, hwf, hc⟩ := transformLoop_spec L hk X c.mgr.contents (pre := []) h hw rfl
  exact ⟨{ c with mgr := m' }, by simp [transformCurve, times_eq_contents, e], hwf, rfl, hc⟩

end Verif.Discrete

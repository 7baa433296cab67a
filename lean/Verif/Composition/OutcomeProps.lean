import Verif.Composition.CoverProps
import Verif.Discrete.OutcomeProps

/-!
# C132: exactly how every call of a composition curve ends
-/

set_option linter.unusedSectionVars false
set_option linter.dupNamespace false

namespace Verif.Composition

open Verif.Manager Verif.Policy Verif.Discrete

variable {K G V : Type} [Field K] [LinearOrder K] [IsStrictOrderedRing K] [Group G]
  [AddCommGroup V] [Module K V]

/-! ### Specification -/

/-- The curve has a value at `t`: it is of a kind that can be evaluated, has knots, and they reach around `t`. -/
def Reaches (kind : Kind) (m : Mgr K G) (t : K) : Prop :=
  kind ≠ .slerpSE3 ∧ m.knots ≠ [] ∧ m.getMinTime ≤ t ∧ t ≤ m.getMaxTime

/-- Asking for the value at `t` is undefined behaviour: the curve has no knots and `t` is the time zero that an empty curve
reports as its ends. -/
def Hollow (kind : Kind) (m : Mgr K G) (t : K) : Prop := kind ≠ .slerpSE3 ∧ m.knots = [] ∧ t = 0

/-- The times `ts` begin at `lo` and end at `hi`, in any order; no times at all begin and end at zero. -/
def Span (ts : List K) (lo hi : K) : Prop :=
  (ts = [] ∧ lo = 0 ∧ hi = 0) ∨ (lo ∈ ts ∧ hi ∈ ts ∧ ∀ t ∈ ts, lo ≤ t ∧ t ≤ hi)

/-- The two curves begin and end together. -/
def Aligned (s : Comp K G) : Prop :=
  s.corr.mgr.getMinTime = s.base.mgr.getMinTime ∧ s.corr.mgr.getMaxTime = s.base.mgr.getMaxTime

/-! ### Lemmas -/

theorem ends_seq {α β : Type} {o : Outcome α} {f : α → Outcome β} {P Q P' Q' : Prop} (h : Ends o P Q)
    (h' : ∀ a, o = .ok a → Ends (f a) P' Q') : Ends (o >>= f) (P ∧ P') (Q ∨ P ∧ Q') := by
  obtain ⟨h1, h2, h3⟩ := h
  cases o with
  | ok a =>
    have hP : P := h1.mp ⟨a, rfl⟩
    have hQ : ¬Q := fun q => nomatch h2.mpr q
    simpa [hP, hQ] using h' a rfl
  | abort =>
    have hn := h3.mp rfl
    exact ends_intro (fun h => absurd h.1 hn.1) (fun h => (h.elim hn.2 fun h => hn.1 h.1).elim) (fun _ _ => rfl)
      (fun h => absurd h.1 hn.1)
  | throw =>
    have hP : ¬P := fun p => by obtain ⟨a, e⟩ := h1.mpr p; cases e
    have hQ : ¬Q := fun q => nomatch h2.mpr q
    exact absurd (h3.mpr ⟨hP, hQ⟩) (by simp)
  | ub =>
    have hQ : Q := h2.mp rfl
    have hP : ¬P := fun p => by obtain ⟨a, e⟩ := h1.mpr p; cases e
    exact ends_intro (fun h => absurd h.1 hP) (fun _ => rfl) (fun _ h => absurd (Or.inl hQ) h) (fun h => absurd h.1 hP)

theorem ends_congr {α : Type} {o : Outcome α} {P Q P' Q' : Prop} (h : Ends o P Q) (hP : P ↔ P') (hQ : Q ↔ Q') :
    Ends o P' Q' := by
  rwa [hP, hQ] at h

theorem ends_ok {α : Type} (a : α) : Ends (Outcome.ok a) True False :=
  ends_intro (fun _ => ⟨a, rfl⟩) (fun h => h.elim) (fun h => absurd trivial h) (fun _ h => h)

theorem ends_abort {α : Type} : Ends (Outcome.abort : Outcome α) False False :=
  ends_intro (fun h => h.elim) (fun h => h.elim) (fun _ _ => rfl) (fun _ h => h)

theorem evaluate_ends (L : ExpLog K G V) (kind : Kind) {m : Mgr K G} (hs : Sorted m.nodes) (t : K) :
    Ends (evaluate L kind t m) (Reaches kind m t) (Hollow kind m t) := by
  refine ends_intro (fun h => evaluate_inside L h.1 hs h.2.1 h.2.2.1 h.2.2.2) (fun h => ?_) (fun h h' => ?_)
    (fun h h' => h.2.1 h'.2.1)
  · obtain ⟨h1, h2, rfl⟩ := h
    rw [evaluate_eq L h1 hs, evalWith_empty h2]
    rfl
  · by_cases hk : kind = .slerpSE3
    · subst hk; rfl
    · by_cases hn : m.knots = []
      · exact evaluate_outside L hs (.inr fun e => h' ⟨hk, hn, e⟩) (.inl hn)
      · refine evaluate_outside L hs (.inl hn) (.inr ?_)
        by_contra hcon
        push Not at hcon
        exact h ⟨hk, hn, hcon.1, hcon.2⟩

theorem eval_ends (L : ExpLog K G V) (kb kc : Kind) {s : Comp K G} (hb : Sorted s.base.mgr.nodes)
    (hc : Sorted s.corr.mgr.nodes) (t : K) :
    Ends (eval L kb kc t s) (Reaches kc s.corr.mgr t ∧ Reaches kb s.base.mgr t)
      (Hollow kc s.corr.mgr t ∨ Reaches kc s.corr.mgr t ∧ Hollow kb s.base.mgr t) :=
  ends_seq (evaluate_ends L kc hc t) fun _ _ => ends_bind (evaluate_ends L kb hb t)

theorem checkEnds_ends (s : Comp K G) : Ends (checkEnds s) (Aligned s) False := by
  unfold checkEnds
  split
  · rename_i h
    exact ends_congr (ends_ok s) ⟨fun _ => h, fun _ => trivial⟩ Iff.rfl
  · rename_i h
    exact ends_congr ends_abort ⟨fun h => h.elim, fun h' => h h'⟩ Iff.rfl

/-- Evaluating at a list of times. -/
theorem collect_ends {f : K → Outcome G} {P Q : K → Prop} (h : ∀ t, Ends (f t) (P t) (Q t)) : ∀ ts : List K,
    Ends (collect f ts) (∀ t ∈ ts, P t) (∃ pre t post, ts = pre ++ t :: post ∧ (∀ a ∈ pre, P a) ∧ Q t)
  | [] => ends_congr (ends_ok []) (by simp) (by simp)
  | t :: rest => by
    refine ends_congr (ends_seq (h t) fun a _ => ends_bind (collect_ends h rest)) (by simp) ?_
    constructor
    · rintro (hq | ⟨hp, pre, a, post, e, h1, h2⟩)
      · exact ⟨[], t, rest, rfl, by simp, hq⟩
      · refine ⟨t :: pre, a, post, by simp [e], ?_, h2⟩
        intro b hb
        rcases List.mem_cons.1 hb with rfl | hb
        · exact hp
        · exact h1 b hb
    · rintro ⟨pre, a, post, e, h1, h2⟩
      cases pre with
      | nil =>
        simp only [List.nil_append, List.cons.injEq] at e
        obtain ⟨rfl, -⟩ := e
        exact .inl h2
      | cons b pre =>
        simp only [List.cons_append, List.cons.injEq] at e
        obtain ⟨rfl, e⟩ := e
        exact .inr ⟨h1 _ (by simp), pre, a, post, e, fun b hb => h1 b (by simp [hb]), h2⟩

theorem span_iff {m : Mgr K G} (hs : Sorted m.nodes) {ts : List K} (h : ∀ t, (∃ v, (t, v) ∈ m.knots) ↔ t ∈ ts) (lo hi : K) :
    (m.getMinTime = lo ∧ m.getMaxTime = hi) ↔ Span ts lo hi := by
  constructor
  · rintro ⟨rfl, rfl⟩
    by_cases hn : m.knots = []
    · left
      have hn' : m.nodes = [] := by simpa [Mgr.knots] using hn
      refine ⟨?_, by simp [Mgr.getMinTime, hn'], by simp [Mgr.getMaxTime, hn']⟩
      refine List.eq_nil_iff_forall_not_mem.2 fun t ht => ?_
      obtain ⟨v, hv⟩ := (h t).2 ht
      simp [hn] at hv
    · right
      obtain ⟨p, hp, ep⟩ := knots_min hn
      obtain ⟨q, hq, eq⟩ := knots_max hn
      refine ⟨(h _).1 ⟨p.2, by rw [← ep]; exact hp⟩, (h _).1 ⟨q.2, by rw [← eq]; exact hq⟩, fun t ht => ?_⟩
      obtain ⟨v, hv⟩ := (h t).2 ht
      exact mem_range hs hv
  · rintro (⟨rfl, rfl, rfl⟩ | ⟨h1, h2, h3⟩)
    · have hn : m.nodes = [] := by
        refine List.eq_nil_iff_forall_not_mem.2 fun n hn => ?_
        have := (h n.time).1 ⟨n.coef, List.mem_map.2 ⟨n, hn, rfl⟩⟩
        simp at this
      exact ⟨by simp [Mgr.getMinTime, hn], by simp [Mgr.getMaxTime, hn]⟩
    · exact minmax_of_ends hs ((h _).2 h1) ((h _).2 h2) fun p hp => h3 p.1 ((h _).1 ⟨p.2, hp⟩)

/-- The times after a batch of insertions. -/
theorem insertMany_times {w w' : World} {m m' : Mgr K G} (hr : Manager.Reachable ⟨w, m⟩) {ts : List K} {vs : List G}
    {ks : List Key} (hc : w.calls + ts.length + 1 < 2 ^ 64) (e : m.insertCoefficients w ts vs = .ok (w', m', ks)) (t : K) :
    (∃ v, (t, v) ∈ m'.knots) ↔ t ∈ m.knots.map Prod.fst ++ ts := by
  obtain ⟨h1, h2⟩ := C03_batch_insert hr ts vs hc
  by_cases hl : ts.length = vs.length
  · obtain ⟨w1, m1, ks1, e1, hk, a, b, c⟩ := h2 hl
    rw [e] at e1
    cases e1
    simp only [List.mem_append, List.mem_map, Prod.exists, exists_and_right, exists_eq_right]
    constructor
    · rintro ⟨v, hv⟩
      by_cases ht : t ∈ ts
      · exact .inr ht
      · obtain ⟨k, hk⟩ := mem_knots.1 hv
        exact .inl ⟨v, mem_knots.2 ⟨k, (b t k v ht).1 hk⟩⟩
    · rintro (⟨v, hv⟩ | ht)
      · obtain ⟨k, hk⟩ := mem_knots.1 hv
        obtain ⟨v', hv'⟩ := c t k v hk
        exact ⟨v', mem_knots.2 ⟨k, hv'⟩⟩
      · obtain ⟨i, hi, rfl⟩ := List.mem_iff_getElem.1 ht
        obtain ⟨v, hv, -⟩ := a i hi
        exact ⟨v, mem_knots.2 ⟨_, hv⟩⟩
  · rw [h1 hl] at e
    cases e

theorem insertMany_sorted {w w' : World} {m m' : Mgr K G} (hr : Manager.Reachable ⟨w, m⟩) {ts : List K} {vs : List G}
    {ks : List Key} (hc : w.calls + ts.length + 1 < 2 ^ 64) (e : m.insertCoefficients w ts vs = .ok (w', m', ks)) :
    Sorted m'.nodes := by
  obtain ⟨hl, e'⟩ := insertCoefficients_ok e
  have hw := hr.WF (show w.calls + 1 < 2 ^ 64 by omega)
  obtain ⟨w1, m1, ks1, e1, hle⟩ := insertLoop_ok hw (ts.zip vs) (by
    simp only [List.length_zip, hl, min_self]; omega)
  rw [e'] at e1
  cases e1
  simp only [List.length_zip, ← hl, min_self] at hle
  exact (insertLoop_WF hw e' (by omega)).1.sorted

theorem fit_ends {w : World} {c : Curve K G} (hr : Manager.Reachable ⟨w, c.mgr⟩) (ts : List K) (vs : List G)
    (hc : w.calls + ts.length + 1 < 2 ^ 64) (hne : ts ≠ []) :
    Ends (c.fitCurve w ts vs) (ts.length = vs.length) False ∧ ∀ r, c.fitCurve w ts vs = .ok r →
      Sorted r.2.1.mgr.nodes ∧ ∀ t, (∃ v, (t, v) ∈ r.2.1.mgr.knots) ↔ t ∈ ts := by
  have hcl : Manager.Reachable ⟨w, c.clear.mgr⟩ := (clear_steps w c.mgr).reachable hr
  have hpos : 0 < ts.length := List.length_pos_iff.2 hne
  unfold Curve.fitCurve
  by_cases hl : ts.length = vs.length
  · rw [if_neg (by simpa using hl), if_pos hpos]
    refine ⟨ends_bind (f := fun r : World × Mgr K G × List Key => (r.1, { c.clear with mgr := r.2.1 }, r.2.2))
      (insertMany_ends hcl ts vs hc), ?_⟩
    intro r e
    obtain ⟨⟨w', m', ks⟩, h1, h2⟩ := Outcome.bind_eq_ok.1 e
    cases h2
    refine ⟨insertMany_sorted hcl hc h1, fun t => ?_⟩
    rw [insertMany_times hcl hc h1]
    simp [Curve.clear, Mgr.clear, Mgr.knots]
  · rw [if_pos hl]
    exact ⟨ends_congr ends_abort ⟨fun h => h.elim, fun h => hl h⟩ Iff.rfl, fun r e => nomatch e⟩

theorem same_ends {m m' : Mgr K G} (h : m'.nodes.map (·.time) = m.nodes.map (·.time)) :
    m'.getMinTime = m.getMinTime ∧ m'.getMaxTime = m.getMaxTime := by
  have h1 : ∀ m : Mgr K G, m.getMinTime = (m.nodes.map (·.time)).head?.getD 0 := by
    intro m
    unfold Mgr.getMinTime
    cases m.nodes <;> rfl
  have h2 : ∀ m : Mgr K G, m.getMaxTime = (m.nodes.map (·.time)).getLast?.getD 0 := by
    intro m
    rw [Mgr.getMaxTime, List.getLast?_map]
    cases m.nodes.getLast? <;> rfl
  rw [h1, h1, h2, h2, h]
  exact ⟨rfl, rfl⟩

theorem list_compare {α : Type} [DecidableEq α] : ∀ A B : List α, (∃ post, A = B ++ post) ∨ (∃ more, more ≠ [] ∧ B = A ++ more) ∨
    ∃ m y p x q, A = m ++ y :: p ∧ B = m ++ x :: q ∧ y ≠ x
  | A, [] => .inl ⟨A, by simp⟩
  | [], b :: B => .inr (.inl ⟨b :: B, by simp, by simp⟩)
  | a :: A, b :: B => by
    by_cases h : a = b
    · subst h
      rcases list_compare A B with ⟨p, rfl⟩ | ⟨p, hp, rfl⟩ | ⟨m, y, p, x, q, rfl, rfl, h⟩
      · exact .inl ⟨p, by simp⟩
      · exact .inr (.inl ⟨p, hp, by simp⟩)
      · exact .inr (.inr ⟨a :: m, y, p, x, q, by simp, by simp, h⟩)
    · exact .inr (.inr ⟨[], a, A, b, B, by simp, by simp, h⟩)

/-! ### The calls other than `extend` -/

/-- C132, reading. A composition has a value exactly at the times both curves reach. Asking for it is undefined behaviour
exactly at time zero when the correction has no knots, or has and reaches time zero and the base has none; otherwise the
call aborts. -/
theorem C132_reads (L : ExpLog K G V) {kb kc : Kind} {s : Comp K G} (hr : Reachable L kb kc s) (hc : s.w.calls + 1 < 2 ^ 64)
    (t : K) : Ends (eval L kb kc t s) (Reaches kc s.corr.mgr t ∧ Reaches kb s.base.mgr t)
      (Hollow kc s.corr.mgr t ∨ Reaches kc s.corr.mgr t ∧ Hollow kb s.base.mgr t) := by
  obtain ⟨hb, hq⟩ := (hr.inv hc).wf hc
  exact eval_ends L kb kc hb.sorted hq.sorted t

/-- C132, reading in either order. Whichever of base and correction the compiler has evaluated first, the same value is
returned at the same times. The two orders end differently exactly when, at time zero, one of the two has no knots and the
other neither reaches time zero nor has no knots in turn: the order that asks the one without knots first is undefined
behaviour, the other aborts. -/
theorem C132_either_order (L : ExpLog K G V) {kb kc : Kind} {s : Comp K G} (hr : Reachable L kb kc s)
    (hc : s.w.calls + 1 < 2 ^ 64) (t : K) :
    (∀ v, eval L kb kc t s = .ok v ↔ evalBaseFirst L kb kc t s = .ok v) ∧
    (eval L kb kc t s ≠ evalBaseFirst L kb kc t s ↔
      (Hollow kc s.corr.mgr t ∧ ¬Hollow kb s.base.mgr t ∧ ¬Reaches kb s.base.mgr t) ∨
      (Hollow kb s.base.mgr t ∧ ¬Hollow kc s.corr.mgr t ∧ ¬Reaches kc s.corr.mgr t)) := by
  obtain ⟨hb, hq⟩ := (hr.inv hc).wf hc
  have e1 := evaluate_ends L kc hq.sorted t
  have e2 := evaluate_ends L kb hb.sorted t
  unfold eval evalBaseFirst
  obtain ⟨a1, a2, a3⟩ := e1
  obtain ⟨b1, b2, b3⟩ := e2
  rw [← a1, ← a2, ← b1, ← b2]
  cases h1 : evaluate L kc t s.corr.mgr <;> cases h2 : evaluate L kb t s.base.mgr <;> simp_all

/-- C132, folding. `foldInCorrections` returns exactly when the base has no knots or the correction reaches all of them;
it is undefined behaviour exactly when there is no correction and the base begins at time zero. -/
theorem C132_fold (L : ExpLog K G V) {kb kc : Kind} {s : Comp K G} (hr : Reachable L kb kc s) (hc : s.w.calls + 1 < 2 ^ 64) :
    Ends (foldInCorrections L kb kc s)
      (s.base.mgr.knots = [] ∨ kb ≠ .slerpSE3 ∧ Reaches kc s.corr.mgr s.base.mgr.getMinTime ∧
        Reaches kc s.corr.mgr s.base.mgr.getMaxTime)
      (s.base.mgr.knots ≠ [] ∧ Hollow kc s.corr.mgr s.base.mgr.getMinTime) := by
  obtain ⟨hb, hq⟩ := (hr.inv hc).wf hc
  have hcol := collect_ends (eval_ends L kb kc hb.sorted hq.sorted) (s.base.mgr.getTimes [])
  have hrest : ∀ vals, collect (fun t => eval L kb kc t s) (s.base.mgr.getTimes []) = .ok vals →
      Ends (s.base.clear.extend s.w (s.base.mgr.getTimes []) vals >>= fun r =>
        s.corr.clear.extend r.1 (s.corr.mgr.getTimes []) ((s.corr.mgr.getTimes []).map fun _ => 1) >>=
          fun r' => .ok (⟨r'.1, r.2.1, r'.2.1⟩ : Comp K G)) True False := by
    intro vals hv
    obtain ⟨hlen, -⟩ := collect_spec hv
    obtain ⟨w1, m1, ks1, e1, -⟩ := fill_empty s.w hlen (times_sorted hb.sorted)
    obtain ⟨w2, m2, ks2, e2, -⟩ := fill_empty (C := G) w1
      (cs := (s.corr.mgr.getTimes []).map fun _ => 1) (by simp) (times_sorted hq.sorted)
    simp only [Outcome.ok_bind, clear_extend_eq, e1, e2]
    exact ends_ok _
  refine ends_congr (ends_seq hcol hrest) ?_ ?_
  · simp only [and_true, times_knots]
    constructor
    · intro h
      by_cases hn : s.base.mgr.knots = []
      · exact .inl hn
      · obtain ⟨p, hp, ep⟩ := knots_min hn
        obtain ⟨q, hq, eq⟩ := knots_max hn
        have h1 := h _ (List.mem_map_of_mem hp)
        have h2 := h _ (List.mem_map_of_mem hq)
        rw [ep] at h1
        rw [eq] at h2
        exact .inr ⟨h1.2.1, h1.1, h2.1⟩
    · rintro (h | ⟨h1, h2, h3⟩) t ht
      · simp [h] at ht
      · obtain ⟨p, hp, rfl⟩ := List.mem_map.1 ht
        have hm := mem_range hb.sorted hp
        exact ⟨⟨h2.1, h2.2.1, h2.2.2.1.trans hm.1, hm.2.trans h3.2.2.2⟩,
          h1, List.ne_nil_of_mem hp, hm⟩
  · simp only [and_false, or_false, times_knots]
    constructor
    · rintro ⟨pre, t, post, e, h1, h2 | h2⟩
      · have hpre : pre = [] := by
          refine List.eq_nil_iff_forall_not_mem.2 fun a ha => ?_
          exact (h1 a ha).1.2.1 h2.2.1
        subst hpre
        cases hn : s.base.mgr.nodes with
        | nil => simp [Mgr.knots, hn] at e
        | cons n l =>
          have hk : s.base.mgr.knots ≠ [] := by simp [Mgr.knots, hn]
          have hm : s.base.mgr.getMinTime = t := by
            simp [Mgr.knots, hn] at e
            simp [Mgr.getMinTime, hn, e.1]
          rw [hm]
          exact ⟨hk, h2⟩
      · exfalso
        rw [h2.2.2.1] at e
        simp at e
    · rintro ⟨h1, h2⟩
      cases hn : s.base.mgr.nodes with
      | nil => simp [Mgr.knots, hn] at h1
      | cons n l =>
        refine ⟨[], n.time, (l.map fun n => n.time), by simp [Mgr.knots, hn, Function.comp_def], by simp, .inl ?_⟩
        simpa [Mgr.getMinTime, hn] using h2

/-- C132, new correction times. `setCorrectionTimes(ts)` returns exactly when the correction reaches all given times and they
begin and end with the base; it is undefined behaviour exactly when there is no correction and the first given time is zero. -/
theorem C132_times (L : ExpLog K G V) {kb kc : Kind} {s : Comp K G} (hr : Reachable L kb kc s) (ts : List K)
    (hc : s.w.calls + ts.length + 1 < 2 ^ 64) :
    Ends (setCorrectionTimes L kc ts s)
      ((∀ t ∈ ts, Reaches kc s.corr.mgr t) ∧ Span ts s.base.mgr.getMinTime s.base.mgr.getMaxTime)
      (∃ t ∈ ts.head?, Hollow kc s.corr.mgr t) := by
  have hi := hr.inv (show s.w.calls + 1 < 2 ^ 64 by omega)
  obtain ⟨hb, hq⟩ := hi.wf (show s.w.calls + 1 < 2 ^ 64 by omega)
  have hcol := collect_ends (evaluate_ends L kc hq.sorted) ts
  refine ends_congr (ends_seq hcol (P' := Span ts s.base.mgr.getMinTime s.base.mgr.getMaxTime) (Q' := False) ?_) Iff.rfl ?_
  · intro vals hv
    obtain ⟨hlen, -⟩ := collect_spec hv
    have hcl : Manager.Reachable ⟨s.w, (Mgr.empty : Mgr K G)⟩ := (clear_steps s.w s.corr.mgr).reachable hi.corr
    rw [clear_extend_eq]
    obtain ⟨⟨w1, m1, ks1⟩, e1⟩ := (insertMany_ends hcl ts vals hc).1.mpr hlen
    rw [e1]
    refine ends_congr (checkEnds_ends _) ?_ Iff.rfl
    refine span_iff (insertMany_sorted hcl hc e1) (fun t => ?_) _ _
    rw [insertMany_times hcl hc e1]
    simp [Mgr.empty, Mgr.knots]
  · simp only [and_false, or_false]
    constructor
    · rintro ⟨pre, t, post, rfl, h1, h2⟩
      cases pre with
      | nil => exact ⟨t, by simp, h2⟩
      | cons a pre => exact absurd h2.2.1 (h1 a (by simp)).2.1
    · rintro ⟨t, ht, h⟩
      cases ts with
      | nil => simp at ht
      | cons a l =>
        simp only [List.head?_cons, Option.mem_def, Option.some.injEq] at ht
        subst ht
        exact ⟨[], a, l, rfl, by simp, h⟩

/-- C132, one correction. Setting or removing the correction at `t` returns exactly when the correction has a knot there;
otherwise it aborts. Transforming aborts exactly on a base of class `SlerpSE3Curve` with knots. -/
theorem C132_edit (L : ExpLog K G V) {kb kc : Kind} {s : Comp K G} (hr : Reachable L kb kc s)
    (hc : s.w.calls + 1 < 2 ^ 64) (t : K) (v X : G) :
    Ends (setCorrection t v s) (∃ u, (t, u) ∈ s.corr.mgr.knots) False ∧
    Ends (removeCorrection t s) (∃ u, (t, u) ∈ s.corr.mgr.knots) False ∧
    Ends (transformCurve L kb X s) (kb ≠ .slerpSE3 ∨ s.base.mgr.knots = []) False := by
  obtain ⟨hb, hq⟩ := (hr.inv hc).wf hc
  refine ⟨?_, ?_, ?_⟩
  · refine ends_intro (fun h => ?_) (fun h => h.elim) (fun h _ => ?_) (fun _ h => h)
    · have hh := (has_iff s.corr.mgr t).2 h
      obtain ⟨w', m', k, e, -⟩ := insert_spec hq hc t v
      exact ⟨⟨w', s.base, { s.corr with mgr := m' }⟩, by simp only [setCorrection, if_pos hh, e, Outcome.ok_bind]⟩
    · unfold setCorrection
      rw [if_neg (mt (has_iff s.corr.mgr t).1 h)]
  · obtain ⟨h1, h2⟩ := C60_remove L hr hc t
    refine ends_intro (fun h => ?_) (fun h => h.elim) (fun h _ => ?_) (fun _ h => h)
    · obtain ⟨s', e, -⟩ := h2 h
      exact ⟨s', e⟩
    · exact h1 fun u hu => h ⟨u, hu⟩
  · refine ends_bind (f := fun r : World × Curve K G => ({ s with w := r.1, base := r.2 } : Comp K G)) ?_
    refine ends_intro (fun h => ?_) (fun h => h.elim) (fun h _ => ?_) (fun _ h => h)
    · by_cases hk : kb = .slerpSE3
      · have hkn := h.resolve_left (fun h => h hk)
        have : s.base.mgr.nodes = [] := by simpa [Mgr.knots] using hkn
        exact ⟨_, by simp [Discrete.transformCurve, Mgr.getTimes, this, transformLoop]; rfl⟩
      · obtain ⟨c', e, -⟩ := transform_spec L hk X hb hc
        exact ⟨_, e⟩
    · push Not at h
      obtain ⟨rfl, h2⟩ := h
      exact (C50_discrete_partial L .setTimeRange s.base.mgr 0 X s.w s.base).2.2 (by rwa [curve_knots])

/-- C132, replacing curves. `resetCorrectionCurve` and `setBaseCurve` with measurements return exactly when there are as many
values as times and the times begin and end with the other curve. Without measurements they leave the curves as they are
and return exactly when these begin and end together. `setBaseCurvePart` counts the times of the knots there already. -/
theorem C132_replace (L : ExpLog K G V) {kb kc : Kind} {s : Comp K G} (hr : Reachable L kb kc s) (ts : List K) (vs : List G)
    (hc : s.w.calls + ts.length + 1 < 2 ^ 64) :
    Ends (resetCorrectionCurve ts s)
      (if ts = [] then Aligned s else Span ts s.base.mgr.getMinTime s.base.mgr.getMaxTime) False ∧
    Ends (setBaseCurve ts vs s)
      (ts.length = vs.length ∧ if ts = [] then Aligned s else Span ts s.corr.mgr.getMinTime s.corr.mgr.getMaxTime) False ∧
    Ends (setBaseCurvePart ts vs s)
      (ts.length = vs.length ∧
        Span (s.base.mgr.knots.map Prod.fst ++ ts) s.corr.mgr.getMinTime s.corr.mgr.getMaxTime) False := by
  have hi := hr.inv (show s.w.calls + 1 < 2 ^ 64 by omega)
  obtain ⟨hb, hq⟩ := hi.wf (show s.w.calls + 1 < 2 ^ 64 by omega)
  have flip : ∀ {m : Mgr K G} {lo hi : K}, (lo = m.getMinTime ∧ hi = m.getMaxTime) ↔ (m.getMinTime = lo ∧ m.getMaxTime = hi) :=
    ⟨fun h => ⟨h.1.symm, h.2.symm⟩, fun h => ⟨h.1.symm, h.2.symm⟩⟩
  refine ⟨?_, ?_, ?_⟩
  · by_cases hn : ts = []
    · subst hn
      simp only [if_true]
      exact checkEnds_ends _
    · rw [if_neg hn]
      obtain ⟨h1, h2⟩ := fit_ends hi.corr ts (ts.map fun _ => (1 : G)) hc hn
      refine ends_congr (ends_seq (P' := Span ts s.base.mgr.getMinTime s.base.mgr.getMaxTime) (Q' := False) h1 ?_)
        (by simp) (by simp)
      intro r e
      obtain ⟨a, b⟩ := h2 r e
      exact ends_congr (checkEnds_ends _) (span_iff a b _ _) Iff.rfl
  · by_cases hn : ts = []
    · subst hn
      simp only [if_true]
      by_cases hl : ([] : List K).length = vs.length
      · have : vs = [] := by simpa [eq_comm] using hl
        subst this
        exact ends_congr (checkEnds_ends _) (by simp [Aligned]) Iff.rfl
      · have : setBaseCurve [] vs s = .abort := by
          unfold setBaseCurve Curve.fitCurve
          rw [if_pos hl]; rfl
        rw [this]
        exact ends_congr ends_abort ⟨fun h => h.elim, fun h => hl h.1⟩ Iff.rfl
    · rw [if_neg hn]
      obtain ⟨h1, h2⟩ := fit_ends hi.base ts vs hc hn
      refine ends_congr (ends_seq (P' := Span ts s.corr.mgr.getMinTime s.corr.mgr.getMaxTime) (Q' := False) h1 ?_)
        Iff.rfl (by simp)
      intro r e
      obtain ⟨a, b⟩ := h2 r e
      exact ends_congr (checkEnds_ends _) (flip.trans (span_iff a b _ _)) Iff.rfl
  · refine ends_congr (ends_seq (o := s.base.setCurve s.w ts vs) (P := ts.length = vs.length) (Q := False)
      (P' := Span (s.base.mgr.knots.map Prod.fst ++ ts) s.corr.mgr.getMinTime s.corr.mgr.getMaxTime) (Q' := False)
      ?_ ?_) Iff.rfl (by simp)
    · unfold Curve.setCurve
      split
      · rename_i h
        exact ends_congr ends_abort ⟨fun h => h.elim, fun h' => h h'⟩ Iff.rfl
      · rename_i h
        push Not at h
        split
        · exact ends_bind (f := fun r : World × Mgr K G × List Key => (r.1, { s.base with mgr := r.2.1 }))
            (insertMany_ends hi.base ts vs hc)
        · exact ends_congr (ends_ok _) (by simp [h]) Iff.rfl
    · intro r e
      refine ends_congr (checkEnds_ends _) (flip.trans ?_) Iff.rfl
      unfold Curve.setCurve at e
      split at e
      · cases e
      · split at e
        · obtain ⟨⟨w', m', ks⟩, h1, h2⟩ := Outcome.bind_eq_ok.1 e
          cases h2
          exact span_iff (insertMany_sorted hi.base hc h1) (insertMany_times hi.base hc h1) _ _
        · rename_i h
          have : ts = [] := by simpa using h
          subst this
          cases e
          refine span_iff hb.sorted (fun t => ?_) _ _
          simp

/-- C132, changing values of the base. `modifyBaseCoefficientsValuesInBatch` returns exactly when there are as many values as
times, the times are those of consecutive knots of the base, and the two curves begin and end together. It is undefined
behaviour exactly when the lengths agree and the list is empty, begins at a time that is no knot of the base, or is right
up to the last knot and then goes on. -/
theorem C132_modify (L : ExpLog K G V) {kb kc : Kind} {s : Comp K G} (hr : Reachable L kb kc s)
    (hc : s.w.calls + 1 < 2 ^ 64) (ts : List K) (vs : List G) :
    Ends (modifyBase ts vs s)
      (ts.length = vs.length ∧ ts ≠ [] ∧ (∃ pre post, s.base.mgr.knots.map Prod.fst = pre ++ ts ++ post) ∧ Aligned s)
      (ts.length = vs.length ∧ ((∀ t ∈ ts.head?, t ∉ s.base.mgr.knots.map Prod.fst) ∨
        ∃ pre run more, run ≠ [] ∧ more ≠ [] ∧ s.base.mgr.knots.map Prod.fst = pre ++ run ∧ ts = run ++ more)) := by
  have hm : Manager.Reachable ⟨s.w, s.base.mgr⟩ := (hr.inv hc).base
  obtain ⟨hb, -⟩ := (hr.inv hc).wf hc
  have htimes : s.base.mgr.knots.map Prod.fst = s.base.mgr.contents.map (·.1) := by
    simp [Mgr.knots, Mgr.contents, Function.comp_def]
  have hnd : (s.base.mgr.knots.map Prod.fst).Nodup := by
    have := (sorted_iff_knots.1 hb.sorted)
    exact this.imp fun h => h.ne
  rw [htimes] at hnd ⊢
  obtain ⟨hlen, hstart⟩ := C10_batch_modify_bad_start (s := ⟨s.w, s.base.mgr⟩) ts vs
  by_cases hl : ts.length = vs.length
  swap
  · rw [modifyBase, hlen hl]
    exact ends_congr ends_abort ⟨fun h => h.elim, fun h => hl h.1⟩ ⟨fun h => h.elim, fun h => hl h.1⟩
  by_cases h0 : ∀ t ∈ ts.head?, t ∉ s.base.mgr.contents.map (·.1)
  · rw [modifyBase, hstart hl fun t0 ht k v hmem => h0 t0 ht (List.mem_map.2 ⟨_, hmem, rfl⟩)]
    refine ends_intro (fun h => ?_) (fun _ => rfl) (fun _ h => absurd ⟨hl, .inl h0⟩ h) ?_
    · obtain ⟨-, h1, ⟨pre, post, h2⟩, -⟩ := h
      cases ts with
      | nil => exact absurd rfl h1
      | cons a l => exact absurd (by rw [h2]; simp) (h0 a (by simp))
    · rintro ⟨-, h1, ⟨pre, post, h2⟩, -⟩ -
      cases ts with
      | nil => exact absurd rfl h1
      | cons a l => exact absurd (by rw [h2]; simp) (h0 a (by simp))
  push Not at h0
  obtain ⟨t0, ht0, hmem⟩ := h0
  obtain ⟨pre, suf, hsplit⟩ := List.append_of_mem hmem
  have hts : ∃ rest, ts = t0 :: rest := by
    cases ts with
    | nil => simp at ht0
    | cons a l => simp at ht0; subst ht0; exact ⟨l, rfl⟩
  -- any other way of splitting at the first time is this one
  have huniq : ∀ pre' suf', s.base.mgr.contents.map (·.1) = pre' ++ t0 :: suf' → pre' = pre ∧ suf' = suf := by
    intro pre' suf' h
    rw [h] at hsplit hnd
    rw [List.nodup_append] at hnd
    have h1 : t0 ∉ pre' := fun hx => hnd.2.2 t0 hx t0 (by simp) rfl
    have h2 : t0 ∉ suf' := (List.nodup_cons.1 hnd.2.1).1
    obtain ⟨a, -, b⟩ := (List.append_cons_inj_of_notMem h1 h2).1 hsplit
    exact ⟨a, b⟩
  obtain ⟨rest, rfl⟩ := hts
  rcases list_compare (t0 :: suf) (t0 :: rest) with ⟨post, hA⟩ | ⟨more, hmore, hB⟩ | ⟨m, y, p, x, q, hA, hB, hxy⟩
  · -- a run of knots
    have hfull : s.base.mgr.contents.map (·.1) = pre ++ (t0 :: rest) ++ post := by rw [hsplit, hA]; simp
    obtain ⟨c1, cpost, hc1, hc2, rfl⟩ := List.map_eq_append_iff.1 hfull
    obtain ⟨cpre, cmid, rfl, rfl, hmid⟩ := List.map_eq_append_iff.1 hc2
    obtain ⟨m', e, hcont, -⟩ := C10_batch_modify hm hc hc1 (by rintro rfl; simp at hmid) (vs := vs)
      (by rw [← hl, ← hmid]; simp)
    rw [hmid] at e
    obtain ⟨hmin, hmax⟩ := same_ends (map_time_of_frame (modBatch_frame e).1)
    have hgo : modifyBase (t0 :: rest) vs s = checkEnds { s with base := { s.base with mgr := m' } } := by
      rw [modifyBase]
      rw [show Mgr.modifyCoefficientsValuesInBatch s.base.mgr (t0 :: rest) vs = .ok m' from e]
      rfl
    rw [hgo]
    refine ends_congr (checkEnds_ends _) ?_ ?_
    · simp only [Aligned, hmin, hmax]
      exact ⟨fun h => ⟨hl, by simp, ⟨_, _, hfull⟩, h⟩, fun h => h.2.2.2⟩
    · refine ⟨fun h => h.elim, ?_⟩
      rintro ⟨-, h | ⟨pre', run, more, h1, h2, h3, h4⟩⟩
      · exact h t0 (by simp) hmem
      · cases run with
        | nil => exact h1 rfl
        | cons a run =>
          simp only [List.cons_append, List.cons.injEq] at h4
          obtain ⟨rfl, h4⟩ := h4
          obtain ⟨-, rfl⟩ := huniq _ _ h3
          have h5 := congrArg List.length hA
          have h6 := congrArg List.length h4
          have h7 := List.length_pos_iff.2 h2
          simp at h5 h6
          omega
  · -- beyond the last knot
    obtain ⟨cpre, cmid, hc1, rfl, hmid⟩ := List.map_eq_append_iff.1 hsplit
    obtain ⟨x, more, rfl⟩ := List.exists_cons_of_ne_nil hmore
    have hne : cmid ≠ [] := by rintro rfl; simp at hmid
    have := (C10_batch_modify_mismatch hm hc (pre := cpre) (mid := cmid) (y := cmid.head hne) (post := []) (x := x)
      (more := more) (vs := vs) hne (by rw [← hl, hB]; rw [← hmid]; simp; omega)).2 hc1
    rw [hmid, ← hB] at this
    rw [modifyBase, show Mgr.modifyCoefficientsValuesInBatch s.base.mgr (t0 :: rest) vs = .ub from this]
    have hQ : ∃ pre run more, run ≠ [] ∧ more ≠ [] ∧ s.base.mgr.contents.map (·.1) = pre ++ run ∧
        t0 :: rest = run ++ more := ⟨_, _, _, by simp, hmore, hsplit, hB⟩
    have hnP : ¬∃ pre post, s.base.mgr.contents.map (·.1) = pre ++ (t0 :: rest) ++ post := by
      rintro ⟨pre', post', h⟩
      obtain ⟨-, h'⟩ := huniq pre' (rest ++ post') (by rw [h]; simp)
      have h5 := congrArg List.length hB
      have h6 := congrArg List.length h'
      simp at h5 h6
      omega
    exact ends_intro (fun h => absurd h.2.2.1 hnP) (fun _ => rfl) (fun _ h => absurd ⟨hl, .inr hQ⟩ h)
      (fun h => absurd h.2.2.1 hnP)
  · -- a wrong time
    have hfull : s.base.mgr.contents.map (·.1) = pre ++ m ++ y :: p := by rw [hsplit, hA]; simp
    obtain ⟨c1, cpost, hc1, hc2, hc3⟩ := List.map_eq_append_iff.1 hfull
    obtain ⟨cpre, cmid, rfl, rfl, rfl⟩ := List.map_eq_append_iff.1 hc2
    obtain ⟨cy, cp, rfl, rfl, rfl⟩ := List.map_eq_cons_iff.1 hc3
    have hne : cmid ≠ [] := by
      rintro rfl
      simp at hA hB
      exact hxy (hA.1.symm.trans hB.1)
    have := (C10_batch_modify_mismatch hm hc (pre := cpre) (mid := cmid) (y := cy) (post := cp) (x := x)
      (more := q) (vs := vs) hne (by rw [← hl, hB]; simp; omega)).1 hc1 hxy
    rw [← hB] at this
    rw [modifyBase, show Mgr.modifyCoefficientsValuesInBatch s.base.mgr (t0 :: rest) vs = .abort from this]
    refine ends_congr ends_abort ⟨fun h => h.elim, ?_⟩ ⟨fun h => h.elim, ?_⟩
    · rintro ⟨-, -, ⟨pre', post', h⟩, -⟩
      obtain ⟨-, h'⟩ := huniq pre' (rest ++ post') (by rw [h]; simp)
      have : t0 :: suf = (t0 :: rest) ++ post' := by rw [← h']; simp
      rw [hA, hB, List.append_assoc] at this
      have := List.append_cancel_left this
      simp at this
      exact hxy this.1
    · rintro ⟨-, h | ⟨pre', run, more, h1, h2, h3, h4⟩⟩
      · exact h t0 (by simp) hmem
      · cases run with
        | nil => exact h1 rfl
        | cons a run =>
          have h4' := h4
          simp only [List.cons_append, List.cons.injEq] at h4'
          obtain ⟨rfl, -⟩ := h4'
          obtain ⟨-, rfl⟩ := huniq _ _ h3
          rw [hA, hB, List.append_assoc] at h4
          have := List.append_cancel_left h4
          simp at this
          exact hxy this.1.symm

/-! ### `extend` -/

/-- There is a knot at `t`. -/
def HasKnot (m : Mgr K G) (t : K) : Prop := ∃ u, (t, u) ∈ m.knots

theorem one_small {w : World} {c : Curve K G} (h : WF w c.mgr) (hw : w.calls + 1 < 2 ^ 64) (hs : c.mgr.size ≤ 1) (t : K) (v : G) :
    ∃ w' c' ks, c.extend w [t] [v] = .ok (w', c', ks) ∧ WF w' c'.mgr ∧ w'.calls ≤ w.calls + 1 ∧
      ∀ a, HasKnot c'.mgr a ↔ a = t ∨ HasKnot c.mgr a := by
  obtain ⟨w', m', k, e, hwf, hcont, hcalls⟩ := insert_spec h hw t v
  have hsz : c.mgr.isEmpty = true ∨ c.mgr.size = 1 := by
    simp only [Mgr.isEmpty, Mgr.size, List.isEmpty_iff, ← List.length_eq_zero_iff] at hs ⊢
    omega
  refine ⟨w', { c with mgr := m' }, [k], ?_, hwf, ?_, ?_⟩
  · simp [Curve.extend, hsz, Mgr.insertCoefficients, Mgr.insertLoop, e]
  · rcases hcalls with ⟨rfl, -⟩ | ⟨h, -⟩ <;> omega
  · intro a
    simp only [HasKnot, mem_knots, hcont]
    constructor
    · rintro ⟨u, k', ⟨rfl, -⟩ | ⟨-, h⟩⟩
      · exact .inl rfl
      · exact .inr ⟨u, k', h⟩
    · rintro (rfl | ⟨u, k', h⟩)
      · exact ⟨v, k, .inl ⟨rfl, rfl, rfl⟩⟩
      · by_cases ha : a = t
        · exact ⟨v, k, .inl ⟨ha, rfl, rfl⟩⟩
        · exact ⟨u, k', .inr ⟨ha, h⟩⟩

theorem ends_of {m : Mgr K G} (hs : Sorted m.nodes) {lo hi : K} (h0 : HasKnot m lo) (h1 : HasKnot m hi)
    (h : ∀ a, HasKnot m a → lo ≤ a ∧ a ≤ hi) : m.knots ≠ [] ∧ m.getMinTime = lo ∧ m.getMaxTime = hi := by
  obtain ⟨v, hv⟩ := h0
  exact ⟨List.ne_nil_of_mem hv, minmax_of_ends hs ⟨v, hv⟩ h1 fun p hp => h p.1 ⟨p.2, hp⟩⟩

theorem hasKnot_range {m : Mgr K G} (hs : Sorted m.nodes) {a : K} (h : HasKnot m a) : m.getMinTime ≤ a ∧ a ≤ m.getMaxTime := by
  obtain ⟨u, hu⟩ := h
  exact mem_range hs hu

theorem hasKnot_min {m : Mgr K G} (hne : m.knots ≠ []) : HasKnot m m.getMinTime := by
  obtain ⟨p, hp, e⟩ := knots_min hne
  exact ⟨p.2, by rw [← e]; exact hp⟩

theorem hasKnot_max {m : Mgr K G} (hne : m.knots ≠ []) : HasKnot m m.getMaxTime := by
  obtain ⟨p, hp, e⟩ := knots_max hne
  exact ⟨p.2, by rw [← e]; exact hp⟩

/-- One measurement after the last knot. -/
theorem one_back {w : World} {c : Curve K G} (h : WF w c.mgr) (hw : w.calls + 1 < 2 ^ 64) (hne : c.mgr.knots ≠ [])
    (hs : c.mgr.size ≤ 1 ∨ c.pol.minMeas = 1 ∨ c.pol.since ≠ 2 ^ 31 - 1) {t : K} (ht : c.mgr.getMaxTime < t) (v : G) :
    ∃ w' c' ks, c.extend w [t] [v] = .ok (w', c', ks) ∧ WF w' c'.mgr ∧ w'.calls ≤ w.calls + 1 ∧
      c'.mgr.knots ≠ [] ∧ c'.mgr.getMinTime = c.mgr.getMinTime ∧ c'.mgr.getMaxTime = t := by
  have hmm : c.mgr.getMinTime ≤ c.mgr.getMaxTime := (hasKnot_range h.sorted (hasKnot_min hne)).2
  by_cases hsz : c.mgr.size ≤ 1
  · obtain ⟨w', c', ks, e, hwf, hcalls, hk⟩ := one_small h hw hsz t v
    refine ⟨w', c', ks, e, hwf, hcalls, ends_of hwf.sorted ((hk _).2 (.inr (hasKnot_min hne))) ((hk _).2 (.inl rfl)) ?_⟩
    intro a ha
    rcases (hk a).1 ha with rfl | ha
    · exact ⟨hmm.trans ht.le, le_rfl⟩
    · have := hasKnot_range h.sorted ha
      exact ⟨this.1, this.2.trans ht.le⟩
  · have htb : ∀ x ∈ c.mgr.contents, x.1 < t := by
      rintro ⟨x, k, u⟩ hx
      obtain ⟨n, hn, rfl, -, -⟩ := mem_contents.1 hx
      exact (min_le_node h.sorted hn).2.trans_lt ht
    obtain ⟨w', c', ks, pre, k, e, hwf, hcalls, hcont, hpre⟩ := extend_forward h hw (hs.resolve_left hsz) v htb
    have hsub : ∀ x ∈ pre, x ∈ c.mgr.contents := by
      rcases hpre with h | ⟨last, -, h⟩
      · rw [h]; exact fun x hx => hx
      · rw [h]; exact fun x hx => List.mem_append_left _ hx
    have hhead : pre.head? = c.mgr.contents.head? := by
      rcases hpre with h | ⟨last, hne', h⟩
      · rw [h]
      · rw [h]
        obtain ⟨a, l, rfl⟩ := List.exists_cons_of_ne_nil hne'
        rfl
    have hmin : HasKnot c'.mgr c.mgr.getMinTime := by
      cases hn : c.mgr.nodes with
      | nil => simp [Mgr.knots, hn] at hne
      | cons n l =>
        have hx : (n.time, n.key, n.coef) ∈ pre := by
          apply List.mem_of_mem_head?
          rw [hhead]
          simp [Mgr.contents, hn]
        refine ⟨n.coef, mem_knots.2 ⟨n.key, ?_⟩⟩
        rw [hcont]
        simpa [Mgr.getMinTime, hn] using Or.inl hx
    refine ⟨w', c', ks, e, hwf, hcalls, ends_of hwf.sorted hmin ⟨v, mem_knots.2 ⟨k, by simp [hcont]⟩⟩ ?_⟩
    rintro a ⟨u, hu⟩
    obtain ⟨k', hk'⟩ := mem_knots.1 hu
    rw [hcont, List.mem_append] at hk'
    rcases hk' with hk' | hk'
    · have := hasKnot_range h.sorted ⟨u, mem_knots.2 ⟨k', hsub _ hk'⟩⟩
      exact ⟨this.1, this.2.trans ht.le⟩
    · simp at hk'
      obtain ⟨rfl, -⟩ := hk'
      exact ⟨hmm.trans ht.le, le_rfl⟩

/-- One measurement before the first knot, when the policy moves the last knot. -/
theorem one_front {w : World} {c : Curve K G} (h : WF w c.mgr) (hsz : 2 ≤ c.mgr.size)
    (hm : c.pol.minMeas ≠ 1) (hs : c.pol.since ≠ 2 ^ 31 - 1) (h0 : c.pol.since ≠ 0) {t : K} (ht : t < c.mgr.getMinTime) (v : G) :
    ∃ w' c' ks, c.extend w [t] [v] = .ok (w', c', ks) ∧ WF w' c'.mgr ∧ w'.calls = w.calls ∧
      ∀ a, HasKnot c'.mgr a ↔ a = t ∨ (a ≠ c.mgr.getMaxTime ∧ HasKnot c.mgr a) := by
  have hne : c.mgr.nodes ≠ [] := by
    intro e
    simp [Mgr.size, e] at hsz
  have hmem := List.getLast_mem hne
  obtain ⟨w', m', e, hcalls, -, hwf, hcont⟩ := move_spec h hmem t v fun x hx =>
    (ht.trans_le (min_le_node h.sorted hx).1).ne'
  have hlast : (c.mgr.nodes.getLast hne).time = c.mgr.getMaxTime := by
    simp [Mgr.getMaxTime, List.getLast?_eq_some_getLast hne]
  refine ⟨w', ⟨m', { c.pol with since := if c.pol.since + 1 = c.pol.minMeas then 0 else c.pol.since + 1 }⟩, [], ?_, hwf, hcalls, ?_⟩
  · unfold Curve.extend
    simp only [List.length_singleton, ne_eq, not_true_eq_false, if_false]
    rw [if_neg (by
      simp only [Mgr.isEmpty, Mgr.size, List.isEmpty_iff, ← List.length_eq_zero_iff] at hsz ⊢
      omega), if_neg hm, if_neg hs, addOrMove, if_neg (by omega), List.getLast?_eq_some_getLast hne]
    simp only [e, Outcome.ok_bind]
  · intro a
    simp only [HasKnot, mem_knots, hcont, hlast]
    constructor
    · rintro ⟨u, k, ⟨rfl, -⟩ | ⟨h1, h2⟩⟩
      · exact .inl rfl
      · exact .inr ⟨h1, u, k, h2⟩
    · rintro (rfl | ⟨h1, u, k, h2⟩)
      · exact ⟨v, _, .inl ⟨rfl, rfl, rfl⟩⟩
      · exact ⟨u, k, .inr ⟨h1, h2⟩⟩

/-- Two measurements at once. -/
theorem two_ok {w : World} {c : Curve K G} (h : WF w c.mgr) (hw : w.calls + 3 < 2 ^ 64) {a b : K} (hab : a ≠ b) (x y : G) :
    ∃ w' c' ks, c.extend w [a, b] [x, y] = .ok (w', c', ks) ∧ WF w' c'.mgr ∧ w'.calls ≤ w.calls + 2 ∧
      ∀ d, HasKnot c'.mgr d ↔ d = a ∨ d = b ∨ HasKnot c.mgr d := by
  obtain ⟨w', c', ks, e, hwf, hcalls, -, -, hk⟩ := extend_list [a, b] [x, y] h rfl (by simpa using hw) (.inl (by simp)) (by
    intro t v v' h1 h2
    simp at h1 h2
    rcases h1 with ⟨rfl, rfl⟩ | ⟨rfl, rfl⟩ <;> rcases h2 with ⟨h, rfl⟩ | ⟨h, rfl⟩ <;> first | rfl | exact absurd h hab | exact absurd h.symm hab)
  refine ⟨w', c', ks, e, hwf, by simpa using hcalls, fun d => ?_⟩
  simp only [HasKnot, hk]
  constructor
  · rintro ⟨u, h | ⟨-, h⟩⟩
    · simp at h
      rcases h with ⟨rfl, -⟩ | ⟨rfl, -⟩ <;> simp
    · exact .inr (.inr ⟨u, h⟩)
  · by_cases h1 : d = a
    · exact fun _ => ⟨x, .inl (by simp [h1])⟩
    · by_cases h2 : d = b
      · exact fun _ => ⟨y, .inl (by simp [h2])⟩
      · rintro (h | h | ⟨u, h⟩)
        · exact absurd h h1
        · exact absurd h h2
        · exact ⟨u, .inr ⟨by simp [h1, h2], h⟩⟩

/-- The correction has to grow at its end to cover the base and the new time. -/
def Behind (s : Comp K G) (t : K) : Prop := s.corr.mgr.getMaxTime < max s.base.mgr.getMaxTime t

/-- The correction has to grow at its beginning to cover the base and the new time. -/
def Ahead (s : Comp K G) (t : K) : Prop := min s.base.mgr.getMinTime t < s.corr.mgr.getMinTime

/-- The correction can be made to reach the new time: it has at most one knot; or has to grow at its end (whether or not also
at the beginning), and the counter of the sampling policy is not at its maximum; or need not grow; or has to grow at the
beginning only, where the sampling policy must be about to move the last knot and there must be a knot from the new time on
besides the last. -/
def Grows (s : Comp K G) (t : K) : Prop :=
  s.corr.mgr.size ≤ 1 ∨ (Behind s t ∧ (s.corr.pol.minMeas = 1 ∨ s.corr.pol.since ≠ 2 ^ 31 - 1)) ∨
    (¬Behind s t ∧ ¬Ahead s t) ∨
    (¬Behind s t ∧ s.corr.pol.minMeas ≠ 1 ∧ s.corr.pol.since ≠ 2 ^ 31 - 1 ∧ s.corr.pol.since ≠ 0 ∧
      ∃ p ∈ s.corr.mgr.knots, t ≤ p.1 ∧ p.1 < s.corr.mgr.getMaxTime)

/-- The counter of the sampling policy overflows. -/
def Overflows (s : Comp K G) (t : K) : Prop :=
  2 ≤ s.corr.mgr.size ∧ s.corr.pol.minMeas ≠ 1 ∧ s.corr.pol.since = 2 ^ 31 - 1 ∧ (Behind s t ∨ Ahead s t)

theorem newMax_eq (s : Comp K G) (t : K) : newMax s t = max s.base.mgr.getMaxTime t := by
  have : (if s.base.mgr.isEmpty then 0 else s.base.mgr.getMaxTime) = s.base.mgr.getMaxTime := by
    split
    · rename_i h
      simp only [Mgr.isEmpty, List.isEmpty_iff] at h
      simp [Mgr.getMaxTime, h]
    · rfl
  simp only [newMax, this]
  split
  · rename_i h; exact (max_eq_right h.le).symm
  · rename_i h; exact (max_eq_left (not_lt.1 h)).symm

theorem newMin_eq (s : Comp K G) (t : K) : newMin s t = min s.base.mgr.getMinTime t := by
  have : (if s.base.mgr.isEmpty then 0 else s.base.mgr.getMinTime) = s.base.mgr.getMinTime := by
    split
    · rename_i h
      simp only [Mgr.isEmpty, List.isEmpty_iff] at h
      simp [Mgr.getMinTime, h]
    · rfl
  simp only [newMin, this]
  split
  · rename_i h; exact (min_eq_right h.le).symm
  · rename_i h; exact (min_eq_left (not_lt.1 h)).symm

/-- The first three steps of `extend`. -/
def grow (L : ExpLog K G V) (kc : Kind) (s : Comp K G) (t : K) : Outcome (Work K G) :=
  growEmpty (newMin s t) ⟨s.w, s.corr, [], []⟩ >>= fun x =>
    growMax L kc (newMax s t) x >>= fun x => growMin L kc (newMin s t) x

theorem extend_eq_grow (L : ExpLog K G V) (kc : Kind) (s : Comp K G) (t : K) (v : G) :
    extend L kc [t] [v] s = (grow L kc s t >>= fun x =>
      evaluate L kc t x.corr.mgr >>= fun q =>
        s.base.extend x.w [t] [q⁻¹ * v] >>= fun r => .ok (⟨r.1, r.2.1, x.corr⟩, r.2.2)) := by
  simp only [extend, grow]
  cases growEmpty (newMin s t) ⟨s.w, s.corr, [], []⟩ with
  | ok x =>
    simp only [Outcome.ok_bind]
    cases growMax L kc (newMax s t) x <;> rfl
  | abort => rfl
  | throw => rfl
  | ub => rfl

theorem grow_steps {L : ExpLog K G V} {kc : Kind} {s : Comp K G} {t : K} {x : Work K G} (hi : Inv s)
    (e : grow L kc s t = .ok x) (hc : x.w.calls + 1 < 2 ^ 64) : Steps ⟨s.w, s.corr.mgr⟩ x.st := by
  obtain ⟨x1, e1, e⟩ := Outcome.bind_eq_ok.1 e
  obtain ⟨x2, e2, e3⟩ := Outcome.bind_eq_ok.1 e
  have m1 : x1.w.calls ≤ x2.w.calls := by
    unfold growMax at e2
    split at e2
    · obtain ⟨q, -, e2⟩ := Outcome.bind_eq_ok.1 e2
      obtain ⟨⟨w1, c1, ks⟩, h1, h2⟩ := Outcome.bind_eq_ok.1 e2
      cases h2
      exact extend_calls h1
    · cases e2; exact le_rfl
  have m2 : x2.w.calls ≤ x.w.calls := by
    unfold growMin at e3
    split at e3
    · obtain ⟨q, -, e3⟩ := Outcome.bind_eq_ok.1 e3
      obtain ⟨⟨w1, c1, ks⟩, h1, h2⟩ := Outcome.bind_eq_ok.1 e3
      cases h2
      exact extend_calls h1
    · cases e3; exact le_rfl
  have s1 := growEmpty_steps e1
  have r1 : Manager.Reachable x1.st := s1.reachable hi.corr
  have s2 := growMax_steps (r1.WF (show x1.w.calls + 1 < 2 ^ 64 by omega)) e2
  have r2 : Manager.Reachable x2.st := s2.reachable r1
  have s3 := growMin_steps (r2.WF (show x2.w.calls + 1 < 2 ^ 64 by omega)) e3
  exact s1.trans (s2.trans s3)

theorem push_eq {w w' : World} {c c' : Curve K G} {ts : List K} {vs : List G} {t : K} {v : G} {ks : List Nat}
    (e : c.extend w (ts ++ [t]) (vs ++ [v]) = .ok (w', c', ks)) :
    (⟨w, c, ts, vs⟩ : Work K G).push t v = .ok ⟨w', c', ts ++ [t], vs ++ [v]⟩ := by
  simp only [Work.push, e, Outcome.ok_bind]

/-- How growing the correction ends. -/
theorem grow_cases (L : ExpLog K G V) {kc : Kind} (hk : kc ≠ .slerpSE3) {s : Comp K G} (hi : Inv s)
    (hc : s.w.calls + 6 < 2 ^ 64) (t : K) :
    (Grows s t ∧ ¬Overflows s t ∧ ∃ x, grow L kc s t = .ok x ∧ WF x.w x.corr.mgr ∧ x.w.calls ≤ s.w.calls + 3 ∧
      Reaches kc x.corr.mgr t) ∨
    (Overflows s t ∧ ¬Grows s t ∧ grow L kc s t = .ub) ∨
    (¬Grows s t ∧ ¬Overflows s t ∧ (grow L kc s t = .abort ∨ ∃ x, grow L kc s t = .ok x ∧ WF x.w x.corr.mgr ∧
      x.corr.mgr.knots ≠ [] ∧ ¬Reaches kc x.corr.mgr t)) := by
  obtain ⟨hwb, hw⟩ := hi.wf (show s.w.calls + 1 < 2 ^ 64 by omega)
  have hlo : newMin s t ≤ t := by rw [newMin_eq]; exact min_le_right _ _
  have hhi : t ≤ newMax s t := by rw [newMax_eq]; exact le_max_right _ _
  have hB : Behind s t ↔ s.corr.mgr.getMaxTime < newMax s t := by rw [newMax_eq]; rfl
  have hA : Ahead s t ↔ newMin s t < s.corr.mgr.getMinTime := by rw [newMin_eq]; rfl
  have hr : Manager.Reachable (Discrete.St.mgr ⟨s.w, s.corr⟩) := hi.corr
  have hsingle : ∀ a v, Ends (s.corr.extend s.w [a] [v]) _ _ := fun a v =>
    single_ends (s := ⟨s.w, s.corr⟩) hr (by show s.w.calls + 2 < 2 ^ 64; omega) a v
  by_cases hn : s.corr.mgr.knots = []
  · -- no correction yet
    have hn' : s.corr.mgr.nodes = [] := by simpa [Mgr.knots] using hn
    have hsz : s.corr.mgr.size ≤ 1 := by simp [Mgr.size, hn']
    left
    refine ⟨.inl hsz, fun h => absurd h.1 (by omega), ?_⟩
    obtain ⟨w1, c1, ks1, e1, hw1, hc1, hk1⟩ := one_small hw (by omega) hsz (newMin s t) 1
    have hno : ∀ a, ¬HasKnot s.corr.mgr a := fun a ⟨u, hu⟩ => by simp [hn] at hu
    have hiff : ∀ a, HasKnot c1.mgr a ↔ a = newMin s t := fun a => by rw [hk1]; simp [hno a]
    obtain ⟨hne1, hmin1, hmax1⟩ := ends_of hw1.sorted ((hiff _).2 rfl) ((hiff _).2 rfl) fun a ha => by
      rw [(hiff a).1 ha]; exact ⟨le_rfl, le_rfl⟩
    have g1 : growEmpty (newMin s t) ⟨s.w, s.corr, [], []⟩ = .ok ⟨w1, c1, [newMin s t], [1]⟩ := by
      rw [growEmpty, if_pos (by simp [Mgr.isEmpty, hn'])]
      exact push_eq (ts := []) (vs := []) e1
    by_cases hlt : newMin s t < newMax s t
    · obtain ⟨q, hq⟩ := evaluate_inside L hk hw1.sorted hne1 (t := c1.mgr.getMaxTime) (by rw [hmin1, hmax1]) le_rfl
      obtain ⟨w2, c2, ks2, e2, hw2, hc2, hk2⟩ := two_ok hw1 (by omega) (ne_of_lt hlt) 1 q
      have g2 : growMax L kc (newMax s t) ⟨w1, c1, [newMin s t], [1]⟩ = .ok ⟨w2, c2, [newMin s t, newMax s t], [1, q]⟩ := by
        rw [growMax, if_pos (show c1.mgr.getMaxTime < newMax s t by rw [hmax1]; exact hlt)]
        show (evaluate L kc c1.mgr.getMaxTime c1.mgr >>= fun q => _) = _
        rw [hq]
        exact push_eq (ts := [newMin s t]) (vs := [1]) e2
      obtain ⟨hne2, hmin2, hmax2⟩ := ends_of hw2.sorted ((hk2 _).2 (.inl rfl)) ((hk2 _).2 (.inr (.inl rfl))) fun a ha => by
        rcases (hk2 a).1 ha with rfl | rfl | ha
        · exact ⟨le_rfl, hlt.le⟩
        · exact ⟨hlt.le, le_rfl⟩
        · rw [(hiff a).1 ha]; exact ⟨le_rfl, hlt.le⟩
      have g3 : growMin L kc (newMin s t) ⟨w2, c2, [newMin s t, newMax s t], [1, q]⟩ =
          .ok ⟨w2, c2, [newMin s t, newMax s t], [1, q]⟩ := by
        rw [growMin, if_neg (show ¬newMin s t < c2.mgr.getMinTime by rw [hmin2]; exact lt_irrefl _)]
      refine ⟨_, by rw [grow, g1, Outcome.ok_bind, g2, Outcome.ok_bind, g3], hw2, show w2.calls ≤ s.w.calls + 3 by omega,
        hk, hne2, by rw [hmin2]; exact hlo, by rw [hmax2]; exact hhi⟩
    · have g2 : growMax L kc (newMax s t) ⟨w1, c1, [newMin s t], [1]⟩ = .ok ⟨w1, c1, [newMin s t], [1]⟩ := by
        rw [growMax, if_neg (show ¬c1.mgr.getMaxTime < newMax s t by rw [hmax1]; exact hlt)]
      have g3 : growMin L kc (newMin s t) ⟨w1, c1, [newMin s t], [1]⟩ = .ok ⟨w1, c1, [newMin s t], [1]⟩ := by
        rw [growMin, if_neg (show ¬newMin s t < c1.mgr.getMinTime by rw [hmin1]; exact lt_irrefl _)]
      refine ⟨_, by rw [grow, g1, Outcome.ok_bind, g2, Outcome.ok_bind, g3], hw1, show w1.calls ≤ s.w.calls + 3 by omega,
        hk, hne1, by rw [hmin1]; exact hlo, by rw [hmax1]; exact hhi.trans (not_lt.1 hlt)⟩
  have hn' : s.corr.mgr.nodes ≠ [] := knots_ne_nil.1 hn
  have hmm : s.corr.mgr.getMinTime ≤ s.corr.mgr.getMaxTime := (hasKnot_range hw.sorted (hasKnot_min hn)).2
  have g1 : growEmpty (newMin s t) ⟨s.w, s.corr, [], []⟩ = .ok ⟨s.w, s.corr, [], []⟩ := by
    rw [growEmpty, if_neg (by simpa [Mgr.isEmpty] using hn')]
  by_cases hb : Behind s t
  · obtain ⟨q, hq⟩ := evaluate_inside L hk hw.sorted hn (t := s.corr.mgr.getMaxTime) hmm le_rfl
    have g2 : growMax L kc (newMax s t) ⟨s.w, s.corr, [], []⟩ = (⟨s.w, s.corr, [], []⟩ : Work K G).push (newMax s t) q := by
      rw [growMax, if_pos (hB.1 hb), hq]
      rfl
    by_cases hcond : s.corr.mgr.size ≤ 1 ∨ s.corr.pol.minMeas = 1 ∨ s.corr.pol.since ≠ 2 ^ 31 - 1
    · left
      refine ⟨hcond.elim .inl fun h => .inr (.inl ⟨hb, h⟩), ?_, ?_⟩
      · rintro ⟨h1, h2, h3, -⟩
        rcases hcond with h | h | h
        · omega
        · exact h2 h
        · exact h h3
      obtain ⟨w2, c2, ks2, e2, hw2, hc2, hne2, hmin2, hmax2⟩ := one_back hw (by omega) hn hcond (hB.1 hb) q
      have g2' := g2.trans (push_eq (ts := []) (vs := []) e2)
      by_cases ha : Ahead s t
      · obtain ⟨q', hq'⟩ := evaluate_inside L hk hw2.sorted hne2 (t := c2.mgr.getMinTime) le_rfl (by
          rw [hmin2, hmax2]; exact hmm.trans (hB.1 hb).le)
        have hlt : newMin s t < newMax s t := (hA.1 ha).trans_le (hmm.trans (hB.1 hb).le)
        obtain ⟨w3, c3, ks3, e3, hw3, hc3, hk3⟩ := two_ok hw2 (by omega) (ne_of_gt hlt) q q'
        have g3 : growMin L kc (newMin s t) ⟨w2, c2, [newMax s t], [q]⟩ = .ok ⟨w3, c3, [newMax s t, newMin s t], [q, q']⟩ := by
          rw [growMin, if_pos (show newMin s t < c2.mgr.getMinTime by rw [hmin2]; exact hA.1 ha)]
          show (evaluate L kc c2.mgr.getMinTime c2.mgr >>= fun q => _) = _
          rw [hq']
          exact push_eq (ts := [newMax s t]) (vs := [q]) e3
        obtain ⟨hne3, hmin3, hmax3⟩ := ends_of hw3.sorted ((hk3 _).2 (.inr (.inl rfl))) ((hk3 _).2 (.inl rfl)) fun a ha' => by
          rcases (hk3 a).1 ha' with rfl | rfl | h
          · exact ⟨hlt.le, le_rfl⟩
          · exact ⟨le_rfl, hlt.le⟩
          · have := hasKnot_range hw2.sorted h
            rw [hmin2, hmax2] at this
            exact ⟨(hA.1 ha).le.trans this.1, this.2⟩
        exact ⟨_, by rw [grow, g1, Outcome.ok_bind, g2', Outcome.ok_bind]; exact g3, hw3, show w3.calls ≤ s.w.calls + 3 by omega,
          hk, hne3, by rw [hmin3]; exact hlo, by rw [hmax3]; exact hhi⟩
      · have g3 : growMin L kc (newMin s t) ⟨w2, c2, [newMax s t], [q]⟩ = .ok ⟨w2, c2, [newMax s t], [q]⟩ := by
          rw [growMin, if_neg (show ¬newMin s t < c2.mgr.getMinTime by rw [hmin2]; exact mt hA.2 ha)]
        exact ⟨_, by rw [grow, g1, Outcome.ok_bind, g2', Outcome.ok_bind]; exact g3, hw2, show w2.calls ≤ s.w.calls + 3 by omega,
          hk, hne2, by rw [hmin2]; exact (not_lt.1 (mt hA.2 ha)).trans hlo, by rw [hmax2]; exact hhi⟩
    · push Not at hcond
      right; left
      have hov : Overflows s t := ⟨by omega, hcond.2.1, hcond.2.2, .inl hb⟩
      refine ⟨hov, ?_, ?_⟩
      · rintro (h | ⟨-, h | h⟩ | ⟨h, -⟩ | ⟨h, -⟩)
        · omega
        · exact hcond.2.1 h
        · exact h hcond.2.2
        · exact h hb
        · exact h hb
      · have hub : s.corr.extend s.w [newMax s t] [q] = .ub := (hsingle (newMax s t) q).2.1.2 ⟨hov.1, hov.2.1, hov.2.2.1⟩
        rw [grow, g1, Outcome.ok_bind, g2, Work.push]
        simp only [List.nil_append, hub]
        rfl
  · have g2 : growMax L kc (newMax s t) ⟨s.w, s.corr, [], []⟩ = .ok ⟨s.w, s.corr, [], []⟩ := by
      rw [growMax, if_neg (mt hB.2 hb)]
    have hle : newMax s t ≤ s.corr.mgr.getMaxTime := not_lt.1 (mt hB.2 hb)
    by_cases ha : Ahead s t
    · obtain ⟨q, hq⟩ := evaluate_inside L hk hw.sorted hn (t := s.corr.mgr.getMinTime) le_rfl hmm
      have g3 : growMin L kc (newMin s t) ⟨s.w, s.corr, [], []⟩ = (⟨s.w, s.corr, [], []⟩ : Work K G).push (newMin s t) q := by
        rw [growMin, if_pos (hA.1 ha), hq]
        rfl
      have hgrow : grow L kc s t = (⟨s.w, s.corr, [], []⟩ : Work K G).push (newMin s t) q := by
        rw [grow, g1, Outcome.ok_bind, g2, Outcome.ok_bind, g3]
      have hgrow' : grow L kc s t = (s.corr.extend s.w [newMin s t] [q] >>= fun r => .ok ⟨r.1, r.2.1, [newMin s t], [q]⟩) := hgrow
      by_cases hsz : s.corr.mgr.size ≤ 1
      · left
        refine ⟨.inl hsz, fun h => absurd h.1 (by omega), ?_⟩
        obtain ⟨w3, c3, ks3, e3, hw3, hc3, hk3⟩ := one_small hw (by omega) hsz (newMin s t) q
        obtain ⟨hne3, hmin3, hmax3⟩ := ends_of hw3.sorted ((hk3 _).2 (.inl rfl)) ((hk3 _).2 (.inr (hasKnot_max hn))) fun a ha' => by
          rcases (hk3 a).1 ha' with rfl | h
          · exact ⟨le_rfl, (hA.1 ha).le.trans hmm⟩
          · have := hasKnot_range hw.sorted h
            exact ⟨(hA.1 ha).le.trans this.1, this.2⟩
        exact ⟨_, by rw [hgrow', e3]; rfl, hw3, show w3.calls ≤ s.w.calls + 3 by omega, hk, hne3, by rw [hmin3]; exact hlo,
          by rw [hmax3]; exact hhi.trans hle⟩
      · by_cases hm : s.corr.pol.minMeas = 1
        · right; right
          refine ⟨?_, fun h => h.2.1 hm, .inl ?_⟩
          · rintro (h | ⟨h, -⟩ | ⟨-, h⟩ | ⟨-, h, -⟩)
            exacts [hsz h, hb h, h ha, h hm]
          · have : s.corr.extend s.w [newMin s t] [q] = .abort := by
              refine (hsingle (newMin s t) q).2.2.2 ⟨?_, fun h => h.2.1 hm⟩
              rintro (h | ⟨-, h⟩ | ⟨h, -⟩)
              · exact hsz h
              · exact absurd h (not_lt.2 ((hA.1 ha).le.trans hmm))
              · exact h hm
            rw [hgrow', this]
            rfl
        · by_cases hs : s.corr.pol.since = 2 ^ 31 - 1
          · right; left
            refine ⟨⟨by omega, hm, hs, .inr ha⟩, ?_, ?_⟩
            · rintro (h | ⟨h, -⟩ | ⟨-, h⟩ | ⟨-, -, h, -⟩)
              exacts [hsz h, hb h, h ha, h hs]
            · have : s.corr.extend s.w [newMin s t] [q] = .ub :=
                (hsingle (newMin s t) q).2.1.2 ⟨show 2 ≤ s.corr.mgr.size by omega, hm, hs⟩
              rw [hgrow', this]
              rfl
          · have hnov : ¬Overflows s t := fun h => hs h.2.2.1
            by_cases h0 : s.corr.pol.since = 0
            · right; right
              refine ⟨?_, hnov, .inl ?_⟩
              · rintro (h | ⟨h, -⟩ | ⟨-, h⟩ | ⟨-, -, -, h, -⟩)
                exacts [hsz h, hb h, h ha, h h0]
              · have : s.corr.extend s.w [newMin s t] [q] = .abort := by
                  refine (hsingle (newMin s t) q).2.2.2 ⟨?_, fun h => hs h.2.2⟩
                  rintro (h | ⟨h, -⟩ | ⟨-, -, h⟩)
                  · exact hsz h
                  · exact hm h
                  · exact absurd (h h0) (not_lt.2 ((hA.1 ha).le.trans hmm))
                rw [hgrow', this]
                rfl
            · obtain ⟨w3, c3, ks3, e3, hw3, hc3, hk3⟩ := one_front hw (by omega) hm hs h0 (hA.1 ha) q
              have hok : grow L kc s t = .ok ⟨w3, c3, [newMin s t], [q]⟩ := by rw [hgrow', e3]; rfl
              have hlt : s.corr.mgr.getMinTime < s.corr.mgr.getMaxTime := by
                rcases hmm.lt_or_eq with h | h
                · exact h
                · exfalso
                  obtain ⟨a, l, hl⟩ := List.exists_cons_of_ne_nil hn'
                  cases l with
                  | nil => simp [Mgr.size, hl] at hsz
                  | cons b l =>
                    have h1 := min_le_node hw.sorted (show a ∈ s.corr.mgr.nodes by simp [hl])
                    have h2 := min_le_node hw.sorted (show b ∈ s.corr.mgr.nodes by simp [hl])
                    have h3 := hw.sorted
                    rw [hl] at h3
                    have := (List.pairwise_cons.1 h3).1 b (by simp)
                    exact absurd (h1.1.trans_lt (this.trans_le h2.2)) (by rw [h]; exact lt_irrefl _)
              have hkmin : HasKnot c3.mgr s.corr.mgr.getMinTime := (hk3 _).2 (.inr ⟨hlt.ne, hasKnot_min hn⟩)
              have hne3 : c3.mgr.knots ≠ [] := by
                obtain ⟨u, hu⟩ := hkmin
                exact List.ne_nil_of_mem hu
              have hmin3 : c3.mgr.getMinTime ≤ t :=
                ((hasKnot_range hw3.sorted ((hk3 _).2 (.inl rfl))).1).trans hlo
              have hmax3 : t ≤ c3.mgr.getMaxTime ↔ ∃ p ∈ s.corr.mgr.knots, t ≤ p.1 ∧ p.1 < s.corr.mgr.getMaxTime := by
                constructor
                · intro h
                  rcases (hk3 _).1 (hasKnot_max hne3) with h' | ⟨h1, u, hu⟩
                  · exfalso
                    have := (hasKnot_range hw3.sorted hkmin).2
                    rw [h'] at this
                    exact absurd (hA.1 ha) (not_lt.2 this)
                  · exact ⟨_, hu, h, lt_of_le_of_ne (mem_range hw.sorted hu).2 h1⟩
                · rintro ⟨p, hp, h1, h2⟩
                  exact h1.trans (hasKnot_range hw3.sorted ((hk3 p.1).2 (.inr ⟨h2.ne, p.2, hp⟩))).2
              by_cases hex : ∃ p ∈ s.corr.mgr.knots, t ≤ p.1 ∧ p.1 < s.corr.mgr.getMaxTime
              · exact .inl ⟨.inr (.inr (.inr ⟨hb, hm, hs, h0, hex⟩)), hnov, _, hok, hw3, show w3.calls ≤ s.w.calls + 3 by omega,
                  hk, hne3, hmin3, hmax3.2 hex⟩
              · refine .inr (.inr ⟨?_, hnov, .inr ⟨_, hok, hw3, hne3, fun h => hex (hmax3.1 h.2.2.2)⟩⟩)
                rintro (h | ⟨h, -⟩ | ⟨-, h⟩ | ⟨-, -, -, -, h⟩)
                exacts [hsz h, hb h, h ha, hex h]
    · left
      refine ⟨.inr (.inr (.inl ⟨hb, ha⟩)), fun h => h.2.2.2.elim hb ha, ?_⟩
      have g3 : growMin L kc (newMin s t) ⟨s.w, s.corr, [], []⟩ = .ok ⟨s.w, s.corr, [], []⟩ := by
        rw [growMin, if_neg (mt hA.2 ha)]
      exact ⟨_, by rw [grow, g1, Outcome.ok_bind, g2, Outcome.ok_bind, g3], hw, show s.w.calls ≤ s.w.calls + 3 by omega, hk, hn,
        (not_lt.1 (mt hA.2 ha)).trans hlo, hhi.trans hle⟩

/-- C132, extending. `extend` (and `fitCurve`, which calls it) returns exactly when given a single measurement, the correction
is of a kind that can be evaluated and can be made to reach the new time, and the base has at most one knot or ends
before the new time. It is undefined behaviour exactly when the counter of the sampling policy of the correction
overflows, and aborts otherwise. -/
theorem C132_extend (L : ExpLog K G V) {kb kc : Kind} {s : Comp K G} (hr : Reachable L kb kc s)
    (hc : s.w.calls + 6 < 2 ^ 64) (ts : List K) (vs : List G) :
    Ends (extend L kc ts vs s)
      (∃ t v, ts = [t] ∧ vs = [v] ∧ kc ≠ .slerpSE3 ∧ Grows s t ∧ (s.base.mgr.size ≤ 1 ∨ s.base.mgr.getMaxTime < t))
      (∃ t v, ts = [t] ∧ vs = [v] ∧ kc ≠ .slerpSE3 ∧ Overflows s t) := by
  have hi := hr.inv (show s.w.calls + 1 < 2 ^ 64 by omega)
  by_cases hone : ∃ t v, ts = [t] ∧ vs = [v]
  swap
  · have : extend L kc ts vs s = .abort := by
      unfold extend
      split
      · exact absurd ⟨_, _, rfl, rfl⟩ hone
      · rfl
    rw [this]
    exact ends_congr ends_abort ⟨fun h => h.elim, fun ⟨t, v, h1, h2, _⟩ => hone ⟨t, v, h1, h2⟩⟩
      ⟨fun h => h.elim, fun ⟨t, v, h1, h2, _⟩ => hone ⟨t, v, h1, h2⟩⟩
  obtain ⟨t, v, rfl, rfl⟩ := hone
  have red : ∀ P : K → Prop, (∃ t' v', [t] = [t'] ∧ [v] = [v'] ∧ P t') ↔ P t := fun P =>
    ⟨fun ⟨t', v', h1, h2, h⟩ => by cases h1; exact h, fun h => ⟨t, v, rfl, rfl, h⟩⟩
  rw [red fun t => kc ≠ .slerpSE3 ∧ Grows s t ∧ (s.base.mgr.size ≤ 1 ∨ s.base.mgr.getMaxTime < t),
    red fun t => kc ≠ .slerpSE3 ∧ Overflows s t, extend_eq_grow]
  by_cases hk : kc = .slerpSE3
  · subst hk
    have hab : (grow L .slerpSE3 s t >>= fun x => evaluate L .slerpSE3 t x.corr.mgr >>= fun q =>
        s.base.extend x.w [t] [q⁻¹ * v] >>= fun r => .ok (⟨r.1, r.2.1, x.corr⟩, r.2.2)) =
        (.abort : Outcome (Comp K G × List Nat)) := by
      have hev : ∀ a (m : Mgr K G), evaluate L .slerpSE3 a m = .abort := fun a m => rfl
      obtain ⟨-, hw⟩ := hi.wf (show s.w.calls + 1 < 2 ^ 64 by omega)
      have h1 : ∃ x, growEmpty (newMin s t) ⟨s.w, s.corr, [], []⟩ = .ok x := by
        unfold growEmpty
        split
        · rename_i h
          obtain ⟨w', c', ks, e, -⟩ := one_small hw (by omega) (by
            simp only [Mgr.isEmpty, List.isEmpty_iff] at h
            simp [Mgr.size, h]) (newMin s t) 1
          exact ⟨_, push_eq (ts := []) (vs := []) e⟩
        · exact ⟨_, rfl⟩
      obtain ⟨x, e⟩ := h1
      rw [grow, e, Outcome.ok_bind, growMax]
      split
      · rw [hev]; rfl
      · rw [Outcome.ok_bind, growMin]
        split
        · rw [hev]; rfl
        · rw [Outcome.ok_bind, hev]; rfl
    rw [hab]
    exact ends_congr ends_abort ⟨fun h => h.elim, fun h => h.1 rfl⟩ ⟨fun h => h.elim, fun h => h.1 rfl⟩
  rcases grow_cases L hk hi hc t with ⟨hg, hno, x, e, hw, hcalls, hre⟩ | ⟨ho, hng, e⟩ | ⟨hng, hno, e | ⟨x, e, hw, hne, hre⟩⟩
  · obtain ⟨q, hq⟩ := evaluate_inside L hk hw.sorted hre.2.1 hre.2.2.1 hre.2.2.2
    have hst := grow_steps hi e (by omega)
    have hbr : Manager.Reachable ⟨x.w, s.base.mgr⟩ := (hst.other s.base.mgr).reachable hi.base
    have hbe := single_ends (s := ⟨x.w, s.base⟩) hbr (by show x.w.calls + 2 < 2 ^ 64; omega) t (q⁻¹ * v)
    rw [e, Outcome.ok_bind, hq, Outcome.ok_bind]
    refine ends_congr (ends_bind (f := fun r : World × Curve K G × List Nat =>
      ((⟨r.1, r.2.1, x.corr⟩, r.2.2) : Comp K G × List Nat)) hbe) ?_ ?_
    · have hm := hi.ratio
      simp only [hm]
      tauto
    · have hm := hi.ratio
      simp only [hm]
      tauto
  · rw [e]
    exact ends_intro (fun h => absurd h.2.1 hng) (fun _ => rfl) (fun _ h => absurd ⟨hk, ho⟩ h) (fun h => absurd h.2.1 hng)
  · rw [e]
    exact ends_congr ends_abort ⟨fun h => h.elim, fun h => hng h.2.1⟩ ⟨fun h => h.elim, fun h => hno h.2⟩
  · rw [e, Outcome.ok_bind, (evaluate_ends L kc hw.sorted t).2.2.2 ⟨hre, fun h => hne h.2.1⟩]
    exact ends_congr ends_abort ⟨fun h => h.elim, fun h => hng h.2.1⟩ ⟨fun h => h.elim, fun h => hno h.2⟩

/-! ### Examples

`demo`: base with knots at 1, 2, 3, 4, correction with knots at 0, 1, 3, 4. -/

example : (∃ r, extend (lineMaps ℚ) .slerp [6] [.ofAdd 3] demo = .ok r) ∧
    (extend (lineMaps ℚ) .slerp [3] [.ofAdd 3] demo >>= fun _ => .ok ()) = .abort ∧
    (extend (lineMaps ℚ) .slerp [5, 6] [.ofAdd 3, .ofAdd 4] demo >>= fun _ => .ok ()) = .abort ∧
    (∃ v, eval (lineMaps ℚ) .slerp .slerp 1 demo = .ok v) ∧ eval (lineMaps ℚ) .slerp .slerp 0 demo = .abort ∧
    (∃ r, foldInCorrections (lineMaps ℚ) .slerp .slerp demo = .ok r) ∧
    (setCorrectionTimes (lineMaps ℚ) .slerp [1, 3] demo >>= fun _ => .ok ()) = .abort ∧
    (modifyBase [3, 4, 5] [.ofAdd 1, .ofAdd 1, .ofAdd 1] demo >>= fun _ => .ok ()) = .ub ∧
    (modifyBase [2, 4] [.ofAdd 1, .ofAdd 1] demo >>= fun _ => .ok ()) = .abort := by
  refine ⟨⟨_, rfl⟩, by decide +kernel, by decide +kernel, ⟨.ofAdd 5, by decide +kernel⟩, by decide +kernel, ⟨_, rfl⟩,
    by decide +kernel, by decide +kernel, by decide +kernel⟩

/-- A correction that keeps every second measurement, with its counter at the maximum, next to a base that ended before. -/
example : let s : Comp ℚ (Multiplicative ℚ) := ⟨⟨9, 9⟩, ⟨⟨[⟨1, 0, 1, .ofAdd 0⟩], [(1, 1)]⟩, ⟨0, 1⟩⟩,
      ⟨⟨[⟨2, 0, 2, .ofAdd 0⟩, ⟨3, 1, 3, .ofAdd 1⟩], [(2, 2), (3, 3)]⟩, ⟨2 ^ 31 - 1, 2⟩⟩⟩
    Overflows s 2 ∧ (extend (lineMaps ℚ) .slerp [2] [.ofAdd 3] s >>= fun _ => .ok ()) = .ub := by
  refine ⟨⟨by decide +kernel, by decide, rfl, .inl ?_⟩, by decide +kernel⟩
  show (1 : ℚ) < max 0 2
  norm_num

example := C132_extend (lineMaps ℚ) demo_reachable (by rw [demo_calls]; norm_num) [6] [.ofAdd 3]

example := C132_reads (lineMaps ℚ) demo_reachable (by rw [demo_calls]; norm_num) (7 / 2)

example := C132_either_order (lineMaps ℚ) demo_reachable (by rw [demo_calls]; norm_num) 0

/-- After one measurement at time 1 and the removal of its two corrections, the value at time zero: undefined behaviour if the
correction is asked first, a refusal if the base is. -/
example : (run (lineMaps ℚ) .slerp .slerp (Comp.fresh ⟨100, 200⟩) [.extend [1] [.ofAdd 5], .remove 0, .remove 1] >>=
      eval (lineMaps ℚ) .slerp .slerp 0) = .ub ∧
    (run (lineMaps ℚ) .slerp .slerp (Comp.fresh ⟨100, 200⟩) [.extend [1] [.ofAdd 5], .remove 0, .remove 1] >>=
      evalBaseFirst (lineMaps ℚ) .slerp .slerp 0) = .abort := by
  decide +kernel

example := C132_fold (lineMaps ℚ) demo_reachable (by rw [demo_calls]; norm_num)

example := C132_times (lineMaps ℚ) demo_reachable [4, 1, 2] (by rw [demo_calls]; norm_num)

example := C132_edit (lineMaps ℚ) demo_reachable (by rw [demo_calls]; norm_num) 3 (.ofAdd 1) (.ofAdd 2)

example := C132_replace (lineMaps ℚ) demo_reachable [4, 0] [.ofAdd 1, .ofAdd 2] (by rw [demo_calls]; norm_num)

example := C132_modify (lineMaps ℚ) demo_reachable (by rw [demo_calls]; norm_num) [2, 3] [.ofAdd 1, .ofAdd 2]

end Verif.Composition

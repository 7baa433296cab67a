import Verif.Composition.Model
import Verif.Discrete.Lemmas

/-!
# Lemmas about the composition curve
-/

set_option linter.unusedSectionVars false
set_option linter.dupNamespace false

namespace Verif.Manager

variable {T C : Type} [LinearOrder T] [Zero T]

theorem step_addr_mono {s s' : St T C} {op : Op T C} (e : step s op = .ok s') :
    s.w.nextAddr ≤ s'.w.nextAddr := by
  cases op with
  | insert t c =>
    obtain ⟨⟨w', m', k⟩, h1, h2⟩ := Outcome.bind_eq_ok.1 e
    cases h2
    exact (insert_calls_mono h1).2
  | insertMany ts cs =>
    obtain ⟨⟨w', m', ks⟩, h1, h2⟩ := Outcome.bind_eq_ok.1 e
    cases h2
    exact (insertLoop_calls_mono (insertCoefficients_ok h1).2).2
  | addEnd t c =>
    obtain ⟨⟨w', m', k⟩, h1, h2⟩ := Outcome.bind_eq_ok.1 e
    cases h2
    unfold Mgr.addCoefficientAtEnd at h1
    split at h1
    · split at h1
      · cases h1
      · cases h1; simp
    · cases h1
  | removeAt t => obtain ⟨m', h1, h2⟩ := Outcome.bind_eq_ok.1 e; cases h2; exact le_rfl
  | updKey k c => obtain ⟨m', h1, h2⟩ := Outcome.bind_eq_ok.1 e; cases h2; exact le_rfl
  | updKeys l => obtain ⟨m', h1, h2⟩ := Outcome.bind_eq_ok.1 e; cases h2; exact le_rfl
  | modBatch ts cs => obtain ⟨m', h1, h2⟩ := Outcome.bind_eq_ok.1 e; cases h2; exact le_rfl
  | move it t c =>
    obtain ⟨⟨w', m'⟩, h1, h2⟩ := Outcome.bind_eq_ok.1 e
    cases h2
    unfold Mgr.modifyCoefficient at h1
    split at h1
    · cases h1
    · cases h1; simp
  | clear => simp only [step] at e; cases e; exact le_rfl
  | others k a => simp only [step] at e; cases e; simp

theorem run_addr_mono {s s' : St T C} {ops : List (Op T C)} (e : run s ops = .ok s') :
    s.w.nextAddr ≤ s'.w.nextAddr := by
  induction ops generalizing s with
  | nil => simp only [run] at e; cases e; exact le_rfl
  | cons op rest ih =>
    simp only [run] at e
    obtain ⟨s1, h1, h2⟩ := Outcome.bind_eq_ok.1 e
    exact (step_addr_mono h1).trans (ih h2)

/-- What one manager does is, for any other manager, other activity in the process. -/
theorem Steps.other {C' : Type} {s s' : St T C} (h : Steps s s') (m : Mgr T C') :
    Steps (⟨s.w, m⟩ : St T C') ⟨s'.w, m⟩ := by
  obtain ⟨l, -, e⟩ := h
  have h1 := run_calls_mono e
  have h2 := run_addr_mono e
  have := others_steps s.w m (s'.w.calls - s.w.calls) (s'.w.nextAddr - s.w.nextAddr)
  rwa [Nat.add_sub_cancel' h1, Nat.add_sub_cancel' h2] at this

theorem mem_knots {m : Mgr T C} {t : T} {v : C} : (t, v) ∈ m.knots ↔ ∃ k, (t, k, v) ∈ m.contents := by
  simp only [Mgr.knots, Mgr.contents, List.mem_map, Prod.mk.injEq]
  constructor
  · rintro ⟨n, hn, rfl, rfl⟩; exact ⟨n.key, n, hn, rfl, rfl, rfl⟩
  · rintro ⟨k, n, hn, rfl, -, rfl⟩; exact ⟨n, hn, rfl, rfl⟩

/-- Inserting a list that never gives two values for one time. -/
theorem insertLoop_mem {l : List (T × C)} : ∀ {w w' : World} {m m' : Mgr T C} {ks : List Key},
    WF w m → m.insertLoop w l = .ok (w', m', ks) → w'.calls + 1 < 2 ^ 64 →
    (∀ t v v', (t, v) ∈ l → (t, v') ∈ l → v = v') →
    ∀ t v, (t, v) ∈ m'.knots ↔ (t, v) ∈ l ∨ (t ∉ l.map Prod.fst ∧ (t, v) ∈ m.knots) := by
  induction l with
  | nil =>
    intro w w' m m' ks _ e _ _ t v
    simp only [Mgr.insertLoop] at e
    cases e
    simp
  | cons p rest ih =>
    obtain ⟨t0, c0⟩ := p
    intro w w' m m' ks h e hc hf t v
    obtain ⟨⟨w1, m1, k1⟩, h1, h2⟩ := Outcome.bind_eq_ok.1 e
    obtain ⟨⟨w2, m2, k2⟩, h3, h4⟩ := Outcome.bind_eq_ok.1 h2
    cases h4
    have hmono := (insertLoop_calls_mono h3).1
    have hmono1 := (insert_calls_mono h1).1
    have hw : w.calls + 1 < 2 ^ 64 := by omega
    obtain ⟨w1', m1', k0', e1, hwf1, hcont, -⟩ := insert_spec h hw t0 c0
    rw [h1] at e1
    cases e1
    have hk : (t, v) ∈ m1.knots ↔ (t = t0 ∧ v = c0) ∨ (t ≠ t0 ∧ (t, v) ∈ m.knots) := by
      simp only [mem_knots, hcont]
      constructor
      · rintro ⟨k, ⟨rfl, -, rfl⟩ | ⟨h, h'⟩⟩
        exacts [.inl ⟨rfl, rfl⟩, .inr ⟨h, k, h'⟩]
      · rintro (⟨rfl, rfl⟩ | ⟨h, k, h'⟩)
        exacts [⟨k1, .inl ⟨rfl, rfl, rfl⟩⟩, ⟨k, .inr ⟨h, h'⟩⟩]
    rw [ih hwf1 h3 hc (fun t v v' a b => hf t v v' (.tail _ a) (.tail _ b)) t v, hk]
    simp only [List.mem_cons, Prod.mk.injEq, List.map_cons, not_or]
    constructor
    · rintro (h | ⟨h, ⟨rfl, rfl⟩ | ⟨h', h''⟩⟩)
      exacts [.inl (.inr h), .inl (.inl ⟨rfl, rfl⟩), .inr ⟨⟨h', h⟩, h''⟩]
    · rintro ((⟨rfl, rfl⟩ | h) | ⟨⟨h, h'⟩, h''⟩)
      · by_cases hm : t ∈ rest.map Prod.fst
        · left
          obtain ⟨⟨t', v'⟩, hx, rfl⟩ := List.mem_map.1 hm
          rwa [hf _ _ _ (.head _) (.tail _ hx)]
        · exact .inr ⟨hm, .inl ⟨rfl, rfl⟩⟩
      · exact .inl h
      · exact .inr ⟨h', .inr ⟨h, h''⟩⟩

theorem insertMany_mem {w w' : World} {m m' : Mgr T C} {ts : List T} {cs : List C} {ks : List Key}
    (h : WF w m) (e : m.insertCoefficients w ts cs = .ok (w', m', ks)) (hc : w'.calls + 1 < 2 ^ 64)
    (hf : ∀ t v v', (t, v) ∈ ts.zip cs → (t, v') ∈ ts.zip cs → v = v') (t : T) (v : C) :
    (t, v) ∈ m'.knots ↔ (t, v) ∈ ts.zip cs ∨ (t ∉ ts ∧ (t, v) ∈ m.knots) := by
  obtain ⟨hl, e⟩ := insertCoefficients_ok e
  rw [insertLoop_mem h e hc hf, List.map_fst_zip hl.le]

/-- Two sorted managers with the same set of knots have the same list of knots. -/
theorem knots_ext {m m' : Mgr T C} (hs : Sorted m.nodes) (hs' : Sorted m'.nodes)
    (h : ∀ t v, (t, v) ∈ m'.knots ↔ (t, v) ∈ m.knots) : m'.knots = m.knots := by
  apply Policy.eq_of_mem_iff
  · have := sorted_iff_knots.1 hs'; rwa [List.pairwise_map] at this
  · have := sorted_iff_knots.1 hs; rwa [List.pairwise_map] at this
  · exact fun x => h x.1 x.2

theorem knot_unique {m : Mgr T C} (hs : Sorted m.nodes) {t : T} {v v' : C} (h : (t, v) ∈ m.knots)
    (h' : (t, v') ∈ m.knots) : v = v' := by
  obtain ⟨n, hn, e⟩ := List.mem_map.1 h
  obtain ⟨n', hn', e'⟩ := List.mem_map.1 h'
  cases e
  simp only [Prod.mk.injEq] at e'
  obtain ⟨e1, rfl⟩ := e'
  rw [hs.inj hn hn' e1.symm]

end Verif.Manager

namespace Verif.Composition

open Verif.Manager Verif.Policy Verif.Discrete

variable {K G V : Type} [Field K] [LinearOrder K] [IsStrictOrderedRing K] [Group G]
  [AddCommGroup V] [Module K V]

/-- What holds of every state reached: both managers have a history of safe operations, and the base
keeps every measurement. -/
structure Inv (s : Comp K G) : Prop where
  base : Manager.Reachable ⟨s.w, s.base.mgr⟩
  corr : Manager.Reachable ⟨s.w, s.corr.mgr⟩
  ratio : s.base.pol.minMeas = 1

theorem extend_minMeas {w w' : World} {c c' : Curve K G} {ts : List K} {vs : List G} {ks : List Nat}
    (e : c.extend w ts vs = .ok (w', c', ks)) : c'.pol.minMeas = c.pol.minMeas := by
  unfold Curve.extend at e
  split at e
  · cases e
  · split at e
    · split at e
      · obtain ⟨⟨w1, m1, ks1⟩, h1, h2⟩ := Outcome.bind_eq_ok.1 e
        cases h2; rfl
      · split at e
        · obtain ⟨⟨w1, m1, ks1⟩, h1, h2⟩ := Outcome.bind_eq_ok.1 e
          cases h2; rfl
        · split at e
          · cases e
          · obtain ⟨⟨w1, m1, ks1⟩, h1, h2⟩ := Outcome.bind_eq_ok.1 e
            cases h2; rfl
    · obtain ⟨⟨w1, m1, ks1⟩, h1, h2⟩ := Outcome.bind_eq_ok.1 e
      cases h2; rfl

theorem extend_calls {w w' : World} {c c' : Curve K G} {ts : List K} {vs : List G} {ks : List Nat}
    (e : c.extend w ts vs = .ok (w', c', ks)) : w.calls ≤ w'.calls := by
  unfold Curve.extend at e
  split at e
  · cases e
  · split at e
    · rename_i t v _
      split at e
      · obtain ⟨⟨w1, m1, ks1⟩, h1, h2⟩ := Outcome.bind_eq_ok.1 e
        cases h2
        exact (insertLoop_calls_mono (insertCoefficients_ok h1).2).1
      · split at e
        · obtain ⟨⟨w1, m1, k1⟩, h1, h2⟩ := Outcome.bind_eq_ok.1 e
          cases h2
          exact step_calls_mono (s := ⟨w, c.mgr⟩) (s' := ⟨w', m1⟩) (op := .addEnd t v)
            (by simp [Manager.step, h1])
        · split at e
          · cases e
          · obtain ⟨⟨w1, m1, k1⟩, h1, h2⟩ := Outcome.bind_eq_ok.1 e
            cases h2
            unfold addOrMove at h1
            split at h1
            · obtain ⟨⟨w2, m2, k2⟩, h3, h4⟩ := Outcome.bind_eq_ok.1 h1
              cases h4
              exact step_calls_mono (s := ⟨w, c.mgr⟩) (s' := ⟨w2, m2⟩) (op := .addEnd t v)
                (by simp [Manager.step, h3])
            · split at h1
              · cases h1
              · rename_i itPrev _
                obtain ⟨⟨w2, m2⟩, h3, h4⟩ := Outcome.bind_eq_ok.1 h1
                cases h4
                exact step_calls_mono (s := ⟨w, c.mgr⟩) (s' := ⟨w2, m2⟩)
                  (op := .move itPrev.addr t v) (by simp [Manager.step, h3])
    · obtain ⟨⟨w1, m1, ks1⟩, h1, h2⟩ := Outcome.bind_eq_ok.1 e
      cases h2
      exact (insertLoop_calls_mono (insertCoefficients_ok h1).2).1

theorem fit_minMeas {w w' : World} {c c' : Curve K G} {ts : List K} {vs : List G} {ks : List Nat}
    (e : c.fitCurve w ts vs = .ok (w', c', ks)) : c'.pol = c.pol := by
  unfold Curve.fitCurve at e
  split at e
  · cases e
  · split at e
    · obtain ⟨⟨w1, m1, ks1⟩, h1, h2⟩ := Outcome.bind_eq_ok.1 e
      cases h2; rfl
    · cases e; rfl

theorem set_minMeas {w w' : World} {c c' : Curve K G} {ts : List K} {vs : List G}
    (e : c.setCurve w ts vs = .ok (w', c')) : c'.pol = c.pol := by
  unfold Curve.setCurve at e
  split at e
  · cases e
  · split at e
    · obtain ⟨⟨w1, m1, ks1⟩, h1, h2⟩ := Outcome.bind_eq_ok.1 e
      cases h2; rfl
    · cases e; rfl

theorem not_knot_of_max {w : World} {m : Mgr K G} (h : WF w m) {t : K} (ht : m.getMaxTime < t) :
    ∀ x ∈ m.contents, x.1 ≠ t := by
  rintro ⟨t', k, v⟩ hx
  obtain ⟨n, hn, rfl, -, -⟩ := mem_contents.1 hx
  exact ((min_le_node h.sorted hn).2.trans_lt ht).ne

theorem not_knot_of_min {w : World} {m : Mgr K G} (h : WF w m) {t : K} (ht : t < m.getMinTime) :
    ∀ x ∈ m.contents, x.1 ≠ t := by
  rintro ⟨t', k, v⟩ hx
  obtain ⟨n, hn, rfl, -, -⟩ := mem_contents.1 hx
  exact (ht.trans_le (min_le_node h.sorted hn).1).ne'

/-- The correction part of the locals. -/
abbrev Work.st (x : Work K G) : Manager.St K G := ⟨x.w, x.corr.mgr⟩

theorem push_steps {x x' : Work K G} {t : K} {v : G}
    (h : x.corr.mgr.size ≤ 1 ∨ ∀ y ∈ x.corr.mgr.contents, y.1 ≠ t) (e : x.push t v = .ok x') :
    Steps x.st x'.st := by
  obtain ⟨⟨w1, c1, ks⟩, h1, h2⟩ := Outcome.bind_eq_ok.1 e
  cases h2
  refine extend_steps ?_ h1
  intro t' ht
  cases hx : x.ts with
  | nil => rw [hx] at ht; simp only [List.nil_append, List.cons.injEq, and_true] at ht; subst ht
           exact .inr h
  | cons a l => rw [hx] at ht; simp at ht

theorem push_minMeas {x x' : Work K G} {t : K} {v : G} (e : x.push t v = .ok x') :
    x'.corr.pol.minMeas = x.corr.pol.minMeas := by
  obtain ⟨⟨w1, c1, ks⟩, h1, h2⟩ := Outcome.bind_eq_ok.1 e
  cases h2
  exact extend_minMeas h1

theorem growEmpty_steps {x x' : Work K G} {lo : K} (e : growEmpty lo x = .ok x') :
    Steps x.st x'.st := by
  unfold growEmpty at e
  split at e
  · rename_i h
    refine push_steps (.inl ?_) e
    simp only [Mgr.isEmpty, List.isEmpty_iff] at h
    simp [Mgr.size, h]
  · cases e; exact Steps.refl _

theorem growMax_steps {L : ExpLog K G V} {kc : Kind} {x x' : Work K G} {hi : K} (hw : WF x.w x.corr.mgr)
    (e : growMax L kc hi x = .ok x') : Steps x.st x'.st := by
  unfold growMax at e
  split at e
  · rename_i h
    obtain ⟨q, -, e⟩ := Outcome.bind_eq_ok.1 e
    exact push_steps (.inr (not_knot_of_max hw h)) e
  · cases e; exact Steps.refl _

theorem growMin_steps {L : ExpLog K G V} {kc : Kind} {x x' : Work K G} {lo : K} (hw : WF x.w x.corr.mgr)
    (e : growMin L kc lo x = .ok x') : Steps x.st x'.st := by
  unfold growMin at e
  split at e
  · rename_i h
    obtain ⟨q, -, e⟩ := Outcome.bind_eq_ok.1 e
    exact push_steps (.inr (not_knot_of_min hw h)) e
  · cases e; exact Steps.refl _

/-- The stages of a successful `extend`. -/
structure Stages (L : ExpLog K G V) (kc : Kind) (t : K) (v : G) (s s' : Comp K G) (ks : List Nat) where
  x1 : Work K G
  x2 : Work K G
  x3 : Work K G
  q : G
  e1 : growEmpty (newMin s t) ⟨s.w, s.corr, [], []⟩ = .ok x1
  e2 : growMax L kc (newMax s t) x1 = .ok x2
  e3 : growMin L kc (newMin s t) x2 = .ok x3
  ev : evaluate L kc t x3.corr.mgr = .ok q
  ex : s.base.extend x3.w [t] [q⁻¹ * v] = .ok (s'.w, s'.base, ks)
  ec : s'.corr = x3.corr

theorem extend_stages {L : ExpLog K G V} {kc : Kind} {t : K} {v : G} {s s' : Comp K G} {ks : List Nat}
    (e : extend L kc [t] [v] s = .ok (s', ks)) : Nonempty (Stages L kc t v s s' ks) := by
  obtain ⟨x1, e1, e⟩ := Outcome.bind_eq_ok.1 e
  obtain ⟨x2, e2, e⟩ := Outcome.bind_eq_ok.1 e
  obtain ⟨x3, e3, e⟩ := Outcome.bind_eq_ok.1 e
  obtain ⟨q, ev, e⟩ := Outcome.bind_eq_ok.1 e
  obtain ⟨⟨w', b', ks'⟩, ex, e⟩ := Outcome.bind_eq_ok.1 e
  cases e
  exact ⟨⟨x1, x2, x3, q, e1, e2, e3, ev, ex, rfl⟩⟩

theorem extend_shape {L : ExpLog K G V} {kc : Kind} {ts : List K} {vs : List G} {s : Comp K G}
    {r : Comp K G × List Nat} (e : extend L kc ts vs s = .ok r) : ∃ t v, ts = [t] ∧ vs = [v] := by
  unfold extend at e
  split at e
  · exact ⟨_, _, rfl, rfl⟩
  · cases e

theorem Stages.calls {L : ExpLog K G V} {kc : Kind} {t : K} {v : G} {s s' : Comp K G} {ks : List Nat}
    (g : Stages L kc t v s s' ks) : s.w.calls ≤ s'.w.calls ∧ g.x1.w.calls ≤ s'.w.calls ∧
      g.x2.w.calls ≤ s'.w.calls ∧ g.x3.w.calls ≤ s'.w.calls := by
  have m1 := (growEmpty_steps g.e1).calls
  have m2 : g.x1.w.calls ≤ g.x2.w.calls := by
    have := g.e2
    unfold growMax at this
    split at this
    · obtain ⟨q, -, e⟩ := Outcome.bind_eq_ok.1 this
      obtain ⟨⟨w1, c1, ks⟩, h1, h2⟩ := Outcome.bind_eq_ok.1 e
      rw [Outcome.ok.injEq] at h2
      rw [← h2]
      exact extend_calls h1
    · rw [Outcome.ok.injEq] at this; rw [this]
  have m3 : g.x2.w.calls ≤ g.x3.w.calls := by
    have := g.e3
    unfold growMin at this
    split at this
    · obtain ⟨q, -, e⟩ := Outcome.bind_eq_ok.1 this
      obtain ⟨⟨w1, c1, ks⟩, h1, h2⟩ := Outcome.bind_eq_ok.1 e
      rw [Outcome.ok.injEq] at h2
      rw [← h2]
      exact extend_calls h1
    · rw [Outcome.ok.injEq] at this; rw [this]
  have m4 := extend_calls g.ex
  simp only at m1
  omega

/-- The correction and the base in a successful `extend`. -/
theorem Stages.steps {L : ExpLog K G V} {kc : Kind} {t : K} {v : G} {s s' : Comp K G} {ks : List Nat}
    (g : Stages L kc t v s s' ks) (hi : Inv s) (hc : s'.w.calls + 1 < 2 ^ 64) :
    WF g.x1.w g.x1.corr.mgr ∧ WF g.x2.w g.x2.corr.mgr ∧ WF g.x3.w g.x3.corr.mgr ∧
    Steps ⟨s.w, s.corr.mgr⟩ g.x3.st ∧ Steps ⟨g.x3.w, s.base.mgr⟩ ⟨s'.w, s'.base.mgr⟩ := by
  obtain ⟨c0, c1, c2, c3⟩ := g.calls
  have hb : Steps ⟨g.x3.w, s.base.mgr⟩ ⟨s'.w, s'.base.mgr⟩ :=
    extend_steps (fun _ _ => .inl hi.ratio) g.ex
  have h1 := growEmpty_steps g.e1
  have hw0 := hi.corr.WF (show s.w.calls + 1 < 2 ^ 64 by omega)
  have hw1 := h1.WF hw0 (show g.x1.w.calls + 1 < 2 ^ 64 by omega)
  have h2 := growMax_steps hw1 g.e2
  have hw2 := h2.WF hw1 (show g.x2.w.calls + 1 < 2 ^ 64 by omega)
  have h3 := growMin_steps hw2 g.e3
  have hw3 := h3.WF hw2 (show g.x3.w.calls + 1 < 2 ^ 64 by omega)
  exact ⟨hw1, hw2, hw3, (h1.trans h2).trans h3, hb⟩

theorem extend_inv {L : ExpLog K G V} {kc : Kind} {ts : List K} {vs : List G} {s s' : Comp K G}
    {ks : List Nat} (e : extend L kc ts vs s = .ok (s', ks)) :
    s.w.calls ≤ s'.w.calls ∧ (Inv s → s'.w.calls + 1 < 2 ^ 64 → Inv s') := by
  obtain ⟨t, v, rfl, rfl⟩ := extend_shape e
  obtain ⟨g⟩ := extend_stages e
  refine ⟨g.calls.1, fun hi hc => ?_⟩
  obtain ⟨-, -, -, hcs, hbs⟩ := g.steps hi hc
  refine ⟨hbs.reachable ((hcs.other _).reachable hi.base), ?_, ?_⟩
  · rw [g.ec]
    exact (hbs.other _).reachable (hcs.reachable hi.corr)
  · rw [extend_minMeas g.ex]; exact hi.ratio

theorem clear_extend_steps {w w' : World} {c c' : Curve K G} {ts : List K} {vs : List G} {ks : List Nat}
    (e : c.clear.extend w ts vs = .ok (w', c', ks)) : Steps ⟨w, c.mgr⟩ ⟨w', c'.mgr⟩ :=
  (clear_steps w c.mgr).trans (extend_steps (c := c.clear) (fun _ _ => .inr (.inl (by
    simp [Curve.clear, Mgr.clear, Mgr.size]))) e)

theorem checkEnds_eq {s s' : Comp K G} (e : checkEnds s = .ok s') :
    s' = s ∧ s.corr.mgr.getMinTime = s.base.mgr.getMinTime ∧
      s.corr.mgr.getMaxTime = s.base.mgr.getMaxTime := by
  unfold checkEnds at e
  split at e
  · rename_i h; cases e; exact ⟨rfl, h⟩
  · cases e

/-- The two curves move by steps, the correction first or the base first. -/
theorem both {s : Comp K G} {w' : World} {b' c' : Curve K G}
    (h : (∃ w1, Steps ⟨s.w, s.base.mgr⟩ ⟨w1, b'.mgr⟩ ∧ Steps ⟨w1, s.corr.mgr⟩ ⟨w', c'.mgr⟩)) :
    s.w.calls ≤ w'.calls ∧ (Inv s → b'.pol.minMeas = 1 → Inv ⟨w', b', c'⟩) := by
  obtain ⟨w1, h1, h2⟩ := h
  exact ⟨h1.calls.trans h2.calls, fun hi hb => ⟨(h2.other _).reachable (h1.reachable hi.base),
    h2.reachable ((h1.other _).reachable hi.corr), hb⟩⟩

theorem step_inv {L : ExpLog K G V} {kb kc : Kind} {s s' : Comp K G} {op : Op K G}
    (e : step L kb kc s op = .ok s') :
    s.w.calls ≤ s'.w.calls ∧ (Inv s → s'.w.calls + 1 < 2 ^ 64 → Inv s') := by
  cases op with
  | extend ts vs =>
    obtain ⟨⟨s1, ks⟩, h1, h2⟩ := Outcome.bind_eq_ok.1 e
    cases h2
    exact extend_inv h1
  | fold =>
    obtain ⟨vals, -, e⟩ := Outcome.bind_eq_ok.1 e
    obtain ⟨⟨w1, b1, ks1⟩, h1, e⟩ := Outcome.bind_eq_ok.1 e
    obtain ⟨⟨w2, c2, ks2⟩, h2, e⟩ := Outcome.bind_eq_ok.1 e
    cases e
    obtain ⟨a, b⟩ := both (b' := b1) (c' := c2)
      ⟨w1, clear_extend_steps h1, clear_extend_steps h2⟩
    exact ⟨a, fun hi _ => b hi ((extend_minMeas h1).trans hi.ratio)⟩
  | setTimes ts =>
    obtain ⟨vals, -, e⟩ := Outcome.bind_eq_ok.1 e
    obtain ⟨⟨w1, c1, ks1⟩, h1, e⟩ := Outcome.bind_eq_ok.1 e
    obtain ⟨rfl, -⟩ := checkEnds_eq e
    obtain ⟨a, b⟩ := both (b' := s.base) ⟨s.w, Steps.refl _, clear_extend_steps h1⟩
    exact ⟨a, fun hi _ => b hi hi.ratio⟩
  | clear =>
    cases e
    obtain ⟨a, b⟩ := both (b' := s.base.clear) (c' := s.corr.clear)
      ⟨s.w, clear_steps _ _, clear_steps _ _⟩
    exact ⟨a, fun hi _ => b hi hi.ratio⟩
  | remove t =>
    simp only [step, removeCorrection] at e
    split at e
    · obtain ⟨m, h1, e⟩ := Outcome.bind_eq_ok.1 e
      cases e
      obtain ⟨a, b⟩ := both (b' := s.base) (c' := { s.corr with mgr := m })
        ⟨s.w, Steps.refl _, Steps.one (op := .removeAt t) (s' := ⟨s.w, m⟩) trivial
          (by simp [Manager.step, h1])⟩
      exact ⟨a, fun hi _ => b hi hi.ratio⟩
    · cases e
  | setCorr t v =>
    simp only [step, setCorrection] at e
    split at e
    · obtain ⟨⟨w1, m, k⟩, h1, e⟩ := Outcome.bind_eq_ok.1 e
      cases e
      obtain ⟨a, b⟩ := both (b' := s.base) (c' := { s.corr with mgr := m })
        ⟨s.w, Steps.refl _, insert_steps h1⟩
      exact ⟨a, fun hi _ => b hi hi.ratio⟩
    · cases e
  | transform X =>
    obtain ⟨⟨w1, b1⟩, h1, e⟩ := Outcome.bind_eq_ok.1 e
    cases e
    have hp : b1.pol = s.base.pol := by
      obtain ⟨r, -, e⟩ := Outcome.bind_eq_ok.1 h1
      cases e; rfl
    obtain ⟨a, b⟩ := both (b' := b1) (c' := s.corr)
      ⟨w1, transform_steps h1, Steps.refl _⟩
    exact ⟨a, fun hi _ => b hi (hp ▸ hi.ratio)⟩
  | reset ts =>
    obtain ⟨⟨w1, c1, ks⟩, h1, e⟩ := Outcome.bind_eq_ok.1 e
    obtain ⟨rfl, -⟩ := checkEnds_eq e
    obtain ⟨a, b⟩ := both (b' := s.base) ⟨s.w, Steps.refl _, fit_steps h1⟩
    exact ⟨a, fun hi _ => b hi hi.ratio⟩
  | setBase ts vs =>
    obtain ⟨⟨w1, c1, ks⟩, h1, e⟩ := Outcome.bind_eq_ok.1 e
    obtain ⟨rfl, -⟩ := checkEnds_eq e
    obtain ⟨a, b⟩ := both (b' := c1) (c' := s.corr)
      ⟨w1, fit_steps h1, Steps.refl _⟩
    exact ⟨a, fun hi _ => b hi (fit_minMeas h1 ▸ hi.ratio)⟩
  | setPart ts vs =>
    obtain ⟨⟨w1, c1⟩, h1, e⟩ := Outcome.bind_eq_ok.1 e
    obtain ⟨rfl, -⟩ := checkEnds_eq e
    obtain ⟨a, b⟩ := both (b' := c1) (c' := s.corr)
      ⟨w1, set_steps h1, Steps.refl _⟩
    exact ⟨a, fun hi _ => b hi (set_minMeas h1 ▸ hi.ratio)⟩
  | modify ts vs =>
    obtain ⟨m, h1, e⟩ := Outcome.bind_eq_ok.1 e
    obtain ⟨rfl, -⟩ := checkEnds_eq e
    obtain ⟨a, b⟩ := both (b' := { s.base with mgr := m }) (c' := s.corr)
      ⟨s.w, Steps.one (op := .modBatch ts vs) (s' := ⟨s.w, m⟩) trivial (by simp [Manager.step, h1]),
        Steps.refl _⟩
    exact ⟨a, fun hi _ => b hi hi.ratio⟩
  | setRatio n =>
    cases e
    exact ⟨le_rfl, fun hi _ => ⟨hi.base, hi.corr, rfl⟩⟩
  | others k a =>
    cases e
    exact ⟨Nat.le_add_right _ _, fun hi _ => ⟨(others_steps _ _ _ _).reachable hi.base,
      (others_steps _ _ _ _).reachable hi.corr, hi.ratio⟩⟩

theorem run_calls {L : ExpLog K G V} {kb kc : Kind} {ops : List (Op K G)} : ∀ {s s' : Comp K G},
    run L kb kc s ops = .ok s' → s.w.calls ≤ s'.w.calls := by
  induction ops with
  | nil => intro s s' e; simp only [run] at e; cases e; exact le_rfl
  | cons op rest ih =>
    intro s s' e
    obtain ⟨s1, h1, h2⟩ := Outcome.bind_eq_ok.1 e
    exact (step_inv h1).1.trans (ih h2)

theorem run_inv {L : ExpLog K G V} {kb kc : Kind} {ops : List (Op K G)} : ∀ {s s' : Comp K G}, Inv s →
    run L kb kc s ops = .ok s' → s'.w.calls + 1 < 2 ^ 64 → Inv s' := by
  induction ops with
  | nil => intro s s' hi e _; simp only [run] at e; cases e; exact hi
  | cons op rest ih =>
    intro s s' hi e hc
    obtain ⟨s1, h1, h2⟩ := Outcome.bind_eq_ok.1 e
    have := run_calls h2
    exact ih ((step_inv h1).2 hi (by omega)) h2 hc

theorem Reachable.inv {L : ExpLog K G V} {kb kc : Kind} {s : Comp K G} (h : Reachable L kb kc s)
    (hc : s.w.calls + 1 < 2 ^ 64) : Inv s := by
  obtain ⟨w, ops, e⟩ := h
  exact run_inv ⟨⟨w, [], trivial, rfl⟩, ⟨w, [], trivial, rfl⟩, rfl⟩ e hc

theorem Inv.wf {s : Comp K G} (h : Inv s) (hc : s.w.calls + 1 < 2 ^ 64) :
    WF s.w s.base.mgr ∧ WF s.w s.corr.mgr := ⟨h.base.WF hc, h.corr.WF hc⟩

/-! ### Evaluation on a curve that grew at its ends -/

/-- `m'` has the knots of `m` and possibly more, before or after all of them. -/
def Grown (m m' : Mgr K G) : Prop :=
  (∀ p ∈ m.knots, p ∈ m'.knots) ∧
  ∀ p ∈ m'.knots, p ∈ m.knots ∨ (∀ q ∈ m.knots, p.1 < q.1) ∨ (∀ q ∈ m.knots, q.1 < p.1)

theorem Grown.refl (m : Mgr K G) : Grown m m := ⟨fun _ h => h, fun _ h => .inl h⟩

theorem Grown.trans {a b c : Mgr K G} (h : Grown a b) (h' : Grown b c) : Grown a c := by
  refine ⟨fun p hp => h'.1 p (h.1 p hp), fun p hp => ?_⟩
  rcases h'.2 p hp with h1 | h1 | h1
  · exact h.2 p h1
  · exact .inr (.inl fun q hq => h1 q (h.1 q hq))
  · exact .inr (.inr fun q hq => h1 q (h.1 q hq))

theorem evaluate_dom (L : ExpLog K G V) {kind : Kind} {m : Mgr K G} (hs : Sorted m.nodes) {t : K} {v : G}
    (e : evaluate L kind t m = .ok v) : kind ≠ .slerpSE3 ∧ m.knots ≠ [] ∧ m.getMinTime ≤ t ∧
      t ≤ m.getMaxTime := by
  have hk : kind ≠ .slerpSE3 := by rintro rfl; cases e
  have hne : m.knots ≠ [] := by
    intro h
    by_cases h0 : t = 0
    · subst h0
      rw [evaluate_eq L hk hs, evalWith_empty h] at e
      cases e
    · rw [evaluate_outside L hs (.inr h0) (.inl h)] at e
      cases e
  refine ⟨hk, hne, ?_, ?_⟩
  · by_contra h
    rw [evaluate_outside L hs (.inl hne) (.inr (.inl (not_le.1 h)))] at e
    cases e
  · by_contra h
    rw [evaluate_outside L hs (.inl hne) (.inr (.inr (not_le.1 h)))] at e
    cases e

theorem evaluate_grown (L : ExpLog K G V) {kind : Kind} {m m' : Mgr K G} (hs : Sorted m.nodes)
    (hs' : Sorted m'.nodes) (h : Grown m m') {t : K} {v : G} (e : evaluate L kind t m = .ok v) :
    evaluate L kind t m' = .ok v := by
  obtain ⟨hk, hne, h0, h1⟩ := evaluate_dom L hs e
  rcases Nat.lt_or_ge m.size 2 with hsz | hsz
  · cases hn : m.nodes with
    | nil => simp [Mgr.knots, hn] at hne
    | cons a l =>
      cases l with
      | cons b l => simp [Mgr.size, hn] at hsz
      | nil =>
        have e1 : m.getMinTime = a.time := by simp [Mgr.getMinTime, hn]
        have e2 : m.getMaxTime = a.time := by simp [Mgr.getMaxTime, hn]
        have ht : t = a.time := le_antisymm (e2 ▸ h1) (e1 ▸ h0)
        subst ht
        have hk' : (a.time, a.coef) ∈ m.knots := by simp [Mgr.knots, hn]
        rw [evaluate_knot L hk hs hk'] at e
        rw [evaluate_knot L hk hs' (h.1 _ hk'), ← e]
  · obtain ⟨pre, a, b, post, hm, ha, hb, -⟩ := exists_bracket hs hsz h0 h1
    have ka : (a.time, a.coef) ∈ m.knots := by simp [Mgr.knots, hm]
    have kb : (b.time, b.coef) ∈ m.knots := by simp [Mgr.knots, hm]
    obtain ⟨pre', a', b', post', hm', e1, e2, e3, e4⟩ := exists_segment hs' (h.1 _ ka) (h.1 _ kb)
      (neighbours_lt hs hm) (by
        rintro x u hx ⟨hx1, hx2⟩
        rcases h.2 _ hx with h' | h' | h'
        · obtain ⟨n, hn, e⟩ := List.mem_map.1 h'
          cases e
          rw [hm] at hn hs
          simp only [Sorted, List.pairwise_append, List.pairwise_cons, List.mem_cons] at hs
          simp only [List.mem_append, List.mem_cons] at hn
          rcases hn with hn | rfl | rfl | hn
          · exact absurd hx1 (not_lt.2 (hs.2.2 n hn a (.inl rfl)).le)
          · exact lt_irrefl _ hx1
          · exact lt_irrefl _ hx2
          · exact absurd hx2 (not_lt.2 (hs.2.1.2.1 n hn).le)
        · exact absurd hx1 (not_lt.2 (h' _ ka).le)
        · exact absurd hx2 (not_lt.2 (h' _ kb).le))
    rw [evaluate_segment L hk hs hm ha hb] at e
    rw [evaluate_segment L hk hs' hm' (e1 ▸ ha) (e3 ▸ hb), ← e]
    cases kind with
    | discrete => simp only [between, nearer, e1, e2, e3, e4]
    | slerp => simp only [between, slerpAt, e1, e2, e3, e4]
    | slerpSE3 => exact absurd rfl hk

/-! ### One measurement on a curve that keeps all of them -/

theorem contents_knots_ne {m : Mgr K G} {t : K} (h : ∀ x ∈ m.contents, x.1 ≠ t) :
    ∀ v, (t, v) ∉ m.knots := by
  intro v hv
  obtain ⟨k, hk⟩ := mem_knots.1 hv
  exact h _ hk rfl

theorem mem_knots_append {m m' : Mgr K G} {t : K} {k : Nat} {v : G}
    (h : m'.contents = m.contents ++ [(t, k, v)]) (a : K) (u : G) :
    (a, u) ∈ m'.knots ↔ (a = t ∧ u = v) ∨ (a, u) ∈ m.knots := by
  simp only [mem_knots, h, List.mem_append, List.mem_singleton, Prod.mk.injEq]
  constructor
  · rintro ⟨k, h | ⟨rfl, -, rfl⟩⟩
    exacts [.inr ⟨k, h⟩, .inl ⟨rfl, rfl⟩]
  · rintro (⟨rfl, rfl⟩ | ⟨k, h⟩)
    exacts [⟨k, .inr ⟨rfl, rfl, rfl⟩⟩, ⟨k, .inl h⟩]

theorem extend_one_mem {w w' : World} {c c' : Curve K G} {t : K} {v : G} {ks : List Nat}
    (h : WF w c.mgr) (hm : c.pol.minMeas = 1) (e : c.extend w [t] [v] = .ok (w', c', ks))
    (hc : w'.calls + 1 < 2 ^ 64) :
    (∀ a u, (a, u) ∈ c'.mgr.knots ↔ (a = t ∧ u = v) ∨ (a ≠ t ∧ (a, u) ∈ c.mgr.knots)) ∧
      (2 ≤ c.mgr.size → c.mgr.getMaxTime < t) := by
  have hcalls := extend_calls e
  simp only [Curve.extend, List.length_cons, List.length_nil, ne_eq, not_true_eq_false, if_false] at e
  split at e
  · rename_i hsz
    obtain ⟨⟨w1, m1, ks1⟩, h1, h2⟩ := Outcome.bind_eq_ok.1 e
    cases h2
    refine ⟨fun a u => ?_, fun h2 => ?_⟩
    · rw [insertMany_mem h h1 hc (by rintro a b b' h h'; simp at h h'; rw [h.2, h'.2])]
      simp
    · rcases hsz with hsz | hsz
      · simp only [Mgr.isEmpty, List.isEmpty_iff] at hsz
        simp [Mgr.size, hsz] at h2
      · omega
  · rename_i hsz
    obtain ⟨⟨w1, m1, k1⟩, h1, h2⟩ := Outcome.bind_eq_ok.1 e
    cases h2
    have hne : c.mgr.nodes ≠ [] := by
      intro h'
      exact hsz (.inl (by simp [Mgr.isEmpty, h']))
    rcases addEnd_spec h (by omega) hne t v with ⟨-, h'⟩ | ⟨w2, m2, hlt, e2, -, -, -, hn, hno⟩
    · rw [h1] at h'; cases h'
    · rw [h1] at e2
      cases e2
      refine ⟨fun a u => ?_, fun _ => hlt⟩
      have hno' : ∀ x ∈ c.mgr.contents, x.1 ≠ t := by
        rintro ⟨x, k, v⟩ hx rfl; exact hno _ _ hx
      rw [mem_knots_append (m := c.mgr) (t := t) (v := v) (k := w.calls + 1) (by simp [Mgr.contents, hn])]
      constructor
      · rintro (h' | h')
        · exact .inl h'
        · by_cases ha : a = t
          · subst ha; exact absurd h' (contents_knots_ne hno' u)
          · exact .inr ⟨ha, h'⟩
      · rintro (h' | ⟨-, h'⟩)
        exacts [.inl h', .inr h']

/-- One `push` on a correction that keeps all measurements. -/
theorem push_mem {x x' : Work K G} {t : K} {v : G} (h : WF x.w x.corr.mgr)
    (hm : x.corr.pol.minMeas = 1) (hsub : ∀ p ∈ x.ts.zip x.vs, p ∈ x.corr.mgr.knots)
    (hlen : x.ts.length = x.vs.length) (ht : ∀ y ∈ x.corr.mgr.contents, y.1 ≠ t)
    (e : x.push t v = .ok x') (hc : x'.w.calls + 1 < 2 ^ 64) :
    (∀ a u, (a, u) ∈ x'.corr.mgr.knots ↔ (a = t ∧ u = v) ∨ (a, u) ∈ x.corr.mgr.knots) ∧
      x'.ts.length = x'.vs.length ∧ (∀ p ∈ x'.ts.zip x'.vs, p ∈ x'.corr.mgr.knots) := by
  obtain ⟨⟨w1, c1, ks⟩, h1, h2⟩ := Outcome.bind_eq_ok.1 e
  cases h2
  have hno := contents_knots_ne ht
  have key : ∀ a u, (a, u) ∈ c1.mgr.knots ↔ (a = t ∧ u = v) ∨ (a, u) ∈ x.corr.mgr.knots := by
    intro a u
    cases hx : x.ts with
    | nil =>
      have hv : x.vs = [] := by rw [hx] at hlen; simpa using hlen.symm
      rw [hx, hv] at h1
      rw [(extend_one_mem h hm h1 hc).1]
      constructor
      · rintro (h' | ⟨-, h'⟩)
        exacts [.inl h', .inr h']
      · rintro (h' | h')
        · exact .inl h'
        · by_cases ha : a = t
          · subst ha; exact absurd h' (hno u)
          · exact .inr ⟨ha, h'⟩
    | cons t0 l =>
      cases hv : x.vs with
      | nil => rw [hx, hv] at hlen; simp at hlen
      | cons v0 lv =>
        have hz : ((t0 :: l) ++ [t]).zip ((v0 :: lv) ++ [v]) = x.ts.zip x.vs ++ [(t, v)] := by
          rw [hx, hv] at hlen
          rw [hx, hv, List.zip_append hlen]; simp
        rw [hx, hv] at h1
        have h1' : x.corr.mgr.insertCoefficients x.w ((t0 :: l) ++ [t]) ((v0 :: lv) ++ [v]) =
            .ok (w1, c1.mgr, ks) := by
          unfold Curve.extend at h1
          split at h1
          · cases h1
          · split at h1
            · rename_i _ _ h' _; simp at h'
            · obtain ⟨⟨w2, m2, ks2⟩, h3, h4⟩ := Outcome.bind_eq_ok.1 h1
              cases h4
              exact h3
        have hfun : ∀ a u u', (a, u) ∈ ((t0 :: l) ++ [t]).zip ((v0 :: lv) ++ [v]) →
            (a, u') ∈ ((t0 :: l) ++ [t]).zip ((v0 :: lv) ++ [v]) → u = u' := by
          intro a u u' p1 p2
          rw [hz] at p1 p2
          simp only [List.mem_append, List.mem_singleton, Prod.mk.injEq] at p1 p2
          rcases p1 with p1 | ⟨rfl, rfl⟩ <;> rcases p2 with p2 | ⟨p2, rfl⟩
          · exact knot_unique h.sorted (hsub _ p1) (hsub _ p2)
          · subst p2; exact absurd (hsub _ p1) (hno _)
          · exact absurd (hsub _ p2) (hno _)
          · rfl
        rw [insertMany_mem h h1' hc hfun, hz]
        simp only [List.mem_append, List.mem_singleton, Prod.mk.injEq, not_or]
        rw [← hx]
        constructor
        · rintro ((h' | h') | ⟨-, h'⟩)
          exacts [.inr (hsub _ h'), .inl h', .inr h']
        · rintro (h' | h')
          · exact .inl (.inr h')
          · by_cases ha : a ∈ x.ts
            · left; left
              obtain ⟨i, hi, rfl⟩ := List.mem_iff_getElem.1 ha
              have hm : (x.ts[i], x.vs[i]) ∈ x.ts.zip x.vs :=
                List.mem_iff_getElem.2 ⟨i, by simp only [List.length_zip]; omega, by simp⟩
              rwa [knot_unique h.sorted h' (hsub _ hm)]
            · refine .inr ⟨⟨ha, ?_⟩, h'⟩
              rintro rfl
              exact hno _ h'
  refine ⟨key, by simp [hlen], ?_⟩
  rintro ⟨a, u⟩ hp
  simp only [List.zip_append hlen, List.mem_append, List.zip_cons_cons, List.zip_nil_right,
    List.mem_singleton, Prod.mk.injEq] at hp
  rw [key]
  rcases hp with hp | hp
  exacts [.inr (hsub _ hp), .inl hp]

theorem grown_of_mem {m m' : Mgr K G} {t : K} {v : G}
    (h : ∀ a u, (a, u) ∈ m'.knots ↔ (a = t ∧ u = v) ∨ (a, u) ∈ m.knots)
    (ht : (∀ q ∈ m.knots, t < q.1) ∨ (∀ q ∈ m.knots, q.1 < t)) : Grown m m' := by
  refine ⟨fun p hp => (h p.1 p.2).2 (.inr hp), fun p hp => ?_⟩
  rcases (h p.1 p.2).1 hp with ⟨rfl, -⟩ | h'
  · exact .inr ht
  · exact .inl h'

/-- In a successful `extend` on a correction that keeps all measurements, the correction only grew. -/
theorem Stages.grown {L : ExpLog K G V} {kc : Kind} {t : K} {v : G} {s s' : Comp K G} {ks : List Nat}
    (g : Stages L kc t v s s' ks) (hi : Inv s) (hm : s.corr.pol.minMeas = 1)
    (hc : s'.w.calls + 1 < 2 ^ 64) : Grown s.corr.mgr s'.corr.mgr := by
  obtain ⟨hw1, hw2, hw3, -, -⟩ := g.steps hi hc
  obtain ⟨c0, c1, c2, c3⟩ := g.calls
  have hw0 := hi.corr.WF (show s.w.calls + 1 < 2 ^ 64 by omega)
  have hmax : ∀ {m : Mgr K G} {h : K}, Sorted m.nodes → m.getMaxTime < h → ∀ q ∈ m.knots, q.1 < h := by
    intro m h hs hlt q hq
    obtain ⟨n, hn, rfl⟩ := List.mem_map.1 hq
    exact (min_le_node hs hn).2.trans_lt hlt
  have hmin : ∀ {m : Mgr K G} {h : K}, Sorted m.nodes → h < m.getMinTime → ∀ q ∈ m.knots, h < q.1 := by
    intro m h hs hlt q hq
    obtain ⟨n, hn, rfl⟩ := List.mem_map.1 hq
    exact hlt.trans_le (min_le_node hs hn).1
  have s1 : Grown s.corr.mgr g.x1.corr.mgr ∧ g.x1.corr.pol.minMeas = 1 ∧
      g.x1.ts.length = g.x1.vs.length ∧ ∀ p ∈ g.x1.ts.zip g.x1.vs, p ∈ g.x1.corr.mgr.knots := by
    have e := g.e1
    unfold growEmpty at e
    split at e
    · rename_i hem
      simp only [Mgr.isEmpty, List.isEmpty_iff] at hem
      obtain ⟨a, b, c⟩ := push_mem hw0 hm (by simp) rfl (by simp [Mgr.contents, hem]) e (by omega)
      exact ⟨grown_of_mem a (.inl (by simp [Mgr.knots, hem])), (push_minMeas e).trans hm, b, c⟩
    · rw [Outcome.ok.injEq] at e
      rw [← e]
      exact ⟨Grown.refl _, hm, rfl, by simp⟩
  have s2 : Grown g.x1.corr.mgr g.x2.corr.mgr ∧ g.x2.corr.pol.minMeas = 1 ∧
      g.x2.ts.length = g.x2.vs.length ∧ ∀ p ∈ g.x2.ts.zip g.x2.vs, p ∈ g.x2.corr.mgr.knots := by
    have e := g.e2
    unfold growMax at e
    split at e
    · rename_i hlt
      obtain ⟨q, -, e⟩ := Outcome.bind_eq_ok.1 e
      obtain ⟨a, b, c⟩ := push_mem hw1 s1.2.1 s1.2.2.2 s1.2.2.1 (not_knot_of_max hw1 hlt) e (by omega)
      exact ⟨grown_of_mem a (.inr (hmax hw1.sorted hlt)), (push_minMeas e).trans s1.2.1, b, c⟩
    · rw [Outcome.ok.injEq] at e
      rw [← e]
      exact ⟨Grown.refl _, s1.2⟩
  have s3 : Grown g.x2.corr.mgr g.x3.corr.mgr := by
    have e := g.e3
    unfold growMin at e
    split at e
    · rename_i hlt
      obtain ⟨q, -, e⟩ := Outcome.bind_eq_ok.1 e
      obtain ⟨a, b, c⟩ := push_mem hw2 s2.2.1 s2.2.2.2 s2.2.2.1 (not_knot_of_min hw2 hlt) e (by omega)
      exact grown_of_mem a (.inl (hmin hw2.sorted hlt))
    · rw [Outcome.ok.injEq] at e
      rw [← e]
      exact Grown.refl _
  rw [g.ec]
  exact (s1.1.trans s2.1).trans s3

/-! ### `collect` -/

theorem collect_spec {f : K → Outcome G} {ts : List K} : ∀ {vs : List G}, collect f ts = .ok vs →
    ts.length = vs.length ∧ ∀ t v, (t, v) ∈ ts.zip vs → f t = .ok v := by
  induction ts with
  | nil => intro vs e; simp only [collect] at e; cases e; simp
  | cons t rest ih =>
    intro vs e
    obtain ⟨v, h1, e⟩ := Outcome.bind_eq_ok.1 e
    obtain ⟨vs', h2, e⟩ := Outcome.bind_eq_ok.1 e
    cases e
    obtain ⟨a, b⟩ := ih h2
    refine ⟨by simp [a], fun t' v' h => ?_⟩
    simp only [List.zip_cons_cons, List.mem_cons, Prod.mk.injEq] at h
    rcases h with ⟨rfl, rfl⟩ | h
    exacts [h1, b _ _ h]

theorem collect_ok {f : K → Outcome G} {ts : List K} (h : ∀ t ∈ ts, ∃ v, f t = .ok v) :
    ∃ vs, collect f ts = .ok vs := by
  induction ts with
  | nil => exact ⟨[], rfl⟩
  | cons t rest ih =>
    obtain ⟨v, hv⟩ := h t (.head _)
    obtain ⟨vs, hvs⟩ := ih fun t ht => h t (.tail _ ht)
    exact ⟨v :: vs, by simp [collect, hv, hvs]⟩

theorem clear_extend_eq (w : World) (c : Curve K G) (ts : List K) (vs : List G) :
    c.clear.extend w ts vs = ((Mgr.empty : Mgr K G).insertCoefficients w ts vs >>= fun r =>
      .ok (r.1, ⟨r.2.1, c.pol⟩, r.2.2)) := by
  have hcm : c.clear.mgr = (Mgr.empty : Mgr K G) := rfl
  unfold Curve.extend
  split
  · rename_i h
    simp [Mgr.insertCoefficients, h]
  · split
    · rw [if_pos (.inl (by simp [hcm, Mgr.isEmpty, Mgr.empty])), hcm]
      rfl
    · rw [hcm]; rfl

theorem times_knots (m : Mgr K G) (o : List K) : m.getTimes o = m.knots.map Prod.fst := by
  simp [Mgr.getTimes, Mgr.knots, Function.comp_def]

/-! ### Extending forwards always works -/

theorem extend_forward {w : World} {c : Curve K G} (h : WF w c.mgr) (hw : w.calls + 1 < 2 ^ 64)
    (hs : c.pol.minMeas = 1 ∨ c.pol.since ≠ 2 ^ 31 - 1) {t : K} (v : G) (ht : ∀ x ∈ c.mgr.contents, x.1 < t) :
    ∃ w' c' ks pre k, c.extend w [t] [v] = .ok (w', c', ks) ∧ WF w' c'.mgr ∧
      w'.calls ≤ w.calls + 1 ∧ c'.mgr.contents = pre ++ [(t, k, v)] ∧
      (c.mgr.contents = pre ∨ ∃ last, pre ≠ [] ∧ c.mgr.contents = pre ++ [last]) := by
  by_cases hsz : c.mgr.isEmpty = true ∨ c.mgr.size = 1
  · obtain ⟨w', m', k, e, hwf, hcalls, hcont⟩ := insert_append h hw v ht
    refine ⟨w', { c with mgr := m' }, [k], c.mgr.contents, k, ?_, hwf, hcalls.le, hcont, .inl rfl⟩
    simp [Curve.extend, hsz, Mgr.insertCoefficients, Mgr.insertLoop, e]
  · have hne : c.mgr.contents ≠ [] := by
      intro h'
      exact hsz (.inl (by simpa [Mgr.isEmpty, Mgr.contents] using h'))
    by_cases hm : c.pol.minMeas = 1
    · obtain ⟨w', m', k, e, hwf, hcalls, hcont⟩ := addEnd_append h hw hne v ht
      refine ⟨w', { c with mgr := m' }, [k], c.mgr.contents, k, ?_, hwf, hcalls.le, hcont, .inl rfl⟩
      simp [Curve.extend, hsz, hm, e]
    · replace hs := hs.resolve_left hm
      by_cases h1 : c.pol.since + 1 = 1
      · obtain ⟨w', m', k, e, hwf, hcalls, hcont⟩ := addEnd_append h hw hne v ht
        refine ⟨w', ⟨m', { c.pol with since := if c.pol.since + 1 = c.pol.minMeas then 0 else c.pol.since + 1 }⟩, [k], c.mgr.contents, k, ?_, hwf, hcalls.le, hcont,
          .inl rfl⟩
        simp only [Curve.extend, List.length_cons, List.length_nil, ne_eq, not_true_eq_false, if_false,
          hsz, hm, hs, addOrMove, if_pos h1, e, Outcome.ok_bind]
      · obtain ⟨pre, last, hl⟩ := List.eq_nil_or_concat c.mgr.contents |>.resolve_left hne
        rw [List.concat_eq_append] at hl
        obtain ⟨n, w', m', hn, e, hwf, hcalls, hcont⟩ := moveLast h hl v ht
        have hpre : pre ≠ [] := by
          rintro rfl
          apply hsz
          right
          have := congrArg List.length hl
          simpa [Mgr.contents, Mgr.size] using this
        refine ⟨w', ⟨m', { c.pol with since := if c.pol.since + 1 = c.pol.minMeas then 0 else c.pol.since + 1 }⟩, [], pre, _, ?_, hwf, by omega, hcont,
          .inr ⟨last, hpre, hl⟩⟩
        simp only [Curve.extend, List.length_cons, List.length_nil, ne_eq, not_true_eq_false, if_false,
          hsz, hm, hs, addOrMove, if_neg h1, hn, e, Outcome.ok_bind]

/-- A list of measurements into a curve: the list has at least two or the curve is empty. -/
theorem extend_list {w : World} {c : Curve K G} (ts : List K) (vs : List G) (h : WF w c.mgr)
    (hl : ts.length = vs.length) (hcl : w.calls + ts.length + 1 < 2 ^ 64)
    (hsz : 2 ≤ ts.length ∨ c.mgr.nodes = [])
    (hf : ∀ t v v', (t, v) ∈ ts.zip vs → (t, v') ∈ ts.zip vs → v = v') :
    ∃ w' c' ks, c.extend w ts vs = .ok (w', c', ks) ∧ WF w' c'.mgr ∧
      w'.calls ≤ w.calls + ts.length ∧ w.calls ≤ w'.calls ∧ w.nextAddr ≤ w'.nextAddr ∧
      ∀ a u, (a, u) ∈ c'.mgr.knots ↔ (a, u) ∈ ts.zip vs ∨ (a ∉ ts ∧ (a, u) ∈ c.mgr.knots) := by
  obtain ⟨w', m', ks, e, hle⟩ := insertLoop_ok h (ts.zip vs) (by
    simp only [List.length_zip, hl, min_self]; omega)
  simp only [List.length_zip, ← hl, min_self] at hle
  have e' : c.mgr.insertCoefficients w ts vs = .ok (w', m', ks) := by
    simp [Mgr.insertCoefficients, hl, e]
  have hmono := insertLoop_calls_mono e
  refine ⟨w', { c with mgr := m' }, ks, ?_, (insertLoop_WF h e (by omega)).1, hle, hmono.1, hmono.2,
    insertMany_mem h e' (by omega) hf⟩
  unfold Curve.extend
  rw [if_neg (by simpa using hl)]
  split
  · rw [if_pos]
    · rw [e']; rfl
    · rcases hsz with h2 | h2
      · simp at h2
      · exact .inl (by simp [Mgr.isEmpty, h2])
  · rw [e']; rfl

/-- A curve all of whose knots have the same value has that value everywhere. -/
theorem evaluate_const (L : ExpLog K G V) {kind : Kind} (hk : kind ≠ .slerpSE3) {m : Mgr K G}
    (hs : Sorted m.nodes) {g : G} (h : ∀ p ∈ m.knots, p.2 = g) (hne : m.knots ≠ []) {t : K}
    (h0 : m.getMinTime ≤ t) (h1 : t ≤ m.getMaxTime) : evaluate L kind t m = .ok g := by
  rcases Nat.lt_or_ge m.size 2 with hsz | hsz
  · cases hn : m.nodes with
    | nil => simp [Mgr.knots, hn] at hne
    | cons a l =>
      cases l with
      | cons b l => simp [Mgr.size, hn] at hsz
      | nil =>
        have e1 : m.getMinTime = a.time := by simp [Mgr.getMinTime, hn]
        have e2 : m.getMaxTime = a.time := by simp [Mgr.getMaxTime, hn]
        have ht : t = a.time := le_antisymm (e2 ▸ h1) (e1 ▸ h0)
        subst ht
        have hk' : (a.time, a.coef) ∈ m.knots := by simp [Mgr.knots, hn]
        rw [evaluate_knot L hk hs hk', show a.coef = g from h _ hk']
  · obtain ⟨pre, a, b, post, hm, ha, hb, -⟩ := exists_bracket hs hsz h0 h1
    have ka := h (a.time, a.coef) (by simp [Mgr.knots, hm])
    have kb := h (b.time, b.coef) (by simp [Mgr.knots, hm])
    simp only at ka kb
    rw [evaluate_segment L hk hs hm ha hb]
    cases kind with
    | discrete => simp [between, nearer, ka, kb]
    | slerp => simp [between, slerpAt, ka, kb, L.log_one, L.exp_zero]
    | slerpSE3 => exact absurd rfl hk

theorem minmax_of_ends {m : Mgr K G} (hs : Sorted m.nodes) {lo hi : K}
    (h0 : ∃ v, (lo, v) ∈ m.knots) (h1 : ∃ v, (hi, v) ∈ m.knots)
    (h : ∀ p ∈ m.knots, lo ≤ p.1 ∧ p.1 ≤ hi) : m.getMinTime = lo ∧ m.getMaxTime = hi := by
  obtain ⟨v0, h0⟩ := h0
  obtain ⟨v1, h1⟩ := h1
  obtain ⟨n0, hn0, e0⟩ := List.mem_map.1 h0
  obtain ⟨n1, hn1, e1⟩ := List.mem_map.1 h1
  cases e0; cases e1
  have hne : m.nodes ≠ [] := by intro e; rw [e] at hn0; simp at hn0
  constructor
  · apply le_antisymm (min_le_node hs hn0).1
    obtain ⟨a, l, hl⟩ := List.exists_cons_of_ne_nil hne
    have : m.getMinTime = a.time := by simp [Mgr.getMinTime, hl]
    rw [this]
    exact (h (a.time, a.coef) (by simp [Mgr.knots, hl])).1
  · apply le_antisymm _ (min_le_node hs hn1).2
    obtain ⟨l, a, hl⟩ := List.eq_nil_or_concat m.nodes |>.resolve_left hne
    have : m.getMaxTime = a.time := by simp [Mgr.getMaxTime, hl]
    rw [this]
    exact (h (a.time, a.coef) (by simp [Mgr.knots, hl])).2

theorem times_sorted {m : Mgr K G} (hs : Sorted m.nodes) : (m.getTimes []).Pairwise (· < ·) :=
  sorted_iff_times.1 hs

end Verif.Composition

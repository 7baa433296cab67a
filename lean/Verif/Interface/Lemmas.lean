import Verif.Interface.Model
import Verif.Composition.CoverProps
import Verif.Policy.Props
import Verif.Csv.Props

/-!
# Lemmas on the curves as seen through `SE3Curve`
-/

set_option linter.unusedSectionVars false
set_option linter.dupNamespace false

namespace Verif.Interface

open Verif.Manager Verif.Policy Verif.Discrete Verif.Composition

section
variable {T C : Type} [LinearOrder T]

theorem insert_calls_le {w w' : World} {m m' : Mgr T C} {t : T} {c : C} {k : Key}
    (e : m.insertCoefficient w t c = .ok (w', m', k)) : w'.calls ≤ w.calls + 1 := by
  unfold Mgr.insertCoefficient at e
  split at e
  · obtain ⟨m1, -, e⟩ := Outcome.bind_eq_ok.1 e
    cases e
    omega
  · cases e
    simp

theorem insertLoop_calls_le {l : List (T × C)} : ∀ {w w' : World} {m m' : Mgr T C} {ks : List Key},
    m.insertLoop w l = .ok (w', m', ks) → w'.calls ≤ w.calls + l.length := by
  induction l with
  | nil => intro w w' m m' ks e; simp only [Mgr.insertLoop] at e; cases e; simp
  | cons p rest ih =>
    intro w w' m m' ks e
    obtain ⟨⟨w1, m1, k⟩, h1, e⟩ := Outcome.bind_eq_ok.1 e
    obtain ⟨⟨w2, m2, ks2⟩, h2, e⟩ := Outcome.bind_eq_ok.1 e
    cases e
    have a := insert_calls_le h1
    have b := ih h2
    simp only [List.length_cons]
    omega

theorem extend_calls_le [Zero T] {w w' : World} {c c' : Curve T C} {ts : List T} {vs : List C}
    {ks : List Nat} (e : c.extend w ts vs = .ok (w', c', ks)) : w'.calls ≤ w.calls + ts.length := by
  unfold Curve.extend at e
  split at e
  · cases e
  · split at e
    · split at e
      · obtain ⟨⟨w1, m1, ks1⟩, h1, h2⟩ := Outcome.bind_eq_ok.1 e
        cases h2
        have := insertLoop_calls_le (insertCoefficients_ok h1).2
        simpa using this
      · split at e
        · obtain ⟨⟨w1, m1, k⟩, h1, h2⟩ := Outcome.bind_eq_ok.1 e
          cases h2
          unfold Mgr.addCoefficientAtEnd at h1
          split at h1
          · split at h1
            · cases h1
            · cases h1; simp
          · cases h1
        · split at e
          · cases e
          · obtain ⟨⟨w1, m1, ks1⟩, h1, h2⟩ := Outcome.bind_eq_ok.1 e
            cases h2
            unfold addOrMove at h1
            split at h1
            · obtain ⟨⟨w2, m2, k⟩, h3, h4⟩ := Outcome.bind_eq_ok.1 h1
              cases h4
              unfold Mgr.addCoefficientAtEnd at h3
              split at h3
              · split at h3
                · cases h3
                · cases h3; simp
              · cases h3
            · split at h1
              · cases h1
              · obtain ⟨⟨w2, m2⟩, h3, h4⟩ := Outcome.bind_eq_ok.1 h1
                cases h4
                unfold Mgr.modifyCoefficient at h3
                split at h3
                · cases h3
                · cases h3; simp
    · obtain ⟨⟨w1, m1, ks1⟩, h1, h2⟩ := Outcome.bind_eq_ok.1 e
      cases h2
      have := insertLoop_calls_le (insertCoefficients_ok h1).2
      rw [List.length_zip] at this
      omega

/-- A curve that is not thinned does not count. -/
theorem extend_pol [Zero T] {w w' : World} {c c' : Curve T C} {ts : List T} {vs : List C}
    {ks : List Nat} (hm : c.pol.minMeas = 1) (e : c.extend w ts vs = .ok (w', c', ks)) :
    c'.pol = c.pol := by
  unfold Curve.extend at e
  split at e
  · cases e
  · split at e
    · split at e
      · obtain ⟨⟨w1, m1, ks1⟩, h1, h2⟩ := Outcome.bind_eq_ok.1 e
        cases h2; rfl
      · obtain ⟨⟨w1, m1, ks1⟩, h1, h2⟩ := Outcome.bind_eq_ok.1 e
        cases h2; rfl
    · obtain ⟨⟨w1, m1, ks1⟩, h1, h2⟩ := Outcome.bind_eq_ok.1 e
      cases h2; rfl

end

variable {K G V : Type} [Field K] [LinearOrder K] [IsStrictOrderedRing K] [Group G]
  [AddCommGroup V] [Module K V]

/-- Curves with the same knots have the same values. -/
theorem evaluate_congr (L : ExpLog K G V) {kind : Kind} {m m' : Mgr K G}
    (hs : Sorted m.nodes) (h : m'.knots = m.knots) (t : K) :
    evaluate L kind t m' = evaluate L kind t m := by
  by_cases hk : kind = .slerpSE3
  · subst hk; rfl
  · rw [evaluate_mul L hk hs 1 (by rw [h]; simp) t]
    cases evaluate L kind t m <;> simp

/-- What one stage of `extend` does to the locals: at most `n` more numbers are in them. -/
theorem push_le {x x' : Work K G} {t : K} {v : G} (e : x.push t v = .ok x') :
    x'.ts.length = x.ts.length + 1 ∧ x'.w.calls ≤ x.w.calls + (x.ts.length + 1) ∧
      (x.corr.pol.minMeas = 1 → x'.corr.pol = x.corr.pol) := by
  obtain ⟨⟨w1, c1, ks⟩, h1, h2⟩ := Outcome.bind_eq_ok.1 e
  cases h2
  have := extend_calls_le h1
  simp only [List.length_append, List.length_cons, List.length_nil] at this ⊢
  exact ⟨trivial, this, fun hm => extend_pol hm h1⟩

/-- Extending a composition draws at most seven keys and, without thinning, does not count. -/
theorem comp_extend_le {L : ExpLog K G V} {kc : Kind} {t : K} {v : G} {s s' : Comp K G} {ks : List Nat}
    (e : extend L kc [t] [v] s = .ok (s', ks)) :
    s'.w.calls ≤ s.w.calls + 7 ∧ (s.corr.pol.minMeas = 1 → s'.corr.pol = s.corr.pol) := by
  obtain ⟨g⟩ := extend_stages e
  have h1 : g.x1.ts.length ≤ 1 ∧ g.x1.w.calls ≤ s.w.calls + 1 ∧
      (s.corr.pol.minMeas = 1 → g.x1.corr.pol = s.corr.pol) := by
    have e := g.e1
    unfold growEmpty at e
    split at e
    · obtain ⟨a, b, c⟩ := push_le e
      exact ⟨by simpa using a.le, by simpa using b, c⟩
    · rw [Outcome.ok.injEq] at e
      rw [← e]; simp
  have h2 : g.x2.ts.length ≤ 2 ∧ g.x2.w.calls ≤ s.w.calls + 3 ∧
      (s.corr.pol.minMeas = 1 → g.x2.corr.pol = s.corr.pol) := by
    have e := g.e2
    unfold growMax at e
    split at e
    · obtain ⟨q, -, e⟩ := Outcome.bind_eq_ok.1 e
      obtain ⟨a, b, c⟩ := push_le e
      exact ⟨by omega, by omega, fun hm => (c (by rw [h1.2.2 hm]; exact hm)).trans (h1.2.2 hm)⟩
    · rw [Outcome.ok.injEq] at e
      rw [← e]; exact ⟨by omega, by omega, h1.2.2⟩
  have h3 : g.x3.ts.length ≤ 3 ∧ g.x3.w.calls ≤ s.w.calls + 6 ∧
      (s.corr.pol.minMeas = 1 → g.x3.corr.pol = s.corr.pol) := by
    have e := g.e3
    unfold growMin at e
    split at e
    · obtain ⟨q, -, e⟩ := Outcome.bind_eq_ok.1 e
      obtain ⟨a, b, c⟩ := push_le e
      exact ⟨by omega, by omega, fun hm => (c (by rw [h2.2.2 hm]; exact hm)).trans (h2.2.2 hm)⟩
    · rw [Outcome.ok.injEq] at e
      rw [← e]; exact ⟨by omega, by omega, h2.2.2⟩
  have h4 := extend_calls_le g.ex
  simp only [List.length_cons, List.length_nil] at h4
  exact ⟨by omega, fun hm => by rw [g.ec]; exact h3.2.2 hm⟩

/-- What the stages of `extend` do to the knots of the correction: all are kept, and new ones lie at the ends
of the range to cover. -/
def Grown (s : Comp K G) (t : K) (x : Work K G) : Prop :=
  (∀ p ∈ s.corr.mgr.knots, p ∈ x.corr.mgr.knots) ∧
  ∀ p ∈ x.corr.mgr.knots, p ∈ s.corr.mgr.knots ∨ p.1 = newMin s t ∨ p.1 = newMax s t

theorem Grown.refl (s : Comp K G) (t : K) : Grown s t ⟨s.w, s.corr, [], []⟩ :=
  ⟨fun _ h => h, fun _ h => .inl h⟩

theorem Grown.push {s : Comp K G} {t : K} {x x' : Work K G} (h : Grown s t x) {a : K} {q : G}
    (hk : ∀ b u, (b, u) ∈ x'.corr.mgr.knots ↔ (b = a ∧ u = q) ∨ (b, u) ∈ x.corr.mgr.knots)
    (ha : a = newMin s t ∨ a = newMax s t) : Grown s t x' := by
  refine ⟨fun p hp => (hk p.1 p.2).2 (.inr (h.1 p hp)), fun p hp => ?_⟩
  rcases (hk p.1 p.2).1 hp with ⟨h1, -⟩ | h1
  · rcases ha with h2 | h2
    exacts [.inr (.inl (h1.trans h2)), .inr (.inr (h1.trans h2))]
  · exact h.2 p h1

/-- Without thinning, a correction whose knots are all the identity stays so, and it is not empty. -/
theorem comp_extend_ones {L : ExpLog K G V} {kc : Kind} {t : K} {v : G} {s s' : Comp K G} {ks : List Nat}
    (hi : Inv s) (hm : s.corr.pol.minMeas = 1) (h : ∀ p ∈ s.corr.mgr.knots, p.2 = 1)
    (e : extend L kc [t] [v] s = .ok (s', ks)) (hc : s'.w.calls + 1 < 2 ^ 64) :
    (∀ p ∈ s'.corr.mgr.knots, p.2 = 1) ∧ s'.corr.mgr.knots ≠ [] ∧
      (∀ p ∈ s.corr.mgr.knots, p ∈ s'.corr.mgr.knots) ∧
      (∀ p ∈ s'.corr.mgr.knots, p ∈ s.corr.mgr.knots ∨ p.1 = newMin s t ∨ p.1 = newMax s t) ∧
      ∃ w, w.calls ≤ s'.w.calls ∧ WF w s.base.mgr ∧
        s.base.extend w [t] [v] = .ok (s'.w, s'.base, ks) := by
  obtain ⟨g⟩ := extend_stages e
  obtain ⟨hw1, hw2, hw3, hst, hsb⟩ := g.steps hi hc
  obtain ⟨c0, c1, c2, c3⟩ := g.calls
  have hw0 := hi.corr.WF (show s.w.calls + 1 < 2 ^ 64 by omega)
  have one : ∀ {m : Mgr K G} {a : K} {q : G}, Sorted m.nodes → (∀ p ∈ m.knots, p.2 = 1) →
      evaluate L kc a m = .ok q → q = 1 := by
    intro m a q hs ho he
    obtain ⟨hk, hne, h0, h1⟩ := evaluate_dom L hs he
    rw [evaluate_const L hk hs ho hne h0 h1] at he
    cases he; rfl
  have s1 : (∀ p ∈ g.x1.corr.mgr.knots, p.2 = 1) ∧ g.x1.corr.pol.minMeas = 1 ∧
      g.x1.ts.length = g.x1.vs.length ∧ (∀ p ∈ g.x1.ts.zip g.x1.vs, p ∈ g.x1.corr.mgr.knots) ∧
      Grown s t g.x1 := by
    have e := g.e1
    unfold growEmpty at e
    split at e
    · rename_i hem
      simp only [Mgr.isEmpty, List.isEmpty_iff] at hem
      obtain ⟨a, b, c⟩ := push_mem hw0 hm (by simp) rfl (by simp [Mgr.contents, hem]) e (by omega)
      refine ⟨fun p hp => ?_, (push_minMeas e).trans hm, b, c, (Grown.refl s t).push a (.inl rfl)⟩
      rcases (a p.1 p.2).1 hp with ⟨-, h1⟩ | h1
      exacts [h1, h p h1]
    · rw [Outcome.ok.injEq] at e
      rw [← e]
      exact ⟨h, hm, rfl, by simp, Grown.refl s t⟩
  have s2 : (∀ p ∈ g.x2.corr.mgr.knots, p.2 = 1) ∧ g.x2.corr.pol.minMeas = 1 ∧
      g.x2.ts.length = g.x2.vs.length ∧ (∀ p ∈ g.x2.ts.zip g.x2.vs, p ∈ g.x2.corr.mgr.knots) ∧
      Grown s t g.x2 := by
    have e := g.e2
    unfold growMax at e
    split at e
    · rename_i hlt
      obtain ⟨q, hq, e⟩ := Outcome.bind_eq_ok.1 e
      obtain ⟨a, b, c⟩ := push_mem hw1 s1.2.1 s1.2.2.2.1 s1.2.2.1 (not_knot_of_max hw1 hlt) e (by omega)
      refine ⟨fun p hp => ?_, (push_minMeas e).trans s1.2.1, b, c, s1.2.2.2.2.push a (.inr rfl)⟩
      rcases (a p.1 p.2).1 hp with ⟨-, h1⟩ | h1
      exacts [h1.trans (one hw1.sorted s1.1 hq), s1.1 p h1]
    · rw [Outcome.ok.injEq] at e
      rw [← e]
      exact s1
  have s3 : (∀ p ∈ g.x3.corr.mgr.knots, p.2 = 1) ∧ Grown s t g.x3 := by
    have e := g.e3
    unfold growMin at e
    split at e
    · rename_i hlt
      obtain ⟨q, hq, e⟩ := Outcome.bind_eq_ok.1 e
      obtain ⟨a, b, c⟩ := push_mem hw2 s2.2.1 s2.2.2.2.1 s2.2.2.1 (not_knot_of_min hw2 hlt) e (by omega)
      refine ⟨fun p hp => ?_, s2.2.2.2.2.push a (.inl rfl)⟩
      rcases (a p.1 p.2).1 hp with ⟨-, h1⟩ | h1
      exacts [h1.trans (one hw2.sorted s2.1 hq), s2.1 p h1]
    · rw [Outcome.ok.injEq] at e
      rw [← e]
      exact ⟨s2.1, s2.2.2.2.2⟩
  have hq := one hw3.sorted s3.1 g.ev
  have hne := (evaluate_dom L hw3.sorted g.ev).2.1
  rw [g.ec]
  refine ⟨s3.1, hne, s3.2.1, s3.2.2, g.x3.w, c3, ?_, ?_⟩
  · exact ((hst.other s.base.mgr).reachable hi.base).WF (show g.x3.w.calls + 1 < 2 ^ 64 by omega)
  · have := g.ex
    rw [hq] at this
    simpa using this

/-- A composition that was only fed: nothing was corrected. -/
structure Fed (L : ExpLog K G V) (kb kc : Kind) (s : Comp K G) (xs : List (K × G)) : Prop where
  reach : Reachable L kb kc s
  pol : s.corr.pol = Pol.fresh
  base : s.base.mgr.knots = xs
  corr : ∀ p ∈ s.corr.mgr.knots, p.2 = 1
  covers : Covers s
  start : xs = [] → s.corr.mgr.knots = []
  zero : xs ≠ [] → (0, 1) ∈ s.corr.mgr.knots
  ends : ∀ p ∈ s.corr.mgr.knots, p.1 = 0 ∨ p.1 ∈ xs.map Prod.fst

theorem knots_pairwise {m : Mgr K G} (h : Sorted m.nodes) : m.knots.Pairwise fun a b => a.1 < b.1 := by
  have := sorted_iff_knots.1 h
  rwa [List.pairwise_map] at this

theorem fed_step (L : ExpLog K G V) {kb kc : Kind} (hkc : kc ≠ .slerpSE3)
    {s : Comp K G} {xs : List (K × G)} (h : Fed L kb kc s xs) (hc : s.w.calls + 8 < 2 ^ 64) {t : K} {v : G}
    (ht : ∀ p ∈ xs, p.1 < t) :
    ∃ s' ks, extend L kc [t] [v] s = .ok (s', ks) ∧ s'.w.calls ≤ s.w.calls + 7 ∧
      Fed L kb kc s' (xs ++ [(t, v)]) := by
  have hi := h.reach.inv (show s.w.calls + 1 < 2 ^ 64 by omega)
  obtain ⟨hwb, hwc⟩ := hi.wf (show s.w.calls + 1 < 2 ^ 64 by omega)
  have hmm : s.corr.pol.minMeas = 1 := by rw [h.pol]; rfl
  obtain ⟨⟨s', ks⟩, e⟩ : ∃ r, extend L kc [t] [v] s = .ok r := by
    by_cases hx : xs = []
    · obtain ⟨s', ks, e, -⟩ := C44_extend_first L hkc h.reach (by omega) (h.base.trans hx) (h.start hx) t v
      exact ⟨_, e⟩
    · have hb : s.base.mgr.knots ≠ [] := by rw [h.base]; exact hx
      obtain ⟨p, hp, ep⟩ := knots_min hb
      obtain ⟨q, hq, eq⟩ := knots_max hb
      obtain ⟨hq', hlo⟩ := (low_iff hwc.sorted).1 (h.covers p hp).1
      refine C44_extend_ok L hkc h.reach (by omega) hb hq' ?_ (ep ▸ hlo) ?_ v
      · rw [← eq]; exact ht q (h.base ▸ hq)
      · rw [h.pol]; simp [Pol.fresh]
  obtain ⟨hle, hpol⟩ := comp_extend_le e
  have hc' : s'.w.calls + 1 < 2 ^ 64 := by omega
  obtain ⟨ho, hne, hkeep, hgrow, w, hw, hwf, ex⟩ := comp_extend_ones hi hmm h.corr e hc'
  obtain ⟨hk, -⟩ := extend_one_mem hwf hi.ratio ex hc'
  have hr' : Reachable L kb kc s' := h.reach.step (op := .extend [t] [v]) (by simp [Composition.step, e])
  obtain ⟨hwb', -⟩ := (hr'.inv hc').wf hc'
  refine ⟨s', ks, e, hle, hr', (hpol hmm).trans h.pol, ?_, ho, ?_, by simp, fun _ => ?_, fun p hp => ?_⟩
  · have hp := knots_pairwise hwb.sorted
    rw [h.base] at hp
    refine eq_of_mem_iff (knots_pairwise hwb'.sorted) ?_ ?_
    · rw [List.pairwise_append]
      refine ⟨hp, by simp, fun a ha b hb => ?_⟩
      rw [List.mem_singleton] at hb
      subst hb
      exact ht a ha
    · rintro ⟨a, u⟩
      rw [hk, h.base]
      simp only [List.mem_append, List.mem_singleton, Prod.mk.injEq]
      constructor
      · rintro (h1 | h1)
        exacts [.inr h1, .inl h1.2]
      · rintro (h1 | h1)
        exacts [.inr ⟨(ht _ h1).ne, h1⟩, .inl h1]
  · exact extend_covers hi h.covers (.inl hmm) e hc'
  · by_cases hx : xs = []
    · obtain ⟨s2, ks2, e2, -, hq⟩ := C44_extend_first L hkc h.reach (by omega) (h.base.trans hx) (h.start hx) t v
      rw [e] at e2
      cases e2
      exact (hq 0 1).2 ⟨.inl rfl, rfl⟩
    · exact hkeep _ (h.zero hx)
  · have hends : ∀ a, (a = newMin s t ∨ a = newMax s t) → a = 0 ∨ a ∈ (xs ++ [(t, v)]).map Prod.fst := by
      intro a ha
      rw [← h.base, List.map_append, List.mem_append]
      by_cases hem : s.base.mgr.nodes = []
      · simp only [newMin, newMax, Mgr.isEmpty, hem, List.isEmpty_nil, if_true] at ha
        rcases ha with ha | ha <;> split at ha <;> simp [ha]
      · obtain ⟨x, hx, ex⟩ := knots_min (knots_ne_nil.2 hem)
        obtain ⟨y, hy, ey⟩ := knots_max (knots_ne_nil.2 hem)
        have hem' : s.base.mgr.isEmpty = false := by simpa [Mgr.isEmpty] using hem
        simp only [newMin, newMax, hem', Bool.false_eq_true, if_false] at ha
        have hx' := List.mem_map_of_mem (f := Prod.fst) hx
        have hy' := List.mem_map_of_mem (f := Prod.fst) hy
        rw [ex] at hx'
        rw [ey] at hy'
        rcases ha with ha | ha <;> split at ha
        · exact .inr (.inr (by simp [ha]))
        · exact .inr (.inl (ha ▸ hx'))
        · exact .inr (.inr (by simp [ha]))
        · exact .inr (.inl (ha ▸ hy'))
    rcases hgrow p hp with h1 | h1
    · rcases h.ends p h1 with h2 | h2
      exacts [.inl h2, .inr (by rw [List.map_append, List.mem_append]; exact .inl h2)]
    · exact hends p.1 h1

/-- Feeding a composition. -/
theorem comp_feed (L : ExpLog K G V) {kb kc : Kind} (hkc : kc ≠ .slerpSE3) (ys : List (K × G)) :
    ∀ {s : Comp K G} {xs : List (K × G)}, Fed L kb kc s xs →
    (xs ++ ys).Pairwise (fun a b => a.1 < b.1) → s.w.calls + 7 * ys.length + 1 < 2 ^ 64 →
    ∃ s', (Any.comp kb kc s).feed L ys = .ok (.comp kb kc s') ∧ s'.w.calls ≤ s.w.calls + 7 * ys.length ∧
      Fed L kb kc s' (xs ++ ys) := by
  induction ys with
  | nil => intro s xs h _ _; exact ⟨s, rfl, by simp, by simpa using h⟩
  | cons y ys ih =>
    obtain ⟨t, v⟩ := y
    intro s xs h hinc hc
    simp only [List.length_cons] at hc
    obtain ⟨s1, ks, e, hle, h1⟩ := fed_step L hkc h (by omega) (t := t) (v := v) (fun p hp =>
      (List.pairwise_append.1 hinc).2.2 p hp (t, v) (by simp))
    obtain ⟨s2, e2, hle2, h2⟩ := ih h1 (by simpa using hinc) (by omega)
    refine ⟨s2, ?_, ?_, by simpa using h2⟩
    · simp [Any.feed, Any.extend, e, e2]
    · simp only [List.length_cons]; omega

theorem fed_fresh (L : ExpLog K G V) (kb kc : Kind) (w : World) : Fed L kb kc (Comp.fresh w) [] where
  reach := ⟨w, [], rfl⟩
  pol := rfl
  base := rfl
  corr := by simp [Comp.fresh, Mgr.empty, Mgr.knots]
  covers := by intro p hp; simp [Comp.fresh, Mgr.empty, Mgr.knots] at hp
  start := fun _ => rfl
  zero := fun h => absurd rfl h
  ends := by simp [Comp.fresh, Mgr.empty, Mgr.knots]

/-- Feeding a curve that is no composition. -/
theorem single_feed (L : ExpLog K G V) (kind : Kind) (xs : List (K × G)) : ∀ (w : World) (c : Curve K G),
    (Any.single kind ⟨w, c⟩).feed L xs = (c.feed w xs >>= fun r => .ok (.single kind ⟨r.1, r.2⟩)) := by
  induction xs with
  | nil => intro w c; rfl
  | cons x xs ih =>
    intro w c
    obtain ⟨t, v⟩ := x
    simp only [Any.feed, Any.extend, Curve.feed]
    cases c.extend w [t] [v] with
    | ok r => simp [ih]
    | _ => rfl

end Verif.Interface

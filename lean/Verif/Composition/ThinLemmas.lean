import Verif.Discrete.RatioProps
import Verif.Composition.CoverProps
import Verif.Interface.Lemmas

/-!
# Lemmas: a composition whose correction is thinned
-/

set_option linter.unusedSectionVars false

namespace Verif.Composition

open Verif.Manager Verif.Policy Verif.Discrete

variable {K G V : Type} [Field K] [LinearOrder K] [IsStrictOrderedRing K] [Group G] [AddCommGroup V]
  [Module K V]

/-- Specification: repeating the correction's last value does not disturb what came before. Either the
correction keeps all measurements, or a sampling period has just been completed, or there is only one
knot, or the last two knots have the same value. -/
def Settled (c : Curve K G) : Prop :=
  c.pol.minMeas = 1 ∨ c.pol.since = 0 ∨ c.mgr.size ≤ 1 ∨
    ∃ pre a b, c.mgr.knots = pre ++ [a, b] ∧ a.2 = b.2

theorem between_const (L : ExpLog K G V) (kind : Kind) {a b : Node K G} (h : a.coef = b.coef) (t : K) :
    between L kind a b t = b.coef := by
  cases kind with
  | discrete => simp [between, nearer, h]
  | slerp => simp [between, slerpAt, h, L.log_one, L.exp_zero]
  | slerpSE3 => simp [between, slerpAt, h, L.log_one, L.exp_zero]

/-- The last interval of a curve. -/
theorem evaluate_last (L : ExpLog K G V) {kind : Kind} (hk : kind ≠ .slerpSE3) {m : Mgr K G}
    (hs : Sorted m.nodes) {pre : List (K × G)} {a b : K × G} (h : m.knots = pre ++ [a, b])
    (hab : a.2 = b.2) {t : K} (h0 : a.1 ≤ t) (h1 : t ≤ b.1) : evaluate L kind t m = .ok b.2 := by
  obtain ⟨p, q, hn, hp, hq⟩ := List.map_eq_append_iff.1 h
  obtain ⟨x, y, rfl, rfl, hy⟩ := List.map_eq_cons_iff.1 hq
  obtain ⟨z, w, rfl, rfl, hw⟩ := List.map_eq_cons_iff.1 hy
  obtain rfl := List.map_eq_nil_iff.1 hw
  rw [evaluate_segment L hk hs hn h0 h1, between_const L kind hab]

theorem max_snoc {m : Mgr K G} {pre : List (K × G)} {b : K × G} (h : m.knots = pre ++ [b]) :
    m.getMaxTime = b.1 := by
  obtain ⟨p, q, hn, -, hq⟩ := List.map_eq_append_iff.1 h
  obtain ⟨x, y, rfl, rfl, hy⟩ := List.map_eq_cons_iff.1 hq
  obtain rfl := List.map_eq_nil_iff.1 hy
  simp [Mgr.getMaxTime, hn]

theorem min_cons {m : Mgr K G} {l : List (K × G)} {a : K × G} (h : m.knots = a :: l) :
    m.getMinTime = a.1 := by
  obtain ⟨x, y, hn, rfl, -⟩ := List.map_eq_cons_iff.1 h
  simp [Mgr.getMinTime, hn]

theorem min_append {m m' : Mgr K G} {pre post post' : List (K × G)} (hne : pre ≠ [])
    (h : m.knots = pre ++ post) (h' : m'.knots = pre ++ post') : m'.getMinTime = m.getMinTime := by
  obtain ⟨a, l, rfl⟩ := List.exists_cons_of_ne_nil hne
  rw [min_cons (l := l ++ post) h, min_cons (l := l ++ post') h']

/-- Moving the last knot onwards, when it has the value of the one before, changes nothing up to it. -/
theorem evaluate_moved (L : ExpLog K G V) {kind : Kind} {m m' : Mgr K G} (hs : Sorted m.nodes)
    (hs' : Sorted m'.nodes) {pre : List (K × G)} {a b : K × G} {t : K} (h : m.knots = pre ++ [a, b])
    (h' : m'.knots = pre ++ [a, (t, b.2)]) (hab : a.2 = b.2) (hbt : b.1 < t) {x : K} {v : G}
    (e : evaluate L kind x m = .ok v) : evaluate L kind x m' = .ok v := by
  obtain ⟨hk, hne, h0, h1⟩ := evaluate_dom L hs e
  rw [max_snoc (pre := pre ++ [a]) (by simpa using h)] at h1
  rcases le_or_gt a.1 x with hx | hx
  · rw [evaluate_last L hk hs h hab hx h1] at e
    rw [evaluate_last L hk hs' h' hab hx (h1.trans hbt.le), ← e]
  · let p : Mgr K G := { m with nodes := m.nodes.dropLast }
    have hp : p.knots = pre ++ [a] := by
      have : p.knots = m.knots.dropLast := by simp [p, Mgr.knots, List.map_dropLast]
      rw [this, h, show pre ++ [a, b] = (pre ++ [a]) ++ [b] by simp, List.dropLast_concat]
    have hps : Sorted p.nodes := List.Pairwise.sublist (List.dropLast_sublist _) hs
    have gr : ∀ (n : Mgr K G) (c : K × G), Sorted n.nodes → n.knots = pre ++ [a, c] → Grown p n := by
      intro n c hn hnk
      refine ⟨fun q hq => ?_, fun q hq => ?_⟩
      · rw [hp] at hq; rw [hnk, show pre ++ [a, c] = (pre ++ [a]) ++ [c] by simp]
        exact List.mem_append_left _ hq
      · have hpw := Interface.knots_pairwise hn
        rw [hnk, show pre ++ [a, c] = (pre ++ [a]) ++ [c] by simp] at hpw hq
        rw [List.pairwise_append] at hpw
        rcases List.mem_append.1 hq with hq | hq
        · exact .inl (hp ▸ hq)
        · rw [List.mem_singleton] at hq
          subst hq
          exact .inr (.inr fun r hr => hpw.2.2 r (hp ▸ hr) _ (List.mem_singleton_self _))
    obtain ⟨u, hu⟩ := evaluate_inside L hk hps (t := x) (by rw [hp]; simp)
      (by rw [← min_append (m := p) (pre := pre ++ [a]) (post := []) (post' := [b]) (by simp)
            (by simpa using hp) (by simpa using h)]; exact h0)
      (by rw [max_snoc hp]; exact hx.le)
    have h2 := evaluate_grown L hps hs (gr m b hs h) hu
    rw [h2] at e
    rw [evaluate_grown L hps hs' (gr m' _ hs' h') hu, e]

/-- Adding a knot after all the others changes nothing up to the last of them. -/
theorem evaluate_appended (L : ExpLog K G V) {kind : Kind} {m m' : Mgr K G} (hs : Sorted m.nodes)
    (hs' : Sorted m'.nodes) {b : K × G} (h : m'.knots = m.knots ++ [b]) {x : K} {v : G}
    (e : evaluate L kind x m = .ok v) : evaluate L kind x m' = .ok v := by
  refine evaluate_grown L hs hs' ⟨fun q hq => by rw [h]; exact List.mem_append_left _ hq, fun q hq => ?_⟩ e
  have hpw := Interface.knots_pairwise hs'
  rw [h] at hpw hq
  rw [List.pairwise_append] at hpw
  rcases List.mem_append.1 hq with hq | hq
  · exact .inl hq
  · rw [List.mem_singleton] at hq
    subst hq
    exact .inr (.inr fun r hr => hpw.2.2 r hr _ (List.mem_singleton_self _))

/-- What an extension at a later time does to a curve, in all regimes of the sampling policy. -/
theorem extend_cases {w : World} {c : Curve K G} (h : WF w c.mgr) (hw : w.calls + 1 < 2 ^ 64)
    (hs : c.pol.minMeas = 1 ∨ c.pol.since ≠ 2 ^ 31 - 1) (t : K) (v : G) (ht : ∀ x ∈ c.mgr.contents, x.1 < t) :
    ∃ w' c' ks, c.extend w [t] [v] = .ok (w', c', ks) ∧ WF w' c'.mgr ∧ w'.calls ≤ w.calls + 1 ∧
      c'.pol.minMeas = c.pol.minMeas ∧
      ((c'.mgr.knots = c.mgr.knots ++ [(t, v)] ∧ (c.mgr.size ≤ 1 ∧ c'.pol.since = c.pol.since ∨
          2 ≤ c.mgr.size ∧ c.pol.minMeas = 1 ∧ c'.pol.since = c.pol.since ∨
          2 ≤ c.mgr.size ∧ c.pol.minMeas ≠ 1 ∧ c.pol.since = 0 ∧ c'.pol.since = 1)) ∨
       2 ≤ c.mgr.size ∧ c.pol.minMeas ≠ 1 ∧ c.pol.since ≠ 0 ∧
        c'.pol.since = (if c.pol.since + 1 = c.pol.minMeas then 0 else c.pol.since + 1) ∧
        ∃ pre a b, c.mgr.knots = pre ++ [a, b] ∧ c'.mgr.knots = pre ++ [a, (t, v)]) := by
  by_cases hsz : c.mgr.size ≤ 1
  · obtain ⟨w', m', k, e, hwf, hcalls, hcont⟩ := insert_append h hw v ht
    refine ⟨w', { c with mgr := m' }, [k], ?_, hwf, hcalls.le, rfl,
      .inl ⟨by simp [knots_eq_contents, hcont], .inl ⟨hsz, rfl⟩⟩⟩
    simp [Curve.extend, (small_iff c.mgr).2 hsz, Mgr.insertCoefficients, Mgr.insertLoop, e]
  · by_cases hop : c.pol.minMeas = 1 ∨ c.pol.since = 0
    · obtain ⟨w', m', k, e, hwf, hcalls, hcont⟩ := extend_opens h hw (by omega) hop t v ht
      refine ⟨w', _, [k], e, hwf, hcalls.le, rfl, .inl ⟨by simp [knots_eq_contents, hcont], .inr ?_⟩⟩
      by_cases hm : c.pol.minMeas = 1
      · exact .inl ⟨by omega, hm, by simp [hm]⟩
      · exact .inr ⟨by omega, hm, hop.resolve_left hm, by simp [hm]⟩
    · rw [not_or] at hop
      obtain ⟨w', m', pre, k, last, e, hwf, hcalls, hc, hc'⟩ := extend_moves h (by omega) hop.1 hop.2
        (hs.resolve_left hop.1) t v ht
      refine ⟨w', _, [], e, hwf, by omega, rfl, .inr ⟨by omega, hop.1, hop.2, rfl, ?_⟩⟩
      have hpne : pre ≠ [] := by
        rintro rfl
        have := congrArg List.length hc
        simp [Mgr.contents] at this
        simp [Mgr.size] at hsz
        omega
      obtain ⟨p, a, rfl⟩ := (List.eq_nil_or_concat pre).resolve_left hpne
      exact ⟨p.map fun x => (x.1, x.2.2), (a.1, a.2.2), (last.1, last.2.2), by
        simp [knots_eq_contents, hc], by simp [knots_eq_contents, hc']⟩

/-- Repeating the last value of a settled curve at a later time. -/
theorem repeat_settled (L : ExpLog K G V) {kind : Kind} (hk : kind ≠ .slerpSE3) {w : World} {c : Curve K G}
    (h : WF w c.mgr) (hw : w.calls + 1 < 2 ^ 64) (hs : c.pol.minMeas = 1 ∨ c.pol.since ≠ 2 ^ 31 - 1)
    {t : K} {v : G} (hne : c.mgr.knots ≠ []) (ht : c.mgr.getMaxTime < t)
    (hv : evaluate L kind c.mgr.getMaxTime c.mgr = .ok v) :
    ∃ w' c' ks, c.extend w [t] [v] = .ok (w', c', ks) ∧ WF w' c'.mgr ∧ w'.calls ≤ w.calls + 1 ∧
      c'.mgr.getMinTime = c.mgr.getMinTime ∧ c'.mgr.getMaxTime = t ∧ c'.mgr.knots ≠ [] ∧
      c'.pol.minMeas = c.pol.minMeas ∧
      (∀ m : ℤ, 0 < m → c.pol.minMeas = m → 0 ≤ c.pol.since → c.pol.since < m →
        0 ≤ c'.pol.since ∧ c'.pol.since < m) ∧
      (2 ≤ c.mgr.size → ∀ m a : ℕ, 0 < m → c.pol.minMeas = m → c.pol.since = a → a < m →
        2 ≤ c'.mgr.size ∧ c'.mgr.size = c.mgr.size + (if a % m = 0 then 1 else 0) ∧
        ∃ a' : ℕ, c'.pol.since = a' ∧ a' < m ∧ ∀ n, opened a' m n = opened (a + 1) m n) ∧
      (∀ p ∈ c'.mgr.knots, p ∈ c.mgr.knots ∨ p = (t, v)) ∧
      (Settled c → Settled c' ∧ (∀ x u, evaluate L kind x c.mgr = .ok u → evaluate L kind x c'.mgr = .ok u)) := by
  have hmem : ∀ x ∈ c.mgr.contents, x.1 < t := by
    rintro ⟨x, k, u⟩ hx
    obtain ⟨n, hn, rfl, -, -⟩ := mem_contents.1 hx
    exact (min_le_node h.sorted hn).2.trans_lt ht
  obtain ⟨w', c', ks, e, hwf, hcl, hpm, hcase⟩ := extend_cases h hw hs t v hmem
  obtain ⟨pre, b, hb⟩ := (List.eq_nil_or_concat c.mgr.knots).resolve_left hne
  rw [List.concat_eq_append] at hb
  have hbv : b.2 = v := by
    rw [max_snoc hb, evaluate_knot L hk h.sorted (v := b.2) (by rw [hb]; simp)] at hv
    exact Outcome.ok.inj hv
  have hbt : b.1 < t := by rwa [max_snoc hb] at ht
  have sz : ∀ m : Mgr K G, m.size = m.knots.length := fun m => by simp [Mgr.size, Mgr.knots]
  refine ⟨w', c', ks, e, hwf, hcl, ?_⟩
  rcases hcase with ⟨hk', hp⟩ | ⟨h2, hm1, hs0, hp, pre', a, b', hkn, hk'⟩
  · refine ⟨min_append (post := []) hne (by simp) hk', max_snoc hk', by rw [hk']; simp, hpm, ?_, ?_, ?_, ?_⟩
    · intro m h0 hm ha ham
      rcases hp with ⟨-, hp⟩ | ⟨-, -, hp⟩ | ⟨-, hp1, hp0, hp⟩
      · omega
      · omega
      · omega
    · intro h2 m a hm0 hm ha ham
      have hz : c'.mgr.size = c.mgr.size + 1 := by rw [sz, sz, hk']; simp
      rcases hp with ⟨hp, -⟩ | ⟨-, hp1, hp⟩ | ⟨-, hp1, hp0, hp⟩
      · omega
      · have : m = 1 := by omega
        subst this
        have : a = 0 := by omega
        subst this
        refine ⟨by omega, by simpa using hz, 0, by omega, by omega, fun n => ?_⟩
        rw [← opened_mod (0 + 1)]
      · have : a = 0 := by omega
        subst this
        exact ⟨by omega, by simpa using hz, 1, by omega, by omega, fun n => rfl⟩
    · intro p hpp
      rw [hk'] at hpp
      simpa using hpp
    · intro _
      refine ⟨.inr (.inr (.inr ⟨pre, b, (t, v), by rw [hk', hb]; simp, hbv⟩)), fun x u hx => ?_⟩
      exact evaluate_appended L h.sorted hwf.sorted hk' hx
  · obtain ⟨he, rfl⟩ : pre = pre' ++ [a] ∧ b = b' := by
      rw [hb, show pre' ++ [a, b'] = (pre' ++ [a]) ++ [b'] by simp] at hkn
      have := List.append_inj' hkn rfl
      exact ⟨this.1, by simpa using this.2⟩
    refine ⟨min_append (pre := pre' ++ [a]) (post := [b]) (by simp) (by simpa using hkn) (by simpa using hk'),
      max_snoc (pre := pre' ++ [a]) (b := (t, v)) (by simpa using hk'), by rw [hk']; simp, hpm, ?_, ?_, ?_, ?_⟩
    · intro m h0 hm ha ham
      rw [hp]
      split <;> omega
    · intro _ m a0 hm0 hm ha ham
      have hz : c'.mgr.size = c.mgr.size := by rw [sz, sz, hk', hkn]; simp
      have ha0 : a0 % m ≠ 0 := by rw [Nat.mod_eq_of_lt ham]; omega
      refine ⟨by omega, by simp [ha0, hz], ?_⟩
      by_cases hl : a0 + 1 = m
      · refine ⟨0, by rw [hp, if_pos (by omega)]; rfl, hm0, fun n => ?_⟩
        rw [← opened_mod (a0 + 1), hl, Nat.mod_self]
      · exact ⟨a0 + 1, by rw [hp, if_neg (by omega), ha]; push_cast; ring, by omega, fun n => rfl⟩
    · intro p hpp
      rw [hk'] at hpp
      rw [hkn]
      simp only [List.mem_append, List.mem_cons, List.not_mem_nil, or_false] at hpp ⊢
      tauto
    · intro hset
      have hab : a.2 = b.2 := by
        rcases hset with h' | h' | h' | ⟨p, x, y, hxy, hv'⟩
        · exact absurd h' hm1
        · exact absurd h' hs0
        · omega
        · rw [hkn] at hxy
          have := List.append_inj' hxy rfl
          simp only [List.cons.injEq, and_true] at this
          rw [this.2.1, this.2.2]
          exact hv'
      refine ⟨.inr (.inr (.inr ⟨pre', a, (t, v), hk', by rw [hab, hbv]⟩)), fun x u hx => ?_⟩
      exact evaluate_moved L h.sorted hwf.sorted hkn (by rw [hk', hbv]) hab hbt hx

end Verif.Composition

import Verif.Composition.ThinLemmas

/-!
# Property C90: thinning the correction loses no measurement
-/

set_option linter.unusedSectionVars false

namespace Verif.Composition

open Verif.Manager Verif.Policy Verif.Discrete

variable {K G V : Type} [Field K] [LinearOrder K] [IsStrictOrderedRing K] [Group G] [AddCommGroup V]
  [Module K V]

/-- The measurements `xs` one after the other. -/
def feedOps (xs : List (K × G)) : List (Op K G) := xs.map fun x => .extend [x.1] [x.2]

/-- One measurement after all those before. -/
theorem thin_step (L : ExpLog K G V) {kb kc : Kind} (hkc : kc ≠ .slerpSE3)
    {s : Comp K G} (hr : Reachable L kb kc s) (hc : s.w.calls + 2 < 2 ^ 64)
    (hb : s.base.mgr.knots ≠ []) (hq : s.corr.mgr.knots ≠ []) {t : K} (ht : s.base.mgr.getMaxTime < t)
    (hmin : s.corr.mgr.getMinTime ≤ s.base.mgr.getMinTime)
    (hs : s.corr.pol.minMeas = 1 ∨ s.corr.pol.since ≠ 2 ^ 31 - 1) (v : G) :
    ∃ s' ks, extend L kc [t] [v] s = .ok (s', ks) ∧ s'.w.calls ≤ s.w.calls + 2 ∧
      (∃ q, s'.base.mgr.knots = s.base.mgr.knots ++ [(t, q⁻¹ * v)] ∧
        evaluate L kc t s'.corr.mgr = .ok q) ∧
      s'.corr.mgr.knots ≠ [] ∧ s'.corr.mgr.getMinTime = s.corr.mgr.getMinTime ∧
      s'.corr.pol.minMeas = s.corr.pol.minMeas ∧
      (∀ m : ℤ, 0 < m → s.corr.pol.minMeas = m → 0 ≤ s.corr.pol.since → s.corr.pol.since < m →
        0 ≤ s'.corr.pol.since ∧ s'.corr.pol.since < m) ∧
      (s.corr.mgr.getMaxTime < t → s'.corr.mgr.getMaxTime = t ∧
        (2 ≤ s.corr.mgr.size → ∀ m a : ℕ, 0 < m → s.corr.pol.minMeas = m → s.corr.pol.since = a → a < m →
          2 ≤ s'.corr.mgr.size ∧ s'.corr.mgr.size = s.corr.mgr.size + (if a % m = 0 then 1 else 0) ∧
          ∃ a' : ℕ, s'.corr.pol.since = a' ∧ a' < m ∧ ∀ n, opened a' m n = opened (a + 1) m n)) ∧
      (Settled s.corr → Settled s'.corr ∧
        ∀ x u, evaluate L kc x s.corr.mgr = .ok u → evaluate L kc x s'.corr.mgr = .ok u) := by
  have hi := hr.inv (show s.w.calls + 1 < 2 ^ 64 by omega)
  obtain ⟨hwb, hwc⟩ := hi.wf (show s.w.calls + 1 < 2 ^ 64 by omega)
  have hbn := knots_ne_nil.1 hb
  have hqn := knots_ne_nil.1 hq
  have hbe : s.base.mgr.isEmpty = false := by simpa [Mgr.isEmpty] using hbn
  have hqe : s.corr.mgr.isEmpty = false := by simpa [Mgr.isEmpty] using hqn
  have hle : ∀ m : Mgr K G, Sorted m.nodes → m.nodes ≠ [] → m.getMinTime ≤ m.getMaxTime := by
    intro m hm hne
    obtain ⟨a, l, hl⟩ := List.exists_cons_of_ne_nil hne
    have := min_le_node hm (show a ∈ m.nodes by simp [hl])
    exact this.1.trans this.2
  have hbm := hle _ hwb.sorted hbn
  have hmx : newMax s t = t := by simp [newMax, hbe, ht]
  have hmn : newMin s t = s.base.mgr.getMinTime := by
    simp only [newMin, hbe, Bool.false_eq_true, if_false]
    rw [if_neg (not_lt.2 (hbm.trans ht.le))]
  have e1 : growEmpty (newMin s t) ⟨s.w, s.corr, [], []⟩ = .ok ⟨s.w, s.corr, [], []⟩ := by
    simp [growEmpty, hqe]
  have htb : ∀ x ∈ s.base.mgr.contents, x.1 < t := by
    rintro ⟨x, k, u⟩ hx
    obtain ⟨n, hn, rfl, -, -⟩ := mem_contents.1 hx
    exact (min_le_node hwb.sorted hn).2.trans_lt ht
  -- the rest of `extend`, given what `growMax` did
  have rest : ∀ (w1 : World) (c1 : Curve K G) (l : List K) (l' : List G),
      growMax L kc t ⟨s.w, s.corr, [], []⟩ = .ok ⟨w1, c1, l, l'⟩ → WF w1 c1.mgr →
      w1.calls ≤ s.w.calls + 1 → s.w.calls ≤ w1.calls → s.w.nextAddr ≤ w1.nextAddr →
      c1.mgr.getMinTime = s.corr.mgr.getMinTime → t ≤ c1.mgr.getMaxTime → c1.mgr.knots ≠ [] →
      ∃ s' ks q, extend L kc [t] [v] s = .ok (s', ks) ∧ s'.w.calls ≤ s.w.calls + 2 ∧ s'.corr = c1 ∧
        s'.base.mgr.knots = s.base.mgr.knots ++ [(t, q⁻¹ * v)] ∧ evaluate L kc t c1.mgr = .ok q := by
    intro w1 c1 l l' e2 hw1 hc1 hc1' ha1 hmin1 hmax1 hne1
    have e3 : growMin L kc (newMin s t) ⟨w1, c1, l, l'⟩ = .ok ⟨w1, c1, l, l'⟩ := by
      simp [growMin, hmn, hmin1, not_lt.2 hmin]
    obtain ⟨q, eq⟩ := evaluate_inside L hkc hw1.sorted hne1
      (by rw [hmin1]; exact hmin.trans (hbm.trans ht.le)) hmax1
    obtain ⟨w', b', ks, e4, -, hcl, -, hcase⟩ := extend_cases (hwb.mono hc1' ha1) (by omega)
      (.inl hi.ratio) t (q⁻¹ * v) htb
    refine ⟨⟨w', b', c1⟩, ks, q, ?_, by simp only; omega, rfl, ?_, eq⟩
    · simp only [extend, e1, Outcome.ok_bind, hmx, e2, e3, eq, e4]
    · rcases hcase with ⟨h', -⟩ | ⟨-, h', -⟩
      · exact h'
      · exact absurd hi.ratio h'
  by_cases hlt : s.corr.mgr.getMaxTime < t
  · obtain ⟨q, eq⟩ := evaluate_inside L hkc hwc.sorted hq (hle _ hwc.sorted hqn) le_rfl
    obtain ⟨w1, c1, ks1, ex, hw1, hc1, hmin1, hmax1, hne1, hpm, hrng, hcount, -, hset⟩ :=
      repeat_settled L hkc hwc (by omega) hs hq hlt eq
    have htc : ∀ x ∈ s.corr.mgr.contents, x.1 < t := by
      rintro ⟨x, k, u⟩ hx
      obtain ⟨n, hn, rfl, -, -⟩ := mem_contents.1 hx
      exact (min_le_node hwc.sorted hn).2.trans_lt hlt
    have hst : Steps ⟨s.w, s.corr.mgr⟩ ⟨w1, c1.mgr⟩ :=
      extend_steps (fun t' ht' => .inr (.inr (by
        simp only [List.cons.injEq, and_true] at ht'
        subst ht'
        exact fun x hx => (htc x hx).ne))) ex
    obtain ⟨s', ks, q', e, hcl, hcorr, hbase, hev⟩ := rest w1 c1 [t] [q]
      (by simp [growMax, hlt, eq, Work.push, ex]) hw1 hc1 hst.calls
      (by obtain ⟨l, -, er⟩ := hst; exact run_addr_mono er) hmin1 hmax1.ge hne1
    refine ⟨s', ks, e, hcl, ⟨q', hbase, by rw [hcorr]; exact hev⟩, ?_⟩
    rw [hcorr]
    exact ⟨hne1, hmin1, hpm, hrng, fun _ => ⟨hmax1, hcount⟩, hset⟩
  · obtain ⟨s', ks, q', e, hcl, hcorr, hbase, hev⟩ := rest s.w s.corr [] []
      (by simp [growMax, hlt]) hwc (by omega) le_rfl le_rfl rfl (not_lt.1 hlt) hq
    refine ⟨s', ks, e, hcl, ⟨q', hbase, by rw [hcorr]; exact hev⟩, ?_⟩
    rw [hcorr]
    exact ⟨hq, rfl, rfl, fun m _ _ h0 h1 => ⟨h0, h1⟩, fun h => absurd h hlt, fun h => ⟨h, fun _ _ h => h⟩⟩

/-- **C90.** Setting the sampling ratio of a composition curve to `m` thins the correction only. Measurements
at later and later times are all accepted, the base keeps every one of them, and, if the correction is
settled, each can be read back exactly afterwards and no earlier value has changed. Missing: a correction
that is in the middle of a sampling period and whose last two values differ, see `C90_refuted`. -/
theorem C90_measurements_partial (L : ExpLog K G V) {kb kc : Kind} (hkb : kb ≠ .slerpSE3)
    (hkc : kc ≠ .slerpSE3) {s : Comp K G} (hr : Reachable L kb kc s) (hb : s.base.mgr.knots ≠ [])
    (hq : s.corr.mgr.knots ≠ []) (hmin : s.corr.mgr.getMinTime ≤ s.base.mgr.getMinTime) (m : ℤ)
    (hm : 0 < m) (hm31 : m < 2 ^ 31) (ha0 : 0 ≤ s.corr.pol.since) (ha : s.corr.pol.since < m)
    (hset : s.corr.pol.since = 0 ∨ s.corr.mgr.size ≤ 1 ∨
      ∃ pre a b, s.corr.mgr.knots = pre ++ [a, b] ∧ a.2 = b.2)
    (xs : List (K × G)) (hc : s.w.calls + 2 * xs.length + 1 < 2 ^ 64)
    (hinc : xs.Pairwise fun x y => x.1 < y.1) (hlt : ∀ x ∈ xs, s.base.mgr.getMaxTime < x.1) :
    ∃ s', run L kb kc s (.setRatio m :: feedOps xs) = .ok s' ∧
      s'.base.mgr.getTimes [] = s.base.mgr.getTimes [] ++ xs.map Prod.fst ∧
      (∀ x ∈ xs, eval L kb kc x.1 s' = .ok x.2) ∧
      (∀ t u, eval L kb kc t s = .ok u → eval L kb kc t s' = .ok u) := by
  have key : ∀ (xs : List (K × G)) (s : Comp K G), Reachable L kb kc s → s.base.mgr.knots ≠ [] →
      s.corr.mgr.knots ≠ [] → s.corr.mgr.getMinTime ≤ s.base.mgr.getMinTime → s.corr.pol.minMeas = m →
      0 ≤ s.corr.pol.since → s.corr.pol.since < m → Settled s.corr →
      s.w.calls + 2 * xs.length + 1 < 2 ^ 64 → xs.Pairwise (fun x y => x.1 < y.1) →
      (∀ x ∈ xs, s.base.mgr.getMaxTime < x.1) →
      ∃ s', run L kb kc s (feedOps xs) = .ok s' ∧
        s'.base.mgr.getTimes [] = s.base.mgr.getTimes [] ++ xs.map Prod.fst ∧
        (∀ x ∈ xs, eval L kb kc x.1 s' = .ok x.2) ∧
        (∀ t u, eval L kb kc t s = .ok u → eval L kb kc t s' = .ok u) := by
    intro xs
    induction xs with
    | nil => intro s _ _ _ _ _ _ _ _ _ _ _; exact ⟨s, rfl, by simp, by simp, fun _ _ h => h⟩
    | cons x xs ih =>
      intro s hr hb hq hmin hpm ha0 ha hset hc hinc hlt
      obtain ⟨t, v⟩ := x
      simp only [List.length_cons] at hc
      rw [List.pairwise_cons] at hinc
      obtain ⟨s1, ks, e, hcl, ⟨q, hbase, hev⟩, hq1, hmin1, hpm1, hrng, -, hset1⟩ :=
        thin_step L hkc hr (by omega) hb hq (hlt (t, v) (by simp)) hmin (.inr (by omega)) v
      obtain ⟨hset1, hpres⟩ := hset1 hset
      have hst : step L kb kc s (.extend [t] [v]) = .ok s1 := by simp [step, e]
      have hr1 := hr.step hst
      have hi1 := hr1.inv (show s1.w.calls + 1 < 2 ^ 64 by omega)
      obtain ⟨hwb1, hwc1⟩ := hi1.wf (show s1.w.calls + 1 < 2 ^ 64 by omega)
      have hi := hr.inv (show s.w.calls + 1 < 2 ^ 64 by omega)
      obtain ⟨hwb, hwc⟩ := hi.wf (show s.w.calls + 1 < 2 ^ 64 by omega)
      obtain ⟨h0, h1⟩ := hrng m hm hpm ha0 ha
      obtain ⟨s', er, ht, hx, hp⟩ := ih s1 hr1 (by rw [hbase]; simp) hq1
        (by rw [hmin1, min_append (m := s.base.mgr) (post := []) hb (by simp) hbase]; exact hmin) (by rw [hpm1, hpm]) h0 h1
        hset1 (by omega) hinc.2 (fun y hy => by rw [max_snoc hbase]; exact hinc.1 y hy)
      have hnow : eval L kb kc t s1 = .ok v := by
        have : evaluate L kb t s1.base.mgr = .ok (q⁻¹ * v) :=
          evaluate_knot L hkb hwb1.sorted (by rw [hbase]; simp)
        simp [eval, hev, this]
      have hpast : ∀ t u, eval L kb kc t s = .ok u → eval L kb kc t s1 = .ok u := by
        intro t' u hu
        obtain ⟨q', hq', h⟩ := Outcome.bind_eq_ok.1 hu
        obtain ⟨b', hb', h⟩ := Outcome.bind_eq_ok.1 h
        cases h
        simp [eval, hpres _ _ hq', evaluate_appended L hwb.sorted hwb1.sorted hbase hb']
      refine ⟨s', ?_, ?_, ?_, fun t' u hu => hp _ _ (hpast _ _ hu)⟩
      · simp only [feedOps, List.map_cons, run, hst, Outcome.ok_bind]
        exact er
      · rw [ht, times_knots, times_knots, hbase]; simp
      · intro y hy
        rcases List.mem_cons.1 hy with rfl | hy
        · exact hp _ _ hnow
        · exact hx y hy
  have hst : step L kb kc s (.setRatio m) = .ok (setSamplingRatio m s) := rfl
  have hset' : Settled (setSamplingRatio m s).corr := .inr hset
  obtain ⟨s', er, h⟩ := key xs (setSamplingRatio m s) (hr.step hst) hb hq hmin rfl ha0 ha hset' hc hinc hlt
  exact ⟨s', by simp only [run, hst, Outcome.ok_bind]; exact er, h⟩

/-- **C90**, the effect on the correction: of `n` measurements after its end, one in `m` becomes a knot of it
(counting from where the last sampling period stopped), and it ends at the last one. -/
theorem C90_thinned (L : ExpLog K G V) {kb kc : Kind} (hkb : kb ≠ .slerpSE3)
    (hkc : kc ≠ .slerpSE3) {s : Comp K G} (hr : Reachable L kb kc s) (hb : s.base.mgr.knots ≠ [])
    (h2 : 2 ≤ s.corr.mgr.knots.length) (hmin : s.corr.mgr.getMinTime ≤ s.base.mgr.getMinTime) (m a : ℕ)
    (hm : 0 < m) (hm31 : m < 2 ^ 31) (ha : s.corr.pol.since = a) (ham : a < m)
    (xs : List (K × G)) (hc : s.w.calls + 2 * xs.length + 1 < 2 ^ 64)
    (hinc : xs.Pairwise fun x y => x.1 < y.1)
    (hlt : ∀ x ∈ xs, s.base.mgr.getMaxTime < x.1 ∧ s.corr.mgr.getMaxTime < x.1) :
    ∃ s', run L kb kc s (.setRatio m :: feedOps xs) = .ok s' ∧
      s'.base.mgr.knots.length = s.base.mgr.knots.length + xs.length ∧
      s'.corr.mgr.knots.length = s.corr.mgr.knots.length + opened a m xs.length ∧
      (∀ x, xs.getLast? = some x → s'.corr.mgr.getMaxTime = x.1 ∧ eval L kb kc x.1 s' = .ok x.2) := by
  have sz : ∀ m : Mgr K G, m.size = m.knots.length := fun m => by simp [Mgr.size, Mgr.knots]
  have key : ∀ (xs : List (K × G)) (s : Comp K G) (a : ℕ), Reachable L kb kc s → s.base.mgr.knots ≠ [] →
      2 ≤ s.corr.mgr.size → s.corr.mgr.getMinTime ≤ s.base.mgr.getMinTime → s.corr.pol.minMeas = m →
      s.corr.pol.since = a → a < m →
      s.w.calls + 2 * xs.length + 1 < 2 ^ 64 → xs.Pairwise (fun x y => x.1 < y.1) →
      (∀ x ∈ xs, s.base.mgr.getMaxTime < x.1 ∧ s.corr.mgr.getMaxTime < x.1) →
      ∃ s', run L kb kc s (feedOps xs) = .ok s' ∧
        s'.base.mgr.knots.length = s.base.mgr.knots.length + xs.length ∧
        s'.corr.mgr.size = s.corr.mgr.size + opened a m xs.length ∧
        (∀ x, xs.getLast? = some x → s'.corr.mgr.getMaxTime = x.1 ∧ eval L kb kc x.1 s' = .ok x.2) := by
    intro xs
    induction xs with
    | nil => intro s a _ _ _ _ _ _ _ _ _ _; exact ⟨s, rfl, by simp, by simp [opened], by simp⟩
    | cons x xs ih =>
      intro s a hr hb h2 hmin hpm ha ham hc hinc hlt
      obtain ⟨t, v⟩ := x
      simp only [List.length_cons] at hc
      rw [List.pairwise_cons] at hinc
      obtain ⟨hlb, hlc⟩ := hlt (t, v) (by simp)
      have hq : s.corr.mgr.knots ≠ [] := by
        intro h; rw [sz, h] at h2; simp at h2
      obtain ⟨s1, ks, e, hcl, ⟨q, hbase, hev⟩, hq1, hmin1, hpm1, -, hgrow, -⟩ :=
        thin_step L hkc hr (by omega) hb hq hlb hmin (.inr (by omega)) v
      obtain ⟨hmax1, hcount⟩ := hgrow hlc
      obtain ⟨h21, hsz1, a', ha', ham', hop⟩ := hcount h2 m a hm hpm ha ham
      have hst : step L kb kc s (.extend [t] [v]) = .ok s1 := by simp [step, e]
      have hr1 := hr.step hst
      have hi1 := hr1.inv (show s1.w.calls + 1 < 2 ^ 64 by omega)
      obtain ⟨hwb1, hwc1⟩ := hi1.wf (show s1.w.calls + 1 < 2 ^ 64 by omega)
      obtain ⟨s', er, hl, hsz, hlast⟩ := ih s1 a' hr1 (by rw [hbase]; simp) h21
        (by rw [hmin1, min_append (m := s.base.mgr) (post := []) hb (by simp) hbase]; exact hmin) (by rw [hpm1, hpm]) ha' ham'
        (by omega) hinc.2 (fun y hy => by
          rw [max_snoc hbase, hmax1]; exact ⟨hinc.1 y hy, hinc.1 y hy⟩)
      refine ⟨s', ?_, ?_, ?_, ?_⟩
      · simp only [feedOps, List.map_cons, run, hst, Outcome.ok_bind]
        exact er
      · rw [hl, hbase]; simp; omega
      · rw [hsz, hsz1, hop, List.length_cons, opened_succ]; omega
      · intro y hy
        cases xs with
        | nil =>
          simp only [List.getLast?_singleton, Option.some.injEq] at hy
          subst hy
          simp only [feedOps, List.map_nil, run] at er
          cases er
          have : evaluate L kb t s1.base.mgr = .ok (q⁻¹ * v) :=
            evaluate_knot L hkb hwb1.sorted (by rw [hbase]; simp)
          exact ⟨hmax1, by simp [eval, hev, this]⟩
        | cons z zs => exact hlast y (by simpa using hy)
  have hst : step L kb kc s (.setRatio m) = .ok (setSamplingRatio m s) := rfl
  obtain ⟨s', er, h⟩ := key xs (setSamplingRatio m s) a (hr.step hst) hb (by rw [sz]; exact h2) hmin rfl ha ham
    hc hinc hlt
  rw [sz, sz] at h
  exact ⟨s', by simp only [run, hst, Outcome.ok_bind]; exact er, h⟩

theorem push_pol {x x' : Work K G} {t : K} {v : G} (h : x.ts ≠ [] ∨ x.corr.mgr.isEmpty = true)
    (e : x.push t v = .ok x') : x'.ts ≠ [] ∧ x'.corr.pol = x.corr.pol := by
  obtain ⟨⟨w1, c1, ks⟩, h1, h2⟩ := Outcome.bind_eq_ok.1 e
  cases h2
  refine ⟨by simp, ?_⟩
  unfold Curve.extend at h1
  split at h1
  · cases h1
  · split at h1
    · rename_i ts vs t' v' he hv
      have hx : x.corr.mgr.isEmpty = true := by
        refine h.resolve_left fun hx => ?_
        obtain ⟨a, l, hl⟩ := List.exists_cons_of_ne_nil hx
        rw [hl] at he
        simp at he
      rw [if_pos (.inl hx)] at h1
      obtain ⟨⟨w2, m2, ks2⟩, -, h3⟩ := Outcome.bind_eq_ok.1 h1
      cases h3; rfl
    · obtain ⟨⟨w2, m2, ks2⟩, -, h3⟩ := Outcome.bind_eq_ok.1 h1
      cases h3; rfl

/-- The first measurement does not count. -/
theorem extend_first_pol {L : ExpLog K G V} {kc : Kind} {t : K} {v : G} {s s' : Comp K G} {ks : List Nat}
    (hq : s.corr.mgr.isEmpty = true) (e : extend L kc [t] [v] s = .ok (s', ks)) :
    s'.corr.pol = s.corr.pol := by
  obtain ⟨g⟩ := extend_stages e
  have h1 : g.x1.ts ≠ [] ∧ g.x1.corr.pol = s.corr.pol := by
    have e := g.e1
    simp only [growEmpty, hq, if_true] at e
    exact push_pol (.inr hq) e
  have h2 : g.x2.ts ≠ [] ∧ g.x2.corr.pol = s.corr.pol := by
    have e := g.e2
    unfold growMax at e
    split at e
    · obtain ⟨q, -, e⟩ := Outcome.bind_eq_ok.1 e
      obtain ⟨a, b⟩ := push_pol (.inl h1.1) e
      exact ⟨a, b.trans h1.2⟩
    · rw [← Outcome.ok.inj e]; exact h1
  have h3 : g.x3.corr.pol = s.corr.pol := by
    have e := g.e3
    unfold growMin at e
    split at e
    · obtain ⟨q, -, e⟩ := Outcome.bind_eq_ok.1 e
      exact (push_pol (.inl h2.1) e).2.trans h2.2
    · rw [← Outcome.ok.inj e]; exact h2.2
  rw [← h3, g.ec]

/-- **C90**, from the start: a new composition curve with any sampling ratio accepts all measurements at
increasing times and each can be read back at its time, although (when they are after time zero) the
correction has only every `m`th of them. -/
theorem C90_fresh (L : ExpLog K G V) {kb kc : Kind} (hkb : kb ≠ .slerpSE3) (hkc : kc ≠ .slerpSE3)
    (w : World) (m : ℕ) (hm : 0 < m) (hm31 : m < 2 ^ 31) (xs : List (K × G))
    (hc : w.calls + 2 * xs.length + 8 < 2 ^ 64) (hinc : xs.Pairwise fun x y => x.1 < y.1) :
    ∃ s', run L kb kc (Comp.fresh w) (.setRatio m :: feedOps xs) = .ok s' ∧
      s'.base.mgr.getTimes [] = xs.map Prod.fst ∧
      (∀ x ∈ xs, eval L kb kc x.1 s' = .ok x.2) ∧
      (∀ x rest, xs = x :: rest → 0 < x.1 →
        s'.corr.mgr.knots.length = 2 + opened 0 m rest.length) := by
  cases xs with
  | nil => exact ⟨setSamplingRatio m (Comp.fresh w), rfl, rfl, by simp, by simp⟩
  | cons x xs =>
    obtain ⟨t, v⟩ := x
    simp only [List.length_cons] at hc
    rw [List.pairwise_cons] at hinc
    have hr0 : Reachable L kb kc (setSamplingRatio m (Comp.fresh w)) := ⟨w, [.setRatio m], rfl⟩
    have hw0 : (setSamplingRatio m (Comp.fresh (K := K) (G := G) w)).w = w := rfl
    obtain ⟨s1, ks, e, hb, hcorr⟩ := C44_extend_first L hkc hr0 (by rw [hw0]; omega) rfl rfl t v
    have hcl := (Interface.comp_extend_le e).1
    rw [hw0] at hcl
    have hst : step L kb kc (setSamplingRatio m (Comp.fresh w)) (.extend [t] [v]) = .ok s1 := by
      simp [step, e]
    have hr1 := hr0.step hst
    have hi1 := hr1.inv (show s1.w.calls + 1 < 2 ^ 64 by omega)
    obtain ⟨hwb1, hwc1⟩ := hi1.wf (show s1.w.calls + 1 < 2 ^ 64 by omega)
    have hpol : s1.corr.pol = ⟨0, m⟩ := extend_first_pol rfl e
    have hq : s1.corr.mgr.knots ≠ [] := List.ne_nil_of_mem ((hcorr t 1).2 ⟨.inr rfl, rfl⟩)
    have hmax : s1.base.mgr.getMaxTime = t := max_snoc (pre := []) hb
    have hmin : s1.base.mgr.getMinTime = t := min_cons hb
    have hself : setSamplingRatio m s1 = s1 := by
      have h1 := hi1.ratio
      obtain ⟨w1, ⟨b1, ⟨q, p⟩⟩, ⟨c1, p1⟩⟩ := s1
      simp only at hpol h1
      subst hpol h1
      rfl
    have hrun : ∀ l, run L kb kc (Comp.fresh w) (.setRatio m :: feedOps ((t, v) :: l)) =
        run L kb kc s1 (.setRatio m :: feedOps l) := by
      intro l
      have h1 : step L kb kc (Comp.fresh w) (.setRatio m) = .ok (setSamplingRatio m (Comp.fresh w)) := rfl
      have h2 : step L kb kc s1 (.setRatio m) = .ok s1 := by simp only [step, hself]
      simp only [feedOps, List.map_cons, run, h1, h2, hst, Outcome.ok_bind]
    have hcm : s1.corr.mgr.getMinTime ≤ s1.base.mgr.getMinTime := by
      rw [hmin]; exact (mem_range hwc1.sorted ((hcorr t 1).2 ⟨.inr rfl, rfl⟩)).1
    have hlt : ∀ x ∈ xs, s1.base.mgr.getMaxTime < x.1 := by rw [hmax]; exact hinc.1
    obtain ⟨s', er, ht, hx, hp⟩ := C90_measurements_partial L hkb hkc hr1 (by rw [hb]; simp) hq hcm m
      (by omega) (by omega) (by rw [hpol]) (by rw [hpol]; simpa using hm) (.inl (by rw [hpol])) xs (by omega)
      hinc.2 hlt
    refine ⟨s', by rw [hrun, er], ?_, ?_, ?_⟩
    · rw [ht, times_knots, hb]; simp
    · intro y hy
      rcases List.mem_cons.1 hy with rfl | hy
      · apply hp
        have h1 : evaluate L kb t s1.base.mgr = .ok v := evaluate_knot L hkb hwb1.sorted (by rw [hb]; simp)
        have h2 : evaluate L kc t s1.corr.mgr = .ok 1 :=
          evaluate_knot L hkc hwc1.sorted ((hcorr _ _).2 ⟨.inr rfl, rfl⟩)
        simp [eval, h1, h2]
      · exact hx y hy
    · rintro y rest he h0
      obtain ⟨rfl, rfl⟩ := List.cons.inj he
      simp only at h0
      have hkn : s1.corr.mgr.knots = [(0, 1), (t, 1)] := by
        refine eq_of_mem_iff (Interface.knots_pairwise hwc1.sorted) (by simpa using h0) ?_
        rintro ⟨a, u⟩
        rw [hcorr]
        simp only [List.mem_cons, Prod.mk.injEq, List.not_mem_nil, or_false]
        tauto
      have hmc : s1.corr.mgr.getMaxTime = t := max_snoc (pre := [(0, 1)]) hkn
      obtain ⟨s2, er2, -, hl, -⟩ := C90_thinned L hkb hkc hr1 (by rw [hb]; simp) (by rw [hkn]; simp) hcm m 0 hm hm31
        (by rw [hpol]; rfl) hm xs (by omega) hinc.2 (by rw [hmax, hmc]; exact fun y hy => ⟨hinc.1 y hy, hinc.1 y hy⟩)
      rw [er] at er2
      cases er2
      rw [hl, hkn]
      rfl

/-- **C90** is false of a correction that is in the middle of a sampling period and whose last two values
differ: the measurement `(b.time, b.coef * u)`, which could be read back before, is read as something else
after the next one has come in. -/
theorem C90_refuted (L : ExpLog K G V) {kb : Kind} (hkb : kb ≠ .slerpSE3) {s : Comp K G}
    (hr : Reachable L kb .slerp s) (hc : s.w.calls + 3 < 2 ^ 64) {pre : List (Node K G)} {a b : Node K G}
    (hq : s.corr.mgr.nodes = pre ++ [a, b]) {u : G} (hb : (b.time, u) ∈ s.base.mgr.knots) {t : K}
    (ht : s.base.mgr.getMaxTime < t)
    (hmin : s.corr.mgr.getMinTime ≤ s.base.mgr.getMinTime) (hm : s.corr.pol.minMeas ≠ 1)
    (hs0 : s.corr.pol.since ≠ 0) (hs : s.corr.pol.since ≠ 2 ^ 31 - 1) (v : G) :
    eval L kb .slerp b.time s = .ok (b.coef * u) ∧
    ∃ s' ks, extend L .slerp [t] [v] s = .ok (s', ks) ∧
      eval L kb .slerp b.time s' =
        .ok (a.coef * L.exp (((b.time - a.time) / (t - a.time)) • L.log (a.coef⁻¹ * b.coef)) * u) := by
  have hi := hr.inv (show s.w.calls + 1 < 2 ^ 64 by omega)
  obtain ⟨hwb, hwc⟩ := hi.wf (show s.w.calls + 1 < 2 ^ 64 by omega)
  have hbt : b.time < t := (mem_range hwb.sorted hb).2.trans_lt ht
  obtain ⟨h1, s', ks, e, h2⟩ := C55_refuted L hr (by omega) (List.ne_nil_of_mem hb) hq ht hbt hmin hm hs0 hs v
  obtain ⟨s1, ks1, e1, hcl, ⟨q, hbase, -⟩, -⟩ := thin_step L (kc := .slerp) (by simp) hr (by omega)
    (List.ne_nil_of_mem hb) (by simp [Mgr.knots, hq]) ht hmin (.inr hs) v
  rw [e] at e1
  cases e1
  have hst : step L kb .slerp s (.extend [t] [v]) = .ok s' := by simp [step, e]
  have hi' := (hr.step hst).inv (show s'.w.calls + 1 < 2 ^ 64 by omega)
  obtain ⟨hwb', -⟩ := hi'.wf (show s'.w.calls + 1 < 2 ^ 64 by omega)
  have k1 := evaluate_knot L hkb hwb.sorted hb
  have k2 : evaluate L kb b.time s'.base.mgr = .ok u := evaluate_knot L hkb hwb'.sorted (by
    rw [hbase]; exact List.mem_append_left _ hb)
  refine ⟨by simp [eval, h1, k1], s', ks, e, by simp [eval, h2, k2]⟩

/-! ## Examples -/

/-- `demo` is in the middle of a sampling period: three more measurements with a ratio of 3, one of them
opens a period. -/
example : ∃ s', run (lineMaps ℚ) .slerp .slerp demo
      (.setRatio (3 : ℕ) :: feedOps [(5, .ofAdd 2), (6, .ofAdd 3), (7, .ofAdd 9)]) = .ok s' ∧
    s'.base.mgr.knots.length = 7 ∧ s'.corr.mgr.knots.length = 5 ∧
    eval (lineMaps ℚ) .slerp .slerp 7 s' = .ok (.ofAdd 9) := by
  have hb : demo.base.mgr.knots.length = 4 := by decide +kernel
  have hq : demo.corr.mgr.knots.length = 4 := by decide +kernel
  have hm : demo.base.mgr.getMaxTime = 4 ∧ demo.corr.mgr.getMaxTime = 4 := by decide +kernel
  obtain ⟨s', e, h1, h2, h3⟩ := C90_thinned (lineMaps ℚ) (by simp) (by simp) demo_reachable
    (by decide +kernel) (by omega) (by decide +kernel) 3 1 (by omega) (by omega) (by decide +kernel)
    (by omega) [(5, .ofAdd 2), (6, .ofAdd 3), (7, .ofAdd 9)] (by rw [demo_calls]; decide)
    (by simp; norm_num) (by rw [hm.1, hm.2]; simp; norm_num)
  refine ⟨s', e, by rw [h1, hb]; rfl, by rw [h2, hq]; rfl, (h3 (7, .ofAdd 9) rfl).2⟩

/-- One measurement later the period is complete, and from then on nothing is lost. -/
example : ∃ s s', run (lineMaps ℚ) .slerp .slerp demo [.extend [5] [.ofAdd 7]] = .ok s ∧
    run (lineMaps ℚ) .slerp .slerp s (.setRatio 3 :: feedOps [(6, .ofAdd 3), (7, .ofAdd 9), (8, .ofAdd 1)]) =
      .ok s' ∧ eval (lineMaps ℚ) .slerp .slerp 7 s' = .ok (.ofAdd 9) ∧
    eval (lineMaps ℚ) .slerp .slerp 5 s' = .ok (.ofAdd 7) := by
  have h : (run (lineMaps ℚ) .slerp .slerp demo [.extend [5] [.ofAdd 7]] >>= fun s =>
      .ok ([s.w.calls, s.base.mgr.size, s.corr.mgr.size], s.corr.pol.since,
        [s.base.mgr.getMaxTime, s.base.mgr.getMinTime, s.corr.mgr.getMinTime],
        eval (lineMaps ℚ) .slerp .slerp 5 s)) =
      .ok ([112, 5, 4], 0, [5, 1, 0], .ok (.ofAdd 7)) := by
    decide +kernel
  obtain ⟨s, e, h⟩ := Outcome.bind_eq_ok.1 h
  simp only [Outcome.ok.injEq, Prod.mk.injEq, List.cons.injEq, and_true] at h
  obtain ⟨⟨hw, hb, hq⟩, hs, ⟨hmax, hmin, hmin'⟩, hev⟩ := h
  have hr : Reachable (lineMaps ℚ) .slerp .slerp s :=
    ⟨⟨100, 200⟩, demoOps ++ [.extend [5] [.ofAdd 7]], by rw [run_append, demo_run]; exact e⟩
  obtain ⟨s', e', h1, h2, h3⟩ := C90_measurements_partial (lineMaps ℚ) (by simp) (by simp) hr
    (fun h => by simp [Mgr.knots] at h; simp [Mgr.size, h] at hb)
    (fun h => by simp [Mgr.knots] at h; simp [Mgr.size, h] at hq) (by rw [hmin, hmin']; norm_num) 3 (by omega) (by omega)
    (by omega) (by omega) (.inl hs) [(6, .ofAdd 3), (7, .ofAdd 9), (8, .ofAdd 1)] (by rw [hw]; decide)
    (by simp; norm_num) (by rw [hmax]; simp; norm_num)
  exact ⟨s, s', e, e', h2 (7, .ofAdd 9) (by simp), h3 _ _ hev⟩

/-- A new curve with ratio 3: seven measurements, all read back, four knots in the correction. -/
example : (run (lineMaps ℚ) .slerp .slerp (Comp.fresh ⟨100, 200⟩) (.setRatio (3 : ℕ) :: feedOps
      [(1, .ofAdd 5), (2, .ofAdd 6), (3, .ofAdd 4), (4, .ofAdd 0), (5, .ofAdd 1), (6, .ofAdd 3), (7, .ofAdd 2)])
      >>= fun s => .ok (s.corr.mgr.getTimes [], eval (lineMaps ℚ) .slerp .slerp 3 s)) =
    .ok ([0, 1, 4, 7], .ok (.ofAdd 4)) := by decide +kernel

/-- The measurement of `demo` at 4 is lost when the next one comes in at 6. -/
example : eval (lineMaps ℚ) .slerp .slerp 4 demo = .ok (.ofAdd 8) ∧
    (extend (lineMaps ℚ) .slerp [6] [.ofAdd 3] demo >>= fun r =>
      eval (lineMaps ℚ) .slerp .slerp 4 r.1) = .ok (.ofAdd (16 / 3)) := by decide +kernel

end Verif.Composition

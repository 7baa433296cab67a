import Verif.Discrete.Props

/-!
# Properties C69 and C56 (partial): what `extend` of the discrete, semi-discrete and slerp curves does

`n.time` of the last node is the curve's last knot time. The hypotheses on `calls` say that the
process-wide key counter does not wrap around.
-/

set_option linter.unusedSectionVars false
set_option linter.dupNamespace false

namespace Verif.Discrete

open Verif.Manager Verif.Policy

variable {K G V : Type} [Field K] [LinearOrder K] [IsStrictOrderedRing K] [Group G]
  [AddCommGroup V] [Module K V]

/-- Specification: the keys `ks` answer the measurements `ts`, `vs`: there is one for each, and it names
the knot at the measurement's time, whose value is the measurement's unless a later measurement has the
same time. -/
def Answers (ts : List K) (vs : List G) (ks : List ℕ) (c : Curve K G) : Prop :=
  ks.length = ts.length ∧ ∀ (i : ℕ) (h : i < ts.length) (h' : i < vs.length) (hk : i < ks.length),
    ∃ v, (ts[i], ks[i], v) ∈ c.mgr.contents ∧
      ((∀ (j : ℕ) (hj : j < ts.length), i < j → ts[j] ≠ ts[i]) → v = vs[i])

theorem small_iff (m : Mgr K G) : (m.isEmpty = true ∨ m.size = 1) ↔ m.size ≤ 1 := by
  cases e : m.nodes with
  | nil => simp [Mgr.isEmpty, Mgr.size, e]
  | cons a l => simp [Mgr.isEmpty, Mgr.size, e]

theorem plain_extend {s : St K G} (hwf : WF s.w s.c.mgr) (ts : List K) (vs : List G)
    (hl : ts.length = vs.length) (hc : s.w.calls + ts.length + 1 < 2 ^ 64)
    (hp : ts.length ≠ 1 ∨ s.c.mgr.size ≤ 1) :
    ∃ w' m' ks, s.c.extend s.w ts vs = .ok (w', ⟨m', s.c.pol⟩, ks) ∧
      s.c.mgr.insertLoop s.w (ts.zip vs) = .ok (w', m', ks) ∧ w'.calls + 1 < 2 ^ 64 := by
  have hz : (ts.zip vs).length = ts.length := by simp [hl]
  obtain ⟨w', m', ks, e, hc'⟩ := insertLoop_ok hwf (ts.zip vs) (by omega)
  have hi : s.c.mgr.insertCoefficients s.w ts vs = .ok (w', m', ks) := by
    rw [Mgr.insertCoefficients, if_pos hl, e]
  refine ⟨w', m', ks, ?_, e, by omega⟩
  rw [Curve.extend.eq_def, if_neg (by simpa using hl)]
  split
  · rw [if_pos ((small_iff _).mpr (by simpa using hp)), hi]; rfl
  · rw [hi]; rfl

/-- **C69 (partial).** `extend` refuses lists of different lengths. A list of other than one measurement,
or any measurement while the curve has at most one knot, is inserted: one key per measurement is
reported, naming its knot, the other knots are unchanged, and the state of the sampling policy does not
change. A single measurement at a time when the policy takes a new knot (ratio 1, or the counter at 0)
is refused unless it is later than the last knot, and otherwise appended, and its key reported.
Missing: measurements inside a sampling period, see `C69_moved`. -/
theorem C69_extend_partial (L : ExpLog K G V) {kind : Kind} {s : St K G} (hr : Reachable L kind s)
    (ts : List K) (vs : List G) (hc : s.w.calls + ts.length + 1 < 2 ^ 64) :
    (ts.length ≠ vs.length → s.c.extend s.w ts vs = .abort) ∧
    (ts.length = vs.length → ts.length ≠ 1 ∨ s.c.mgr.size ≤ 1 →
      ∃ w' c' ks, s.c.extend s.w ts vs = .ok (w', c', ks) ∧ c'.pol = s.c.pol ∧ Answers ts vs ks c' ∧
        ∀ t k v, t ∉ ts → ((t, k, v) ∈ c'.mgr.contents ↔ (t, k, v) ∈ s.c.mgr.contents)) ∧
    (∀ t v, ts = [t] → vs = [v] → 2 ≤ s.c.mgr.size → s.c.pol.minMeas = 1 ∨ s.c.pol.since = 0 →
      ((∃ x ∈ s.c.mgr.contents, t ≤ x.1) → s.c.extend s.w ts vs = .abort) ∧
      ((∀ x ∈ s.c.mgr.contents, x.1 < t) → ∃ w' c' k, s.c.extend s.w ts vs = .ok (w', c', [k]) ∧
        Answers ts vs [k] c' ∧ c'.mgr.contents = s.c.mgr.contents ++ [(t, k, v)])) := by
  have hwf : WF s.w s.c.mgr := hr.manager.WF (show s.w.calls + 1 < 2 ^ 64 by omega)
  refine ⟨fun h => ?_, fun hl hp => ?_, ?_⟩
  · rw [Curve.extend.eq_def, if_pos h]
  · obtain ⟨w', m', ks, e, e', hc'⟩ := plain_extend hwf ts vs hl hc hp
    obtain ⟨-, h1, -, -, h2, h3⟩ := insertLoop_WF hwf e' hc'
    have hz : (ts.zip vs).length = ts.length := by simp [hl]
    refine ⟨w', _, ks, e, rfl, ⟨h1.trans hz, fun i hi hi' hk => ?_⟩, fun t k v ht => ?_⟩
    · obtain ⟨v, hv, hv'⟩ := h3 i (by omega) hk
      rw [List.getElem_zip] at hv hv'
      refine ⟨v, hv, fun hlast => hv' (fun j hj hij => ?_)⟩
      rw [List.getElem_zip]
      exact hlast j (by omega) hij
    · refine h2 t k v (fun hm => ht ?_)
      rw [List.map_fst_zip (by omega)] at hm
      exact hm
  · rintro t v rfl rfl h2 hpol
    have hsm : ¬(s.c.mgr.isEmpty = true ∨ s.c.mgr.size = 1) := by rw [small_iff]; omega
    have hne : s.c.mgr.nodes ≠ [] := by intro e; simp [Mgr.size, e] at h2
    have hnc : s.c.mgr.contents ≠ [] := by simpa [Mgr.contents] using hne
    simp only [List.length_singleton] at hc
    have key : ∀ r : Outcome (World × Mgr K G × ℕ), s.c.mgr.addCoefficientAtEnd s.w t v = r →
        ∃ f : Mgr K G → Curve K G, (∀ m, (f m).mgr = m) ∧
          s.c.extend s.w [t] [v] = (r >>= fun x => .ok (x.1, f x.2.1, [x.2.2])) := by
      intro r hr
      by_cases hm : s.c.pol.minMeas = 1
      · refine ⟨fun m => { s.c with mgr := m }, fun _ => rfl, ?_⟩
        rw [Curve.extend.eq_def, if_neg (by simp)]
        simp only
        rw [if_neg hsm, if_pos hm, hr]
        cases r <;> rfl
      · have h0 : s.c.pol.since = 0 := by tauto
        refine ⟨fun m => ⟨m, { s.c.pol with
          since := if s.c.pol.since + 1 = s.c.pol.minMeas then 0 else s.c.pol.since + 1 }⟩,
          fun _ => rfl, ?_⟩
        rw [Curve.extend.eq_def, if_neg (by simp)]
        simp only
        rw [if_neg hsm, if_neg hm, if_neg (by omega), addOrMove, if_pos (by omega), hr]
        cases r <;> rfl
    refine ⟨fun ⟨x, hx, hle⟩ => ?_, fun hlt => ?_⟩
    · rcases addEnd_spec hwf (by omega) hne t v with ⟨-, e⟩ | ⟨_, _, hlt, -⟩
      · obtain ⟨f, -, hf⟩ := key _ e
        rw [hf]; rfl
      · exfalso
        obtain ⟨n, hn, hnx, -, -⟩ := mem_contents.mp hx
        rw [← hnx] at hle
        obtain ⟨l, hl⟩ : ∃ l, s.c.mgr.nodes.getLast? = some l :=
          ⟨_, List.getLast?_eq_some_getLast hne⟩
        have := (getLast?_max hwf.sorted hl).2 n hn
        simp only [Mgr.getMaxTime, hl] at hlt
        exact absurd (lt_of_lt_of_le hlt (hle.trans this)) (lt_irrefl _)
    · obtain ⟨w', m', k, e, -, -, hcont⟩ := addEnd_append hwf (by omega) hnc v hlt
      obtain ⟨f, hf, he⟩ := key _ e
      refine ⟨w', f m', k, he, ⟨rfl, fun i h _ _ => ?_⟩, by rw [hf]; exact hcont⟩
      simp only [List.length_singleton] at h
      obtain rfl : i = 0 := by omega
      exact ⟨v, by rw [hf, hcont]; simp, fun _ => rfl⟩

/-- **C69 is false of the code** for measurements inside a sampling period: on every thinning curve whose
counter is not at 0, extending at a new time reports no key at all, and the key reported earlier for the
last measurement from now on names the new one. -/
theorem C69_moved (L : ExpLog K G V) {kind : Kind} {s : St K G} (hr : Reachable L kind s)
    (hc : s.w.calls + 1 < 2 ^ 64) {n : Node K G} (hn : s.c.mgr.nodes.getLast? = some n)
    (h2 : 2 ≤ s.c.mgr.size) (hm : s.c.pol.minMeas ≠ 1) (hs0 : s.c.pol.since ≠ 0)
    (hs31 : s.c.pol.since ≠ 2 ^ 31 - 1) (t : K) (ht : ∀ x ∈ s.c.mgr.contents, x.1 ≠ t) (v : G) :
    ∃ w' c', s.c.extend s.w [t] [v] = .ok (w', c', []) ∧
      ∀ t' k' v', (t', k', v') ∈ c'.mgr.contents ↔
        (t' = t ∧ k' = n.key ∧ v' = v) ∨ (t' ≠ n.time ∧ (t', k', v') ∈ s.c.mgr.contents) := by
  have hwf : WF s.w s.c.mgr := hr.manager.WF hc
  have hsm : ¬(s.c.mgr.isEmpty = true ∨ s.c.mgr.size = 1) := by rw [small_iff]; omega
  obtain ⟨w', m', e, -, -, -, hcont⟩ := move_spec hwf (List.mem_of_getLast? hn) t v
    (fun x hx => ht _ (mem_contents.mpr ⟨x, hx, rfl, rfl, rfl⟩))
  refine ⟨w', ⟨m', { s.c.pol with
    since := if s.c.pol.since + 1 = s.c.pol.minMeas then 0 else s.c.pol.since + 1 }⟩, ?_, hcont⟩
  rw [Curve.extend.eq_def, if_neg (by simp)]
  simp only
  rw [if_neg hsm, if_neg hm, if_neg hs31, addOrMove, if_neg (by omega), hn]
  simp only [e, Outcome.ok_bind]

/-- **C56 (partial).** When `extend` accepts a single measurement, the curve has a knot with that time and
value afterwards, and every key that was valid still is. Missing: a measurement at the time of an
existing knot inside a sampling period, see `C56_refuted`. -/
theorem C56_extend_partial (L : ExpLog K G V) {kind : Kind} {s : St K G} (hr : Reachable L kind s)
    (hc : s.w.calls + 2 < 2 ^ 64) (t : K) (v : G) {w' : World} {c' : Curve K G} {ks : List ℕ}
    (e : s.c.extend s.w [t] [v] = .ok (w', c', ks))
    (hg : s.c.mgr.size ≤ 1 ∨ s.c.pol.minMeas = 1 ∨ s.c.pol.since = 0 ∨
      ∀ x ∈ s.c.mgr.contents, x.1 ≠ t) :
    (t, v) ∈ c'.knots ∧
      ∀ t0 k v0, (t0, k, v0) ∈ s.c.mgr.contents → ∃ t1 v1, (t1, k, v1) ∈ c'.mgr.contents := by
  have h := C69_extend_partial L hr [t] [v] (by simpa using hc)
  by_cases hsz : s.c.mgr.size ≤ 1
  · have hwf : WF s.w s.c.mgr := hr.manager.WF (show s.w.calls + 1 < 2 ^ 64 by omega)
    obtain ⟨w1, m1, ks1, e1, e2, hc1⟩ := plain_extend hwf [t] [v] rfl (by simpa using hc) (Or.inr hsz)
    rw [e1] at e
    cases e
    obtain ⟨-, h1, h2, -, -, h3⟩ := insertLoop_WF hwf e2 hc1
    obtain ⟨x, hx, hx'⟩ := h3 0 (by simp) (by rw [h1]; simp)
    refine ⟨?_, fun t0 k v0 hm => ⟨_, _, h2 t0 k v0 hm⟩⟩
    have : x = v := hx' (fun j hj hij => by simp at hj; omega)
    subst this
    exact List.mem_map.mpr ⟨_, hx, rfl⟩
  · have h2 : 2 ≤ s.c.mgr.size := by omega
    by_cases hp : s.c.pol.minMeas = 1 ∨ s.c.pol.since = 0
    · obtain ⟨ha, hb⟩ := h.2.2 t v rfl rfl h2 hp
      by_cases hlt : ∀ x ∈ s.c.mgr.contents, x.1 < t
      · obtain ⟨w1, c1, k, e1, -, hcont⟩ := hb hlt
        rw [e1] at e
        cases e
        refine ⟨List.mem_map.mpr ⟨(t, k, v), by rw [hcont]; simp, rfl⟩, fun t0 k0 v0 hm =>
          ⟨t0, v0, by rw [hcont]; exact List.mem_append_left _ hm⟩⟩
      · push Not at hlt
        rw [ha hlt] at e; cases e
    · push Not at hp
      have hnew : ∀ x ∈ s.c.mgr.contents, x.1 ≠ t := by
        rcases hg with h | h | h | h
        · omega
        · exact absurd h hp.1
        · exact absurd h hp.2
        · exact h
      have hne : s.c.mgr.nodes ≠ [] := by intro e; simp [Mgr.size, e] at h2
      have hn := List.getLast?_eq_some_getLast hne
      by_cases hs31 : s.c.pol.since = 2 ^ 31 - 1
      · rw [Curve.extend.eq_def, if_neg (by simp)] at e
        simp only at e
        rw [if_neg (by rw [small_iff]; omega), if_neg hp.1, if_pos hs31] at e
        cases e
      · obtain ⟨w1, c1, e1, hcont⟩ := C69_moved L hr (by omega) hn h2 hp.1 hp.2 hs31 t hnew v
        rw [e1] at e
        cases e
        refine ⟨List.mem_map.mpr ⟨(t, _, v), (hcont _ _ _).mpr (Or.inl ⟨rfl, rfl, rfl⟩), rfl⟩, ?_⟩
        intro t0 k v0 hm
        by_cases ht0 : t0 = (s.c.mgr.nodes.getLast hne).time
        · have hwf : WF s.w s.c.mgr := hr.manager.WF (show s.w.calls + 1 < 2 ^ 64 by omega)
          have hl : ((s.c.mgr.nodes.getLast hne).time, (s.c.mgr.nodes.getLast hne).key,
              (s.c.mgr.nodes.getLast hne).coef) ∈ s.c.mgr.contents :=
            mem_contents.mpr ⟨_, List.getLast_mem hne, rfl, rfl, rfl⟩
          subst ht0
          have := hwf.cont_time_inj hm hl
          exact ⟨t, v, (hcont _ _ _).mpr (Or.inl ⟨rfl, this.1, rfl⟩)⟩
        · exact ⟨t0, v0, (hcont _ _ _).mpr (Or.inr ⟨ht0, hm⟩)⟩

/-- The reachable curve of `demo` meets the hypotheses: a batch of two, one of them at a knot. -/
example : ∃ w' c' ks, demo.c.extend demo.w [1, 9] [.ofAdd 8, .ofAdd 9] = .ok (w', c', ks) ∧
    Answers [1, 9] [.ofAdd 8, .ofAdd 9] ks c' := by
  obtain ⟨w', c', ks, e, -, h, -⟩ := (C69_extend_partial (lineMaps ℚ) (demo_reachable .discrete)
    [1, 9] [.ofAdd 8, .ofAdd 9] (by decide)).2.1 rfl (Or.inl (by decide))
  exact ⟨w', c', ks, e, h⟩
/-- Ratio 3: the third measurement's key is reported, the fourth's is not. -/
example : ((Curve.fresh 3 : Curve ℚ (Multiplicative ℚ)).feed ⟨0, 0⟩
      [(0, .ofAdd 1), (1, .ofAdd 2)] >>= fun r => r.2.extend r.1 [2] [.ofAdd 3] >>= fun r' =>
        r'.2.1.extend r'.1 [3] [.ofAdd 4] >>= fun r'' => .ok (r'.2.2, r''.2.2)) = .ok ([3], []) := by
  decide +kernel

end Verif.Discrete

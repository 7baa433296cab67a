import Verif.Manager.HistoryLemmas
import Mathlib.Data.Nat.Basic

/-!
# Properties of the knot container (C01-C06, C08-C13)

Every statement ranges over all states reachable by any history of operations (`Reachable`).  The
side condition `s.w.calls + 1 < 2 ^ 64` says that fewer than `2^64 - 1` keys have been drawn in the
process so far (see C07 for what happens afterwards).
-/

set_option linter.unusedSectionVars false

namespace Verif.Manager

variable {T C : Type} [LinearOrder T] [Zero T]

/-! ## A concrete reachable state used in the examples -/

/-- Insert at 5, 1, 3, overwrite 1, let somebody else draw two keys, append 9, remove 5. -/
def demoOps : List (Op Nat Nat) :=
  [.insert 5 50, .insertMany [1, 3, 1] [10, 30, 11], .others 2 7, .addEnd 9 90, .removeAt 5]

/-- The state after `demoOps`, started in a process that has already drawn 100 keys. -/
def demo : St Nat Nat :=
  ⟨⟨106, 211⟩, ⟨[⟨201, 1, 102, 11⟩, ⟨202, 3, 103, 30⟩, ⟨210, 9, 106, 90⟩],
    [(106, 210), (102, 201), (103, 202)]⟩⟩

theorem demo_reachable : Reachable demo :=
  ⟨⟨100, 200⟩, demoOps, by simp [demoOps, SafeRun, SafeOp], rfl⟩

/-! ## C01 -/

/-- C01. After any history: the listed times are strictly increasing; there are as many keys as
times and no key occurs twice; the `i`-th key resolves to the `i`-th time and to the value of that
knot; no other key resolves. -/
theorem C01_times_sorted_keys_bijective {s : St T C} (hr : Reachable s)
    (hc : s.w.calls + 1 < 2 ^ 64) (o : List T) (o' : List Key) :
    (s.m.getTimes o).Pairwise (· < ·) ∧
    (s.m.getKeys o').length = (s.m.getTimes o).length ∧ (s.m.getKeys o').Nodup ∧
    s.m.contents.map (·.1) = s.m.getTimes o ∧ s.m.contents.map (·.2.1) = s.m.getKeys o' ∧
    (∀ t k c, (t, k, c) ∈ s.m.contents →
      s.m.getCoefficientTimeByKey k = .ok t ∧ s.m.getCoefficientByKey k = .ok c) ∧
    (∀ k, k ∉ s.m.getKeys o' →
      s.m.getCoefficientTimeByKey k = .abort ∧ s.m.getCoefficientByKey k = .abort) := by
  have h := hr.WF hc
  refine ⟨sorted_iff_times.1 h.sorted, by simp [Mgr.getKeys, Mgr.appendKeys, Mgr.getTimes],
    by simpa [Mgr.getKeys, Mgr.appendKeys] using h.keysNodup, by simp [Mgr.contents, Mgr.getTimes],
    by simp [Mgr.contents, Mgr.getKeys, Mgr.appendKeys],
    fun t k c hm => (getByKey_spec h hm).symm, fun k hk => (getByKey_abort h ?_).symm⟩
  intro t c hm
  obtain ⟨n, hn, _, rfl, _⟩ := mem_contents.1 hm
  exact hk (by simp only [Mgr.getKeys, Mgr.appendKeys, List.nil_append]; exact List.mem_map_of_mem hn)

example : Reachable demo ∧ demo.w.calls + 1 < 2 ^ 64 ∧ demo.m.getTimes [77] = [1, 3, 9] ∧
    demo.m.getKeys [] = [102, 103, 106] := ⟨demo_reachable, by decide, by decide, by decide⟩

/-! ## C02 -/

/-- C02. `insertCoefficient(t, v)` returns normally; afterwards the knot at `t` carries `v` under the
returned key and every other knot is exactly what it was.  If there was a knot at `t` the returned
key is its key and the number of knots is the same; otherwise there is one more knot and no earlier
call of the key generator in this process returned that key. -/
theorem C02_insert_point_update {s : St T C} (hr : Reachable s) (hc : s.w.calls + 1 < 2 ^ 64)
    (t : T) (v : C) :
    ∃ w' m' k, s.m.insertCoefficient s.w t v = .ok (w', m', k) ∧
      (∀ t' k' v', (t', k', v') ∈ m'.contents ↔
        (t' = t ∧ k' = k ∧ v' = v) ∨ (t' ≠ t ∧ (t', k', v') ∈ s.m.contents)) ∧
      ((∃ v0, (t, k, v0) ∈ s.m.contents) → m'.size = s.m.size ∧ w'.calls = s.w.calls) ∧
      ((∀ k0 v0, (t, k0, v0) ∉ s.m.contents) → m'.size = s.m.size + 1 ∧
        ∀ w0 : World, w0.calls < s.w.calls → (getNextKey w0).1 ≠ k) ∧
      ((∃ k0 v0, (t, k0, v0) ∈ s.m.contents) → ∃ v0, (t, k, v0) ∈ s.m.contents) := by
  have h := hr.WF hc
  obtain ⟨w', m', k, e, hwf, hcont, hcase⟩ := insert_spec h hc t v
  refine ⟨w', m', k, e, hcont, ?_, ?_, ?_⟩
  · rintro ⟨v0, hv0⟩
    rcases hcase with ⟨rfl, _, ht, _⟩ | ⟨_, _, _, hno, _⟩
    · exact ⟨by simpa [Mgr.size] using congrArg List.length ht, rfl⟩
    · exact absurd hv0 (hno k v0)
  · intro hno
    rcases hcase with ⟨_, ⟨v0, hv0⟩, _⟩ | ⟨_, _, hk, _, hs⟩
    · exact absurd hv0 (hno k v0)
    · refine ⟨hs, fun w0 h0 => ?_⟩
      simp only [getNextKey]
      rw [Nat.mod_eq_of_lt (by omega)]
      omega
  · rintro ⟨k0, v0, hk0⟩
    rcases hcase with ⟨_, hx, _⟩ | ⟨_, _, _, hno, _⟩
    · exact hx
    · exact absurd hk0 (hno k0 v0)

example : (3, 103, 30) ∈ demo.m.contents ∧ (∀ k0 v0, (4, k0, v0) ∉ demo.m.contents) := by
  simp [demo, Mgr.contents]

/-! ## C03 -/

/-- C03. `insertCoefficients(times, values, &keys)` aborts when the lengths differ; otherwise it
returns, one key per entry is output; the `i`-th key is the key of the knot at `times[i]`; the knot
at `times[i]` carries `values[i]` if `i` is the last occurrence of that time; knots at times not in
the list are untouched and no others appear; a knot that existed keeps its key. -/
theorem C03_batch_insert {s : St T C} (hr : Reachable s) (ts : List T) (vs : List C)
    (hc : s.w.calls + ts.length + 1 < 2 ^ 64) :
    (ts.length ≠ vs.length → s.m.insertCoefficients s.w ts vs = .abort) ∧
    (∀ hl : ts.length = vs.length, ∃ w' m' ks,
      s.m.insertCoefficients s.w ts vs = .ok (w', m', ks) ∧
      ∃ hk : ks.length = ts.length,
      (∀ i (hi : i < ts.length), ∃ v, (ts[i], ks[i], v) ∈ m'.contents ∧
        ((∀ j (hj : j < ts.length), i < j → ts[j] ≠ ts[i]) → v = vs[i])) ∧
      (∀ t k v, t ∉ ts → ((t, k, v) ∈ m'.contents ↔ (t, k, v) ∈ s.m.contents)) ∧
      (∀ t k v, (t, k, v) ∈ s.m.contents → ∃ v', (t, k, v') ∈ m'.contents)) := by
  have h := hr.WF (by omega)
  constructor
  · intro hne
    simp [Mgr.insertCoefficients, hne]
  · intro hl
    have hz : (ts.zip vs).length = ts.length := by simp [hl]
    obtain ⟨w', m', ks, e, hle⟩ := insertLoop_ok h (ts.zip vs) (by omega)
    obtain ⟨hwf, hlen, hsurv, _, hframe, hidx⟩ := insertLoop_WF h e (by omega)
    have hk : ks.length = ts.length := by omega
    refine ⟨w', m', ks, by simp [Mgr.insertCoefficients, hl, e], hk, ?_, ?_, ?_⟩
    · intro i hi
      obtain ⟨v, h1, h2⟩ := hidx i (by omega) (by omega)
      simp only [List.getElem_zip] at h1 h2
      exact ⟨v, h1, fun hno => h2 fun j hj hij => hno j (by omega) hij⟩
    · intro t k v ht
      apply hframe
      rw [List.map_fst_zip (by omega)]
      exact ht
    · intro t k v hm
      exact ⟨_, hsurv t k v hm⟩

example : ∃ r, demo.m.insertCoefficients demo.w [4, 3, 4, 0] [1, 2, 3, 4] = .ok r ∧
    r.2.2 = [107, 103, 107, 108] ∧
    r.2.1.contents = [(0, 108, 4), (1, 102, 11), (3, 103, 2), (4, 107, 3), (9, 106, 90)] :=
  ⟨_, rfl, by decide, by decide⟩

/-! ## C04 -/

/-- C04. `getCoefficientsAt(t)` succeeds exactly when there are at least two knots and
`minTime <= t <= maxTime`; on success it yields two neighbouring knots with `t0 <= t <= t1`, and
`t < t1` unless `t1` is the last knot. (The state is an argument only: it cannot change.) -/
theorem C04_bracketing {s : St T C} (hr : Reachable s) (hc : s.w.calls + 1 < 2 ^ 64) (t : T) :
    ((s.m.getCoefficientsAt t).isSome ↔
      2 ≤ s.m.size ∧ s.m.getMinTime ≤ t ∧ t ≤ s.m.getMaxTime) ∧
    (∀ a b, s.m.getCoefficientsAt t = some (a, b) →
      ∃ pre post, s.m.contents =
          pre ++ (a.time, a.key, a.coef) :: (b.time, b.key, b.coef) :: post ∧
        a.time ≤ t ∧ t ≤ b.time ∧ a.time < b.time ∧ (t = b.time → post = [] ∧ t = s.m.getMaxTime)) := by
  have h := hr.WF hc
  refine ⟨getAt_isSome_iff h.sorted t, fun a b hab => ?_⟩
  obtain ⟨pre, post, hm, hcase⟩ := getAt_some hab
  have hs := h.sorted
  have hlt : a.time < b.time := by
    rw [hm] at hs
    simp only [Sorted, List.pairwise_append, List.pairwise_cons] at hs
    exact hs.2.1.1 b (by simp)
  refine ⟨pre.map fun n => (n.time, n.key, n.coef), post.map fun n => (n.time, n.key, n.coef),
    by simp [Mgr.contents, hm], ?_, ?_, hlt, ?_⟩
  · rcases hcase with ⟨rfl, _⟩ | ⟨h1, _⟩
    · exact hlt.le
    · exact h1
  · rcases hcase with ⟨rfl, _⟩ | ⟨_, h1⟩
    · exact le_rfl
    · exact h1.le
  · intro e
    rcases hcase with ⟨_, hp⟩ | ⟨_, h1⟩
    · subst hp
      exact ⟨rfl, by simp [Mgr.getMaxTime, hm, e]⟩
    · exact absurd e h1.ne

example : demo.m.getCoefficientsAt 3 = some (⟨202, 3, 103, 30⟩, ⟨210, 9, 106, 90⟩) ∧
    demo.m.getCoefficientsAt 9 = some (⟨202, 3, 103, 30⟩, ⟨210, 9, 106, 90⟩) ∧
    demo.m.getCoefficientsAt 10 = none := by decide

/-! ## C05 -/

/-- C05. `removeCoefficientAtTime(t)` aborts when there is no knot at `t`; otherwise exactly that
knot disappears, its key no longer resolves, and the number of knots drops by one. -/
theorem C05_remove_exact {s : St T C} (hr : Reachable s) (hc : s.w.calls + 1 < 2 ^ 64) (t : T) :
    ((∀ k v, (t, k, v) ∉ s.m.contents) → s.m.removeCoefficientAtTime t = .abort) ∧
    (∀ k v, (t, k, v) ∈ s.m.contents → ∃ m', s.m.removeCoefficientAtTime t = .ok m' ∧
      m'.size + 1 = s.m.size ∧
      (∀ t' k' v', (t', k', v') ∈ m'.contents ↔ t' ≠ t ∧ (t', k', v') ∈ s.m.contents) ∧
      m'.getCoefficientByKey k = .abort ∧ m'.getCoefficientTimeByKey k = .abort ∧
      (∀ t' k' v', t' ≠ t → (t', k', v') ∈ s.m.contents → m'.getCoefficientByKey k' = .ok v' ∧
        m'.getCoefficientTimeByKey k' = .ok t')) := by
  have h := hr.WF hc
  rcases remove_spec h t with ⟨hno, ha⟩ | ⟨k, v, m', hm, e, hwf, hsz, hcont⟩
  · exact ⟨fun _ => ha, fun k v hm => absurd hm (hno k v)⟩
  · refine ⟨fun hno => absurd hm (hno k v), fun k0 v0 hm0 => ⟨m', e, hsz, hcont, ?_⟩⟩
    have hgone : ∀ t' v', (t', k0, v') ∉ m'.contents := by
      intro t' v' hx
      rw [hcont] at hx
      exact hx.1 (h.cont_key_inj hx.2 hm0).1
    have := getByKey_abort hwf hgone
    refine ⟨this.1, this.2, fun t' k' v' hne hx => ?_⟩
    exact getByKey_spec hwf ((hcont _ _ _).2 ⟨hne, hx⟩)

example : (∃ m', demo.m.removeCoefficientAtTime 3 = .ok m' ∧
      m'.contents = [(1, 102, 11), (9, 106, 90)]) ∧
    demo.m.removeCoefficientAtTime 4 = .abort := ⟨⟨_, rfl, by decide⟩, by decide⟩

/-! ## C06 -/

/-- C06, part 1. A knot's key keeps resolving to the knot's time, and to the value last written to
that time or key, after every history that does not remove or move that knot. -/
theorem C06_key_stable {s s' : St T C} {ops : List (Op T C)} (hr : Reachable s)
    (hs : SafeRun s ops) (e : run s ops = .ok s') (hc : s'.w.calls + 1 < 2 ^ 64)
    {t : T} {k : Key} {v : C} (hm : (t, k, v) ∈ s.m.contents) (hk : KeepsRun t k s ops) :
    s'.m.getCoefficientTimeByKey k = .ok t ∧
      s'.m.getCoefficientByKey k = .ok (lastWritten t k v ops) := by
  have hmono := run_calls_mono e
  have h := hr.WF (by omega)
  exact (getByKey_spec (run_WF h hs e hc).1 (run_keeps h hs e hc hm hk)).symm

/-- C06, part 2. Once the knot has been removed or the manager cleared, its key never resolves again,
whatever is done afterwards. -/
theorem C06_key_dead {s s' : St T C} {ops : List (Op T C)} {op : Op T C} (hr : Reachable s)
    {t : T} {k : Key} {v : C} (hm : (t, k, v) ∈ s.m.contents) (hop : op = .removeAt t ∨ op = .clear)
    (hs : SafeRun s (op :: ops)) (e : run s (op :: ops) = .ok s') (hc : s'.w.calls + 1 < 2 ^ 64) :
    s'.m.getCoefficientTimeByKey k = .abort ∧ s'.m.getCoefficientByKey k = .abort := by
  have hmono := run_calls_mono e
  have h := hr.WF (by omega)
  simp only [run] at e
  obtain ⟨s1, h1, h2⟩ := Outcome.bind_eq_ok.1 e
  have hmono2 := run_calls_mono h2
  have hmono1 := step_calls_mono h1
  have hwf1 := (step_WF h hs.1 h1 (by omega)).1
  have hkle : k ≤ s.w.calls := by
    obtain ⟨n, hn, _, rfl, _⟩ := mem_contents.1 hm
    exact h.keyLe n hn
  have hgone : ∀ t' v', (t', k, v') ∉ s1.m.contents := by
    rcases hop with rfl | rfl
    · obtain ⟨m', h3, h4⟩ := Outcome.bind_eq_ok.1 h1
      cases h4
      rcases remove_spec h t with ⟨hno, ha⟩ | ⟨_, _, m1, _, e1, _, _, hcont⟩
      · rw [ha] at h3; cases h3
      · rw [e1] at h3; cases h3
        intro t' v' hx
        rw [hcont] at hx
        exact hx.1 (h.cont_key_inj hx.2 hm).1
    · simp only [step] at h1
      cases h1
      simp [Mgr.clear, Mgr.contents]
  obtain ⟨hwf2, hold⟩ := run_WF hwf1 (hs.2 _ h1) h2 hc
  refine (getByKey_abort hwf2 fun t' v' hx => ?_).symm
  rcases hold _ _ _ hx with ⟨t0, v0, h0⟩ | hlt
  · exact hgone t0 v0 h0
  · omega

example : ∃ s', run demo [.insertMany [3, 0, 3] [5, 6, 7], .updKey 103 8, .insert 3 9, .clear,
      .insert 3 10] = .ok s' ∧ (3, 103, 30) ∈ demo.m.contents ∧
    s'.m.getCoefficientByKey 103 = .abort :=
  ⟨_, rfl, by decide, by decide⟩

example : ∃ s', run demo [.insertMany [3, 0, 3] [5, 6, 7], .removeAt 9, .modBatch [1, 3] [4, 8]] =
      .ok s' ∧ s'.m.getCoefficientByKey 103 = .ok 8 ∧
    lastWritten 3 103 30
      [.insertMany [3, 0, 3] [5, 6, 7], .removeAt 9, .modBatch [1, 3] [4, 8]] = 8 :=
  ⟨_, rfl, by decide, by decide⟩

/-! ## C08 -/

/-- C08. `getTimes` replaces the caller's vector by the knot times in increasing order; `getKeys`
replaces it by the keys in the same order, `appendKeys` appends them; `size` is their number;
`getMinTime`/`getMaxTime` are the least/greatest knot time, and `0` when there is none;
`hasCoefficientAtTime` answers whether a time is listed. -/
theorem C08_extent_and_listing {s : St T C} (hr : Reachable s) (hc : s.w.calls + 1 < 2 ^ 64)
    (o : List T) (o' : List Key) :
    (s.m.getTimes o).Pairwise (· < ·) ∧
    (∀ t, t ∈ s.m.getTimes o ↔ ∃ k v, (t, k, v) ∈ s.m.contents) ∧
    s.m.getKeys o' = s.m.contents.map (·.2.1) ∧
    s.m.appendKeys o' = o' ++ s.m.contents.map (·.2.1) ∧
    s.m.size = (s.m.getTimes o).length ∧ (s.m.isEmpty = true ↔ s.m.getTimes o = []) ∧
    (s.m.getTimes o = [] → s.m.getMinTime = 0 ∧ s.m.getMaxTime = 0) ∧
    (s.m.getTimes o ≠ [] →
      (s.m.getMinTime ∈ s.m.getTimes o ∧ ∀ t ∈ s.m.getTimes o, s.m.getMinTime ≤ t) ∧
      (s.m.getMaxTime ∈ s.m.getTimes o ∧ ∀ t ∈ s.m.getTimes o, t ≤ s.m.getMaxTime)) ∧
    (∀ t, s.m.hasCoefficientAtTime t = true ↔ t ∈ s.m.getTimes o) := by
  have h := hr.WF hc
  have hsort := sorted_iff_times.1 h.sorted
  refine ⟨hsort, ?_, by simp [Mgr.getKeys, Mgr.appendKeys, Mgr.contents],
    by simp [Mgr.appendKeys, Mgr.contents], by simp [Mgr.size, Mgr.getTimes],
    by simp [Mgr.isEmpty, Mgr.getTimes], ?_, ?_,
    by simp [Mgr.hasCoefficientAtTime, mapFind, Mgr.getTimes]⟩
  · intro t
    simp only [mem_contents, Mgr.getTimes, List.mem_map]
    constructor
    · rintro ⟨n, hn, rfl⟩; exact ⟨n.key, n.coef, n, hn, rfl, rfl, rfl⟩
    · rintro ⟨_, _, n, hn, rfl, _, _⟩; exact ⟨n, hn, rfl⟩
  · intro he
    simp only [Mgr.getTimes, List.map_eq_nil_iff] at he
    simp [Mgr.getMinTime, Mgr.getMaxTime, he]
  · intro hne
    constructor
    · cases hn : s.m.nodes with
      | nil => simp [Mgr.getTimes, hn] at hne
      | cons n rest =>
        simp only [hn, List.map_cons, List.pairwise_cons] at hsort
        refine ⟨by simp [Mgr.getMinTime, Mgr.getTimes, hn], fun t ht => ?_⟩
        simp only [Mgr.getTimes, hn, List.map_cons, List.mem_cons] at ht
        simp only [Mgr.getMinTime, hn]
        rcases ht with rfl | ht
        · exact le_rfl
        · exact (hsort.1 t ht).le
    · cases hl : s.m.nodes.getLast? with
      | none =>
        simp only [List.getLast?_eq_none_iff] at hl
        simp [Mgr.getTimes, hl] at hne
      | some l =>
        obtain ⟨hmem, hmax⟩ := getLast?_max h.sorted hl
        have : s.m.getMaxTime = l.time := by simp [Mgr.getMaxTime, hl]
        rw [this]
        refine ⟨List.mem_map_of_mem hmem, fun t ht => ?_⟩
        obtain ⟨n, hn, rfl⟩ := List.mem_map.1 ht
        exact hmax n hn

example : demo.m.getTimes [4, 4] = [1, 3, 9] ∧ demo.m.appendKeys [7] = [7, 102, 103, 106] ∧
    demo.m.getMinTime = 1 ∧ demo.m.getMaxTime = 9 ∧ demo.m.size = 3 ∧
    demo.m.hasCoefficientAtTime 3 = true ∧ demo.m.hasCoefficientAtTime 5 = false := by decide

/-! ## C09: false of the code -/

/-- What `getTimesInWindow` does on an admissible window of a manager with at least two knots: it
lists the knots in the window *except the first knot of the curve*. -/
theorem C09_window_exact {s : St T C} (hr : Reachable s) (hc : s.w.calls + 1 < 2 ^ 64)
    (hsz : 2 ≤ s.m.size) (beg : T) (hb : s.m.getMinTime ≤ beg) (o : List T) :
    s.m.getTimesInWindow beg s.m.getMaxTime =
      .ok ((s.m.getTimes o).tail.filter (fun t => decide (beg ≤ t))) := by
  have h := hr.WF hc
  have hsort := sorted_iff_times.1 h.sorted
  have hrev : (s.m.nodes.map (·.time)).reverse.Pairwise (· > ·) := by
    rw [List.pairwise_reverse]; exact hsort
  have hlen : 2 ≤ (s.m.nodes.map (·.time)).reverse.length := by simpa [Mgr.size] using hsz
  simp only [Mgr.getTimesInWindow, if_true, if_pos hb, windowLoop_ok beg _ hlen hrev,
    Outcome.ok_bind, Outcome.pure_eq, Mgr.getTimes]
  congr 1
  rw [← List.filter_reverse, ← List.tail_reverse, List.reverse_reverse]

/-- C09 is false: for *every* reachable manager with at least two knots the full window
`[minTime, maxTime]` is admissible and the answer omits the knot at `minTime`. -/
theorem C09_refuted {s : St T C} (hr : Reachable s) (hc : s.w.calls + 1 < 2 ^ 64)
    (hsz : 2 ≤ s.m.size) (o : List T) :
    ∃ r, s.m.getTimesInWindow s.m.getMinTime s.m.getMaxTime = .ok r ∧
      s.m.getMinTime ∈ s.m.getTimes o ∧ s.m.getMinTime ∉ r := by
  refine ⟨_, C09_window_exact hr hc hsz _ le_rfl o, ?_, ?_⟩
  · cases hn : s.m.nodes with
    | nil => simp [Mgr.size, hn] at hsz
    | cons n rest => simp [Mgr.getMinTime, Mgr.getTimes, hn]
  · have hsort := sorted_iff_times.1 (hr.WF hc).sorted
    cases hn : s.m.nodes with
    | nil => simp [Mgr.size, hn] at hsz
    | cons n rest =>
      simp only [hn, List.map_cons, List.pairwise_cons] at hsort
      simp only [Mgr.getMinTime, Mgr.getTimes, hn, List.map_cons, List.tail_cons]
      intro hx
      exact absurd (hsort.1 _ (List.mem_of_mem_filter hx)) (lt_irrefl _)

/-- C09 holds when the window starts strictly after the first knot. Missing: windows with
`begTime = minTime` (where it is false, `C09_refuted`) and managers with one knot (where the call is
undefined behaviour, `C09_single_ub`). -/
theorem C09_window_partial {s : St T C} (hr : Reachable s) (hc : s.w.calls + 1 < 2 ^ 64)
    (hsz : 2 ≤ s.m.size) (beg : T) (hb : s.m.getMinTime < beg) (o : List T) :
    ∃ r, s.m.getTimesInWindow beg s.m.getMaxTime = .ok r ∧ r.Pairwise (· < ·) ∧
      ∀ t, t ∈ r ↔ t ∈ s.m.getTimes o ∧ beg ≤ t ∧ t ≤ s.m.getMaxTime := by
  have h := hr.WF hc
  have hsort := sorted_iff_times.1 h.sorted
  refine ⟨_, C09_window_exact hr hc hsz beg hb.le o, ?_, ?_⟩
  · exact (hsort.sublist (List.tail_sublist _)).filter _
  · intro t
    have hC8 := (C08_extent_and_listing hr hc o []).2.2.2.2.2.2.2.1
    simp only [List.mem_filter, decide_eq_true_eq]
    cases hn : s.m.nodes with
    | nil => simp [Mgr.size, hn] at hsz
    | cons n rest =>
      have hne : s.m.getTimes o ≠ [] := by simp [Mgr.getTimes, hn]
      have hmax := (hC8 hne).2.2 t
      simp only [Mgr.getMinTime, hn] at hb
      simp only [Mgr.getTimes, hn, List.map_cons, List.tail_cons, List.mem_cons] at hmax ⊢
      constructor
      · rintro ⟨h1, h2⟩; exact ⟨.inr h1, h2, hmax (.inr h1)⟩
      · rintro ⟨rfl | h1, h2, _⟩
        · exact absurd hb (not_lt.2 h2)
        · exact ⟨h1, h2⟩

/-- With exactly one knot every admissible call is undefined behaviour (the loop decrements
`begin()`); so it is on an empty manager. -/
theorem C09_single_ub (m : Mgr T C) (hsz : m.size ≤ 1) (beg : T) (hb : m.getMinTime ≤ beg) :
    m.getTimesInWindow beg m.getMaxTime = .ub := by
  obtain ⟨ns, km⟩ := m
  match ns, hsz with
  | [], _ => simp [Mgr.getTimesInWindow, hb, windowLoop]
  | [n], _ => simp [Mgr.getTimesInWindow, hb, windowLoop]

example : demo.m.getTimesInWindow 1 9 = .ok [3, 9] ∧ demo.m.getTimesInWindow 2 9 = .ok [3, 9] ∧
    demo.m.getTimesInWindow 4 9 = .ok [9] := by decide

/-! ## C10 -/

/-- C10, success. `modifyCoefficientsValuesInBatch` called with the times of a contiguous run of
knots replaces exactly their values: in the listing of knots the run `mid` is replaced by the same
times and keys with the new values, everything before and after it is unchanged. -/
theorem C10_batch_modify {s : St T C} (hr : Reachable s) (hc : s.w.calls + 1 < 2 ^ 64)
    {pre mid post : List (T × Key × C)} (hcont : s.m.contents = pre ++ mid ++ post)
    (hmid : mid ≠ []) {vs : List C} (hl : vs.length = mid.length) :
    ∃ m', s.m.modifyCoefficientsValuesInBatch (mid.map (·.1)) vs = .ok m' ∧
      m'.contents = pre ++ List.zipWith (fun x v => (x.1, x.2.1, v)) mid vs ++ post ∧
      (∀ t k v, (t, k, v) ∈ m'.contents → m'.getCoefficientByKey k = .ok v ∧
        m'.getCoefficientTimeByKey k = .ok t) := by
  have h := hr.WF hc
  simp only [Mgr.contents] at hcont
  obtain ⟨x, npost, hx, hx1, hx2⟩ := List.map_eq_append_iff.1 hcont
  obtain ⟨npre, nmid, rfl, hp, hm⟩ := List.map_eq_append_iff.1 hx1
  subst hm hp hx2
  cases nmid with
  | nil => simp at hmid
  | cons n rest =>
    have hns : s.m.nodes = npre ++ n :: (rest ++ npost) := by simp [hx]
    have e := modBatch_eval h.sorted hns
      (ts := ((n :: rest).map fun n => (n.time, n.key, n.coef)).map (·.1)) (cs := vs)
      (by simp [hl]) (ts' := rest.map (·.time)) (by simp)
    have hmm : ((n :: rest).map fun n => (n.time, n.key, n.coef)).map (·.1) =
        (n :: rest).map (·.time) := by simp
    have ha := assignRun_ok (run := n :: rest) (post := npost) (cs := vs) (by simpa using hl)
    rw [hmm] at e ⊢
    rw [← List.cons_append, ha] at e
    refine ⟨_, e, ?_, ?_⟩
    · simp only [Mgr.contents, List.map_append, List.map_zipWith, List.zipWith_map_left,
        List.append_assoc]
    · intro t k v hmem
      obtain ⟨hf, hkm⟩ := modBatch_frame e
      have hwf := h.of_frame hf
      exact getByKey_spec hwf hmem

/-- C10, failure. If the given times start with a (possibly empty) tail of a matching run and then
name a time that is not the one of the next knot, the call aborts; if the knots run out instead, the
call is undefined behaviour. -/
theorem C10_batch_modify_mismatch {s : St T C} (hr : Reachable s) (hc : s.w.calls + 1 < 2 ^ 64)
    {pre mid post : List (T × Key × C)} {y : T × Key × C} {x : T} {more : List T} {vs : List C}
    (hmid : mid ≠ []) (hl : vs.length = mid.length + 1 + more.length) :
    (s.m.contents = pre ++ mid ++ y :: post → y.1 ≠ x →
      s.m.modifyCoefficientsValuesInBatch (mid.map (·.1) ++ x :: more) vs = .abort) ∧
    (s.m.contents = pre ++ mid →
      s.m.modifyCoefficientsValuesInBatch (mid.map (·.1) ++ x :: more) vs = .ub) := by
  have h := hr.WF hc
  constructor
  · intro hcont hne
    simp only [Mgr.contents] at hcont
    obtain ⟨z, npost, hx, hx1, hx2⟩ := List.map_eq_append_iff.1 hcont
    obtain ⟨npre, nmid, rfl, hp, hm⟩ := List.map_eq_append_iff.1 hx1
    obtain ⟨ny, npost, rfl, hy, hpost⟩ := List.map_eq_cons_iff.1 hx2
    subst hm hp hy hpost
    cases nmid with
    | nil => simp at hmid
    | cons n rest =>
      have hns : s.m.nodes = npre ++ n :: (rest ++ ny :: npost) := by simp [hx]
      rw [modBatch_eval h.sorted hns (ts' := rest.map (·.time) ++ x :: more)
        (by simp at hl ⊢; omega) (by simp)]
      have := assignRun_abort (ns := n :: rest) (post := npost) (run := (n :: rest).map (·.time))
        (cs := vs) (y := ny) (x := x) (more := more) rfl (by simpa using hl) hne
      have hmm : ((n :: rest).map fun n => (n.time, n.key, n.coef)).map (·.1) =
        (n :: rest).map (·.time) := by simp
      rw [hmm, ← List.cons_append, this]
      rfl
  · intro hcont
    simp only [Mgr.contents] at hcont
    obtain ⟨npre, nmid, hx, hp, hm⟩ := List.map_eq_append_iff.1 hcont
    subst hm hp
    cases nmid with
    | nil => simp at hmid
    | cons n rest =>
      rw [modBatch_eval h.sorted hx (ts' := rest.map (·.time) ++ x :: more)
        (by simp at hl ⊢; omega) (by simp)]
      have := assignRun_ub (ns := n :: rest) (run := (n :: rest).map (·.time))
        (cs := vs) (x := x) (more := more) rfl (by simpa using hl)
      have hmm : ((n :: rest).map fun n => (n.time, n.key, n.coef)).map (·.1) =
        (n :: rest).map (·.time) := by simp
      rw [hmm, this]
      rfl

/-- C10, the remaining cases: different lengths abort; an empty list of times, or a first time that
is no knot, is undefined behaviour. -/
theorem C10_batch_modify_bad_start {s : St T C} (ts : List T) (vs : List C) :
    (ts.length ≠ vs.length → s.m.modifyCoefficientsValuesInBatch ts vs = .abort) ∧
    (ts.length = vs.length → (∀ t0 ∈ ts.head?, ∀ k v, (t0, k, v) ∉ s.m.contents) →
      s.m.modifyCoefficientsValuesInBatch ts vs = .ub) := by
  constructor
  · intro hne; simp [Mgr.modifyCoefficientsValuesInBatch, hne]
  · intro hl hno
    cases ts with
    | nil => simp [Mgr.modifyCoefficientsValuesInBatch, hl]
    | cons t0 rest =>
      have : searchBack t0 s.m.nodes.reverse [] = none := by
        apply searchBack_none
        intro x hx e
        exact hno t0 (by simp) x.key x.coef
          (mem_contents.2 ⟨x, List.mem_reverse.1 hx, e, rfl, rfl⟩)
      simp [Mgr.modifyCoefficientsValuesInBatch, hl, this]

example : (∃ m', demo.m.modifyCoefficientsValuesInBatch [3, 9] [7, 8] = .ok m' ∧
      m'.contents = [(1, 102, 11), (3, 103, 7), (9, 106, 8)]) ∧
    demo.m.modifyCoefficientsValuesInBatch [1, 9] [7, 8] = .abort ∧
    demo.m.modifyCoefficientsValuesInBatch [9, 10] [7, 8] = .ub ∧
    demo.m.modifyCoefficientsValuesInBatch [2] [7] = .ub :=
  ⟨⟨_, rfl, by decide⟩, by decide, by decide, by decide⟩

/-! ## C11 -/

/-- C11, free target. Moving the knot `n` to a time without a knot: the old time is gone, there is a
knot at the new time with the given value and the *same key*, which resolves to it; all others are
untouched. -/
theorem C11_move {s : St T C} (hr : Reachable s) (hc : s.w.calls + 1 < 2 ^ 64) {n : Node T C}
    (hn : n ∈ s.m.nodes) (t : T) (v : C) (hfree : ∀ k0 v0, (t, k0, v0) ∉ s.m.contents) :
    ∃ w' m', s.m.modifyCoefficient s.w n.addr t v = .ok (w', m') ∧
      (∀ t' k' v', (t', k', v') ∈ m'.contents ↔
        (t' = t ∧ k' = n.key ∧ v' = v) ∨ (t' ≠ n.time ∧ (t', k', v') ∈ s.m.contents)) ∧
      m'.getCoefficientTimeByKey n.key = .ok t ∧ m'.getCoefficientByKey n.key = .ok v ∧
      (∀ t' k' v', t' ≠ n.time → (t', k', v') ∈ s.m.contents →
        m'.getCoefficientTimeByKey k' = .ok t' ∧ m'.getCoefficientByKey k' = .ok v') := by
  have h := hr.WF hc
  obtain ⟨w', m', e, _, _, hwf, hcont⟩ := move_spec h hn t v (fun x hx ex =>
    hfree x.key x.coef (mem_contents.2 ⟨x, hx, ex, rfl, rfl⟩))
  have := getByKey_spec hwf ((hcont t n.key v).2 (.inl ⟨rfl, rfl, rfl⟩))
  refine ⟨w', m', e, hcont, this.2, this.1, fun t' k' v' hne hm => ?_⟩
  exact (getByKey_spec hwf ((hcont _ _ _).2 (.inr ⟨hne, hm⟩))).symm

/-- C11, target = the knot's own time: the new value is not stored, the knot is *lost*, and its key
now refers to freed memory (reading it is undefined behaviour). -/
theorem C11_move_onto_itself_corrupts {s : St T C} (hr : Reachable s)
    (hc : s.w.calls + 1 < 2 ^ 64) {n : Node T C} (hn : n ∈ s.m.nodes) (v : C) :
    ∃ w' m', s.m.modifyCoefficient s.w n.addr n.time v = .ok (w', m') ∧
      (∀ k' v', (n.time, k', v') ∉ m'.contents) ∧ m'.getCoefficientByKey n.key = .ub := by
  have h := hr.WF hc
  have hna := nodeAt_eq_some h.addrNodup hn
  have hins := mapInsert_present h.sorted (⟨s.w.nextAddr, n.time, n.key, v⟩ : Node T C) hn rfl
  refine ⟨_, _, by simp only [Mgr.modifyCoefficient, hna, newAddr, hins]; rfl, ?_, ?_⟩
  · intro k' v' hm
    obtain ⟨x, hx, hxt, _, _⟩ := mem_contents.1 hm
    simp only [mapErase, ne_eq, List.mem_filter] at hx
    have : x = n := h.sorted.inj hx.1 hn hxt
    subst this
    simp at hx
  · have : nodeAt (mapErase s.m.nodes n.addr) n.addr = none := by
      simp [nodeAt, mapErase]
    simp [Mgr.getCoefficientByKey, kmFind_kmSet, this]

/-- C11, target = the time of another knot `b`: the given value is dropped (knot `b` keeps its own
value), the moved knot disappears, and its key becomes a second name for knot `b`. -/
theorem C11_move_onto_other_corrupts {s : St T C} (hr : Reachable s)
    (hc : s.w.calls + 1 < 2 ^ 64) {n b : Node T C} (hn : n ∈ s.m.nodes) (hb : b ∈ s.m.nodes)
    (hne : n.time ≠ b.time) (v : C) (o : List Key) :
    ∃ w' m', s.m.modifyCoefficient s.w n.addr b.time v = .ok (w', m') ∧
      (∀ t' k' v', (t', k', v') ∈ m'.contents ↔ t' ≠ n.time ∧ (t', k', v') ∈ s.m.contents) ∧
      n.key ∉ m'.getKeys o ∧
      m'.getCoefficientByKey n.key = .ok b.coef ∧ m'.getCoefficientTimeByKey n.key = .ok b.time := by
  have h := hr.WF hc
  have hna := nodeAt_eq_some h.addrNodup hn
  have hins := mapInsert_present h.sorted (⟨s.w.nextAddr, b.time, n.key, v⟩ : Node T C) hb rfl
  have haddr : ∀ x ∈ s.m.nodes, x.addr = n.addr ↔ x = n := by
    intro x hx
    constructor
    · intro e
      have h1 := nodeAt_eq_some h.addrNodup hx
      rw [e, hna] at h1
      exact (Option.some.inj h1).symm
    · rintro rfl; rfl
  refine ⟨_, _, by simp only [Mgr.modifyCoefficient, hna, newAddr, hins]; rfl, ?_, ?_, ?_⟩
  · intro t' k' v'
    simp only [mem_contents, mapErase, ne_eq, List.mem_filter, decide_not, Bool.not_eq_true',
      decide_eq_false_iff_not]
    constructor
    · rintro ⟨x, ⟨hx, hxa⟩, rfl, rfl, rfl⟩
      refine ⟨fun et => hxa ?_, x, hx, rfl, rfl, rfl⟩
      rw [h.sorted.inj hx hn et]
    · rintro ⟨ht, x, hx, rfl, rfl, rfl⟩
      refine ⟨x, ⟨hx, fun e => ht ?_⟩, rfl, rfl, rfl⟩
      rw [(haddr x hx).1 e]
  · simp only [Mgr.getKeys, Mgr.appendKeys, List.nil_append, List.mem_map, mapErase, ne_eq,
      List.mem_filter, decide_not, Bool.not_eq_true', decide_eq_false_iff_not, not_exists, not_and]
    rintro x ⟨hx, hxa⟩ ek
    exact hxa (by rw [h.keyInj hx hn ek])
  · have hbm : b ∈ mapErase s.m.nodes n.addr := by
      simp only [mapErase, ne_eq, List.mem_filter, decide_not, Bool.not_eq_true',
        decide_eq_false_iff_not]
      refine ⟨hb, fun e => hne ?_⟩
      rw [(haddr b hb).1 e]
    have hnd : ((mapErase s.m.nodes n.addr).map (·.addr)).Nodup :=
      h.addrNodup.sublist (List.filter_sublist.map _)
    have hbn := nodeAt_eq_some hnd hbm
    simp [Mgr.getCoefficientByKey, Mgr.getCoefficientTimeByKey, kmFind_kmSet, hbn]

example : (∃ r, demo.m.modifyCoefficient demo.w 202 5 77 = .ok r ∧
      r.2.contents = [(1, 102, 11), (5, 103, 77), (9, 106, 90)]) ∧
    (∃ r, demo.m.modifyCoefficient demo.w 202 9 77 = .ok r ∧
      r.2.contents = [(1, 102, 11), (9, 106, 90)] ∧ r.2.getCoefficientByKey 103 = .ok 90) ∧
    (∃ r, demo.m.modifyCoefficient demo.w 202 3 77 = .ok r ∧
      r.2.contents = [(1, 102, 11), (9, 106, 90)] ∧ r.2.getCoefficientByKey 103 = .ub) :=
  ⟨⟨_, rfl, by decide⟩, ⟨_, rfl, by decide, by decide⟩, ⟨_, rfl, by decide, by decide⟩⟩

/-! ## C12 -/

/-- C12. On a non-empty manager `addCoefficientAtEnd(t, v)` aborts when `t <= maxTime`; otherwise the
listing of knots gets `(t, key, v)` appended, with a key no earlier generator call returned, `t`
becomes `maxTime`, and the new key resolves. -/
theorem C12_add_at_end {s : St T C} (hr : Reachable s) (hc : s.w.calls + 1 < 2 ^ 64)
    (hne : s.m.size ≠ 0) (t : T) (v : C) :
    (t ≤ s.m.getMaxTime → s.m.addCoefficientAtEnd s.w t v = .abort) ∧
    (s.m.getMaxTime < t → ∃ w' m' k, s.m.addCoefficientAtEnd s.w t v = .ok (w', m', k) ∧
      m'.contents = s.m.contents ++ [(t, k, v)] ∧ m'.getMaxTime = t ∧
      (∀ w0 : World, w0.calls < s.w.calls → (getNextKey w0).1 ≠ k) ∧
      m'.getCoefficientByKey k = .ok v ∧ m'.getCoefficientTimeByKey k = .ok t) := by
  have h := hr.WF hc
  have hne' : s.m.nodes ≠ [] := by
    intro e; simp [Mgr.size, e] at hne
  rcases addEnd_spec h hc hne' t v with ⟨hle, ha⟩ | ⟨w', m', hlt, e, _, _, hwf, hn, _⟩
  · exact ⟨fun _ => ha, fun hlt => absurd hlt (not_lt.2 hle)⟩
  · refine ⟨fun hle => absurd hlt (not_lt.2 hle), fun _ => ⟨w', m', _, e, ?_, ?_, ?_, ?_⟩⟩
    · simp [Mgr.contents, hn]
    · simp [Mgr.getMaxTime, hn]
    · intro w0 h0
      simp only [getNextKey]
      rw [Nat.mod_eq_of_lt (by omega)]
      omega
    · exact getByKey_spec hwf (mem_contents.2
        ⟨⟨s.w.nextAddr, t, s.w.calls + 1, v⟩, by rw [hn]; simp, rfl, rfl, rfl⟩)

/-- On an empty manager `addCoefficientAtEnd` never succeeds: it aborts for `t <= 0` and is undefined
behaviour for `t > 0`. -/
theorem C12_add_at_end_empty (w : World) (t : T) (v : C) :
    (t ≤ 0 → (Mgr.empty : Mgr T C).addCoefficientAtEnd w t v = .abort) ∧
    (0 < t → (Mgr.empty : Mgr T C).addCoefficientAtEnd w t v = .ub) := by
  constructor
  · intro h; simp [Mgr.addCoefficientAtEnd, Mgr.empty, Mgr.getMaxTime, not_lt.2 h]
  · intro h; simp [Mgr.addCoefficientAtEnd, Mgr.empty, Mgr.getMaxTime, h]

example : demo.m.size ≠ 0 ∧ demo.m.addCoefficientAtEnd demo.w 9 1 = .abort ∧
    (∃ r, demo.m.addCoefficientAtEnd demo.w 10 1 = .ok r ∧
      r.2.1.contents = [(1, 102, 11), (3, 103, 30), (9, 106, 90), (10, 107, 1)]) :=
  ⟨by decide, by decide, ⟨_, rfl, by decide⟩⟩

/-! ## C13: false of the code -/

theorem copyNodes_contents (a : Nat) (ns : List (Node T C)) :
    (Mgr.copyNodes a ns).map (fun n => (n.time, n.key, n.coef)) =
      ns.map (fun n => (n.time, n.key, n.coef)) := by
  induction ns generalizing a with
  | nil => rfl
  | cons n rest ih => simp [Mgr.copyNodes, ih]

theorem copyNodes_addr (a : Nat) (ns : List (Node T C)) :
    ∀ n ∈ Mgr.copyNodes a ns, a ≤ n.addr := by
  induction ns generalizing a with
  | nil => simp [Mgr.copyNodes]
  | cons n rest ih =>
    simp only [Mgr.copyNodes, List.mem_cons]
    rintro x (rfl | hx)
    · exact le_rfl
    · exact (Nat.le_succ a).trans (ih (a + 1) x hx)

theorem copy_nodeAt_none {w : World} {m : Mgr T C} (h : WF w m) {n : Node T C} (hn : n ∈ m.nodes) :
    nodeAt (m.copy w).2.nodes n.addr = none := by
  simp only [nodeAt, Mgr.copy, List.find?_eq_none, beq_iff_eq]
  intro x hx e
  have := copyNodes_addr w.nextAddr m.nodes x hx
  have := h.addrLt n hn
  omega

theorem setCoefAt_not_mem {ns : List (Node T C)} {a : Nat} (h : nodeAt ns a = none) (c : C) :
    setCoefAt ns a c = ns := by
  simp only [nodeAt, List.find?_eq_none, beq_iff_eq] at h
  simp only [setCoefAt]
  conv_rhs => rw [← List.map_id ns]
  apply List.map_congr_left
  intro x hx
  simp [h x hx]

/-- C13 is false, for *every* reachable manager and every knot: after copying, writing through a key
of the copy leaves the copy unchanged and changes the original; reading through the key of the copy
reads the original; and once the original is destroyed, both are undefined behaviour. -/
theorem C13_refuted {s : St T C} (hr : Reachable s) (hc : s.w.calls + 1 < 2 ^ 64)
    {t : T} {k : Key} {v : C} (hm : (t, k, v) ∈ s.m.contents) (v' : C) :
    ∃ orig', updateByKeyIn (s.m.copy s.w).2 s.m k v' = .ok ((s.m.copy s.w).2, orig') ∧
      (t, k, v') ∈ orig'.contents ∧
      (t, k, v) ∈ (s.m.copy s.w).2.contents ∧
      getByKeyIn (s.m.copy s.w).2 orig' k = .ok v' ∧
      updateByKeyIn (s.m.copy s.w).2 Mgr.empty k v' = .ub ∧
      getByKeyIn (s.m.copy s.w).2 (Mgr.empty : Mgr T C) k = .ub := by
  have h := hr.WF hc
  obtain ⟨n, hn, rfl, rfl, rfl⟩ := mem_contents.1 hm
  have hkm : kmFind (s.m.copy s.w).2.keyMap n.key = some n.addr := h.keyOf n hn
  have hnone := copy_nodeAt_none h hn
  have hself := nodeAt_eq_some h.addrNodup hn
  have hmem : ({ n with coef := v' } : Node T C) ∈ setCoefAt s.m.nodes n.addr v' :=
    (mem_setCoefAt h.addrNodup hn v' _).2 (.inl rfl)
  have hnd : ((setCoefAt s.m.nodes n.addr v').map (·.addr)).Nodup := by
    have : (setCoefAt s.m.nodes n.addr v').map (·.addr) = s.m.nodes.map (·.addr) := by
      simp only [setCoefAt, List.map_map]
      apply List.map_congr_left
      intro x _
      simp only [Function.comp]
      split <;> rfl
    rw [this]; exact h.addrNodup
  refine ⟨{ s.m with nodes := setCoefAt s.m.nodes n.addr v' }, ?_, ?_, ?_, ?_, ?_, ?_⟩
  · simp [updateByKeyIn, hkm, hnone, hself, setCoefAt_not_mem hnone]
  · exact mem_contents.2 ⟨_, hmem, rfl, rfl, rfl⟩
  · have : (s.m.copy s.w).2.contents = s.m.contents := copyNodes_contents _ _
    rw [this]; exact hm
  · have h2 := nodeAt_eq_some hnd hmem
    simp only at h2
    simp [getByKeyIn, hkm, hnone, h2]
  · have h0 : nodeAt (Mgr.empty : Mgr T C).nodes n.addr = none := rfl
    simp [updateByKeyIn, hkm, hnone, h0]
  · have h0 : nodeAt (Mgr.empty : Mgr T C).nodes n.addr = none := rfl
    simp [getByKeyIn, hkm, hnone, h0]

/-- Time, key and value of a node. -/
def Node.obs (n : Node T C) : T × Key × C := (n.time, n.key, n.coef)

theorem upperSplit_obs (t : T) {a b : List (Node T C)} (h : a.map Node.obs = b.map Node.obs) :
    (upperSplit t a).1.map Node.obs = (upperSplit t b).1.map Node.obs ∧
    (upperSplit t a).2.map Node.obs = (upperSplit t b).2.map Node.obs := by
  induction a generalizing b with
  | nil =>
    cases b with
    | nil => simp
    | cons y b => simp at h
  | cons x a ih =>
    cases b with
    | nil => simp at h
    | cons y b =>
      simp only [List.map_cons, List.cons.injEq] at h
      have ht : x.time = y.time := congrArg Prod.fst h.1
      simp only [upperSplit, ht]
      split
      · simp [h.1, h.2]
      · have := ih h.2
        simp [h.1, this.1, this.2]

theorem getAt_obs (t : T) {a b : Mgr T C} (h : a.nodes.map Node.obs = b.nodes.map Node.obs) :
    (a.getCoefficientsAt t).map (fun p => (p.1.obs, p.2.obs)) =
      (b.getCoefficientsAt t).map (fun p => (p.1.obs, p.2.obs)) := by
  obtain ⟨na, ka⟩ := a
  obtain ⟨nb, kb⟩ := b
  simp only at h
  have hlast : na.getLast?.map Node.obs = nb.getLast?.map Node.obs := by
    rw [← List.getLast?_map, ← List.getLast?_map, h]
  have hmax : (⟨na, ka⟩ : Mgr T C).getMaxTime = (⟨nb, kb⟩ : Mgr T C).getMaxTime := by
    simp only [Mgr.getMaxTime]
    cases ea : na.getLast? <;> cases eb : nb.getLast? <;> simp [ea, eb] at hlast ⊢
    exact congrArg Prod.fst hlast
  have key : ∀ (p q p' q' : List (Node T C)), p.map Node.obs = p'.map Node.obs →
      q.map Node.obs = q'.map Node.obs →
      (match p.getLast?, q with
        | some a, b :: _ => some (a, b)
        | _, _ => none).map (fun p : Node T C × Node T C => (p.1.obs, p.2.obs)) =
      (match p'.getLast?, q' with
        | some a, b :: _ => some (a, b)
        | _, _ => none).map (fun p : Node T C × Node T C => (p.1.obs, p.2.obs)) := by
    intro p q p' q' hp hq
    have hl : p.getLast?.map Node.obs = p'.getLast?.map Node.obs := by
      rw [← List.getLast?_map, ← List.getLast?_map, hp]
    cases ep : p.getLast? <;> cases ep' : p'.getLast? <;> simp [ep, ep'] at hl ⊢
    cases q <;> cases q' <;> simp at hq ⊢
    exact ⟨hl, hq.1⟩
  cases na with
  | nil =>
    cases nb with
    | nil => rfl
    | cons y b => simp at h
  | cons x a =>
    cases nb with
    | nil => simp at h
    | cons y b =>
      simp only [Mgr.getCoefficientsAt, hmax]
      by_cases ht : t = (⟨y :: b, kb⟩ : Mgr T C).getMaxTime
      · simp only [if_pos ht]
        apply key
        · rw [List.map_dropLast, List.map_dropLast, h]
        · simp only [← Option.toList_map, hlast]
      · simp only [if_neg ht]
        exact key _ _ _ _ (upperSplit_obs t h).1 (upperSplit_obs t h).2

/-- What is left of C13: right after copying, everything that goes by *time* instead of by key agrees
with the original: the listing of knots, extent, and the bracketing knots of every time. Missing:
access by key, where the property is false (`C13_refuted`). -/
theorem C13_copy_by_time_partial (s : St T C) (t : T) (o : List T) :
    (s.m.copy s.w).2.contents = s.m.contents ∧
    (s.m.copy s.w).2.getTimes o = s.m.getTimes o ∧
    ((s.m.copy s.w).2.getCoefficientsAt t).map
        (fun p => ((p.1.time, p.1.key, p.1.coef), (p.2.time, p.2.key, p.2.coef))) =
      (s.m.getCoefficientsAt t).map
        (fun p => ((p.1.time, p.1.key, p.1.coef), (p.2.time, p.2.key, p.2.coef))) := by
  refine ⟨copyNodes_contents _ _, ?_, getAt_obs t (copyNodes_contents _ _)⟩
  have := congrArg (List.map Prod.fst) (copyNodes_contents s.w.nextAddr s.m.nodes)
  simpa [Mgr.getTimes, Mgr.copy, Function.comp_def] using this

example : (demo.m.copy demo.w).2.contents = demo.m.contents ∧
    (∃ r, updateByKeyIn (demo.m.copy demo.w).2 demo.m 103 555 = .ok r ∧
      r.1.contents = [(1, 102, 11), (3, 103, 30), (9, 106, 90)] ∧
      r.2.contents = [(1, 102, 11), (3, 103, 555), (9, 106, 90)]) :=
  ⟨by decide, _, rfl, by decide, by decide⟩

end Verif.Manager

import Verif.Manager.Lemmas
import Mathlib.Data.List.Induction

/-!
# Effect of every manager operation on a well-formed manager

Lemmas only; the property statements are in `Verif.Manager.Props`.
-/

set_option linter.unusedSectionVars false

namespace Verif.Manager

variable {T C : Type} [LinearOrder T]

theorem mem_contents {m : Mgr T C} {t : T} {k : Key} {c : C} :
    (t, k, c) ∈ m.contents ↔ ∃ n ∈ m.nodes, n.time = t ∧ n.key = k ∧ n.coef = c := by
  simp [Mgr.contents]

/-- Any two knots with the same time are the same. -/
theorem WF.cont_time_inj {w : World} {m : Mgr T C} (h : WF w m) {t : T} {k k' : Key} {c c' : C}
    (h1 : (t, k, c) ∈ m.contents) (h2 : (t, k', c') ∈ m.contents) : k = k' ∧ c = c' := by
  obtain ⟨x, hx, ht, hk, hc⟩ := mem_contents.1 h1
  obtain ⟨y, hy, ht', hk', hc'⟩ := mem_contents.1 h2
  have := h.sorted.inj hx hy (ht.trans ht'.symm)
  subst this
  exact ⟨hk.symm.trans hk', hc.symm.trans hc'⟩

/-- Any two knots with the same key are the same. -/
theorem WF.cont_key_inj {w : World} {m : Mgr T C} (h : WF w m) {t t' : T} {k : Key} {c c' : C}
    (h1 : (t, k, c) ∈ m.contents) (h2 : (t', k, c') ∈ m.contents) : t = t' ∧ c = c' := by
  obtain ⟨x, hx, ht, hk, hc⟩ := mem_contents.1 h1
  obtain ⟨y, hy, ht', hk', hc'⟩ := mem_contents.1 h2
  have := h.keyInj hx hy (hk.trans hk'.symm)
  subst this
  exact ⟨ht.symm.trans ht', hc.symm.trans hc'⟩

theorem mem_setCoefAt_contents {w : World} {m : Mgr T C} (h : WF w m) {n : Node T C}
    (hn : n ∈ m.nodes) (c : C) (t' : T) (k' : Key) (c' : C) :
    (t', k', c') ∈ ({ m with nodes := setCoefAt m.nodes n.addr c } : Mgr T C).contents ↔
      (t' = n.time ∧ k' = n.key ∧ c' = c) ∨ (k' ≠ n.key ∧ (t', k', c') ∈ m.contents) := by
  rw [mem_contents]
  have hmem := mem_setCoefAt h.addrNodup hn c
  constructor
  · rintro ⟨x, hx, rfl, rfl, rfl⟩
    rcases (hmem x).1 hx with rfl | ⟨hx, hne⟩
    · left; simp
    · right
      refine ⟨?_, mem_contents.2 ⟨x, hx, rfl, rfl, rfl⟩⟩
      intro e
      exact hne (by rw [h.keyInj hx hn e])
  · rintro (⟨rfl, rfl, rfl⟩ | ⟨hk, hc⟩)
    · exact ⟨_, (hmem _).2 (.inl rfl), rfl, rfl, rfl⟩
    · obtain ⟨x, hx, rfl, rfl, rfl⟩ := mem_contents.1 hc
      refine ⟨x, (hmem _).2 (.inr ⟨hx, ?_⟩), rfl, rfl, rfl⟩
      intro e
      exact hk (by rw [List.inj_on_of_nodup_map h.addrNodup hx hn e])

/-- `updateCoefficientByKey`: outcome and effect. -/
theorem update_spec {w : World} {m : Mgr T C} (h : WF w m) (k : Key) (c : C) :
    ((∀ t c0, (t, k, c0) ∉ m.contents) ∧ m.updateCoefficientByKey k c = .abort) ∨
    ∃ t c0 m', (t, k, c0) ∈ m.contents ∧ m.updateCoefficientByKey k c = .ok m' ∧ WF w m' ∧
      m'.nodes.map (·.time) = m.nodes.map (·.time) ∧ m'.nodes.map (·.key) = m.nodes.map (·.key) ∧
      ∀ t' k' c', (t', k', c') ∈ m'.contents ↔
        (t' = t ∧ k' = k ∧ c' = c) ∨ (k' ≠ k ∧ (t', k', c') ∈ m.contents) := by
  by_cases hk : ∃ n ∈ m.nodes, n.key = k
  · obtain ⟨n, hn, rfl⟩ := hk
    right
    obtain ⟨h1, h2⟩ := h.updateByKey hn c
    exact ⟨n.time, n.coef, _, mem_contents.2 ⟨n, hn, rfl, rfl, rfl⟩, h1, h2, setCoefAt_times _ _ _,
      setCoefAt_keys _ _ _, mem_setCoefAt_contents h hn c⟩
  · left
    have hk' : ∀ n ∈ m.nodes, n.key ≠ k := fun n hn e => hk ⟨n, hn, e⟩
    refine ⟨fun t c0 hm => ?_, ?_⟩
    · obtain ⟨n, hn, _, e, _⟩ := mem_contents.1 hm
      exact hk' n hn e
    · simp [Mgr.updateCoefficientByKey, h.kmFind_none hk']

theorem getByKey_spec {w : World} {m : Mgr T C} (h : WF w m) {t : T} {k : Key} {c : C}
    (hc : (t, k, c) ∈ m.contents) :
    m.getCoefficientByKey k = .ok c ∧ m.getCoefficientTimeByKey k = .ok t := by
  obtain ⟨n, hn, rfl, rfl, rfl⟩ := mem_contents.1 hc
  simp [Mgr.getCoefficientByKey, Mgr.getCoefficientTimeByKey, h.keyOf n hn,
    nodeAt_eq_some h.addrNodup hn]

theorem getByKey_abort {w : World} {m : Mgr T C} (h : WF w m) {k : Key}
    (hc : ∀ t c, (t, k, c) ∉ m.contents) :
    m.getCoefficientByKey k = .abort ∧ m.getCoefficientTimeByKey k = .abort := by
  have : kmFind m.keyMap k = none := by
    apply h.kmFind_none
    rintro n hn rfl
    exact hc n.time n.coef (mem_contents.2 ⟨n, hn, rfl, rfl, rfl⟩)
  simp [Mgr.getCoefficientByKey, Mgr.getCoefficientTimeByKey, this]

/-- `insertCoefficient`: outcome and effect. -/
theorem insert_spec {w : World} {m : Mgr T C} (h : WF w m) (hw : w.calls + 1 < 2 ^ 64) (t : T)
    (c : C) :
    ∃ w' m' k, m.insertCoefficient w t c = .ok (w', m', k) ∧ WF w' m' ∧
      (∀ t' k' c', (t', k', c') ∈ m'.contents ↔
        (t' = t ∧ k' = k ∧ c' = c) ∨ (t' ≠ t ∧ (t', k', c') ∈ m.contents)) ∧
      ((w' = w ∧ (∃ c0, (t, k, c0) ∈ m.contents) ∧ m'.nodes.map (·.time) = m.nodes.map (·.time) ∧
          m'.nodes.map (·.key) = m.nodes.map (·.key)) ∨
       (w'.calls = w.calls + 1 ∧ w'.nextAddr = w.nextAddr + 1 ∧ k = w.calls + 1 ∧
          (∀ k' c0, (t, k', c0) ∉ m.contents) ∧
          m'.size = m.size + 1)) := by
  unfold Mgr.insertCoefficient
  cases hs : scanAtTime m.nodes t with
  | some n =>
    obtain ⟨hn, rfl⟩ := scanAtTime_some hs
    obtain ⟨h1, h2⟩ := h.updateByKey hn c
    refine ⟨w, _, n.key, by simp only [h1]; rfl, h2, ?_, .inl ⟨rfl, ?_, ?_, ?_⟩⟩
    · intro t' k' c'
      rw [mem_setCoefAt_contents h hn]
      constructor
      · rintro (h | ⟨hk, hc⟩)
        · exact .inl h
        · refine .inr ⟨?_, hc⟩
          rintro rfl
          exact hk (h.cont_time_inj hc (mem_contents.2 ⟨n, hn, rfl, rfl, rfl⟩)).1
      · rintro (h | ⟨ht, hc⟩)
        · exact .inl h
        · refine .inr ⟨?_, hc⟩
          rintro rfl
          exact ht (h.cont_key_inj hc (mem_contents.2 ⟨n, hn, rfl, rfl, rfl⟩)).1
    · exact ⟨n.coef, mem_contents.2 ⟨n, hn, rfl, rfl, rfl⟩⟩
    · simp
    · simp
  | none =>
    have ht := scanAtTime_none h.sorted hs
    have hkey : (w.calls + 1) % 2 ^ 64 = w.calls + 1 := Nat.mod_eq_of_lt hw
    obtain ⟨ha, hp⟩ := mapInsert_fresh (ns := m.nodes) ⟨w.nextAddr, t, w.calls + 1, c⟩ ht
    simp only at ha
    refine ⟨⟨w.calls + 1, w.nextAddr + 1⟩,
      ⟨(mapInsert m.nodes ⟨w.nextAddr, t, w.calls + 1, c⟩).1,
        kmSet m.keyMap (w.calls + 1) w.nextAddr⟩, w.calls + 1, ?_, ?_, ?_, .inr ⟨rfl, rfl, rfl, ?_, ?_⟩⟩
    · simp [getNextKey, newAddr, hkey, ha]
    · exact h.addNode t c ht _ (fun k => kmFind_kmSet _ _ _ _) (kmSet_nodup h.kmNodup _ _)
    · intro t' k' c'
      simp only [mem_contents, hp.mem_iff, List.mem_cons]
      constructor
      · rintro ⟨x, rfl | hx, rfl, rfl, rfl⟩
        · simp
        · exact .inr ⟨ht x hx, x, hx, rfl, rfl, rfl⟩
      · rintro (⟨rfl, rfl, rfl⟩ | ⟨_, x, hx, rfl, rfl, rfl⟩)
        · exact ⟨_, .inl rfl, rfl, rfl, rfl⟩
        · exact ⟨x, .inr hx, rfl, rfl, rfl⟩
    · intro k' c0 hc
      obtain ⟨n, hn, e, _, _⟩ := mem_contents.1 hc
      exact ht n hn e
    · simpa [Mgr.size] using hp.length_eq

theorem insert_calls_mono {w w' : World} {m m' : Mgr T C} {t : T} {c : C} {k : Key}
    (h : m.insertCoefficient w t c = .ok (w', m', k)) :
    w.calls ≤ w'.calls ∧ w.nextAddr ≤ w'.nextAddr := by
  unfold Mgr.insertCoefficient at h
  cases hs : scanAtTime m.nodes t with
  | some n =>
    simp only [hs] at h
    obtain ⟨m1, _, h2⟩ := Outcome.bind_eq_ok.1 h
    cases h2
    exact ⟨le_rfl, le_rfl⟩
  | none =>
    simp only [hs] at h
    cases h
    simp [getNextKey, newAddr]

theorem insertLoop_calls_mono {w w' : World} {m m' : Mgr T C} {l : List (T × C)} {ks : List Key}
    (h : m.insertLoop w l = .ok (w', m', ks)) :
    w.calls ≤ w'.calls ∧ w.nextAddr ≤ w'.nextAddr := by
  induction l generalizing w m ks with
  | nil => simp only [Mgr.insertLoop] at h; cases h; exact ⟨le_rfl, le_rfl⟩
  | cons p rest ih =>
    obtain ⟨t, c⟩ := p
    simp only [Mgr.insertLoop] at h
    obtain ⟨⟨w1, m1, k⟩, h1, h2⟩ := Outcome.bind_eq_ok.1 h
    obtain ⟨⟨w2, m2, ks2⟩, h3, h4⟩ := Outcome.bind_eq_ok.1 h2
    cases h4
    have a := insert_calls_mono h1
    have b := ih h3
    exact ⟨a.1.trans b.1, a.2.trans b.2⟩

/-- `removeCoefficientAtTime`: outcome and effect. -/
theorem remove_spec {w : World} {m : Mgr T C} (h : WF w m) (t : T) :
    ((∀ k c, (t, k, c) ∉ m.contents) ∧ m.removeCoefficientAtTime t = .abort) ∨
    ∃ k c m', (t, k, c) ∈ m.contents ∧ m.removeCoefficientAtTime t = .ok m' ∧ WF w m' ∧
      m'.size + 1 = m.size ∧
      ∀ t' k' c', (t', k', c') ∈ m'.contents ↔ (t' ≠ t ∧ (t', k', c') ∈ m.contents) := by
  unfold Mgr.removeCoefficientAtTime
  cases hf : mapFind m.nodes t with
  | none =>
    left
    refine ⟨fun k c hc => ?_, rfl⟩
    obtain ⟨n, hn, e, _, _⟩ := mem_contents.1 hc
    exact mapFind_none.1 hf n hn e
  | some n =>
    obtain ⟨hn, rfl⟩ := mapFind_some hf
    right
    have hmem : ∀ x, x ∈ mapErase m.nodes n.addr ↔ x ∈ m.nodes ∧ x.addr ≠ n.addr := by
      intro x; simp [mapErase]
    refine ⟨n.key, n.coef, _, mem_contents.2 ⟨n, hn, rfl, rfl, rfl⟩, by simp [h.keyOf n hn]; rfl,
      ?_, ?_, ?_⟩
    · constructor
      · exact h.sorted.filter _
      · exact h.addrNodup.sublist (List.filter_sublist.map _)
      · intro x hx; exact h.addrLt x ((hmem x).1 hx).1
      · intro x hx
        obtain ⟨hx, hne⟩ := (hmem x).1 hx
        simp only [kmFind_kmErase h.kmNodup]
        rw [if_neg]
        · exact h.keyOf x hx
        · intro e; exact hne (by rw [h.keyInj hx hn e])
      · intro k a hk
        simp only [kmFind_kmErase h.kmNodup] at hk
        split at hk
        · simp at hk
        · next hne =>
          obtain ⟨y, hy, rfl, rfl⟩ := h.kmSound k a hk
          refine ⟨y, (hmem y).2 ⟨hy, ?_⟩, rfl, rfl⟩
          intro e
          exact hne (by rw [List.inj_on_of_nodup_map h.addrNodup hy hn e])
      · exact kmErase_nodup h.kmNodup _
      · intro x hx; exact h.keyLe x ((hmem x).1 hx).1
      · intro x hx; exact h.keyPos x ((hmem x).1 hx).1
    · have h2 : m.nodes.Nodup := h.nodesNodup
      classical
      have h3 := List.length_erase_of_mem hn
      have h4 := h2.erase_eq_filter n
      have hpos : 0 < m.nodes.length := List.length_pos_of_mem hn
      have h5 : (mapErase m.nodes n.addr).length = m.nodes.length - 1 := by
        rw [← h3, h4]
        congr 1
        apply List.filter_congr
        intro x hx
        by_cases e : x = n
        · simp [e]
        · have : x.addr ≠ n.addr := fun e' => e (List.inj_on_of_nodup_map h.addrNodup hx hn e')
          simp [e, this]
      simp only [Mgr.size, h5]
      omega
    · intro t' k' c'
      simp only [mem_contents, hmem]
      constructor
      · rintro ⟨x, ⟨hx, hne⟩, rfl, rfl, rfl⟩
        exact ⟨fun e => hne (by rw [h.sorted.inj hx hn e]), x, hx, rfl, rfl, rfl⟩
      · rintro ⟨ht, x, hx, rfl, rfl, rfl⟩
        exact ⟨x, ⟨hx, fun e => ht (by rw [List.inj_on_of_nodup_map h.addrNodup hx hn e])⟩, rfl, rfl, rfl⟩

theorem getLast?_max {m : Mgr T C} (hs : Sorted m.nodes) {l : Node T C}
    (hl : m.nodes.getLast? = some l) : l ∈ m.nodes ∧ ∀ n ∈ m.nodes, n.time ≤ l.time := by
  obtain ⟨ys, hys⟩ := List.getLast?_eq_some_iff.1 hl
  rw [hys]
  refine ⟨by simp, fun n hn => ?_⟩
  rw [hys] at hs
  simp only [Sorted, List.pairwise_append] at hs
  simp only [List.mem_append, List.mem_singleton] at hn
  rcases hn with hn | rfl
  · exact (hs.2.2 n hn l (by simp)).le
  · exact le_rfl

/-- `addCoefficientAtEnd`: outcome and effect. -/
theorem addEnd_spec [Zero T] {w : World} {m : Mgr T C} (h : WF w m) (hw : w.calls + 1 < 2 ^ 64)
    (hne : m.nodes ≠ []) (t : T) (c : C) :
    (t ≤ m.getMaxTime ∧ m.addCoefficientAtEnd w t c = .abort) ∨
    ∃ w' m', m.getMaxTime < t ∧ m.addCoefficientAtEnd w t c = .ok (w', m', w.calls + 1) ∧
      w'.calls = w.calls + 1 ∧ w'.nextAddr = w.nextAddr + 1 ∧ WF w' m' ∧
      m'.nodes = m.nodes ++ [⟨w.nextAddr, t, w.calls + 1, c⟩] ∧
      (∀ k' c0, (t, k', c0) ∉ m.contents) := by
  by_cases ht : m.getMaxTime < t
  · right
    obtain ⟨l, hl⟩ : ∃ l, m.nodes.getLast? = some l := by
      cases e : m.nodes.getLast? with
      | none => simp at e; exact absurd e hne
      | some l => exact ⟨l, rfl⟩
    obtain ⟨hlm, hmax⟩ := getLast?_max h.sorted hl
    have hmaxt : m.getMaxTime = l.time := by simp [Mgr.getMaxTime, hl]
    have hlt : ∀ n ∈ m.nodes, n.time < t := fun n hn => (hmax n hn).trans_lt (hmaxt ▸ ht)
    have htne : ∀ n ∈ m.nodes, n.time ≠ t := fun n hn => (hlt n hn).ne
    have hkey : (w.calls + 1) % 2 ^ 64 = w.calls + 1 := Nat.mod_eq_of_lt hw
    have hins : ∀ ns : List (Node T C), (∀ n ∈ ns, n.time < t) → ∀ x : Node T C, x.time = t →
        mapInsert ns x = (ns ++ [x], x.addr) := by
      intro ns
      induction ns with
      | nil => intro _ x _; simp [mapInsert]
      | cons a rest ih =>
        intro hlt x hx
        have h1 := hlt a (by simp)
        have h2 := ih (fun n hn => hlt n (by simp [hn])) x hx
        subst hx
        simp [mapInsert, h1, h1.not_gt, h2]
    have hi := hins m.nodes hlt ⟨w.nextAddr, t, w.calls + 1, c⟩ rfl
    have hkn : kmFind m.keyMap (w.calls + 1) = none := by
      apply h.kmFind_none
      intro n hn e
      have := h.keyLe n hn
      omega
    have hwf := h.addNode t c htne ((w.calls + 1, w.nextAddr) :: m.keyMap)
      (fun k => by
        by_cases e : k = w.calls + 1
        · subst e; simp [kmFind]
        · have e' : ¬ w.calls + 1 = k := fun h => e h.symm
          simp [kmFind, e, e'])
      (by
        simp only [List.map_cons, List.nodup_cons]
        exact ⟨kmFind_none_iff.1 hkn, h.kmNodup⟩)
    rw [hi] at hwf
    refine ⟨_, _, ht, ?_, rfl, rfl, hwf, rfl, ?_⟩
    · cases hm : m.nodes with
      | nil => exact absurd hm hne
      | cons a rest =>
        simp only [Mgr.addCoefficientAtEnd, ht, if_true, hm, getNextKey, newAddr, hkey]
        rw [← hm, hi]
        simp [kmInsert_of_none hkn]
    · intro k' c0 hc
      obtain ⟨n, hn, e, _, _⟩ := mem_contents.1 hc
      exact htne n hn e
  · left
    exact ⟨not_lt.1 ht, by simp [Mgr.addCoefficientAtEnd, ht]⟩

/-- `modifyCoefficient` to a free time. -/
theorem move_spec {w : World} {m : Mgr T C} (h : WF w m) {n : Node T C} (hn : n ∈ m.nodes) (t : T)
    (c : C) (ht : ∀ x ∈ m.nodes, x.time ≠ t) :
    ∃ w' m', m.modifyCoefficient w n.addr t c = .ok (w', m') ∧ w'.calls = w.calls ∧
      w'.nextAddr = w.nextAddr + 1 ∧ WF w' m' ∧
      (∀ t' k' c', (t', k', c') ∈ m'.contents ↔
        (t' = t ∧ k' = n.key ∧ c' = c) ∨ (t' ≠ n.time ∧ (t', k', c') ∈ m.contents)) := by
  obtain ⟨ha, hp⟩ := mapInsert_fresh (ns := m.nodes) ⟨w.nextAddr, t, n.key, c⟩ ht
  simp only at ha
  have hadd : n.addr < w.nextAddr := h.addrLt n hn
  have hmem : ∀ x, x ∈ mapErase (mapInsert m.nodes ⟨w.nextAddr, t, n.key, c⟩).1 n.addr ↔
      x = ⟨w.nextAddr, t, n.key, c⟩ ∨ (x ∈ m.nodes ∧ x.addr ≠ n.addr) := by
    intro x
    simp only [mapErase, List.mem_filter, hp.mem_iff, List.mem_cons]
    constructor
    · rintro ⟨rfl | hx, h2⟩
      · simp
      · right; exact ⟨hx, by simpa using h2⟩
    · rintro (rfl | ⟨hx, h2⟩)
      · simp; omega
      · exact ⟨.inr hx, by simpa using h2⟩
  refine ⟨⟨w.calls, w.nextAddr + 1⟩, ⟨mapErase (mapInsert m.nodes ⟨w.nextAddr, t, n.key, c⟩).1 n.addr,
    kmSet m.keyMap n.key w.nextAddr⟩, ?_, rfl, rfl, ?_, ?_⟩
  · simp [Mgr.modifyCoefficient, nodeAt_eq_some h.addrNodup hn, newAddr, ha]
  · constructor
    · exact (mapInsert_sorted h.sorted _).filter _
    · refine List.Nodup.sublist (List.filter_sublist.map _) ?_
      rw [(hp.map _).nodup_iff]
      simp only [List.map_cons, List.nodup_cons]
      refine ⟨?_, h.addrNodup⟩
      intro hx
      obtain ⟨y, hy, e⟩ := List.mem_map.1 hx
      have := h.addrLt y hy
      omega
    · intro x hx
      rcases (hmem x).1 hx with rfl | ⟨hx, _⟩
      · simp
      · exact (h.addrLt x hx).trans (Nat.lt_succ_self _)
    · intro x hx
      simp only [kmFind_kmSet]
      rcases (hmem x).1 hx with rfl | ⟨hx, hne⟩
      · simp
      · rw [if_neg]
        · exact h.keyOf x hx
        · intro e; exact hne (by rw [h.keyInj hx hn e])
    · intro k a hk
      simp only [kmFind_kmSet] at hk
      split at hk
      · next e => subst e; simp at hk; subst hk; exact ⟨_, (hmem _).2 (.inl rfl), rfl, rfl⟩
      · next hne =>
        obtain ⟨y, hy, rfl, rfl⟩ := h.kmSound k a hk
        refine ⟨y, (hmem _).2 (.inr ⟨hy, ?_⟩), rfl, rfl⟩
        intro e
        exact hne (by rw [List.inj_on_of_nodup_map h.addrNodup hy hn e])
    · exact kmSet_nodup h.kmNodup _ _
    · intro x hx
      rcases (hmem x).1 hx with rfl | ⟨hx, _⟩
      · exact h.keyLe n hn
      · exact h.keyLe x hx
    · intro x hx
      rcases (hmem x).1 hx with rfl | ⟨hx, _⟩
      · exact h.keyPos n hn
      · exact h.keyPos x hx
  · intro t' k' c'
    simp only [mem_contents, hmem]
    constructor
    · rintro ⟨x, rfl | ⟨hx, hne⟩, rfl, rfl, rfl⟩
      · simp
      · exact .inr ⟨fun e => hne (by rw [h.sorted.inj hx hn e]), x, hx, rfl, rfl, rfl⟩
    · rintro (⟨rfl, rfl, rfl⟩ | ⟨hne, x, hx, rfl, rfl, rfl⟩)
      · exact ⟨_, .inl rfl, rfl, rfl, rfl⟩
      · exact ⟨x, .inr ⟨hx, fun e => hne (by rw [List.inj_on_of_nodup_map h.addrNodup hx hn e])⟩,
          rfl, rfl, rfl⟩

/-! ### Batch modification -/

theorem searchBack_some {t0 : T} {n : Node T C} {pre post : List (Node T C)}
    (acc : List (Node T C)) (hn : n.time = t0) (hpost : ∀ x ∈ post, x.time ≠ t0) :
    searchBack t0 (post.reverse ++ n :: pre.reverse) acc = some (pre, n :: (post ++ acc)) := by
  induction post using List.reverseRecOn generalizing acc with
  | nil => simp [searchBack, hn]
  | append_singleton l x ih =>
    have hx := hpost x (by simp)
    have := ih (x :: acc) (fun y hy => hpost y (by simp [hy]))
    simp only [List.reverse_append, List.reverse_singleton, List.cons_append,
      searchBack, hx, if_false]
    simpa using this

theorem searchBack_none {t0 : T} {l : List (Node T C)} (acc : List (Node T C))
    (h : ∀ x ∈ l, x.time ≠ t0) : searchBack t0 l acc = none := by
  induction l generalizing acc with
  | nil => simp [searchBack]
  | cons a rest ih =>
    simp [searchBack, h a (by simp), ih _ (fun x hx => h x (by simp [hx]))]

theorem assignRun_ok {run post : List (Node T C)} {cs : List C} (hl : cs.length = run.length) :
    assignRun (run ++ post) ((run.map (·.time)).zip cs) =
      .ok (List.zipWith (fun n c => { n with coef := c }) run cs ++ post) := by
  induction run generalizing cs with
  | nil => simp [assignRun]
  | cons n rest ih =>
    cases cs with
    | nil => simp at hl
    | cons c cs =>
      simp only [List.length_cons, Nat.add_right_cancel_iff] at hl
      simp [assignRun, ih hl]

end Verif.Manager

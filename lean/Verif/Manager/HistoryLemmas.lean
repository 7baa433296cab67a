import Verif.Manager.OpLemmas2
import Verif.Manager.Spec

/-!
# Induction over histories of manager operations

Lemmas only; the property statements are in `Verif.Manager.Props`.
-/

set_option linter.unusedSectionVars false

namespace Verif.Manager

variable {T C : Type} [LinearOrder T]

theorem insertCoefficients_ok {w : World} {m : Mgr T C} {ts : List T} {cs : List C} {r}
    (h : m.insertCoefficients w ts cs = .ok r) :
    ts.length = cs.length ∧ m.insertLoop w (ts.zip cs) = .ok r := by
  unfold Mgr.insertCoefficients at h
  split at h
  · exact ⟨by assumption, h⟩
  · cases h

theorem insertLoop_WF {w w' : World} {m m' : Mgr T C} {l : List (T × C)} {ks : List Key}
    (h : WF w m) (e : m.insertLoop w l = .ok (w', m', ks)) (hc : w'.calls + 1 < 2 ^ 64) :
    WF w' m' ∧ ks.length = l.length ∧
      (∀ t k c, (t, k, c) ∈ m.contents → (t, k, lastWrite t l c) ∈ m'.contents) ∧
      (∀ t k c, (t, k, c) ∈ m'.contents → (∃ c0, (t, k, c0) ∈ m.contents) ∨
        (w.calls < k ∧ t ∈ l.map Prod.fst)) ∧
      (∀ t k c, t ∉ l.map Prod.fst → ((t, k, c) ∈ m'.contents ↔ (t, k, c) ∈ m.contents)) ∧
      (∀ i (hi : i < l.length) (hk : i < ks.length), ∃ c, ((l[i]).1, ks[i], c) ∈ m'.contents ∧
        ((∀ j (hj : j < l.length), i < j → (l[j]).1 ≠ (l[i]).1) → c = (l[i]).2)) := by
  induction l generalizing w m ks with
  | nil =>
    simp only [Mgr.insertLoop] at e
    cases e
    exact ⟨h, rfl, fun _ _ _ h => h, fun t k c hx => .inl ⟨c, hx⟩, fun _ _ _ _ => Iff.rfl,
      fun i hi => absurd hi (by simp)⟩
  | cons p rest ih =>
    obtain ⟨t0, c0⟩ := p
    simp only [Mgr.insertLoop] at e
    obtain ⟨⟨w1, m1, k0⟩, h1, h2⟩ := Outcome.bind_eq_ok.1 e
    obtain ⟨⟨w2, m2, ks2⟩, h3, h4⟩ := Outcome.bind_eq_ok.1 h2
    cases h4
    have hmono := insertLoop_calls_mono h3
    have hmono1 := insert_calls_mono h1
    simp only at hmono hmono1 hc
    have hw : w.calls + 1 < 2 ^ 64 := by omega
    obtain ⟨w1', m1', k0', e1, hwf1, hcont, hcase⟩ := insert_spec h hw t0 c0
    rw [e1] at h1
    cases h1
    obtain ⟨hwf2, hlen, hsurv, hold, hframe, hidx⟩ := ih hwf1 h3
    refine ⟨hwf2, by simp [hlen], ?_, ?_, ?_, ?_⟩
    · intro t k c hm
      simp only [lastWrite]
      apply hsurv
      rw [hcont]
      by_cases et : t0 = t
      · subst et
        left
        rcases hcase with ⟨_, ⟨c', hc'⟩, _⟩ | ⟨_, _, _, hno, _⟩
        · simp [(h.cont_time_inj hm hc').1]
        · exact absurd hm (hno k c)
      · right
        simp [et, hm, Ne.symm et]
    · intro t k c hm
      rcases hold t k c hm with ⟨c1, hc1⟩ | ⟨hk, ht⟩
      · rcases (hcont t k c1).1 hc1 with ⟨rfl, rfl, rfl⟩ | ⟨_, hx⟩
        · rcases hcase with ⟨_, ⟨c', hc'⟩, _⟩ | ⟨_, _, hk, _, _⟩
          · exact .inl ⟨c', hc'⟩
          · right; exact ⟨by omega, by simp⟩
        · exact .inl ⟨c1, hx⟩
      · right; exact ⟨by omega, by simp [ht]⟩
    · intro t k c ht
      simp only [List.map_cons, List.mem_cons, not_or] at ht
      rw [hframe t k c ht.2, hcont]
      simp [ht.1]
    · intro i hi hk
      cases i with
      | zero =>
        simp only [List.getElem_cons_zero]
        have hm1 : (t0, k0, c0) ∈ m1.contents := (hcont _ _ _).2 (.inl ⟨rfl, rfl, rfl⟩)
        refine ⟨lastWrite t0 rest c0, hsurv _ _ _ hm1, ?_⟩
        intro hno
        have hno' : ∀ p ∈ rest, p.1 ≠ t0 := by
          intro p hp
          obtain ⟨j, hj, rfl⟩ := List.mem_iff_getElem.1 hp
          exact hno (j + 1) (by simp; omega) (by omega)
        clear hno hk hidx hframe hold hsurv hlen h3 ih h2 e
        induction rest generalizing c0 with
        | nil => rfl
        | cons q rest ihr =>
          obtain ⟨t1, c1⟩ := q
          have := hno' (t1, c1) (by simp)
          simp only [lastWrite]
          rw [if_neg this]
          simp only at this
          have hp : ∀ p ∈ rest, p.1 ≠ t0 := fun p hp => hno' p (by simp [hp])
          clear hno'
          have key : ∀ (l : List (T × C)) (cur : C), (∀ p ∈ l, p.1 ≠ t0) →
              lastWrite t0 l cur = cur := by
            intro l
            induction l with
            | nil => intros; rfl
            | cons q l ihl =>
              obtain ⟨t2, c2⟩ := q
              intro cur hq
              simp only [lastWrite]
              rw [if_neg (hq (t2, c2) (by simp))]
              exact ihl cur (fun p hp => hq p (by simp [hp]))
          exact key rest c0 hp
      | succ i =>
        simp only [List.getElem_cons_succ]
        simp only [List.length_cons] at hi hk
        obtain ⟨c, hc1, hc2⟩ := hidx i (by omega) (by omega)
        refine ⟨c, hc1, fun hno => hc2 fun j hj hij => ?_⟩
        have := hno (j + 1) (by simp; omega) (by omega)
        simpa using this

/-- The insertion loop never fails on a well-formed manager. -/
theorem insertLoop_ok {w : World} {m : Mgr T C} (h : WF w m) (l : List (T × C))
    (hc : w.calls + l.length < 2 ^ 64) :
    ∃ w' m' ks, m.insertLoop w l = .ok (w', m', ks) ∧ w'.calls ≤ w.calls + l.length := by
  induction l generalizing w m with
  | nil => exact ⟨w, m, [], rfl, by simp⟩
  | cons p rest ih =>
    obtain ⟨t, c⟩ := p
    simp only [List.length_cons] at hc
    obtain ⟨w1, m1, k, e, hwf, _, hcase⟩ := insert_spec h (by omega) t c
    have hle : w1.calls ≤ w.calls + 1 := by
      rcases hcase with ⟨rfl, _⟩ | ⟨h1, _⟩ <;> omega
    obtain ⟨w2, m2, ks, e2, h2⟩ := ih hwf (by omega)
    refine ⟨w2, m2, k :: ks, ?_, by simp; omega⟩
    simp [Mgr.insertLoop, e, e2]

theorem updKeys_WF {w : World} {m m' : Mgr T C} {l : List (Key × C)} (h : WF w m)
    (e : m.updateCoefficients l = .ok m') :
    WF w m' ∧ m'.nodes.map (·.time) = m.nodes.map (·.time) ∧
      m'.nodes.map (·.key) = m.nodes.map (·.key) ∧
      (∀ t k c, (t, k, c) ∈ m.contents → (t, k, lastWriteKey k l c) ∈ m'.contents) := by
  induction l generalizing m with
  | nil => simp only [Mgr.updateCoefficients] at e; cases e; exact ⟨h, rfl, rfl, fun _ _ _ h => h⟩
  | cons p rest ih =>
    obtain ⟨k0, c0⟩ := p
    simp only [Mgr.updateCoefficients] at e
    obtain ⟨m1, h1, h2⟩ := Outcome.bind_eq_ok.1 e
    rcases update_spec h k0 c0 with ⟨_, ha⟩ | ⟨t0, cold, m1', hmem, hok, hwf, ht, hk, hcont⟩
    · rw [ha] at h1; cases h1
    · rw [hok] at h1; cases h1
      obtain ⟨a, b, c, d⟩ := ih hwf h2
      refine ⟨a, b.trans ht, c.trans hk, ?_⟩
      intro t k c hm
      simp only [lastWriteKey]
      apply d
      rw [hcont]
      by_cases ek : k0 = k
      · subst ek
        left
        simp [(h.cont_key_inj hm hmem).1]
      · right; simp [ek, hm, Ne.symm ek]

/-- Keys present after an operation were present before, or were drawn by it. -/
theorem mem_key_of_frame {m m' : Mgr T C} (h : m'.nodes.map (·.key) = m.nodes.map (·.key))
    {t : T} {k : Key} {c : C} (hm : (t, k, c) ∈ m'.contents) : ∃ t0 c0, (t0, k, c0) ∈ m.contents := by
  obtain ⟨n, hn, _, rfl, _⟩ := mem_contents.1 hm
  have : n.key ∈ m.nodes.map (·.key) := h ▸ List.mem_map_of_mem hn
  obtain ⟨y, hy, e⟩ := List.mem_map.1 this
  exact ⟨y.time, y.coef, mem_contents.2 ⟨y, hy, rfl, e, rfl⟩⟩

variable [Zero T]

theorem step_WF {s s' : St T C} {op : Op T C} (h : WF s.w s.m) (hs : SafeOp s op)
    (e : step s op = .ok s') (hc : s'.w.calls + 1 < 2 ^ 64) :
    WF s'.w s'.m ∧ (∀ t k c, (t, k, c) ∈ s'.m.contents →
      (∃ t0 c0, (t0, k, c0) ∈ s.m.contents) ∨ s.w.calls < k) := by
  cases op with
  | insert t c =>
    obtain ⟨⟨w', m', k⟩, h1, h2⟩ := Outcome.bind_eq_ok.1 e
    cases h2
    simp only at hc ⊢
    have := insert_calls_mono h1
    obtain ⟨w1, m1, k1, e1, hwf, hcont, hcase⟩ := insert_spec h (by omega) t c
    rw [e1] at h1; cases h1
    refine ⟨hwf, fun t' k' c' hm => ?_⟩
    rcases (hcont t' k' c').1 hm with ⟨rfl, rfl, rfl⟩ | ⟨_, hx⟩
    · rcases hcase with ⟨_, ⟨c0, h0⟩, _⟩ | ⟨_, _, hk, _⟩
      · exact .inl ⟨_, _, h0⟩
      · right; omega
    · exact .inl ⟨_, _, hx⟩
  | insertMany ts cs =>
    obtain ⟨⟨w', m', ks⟩, h1, h2⟩ := Outcome.bind_eq_ok.1 e
    cases h2
    obtain ⟨_, h3⟩ := insertCoefficients_ok h1
    obtain ⟨hwf, _, _, hold, _⟩ := insertLoop_WF h h3 hc
    refine ⟨hwf, fun t k c hm => ?_⟩
    rcases hold t k c hm with ⟨c0, h0⟩ | ⟨hk, _⟩
    · exact .inl ⟨_, _, h0⟩
    · exact .inr hk
  | addEnd t c =>
    obtain ⟨⟨w', m', k⟩, h1, h2⟩ := Outcome.bind_eq_ok.1 e
    cases h2
    by_cases hne : s.m.nodes = []
    · simp only [Mgr.addCoefficientAtEnd, hne] at h1
      split at h1 <;> cases h1
    · have hcalls : s.w.calls + 1 < 2 ^ 64 := by
        have : w'.calls = s.w.calls + 1 := by
          unfold Mgr.addCoefficientAtEnd at h1
          split at h1
          · split at h1
            · cases h1
            · cases h1; rfl
          · cases h1
        simp only at hc
        omega
      rcases addEnd_spec h hcalls hne t c with ⟨_, ha⟩ | ⟨w1, m1, _, e1, _, _, hwf, hn, _⟩
      · rw [ha] at h1; cases h1
      · rw [e1] at h1; cases h1
        refine ⟨hwf, fun t' k' c' hm => ?_⟩
        obtain ⟨x, hx, rfl, rfl, rfl⟩ := mem_contents.1 hm
        rw [hn] at hx
        simp only [List.mem_append, List.mem_singleton] at hx
        rcases hx with hx | rfl
        · exact .inl ⟨_, _, mem_contents.2 ⟨x, hx, rfl, rfl, rfl⟩⟩
        · right; simp
  | removeAt t =>
    obtain ⟨m', h1, h2⟩ := Outcome.bind_eq_ok.1 e
    cases h2
    rcases remove_spec h t with ⟨_, ha⟩ | ⟨k, c, m1, _, e1, hwf, _, hcont⟩
    · rw [ha] at h1; cases h1
    · rw [e1] at h1; cases h1
      exact ⟨hwf, fun t' k' c' hm => .inl ⟨_, _, ((hcont t' k' c').1 hm).2⟩⟩
  | updKey k c =>
    obtain ⟨m', h1, h2⟩ := Outcome.bind_eq_ok.1 e
    cases h2
    rcases update_spec h k c with ⟨_, ha⟩ | ⟨t0, c0, m1, _, e1, hwf, _, hk, _⟩
    · rw [ha] at h1; cases h1
    · rw [e1] at h1; cases h1
      exact ⟨hwf, fun t' k' c' hm => .inl (mem_key_of_frame hk hm)⟩
  | updKeys l =>
    obtain ⟨m', h1, h2⟩ := Outcome.bind_eq_ok.1 e
    cases h2
    obtain ⟨hwf, _, hk, _⟩ := updKeys_WF h h1
    exact ⟨hwf, fun t' k' c' hm => .inl (mem_key_of_frame hk hm)⟩
  | modBatch ts cs =>
    obtain ⟨m', h1, h2⟩ := Outcome.bind_eq_ok.1 e
    cases h2
    obtain ⟨hf, hkm⟩ := modBatch_frame h1
    have hwf := h.of_frame hf
    rw [← hkm] at hwf
    exact ⟨hwf, fun t' k' c' hm => .inl (mem_key_of_frame (map_key_of_frame hf) hm)⟩
  | move it t c =>
    obtain ⟨⟨w', m'⟩, h1, h2⟩ := Outcome.bind_eq_ok.1 e
    cases h2
    cases hna : nodeAt s.m.nodes it with
    | none => simp [Mgr.modifyCoefficient, hna] at h1
    | some n =>
      obtain ⟨hn, ha⟩ := nodeAt_some_mem hna
      subst ha
      have ht : ∀ x ∈ s.m.nodes, x.time ≠ t := fun x hx =>
        hs (x.time, x.key, x.coef) (mem_contents.2 ⟨x, hx, rfl, rfl, rfl⟩)
      obtain ⟨w1, m1, e1, _, _, hwf, hcont⟩ := move_spec h hn t c ht
      rw [e1] at h1; cases h1
      refine ⟨hwf, fun t' k' c' hm => ?_⟩
      rcases (hcont t' k' c').1 hm with ⟨rfl, rfl, rfl⟩ | ⟨_, hx⟩
      · exact .inl ⟨_, _, mem_contents.2 ⟨n, hn, rfl, rfl, rfl⟩⟩
      · exact .inl ⟨_, _, hx⟩
  | clear =>
    simp only [step] at e
    cases e
    exact ⟨WF.empty _, fun t k c hm => by simp [Mgr.clear, Mgr.contents] at hm⟩
  | others k a =>
    simp only [step] at e
    cases e
    exact ⟨h.mono (by simp) (by simp), fun t k c hm => .inl ⟨_, _, hm⟩⟩

theorem step_calls_mono {s s' : St T C} {op : Op T C} (e : step s op = .ok s') :
    s.w.calls ≤ s'.w.calls := by
  cases op with
  | insert t c =>
    obtain ⟨⟨w', m', k⟩, h1, h2⟩ := Outcome.bind_eq_ok.1 e
    cases h2
    exact (insert_calls_mono h1).1
  | insertMany ts cs =>
    obtain ⟨⟨w', m', ks⟩, h1, h2⟩ := Outcome.bind_eq_ok.1 e
    cases h2
    exact (insertLoop_calls_mono (insertCoefficients_ok h1).2).1
  | addEnd t c =>
    obtain ⟨⟨w', m', k⟩, h1, h2⟩ := Outcome.bind_eq_ok.1 e
    cases h2
    unfold Mgr.addCoefficientAtEnd at h1
    split at h1
    · split at h1
      · cases h1
      · cases h1; simp
    · cases h1
  | removeAt t => obtain ⟨m', h1, h2⟩ := Outcome.bind_eq_ok.1 e; cases h2; exact le_rfl
  | updKey k c => obtain ⟨m', h1, h2⟩ := Outcome.bind_eq_ok.1 e; cases h2; exact le_rfl
  | updKeys l => obtain ⟨m', h1, h2⟩ := Outcome.bind_eq_ok.1 e; cases h2; exact le_rfl
  | modBatch ts cs => obtain ⟨m', h1, h2⟩ := Outcome.bind_eq_ok.1 e; cases h2; exact le_rfl
  | move it t c =>
    obtain ⟨⟨w', m'⟩, h1, h2⟩ := Outcome.bind_eq_ok.1 e
    cases h2
    unfold Mgr.modifyCoefficient at h1
    split at h1
    · cases h1
    · cases h1; simp
  | clear => simp only [step] at e; cases e; exact le_rfl
  | others k a => simp only [step] at e; cases e; simp

theorem run_calls_mono {s s' : St T C} {ops : List (Op T C)} (e : run s ops = .ok s') :
    s.w.calls ≤ s'.w.calls := by
  induction ops generalizing s with
  | nil => simp only [run] at e; cases e; exact le_rfl
  | cons op rest ih =>
    simp only [run] at e
    obtain ⟨s1, h1, h2⟩ := Outcome.bind_eq_ok.1 e
    exact (step_calls_mono h1).trans (ih h2)

theorem run_WF {s s' : St T C} {ops : List (Op T C)} (h : WF s.w s.m) (hs : SafeRun s ops)
    (e : run s ops = .ok s') (hc : s'.w.calls + 1 < 2 ^ 64) :
    WF s'.w s'.m ∧ (∀ t k c, (t, k, c) ∈ s'.m.contents →
      (∃ t0 c0, (t0, k, c0) ∈ s.m.contents) ∨ s.w.calls < k) := by
  induction ops generalizing s with
  | nil => simp only [run] at e; cases e; exact ⟨h, fun t k c hm => .inl ⟨_, _, hm⟩⟩
  | cons op rest ih =>
    simp only [run] at e
    obtain ⟨s1, h1, h2⟩ := Outcome.bind_eq_ok.1 e
    have hm := run_calls_mono h2
    have hm1 := step_calls_mono h1
    obtain ⟨hwf1, hold1⟩ := step_WF h hs.1 h1 (by omega)
    obtain ⟨hwf2, hold2⟩ := ih hwf1 (hs.2 _ h1) h2
    refine ⟨hwf2, fun t k c hm => ?_⟩
    rcases hold2 t k c hm with ⟨t1, c1, h3⟩ | h3
    · exact hold1 _ _ _ h3
    · right; omega

theorem Reachable.WF {s : St T C} (h : Reachable s) (hc : s.w.calls + 1 < 2 ^ 64) :
    Verif.Manager.WF s.w s.m := by
  obtain ⟨w, ops, hs, e⟩ := h
  exact (run_WF (WF.empty w) hs e hc).1

/-! ### Survival of a knot -/

theorem lastWrite_not_mem {t : T} {l : List (T × C)} (h : t ∉ l.map Prod.fst) (c : C) :
    lastWrite t l c = c := by
  induction l generalizing c with
  | nil => rfl
  | cons p rest ih =>
    obtain ⟨t', c'⟩ := p
    simp only [List.map_cons, List.mem_cons, not_or] at h
    simp only [lastWrite]
    rw [if_neg (Ne.symm h.1)]
    exact ih h.2 c

theorem assignRun_times {ns ns' : List (Node T C)} {l : List (T × C)}
    (e : assignRun ns l = .ok ns') : ∀ x ∈ l.map Prod.fst, ∃ y ∈ ns, y.time = x := by
  induction l generalizing ns ns' with
  | nil => simp
  | cons q l ihl =>
    obtain ⟨t1, c1⟩ := q
    intro x hx
    cases ns with
    | nil => simp [assignRun] at e
    | cons b ns =>
      simp only [assignRun] at e
      split at e
      · obtain ⟨ns2, h3, _⟩ := Outcome.bind_eq_ok.1 e
        simp only [List.map_cons, List.mem_cons] at hx
        rcases hx with rfl | hx
        · exact ⟨b, by simp, by assumption⟩
        · obtain ⟨y, hy, hyx⟩ := ihl h3 x hx
          exact ⟨y, by simp [hy], hyx⟩
      · cases e

theorem assignRun_survive {ns ns' : List (Node T C)} {l : List (T × C)} (hs : Sorted ns)
    (e : assignRun ns l = .ok ns') {n : Node T C} (hn : n ∈ ns) :
    { n with coef := lastWrite n.time l n.coef } ∈ ns' := by
  induction l generalizing ns ns' with
  | nil => simp only [assignRun] at e; cases e; exact hn
  | cons p rest ih =>
    obtain ⟨t, c⟩ := p
    cases ns with
    | nil => simp at hn
    | cons a ns =>
      simp only [assignRun] at e
      simp only [Sorted, List.pairwise_cons] at hs
      split at e
      · next hat =>
        obtain ⟨ns1, h1, h2⟩ := Outcome.bind_eq_ok.1 e
        cases h2
        rcases List.mem_cons.1 hn with rfl | hn
        · simp only [lastWrite, hat, if_true]
          have hno : t ∉ rest.map Prod.fst := by
            intro hmem
            obtain ⟨y, hy, hyx⟩ := assignRun_times h1 t hmem
            exact absurd (hs.1 y hy) (by rw [hyx, hat]; exact lt_irrefl _)
          rw [lastWrite_not_mem hno]
          simp
        · have hne : ¬ t = n.time := by
            rw [← hat]; exact (hs.1 n hn).ne
          simp only [lastWrite, if_neg hne]
          exact List.mem_cons_of_mem _ (ih hs.2 h1 hn)
      · cases e

theorem modBatch_survive {m m' : Mgr T C} (hs : Sorted m.nodes) {ts : List T} {cs : List C}
    (e : m.modifyCoefficientsValuesInBatch ts cs = .ok m') {t : T} {k : Key} {c : C}
    (hm : (t, k, c) ∈ m.contents) : (t, k, lastWrite t (ts.zip cs) c) ∈ m'.contents := by
  obtain ⟨n, hn, rfl, rfl, rfl⟩ := mem_contents.1 hm
  unfold Mgr.modifyCoefficientsValuesInBatch at e
  split at e
  · split at e
    · cases e
    · split at e
      · cases e
      · next b f hsb =>
        obtain ⟨ns, h1, h2⟩ := Outcome.bind_eq_ok.1 e
        cases h2
        have hbf := searchBack_frame hsb
        simp only [List.reverse_reverse, List.append_nil] at hbf
        rw [← hbf] at hs hn
        simp only [Sorted, List.pairwise_append] at hs
        rcases List.mem_append.1 hn with hn | hn
        · rw [lastWrite_not_mem]
          · exact mem_contents.2 ⟨n, by simp [hn], rfl, rfl, rfl⟩
          · intro hx
            obtain ⟨y, hy, hyx⟩ := assignRun_times h1 _ hx
            exact absurd (hs.2.2 n hn y hy) (by rw [hyx]; exact lt_irrefl _)
        · have := assignRun_survive hs.2.1 h1 hn
          exact mem_contents.2 ⟨_, List.mem_append_right _ this, rfl, rfl, rfl⟩
  · cases e

theorem step_keeps {s s' : St T C} {op : Op T C} (h : WF s.w s.m) (hs : SafeOp s op)
    (e : step s op = .ok s') (hc : s'.w.calls + 1 < 2 ^ 64) {t : T} {k : Key} {c : C}
    (hm : (t, k, c) ∈ s.m.contents) (hk : Keeps t k s op) :
    (t, k, written t k c op) ∈ s'.m.contents := by
  cases op with
  | insert t' c' =>
    obtain ⟨⟨w', m', k'⟩, h1, h2⟩ := Outcome.bind_eq_ok.1 e
    cases h2
    simp only at hc ⊢
    have := insert_calls_mono h1
    obtain ⟨w1, m1, k1, e1, hwf, hcont, hcase⟩ := insert_spec h (by omega) t' c'
    rw [e1] at h1; cases h1
    rw [hcont]
    simp only [written]
    by_cases et : t' = t
    · subst et
      left
      rcases hcase with ⟨_, ⟨c0, h0⟩, _⟩ | ⟨_, _, _, hno, _⟩
      · simp [(h.cont_time_inj hm h0).1]
      · exact absurd hm (hno k c)
    · right; simp [et, Ne.symm et, hm]
  | insertMany ts cs =>
    obtain ⟨⟨w', m', ks⟩, h1, h2⟩ := Outcome.bind_eq_ok.1 e
    cases h2
    obtain ⟨_, h3⟩ := insertCoefficients_ok h1
    obtain ⟨_, _, hsurv, _⟩ := insertLoop_WF h h3 hc
    exact hsurv t k c hm
  | addEnd t' c' =>
    obtain ⟨⟨w', m', k'⟩, h1, h2⟩ := Outcome.bind_eq_ok.1 e
    cases h2
    by_cases hne : s.m.nodes = []
    · simp [Mgr.contents, hne] at hm
    · have hcalls : s.w.calls + 1 < 2 ^ 64 := by
        have := step_calls_mono (op := .addEnd t' c') e
        simp only at hc this
        omega
      rcases addEnd_spec h hcalls hne t' c' with ⟨_, ha⟩ | ⟨w1, m1, _, e1, _, _, hwf, hn, _⟩
      · rw [ha] at h1; cases h1
      · rw [e1] at h1; cases h1
        obtain ⟨x, hx, rfl, rfl, rfl⟩ := mem_contents.1 hm
        exact mem_contents.2 ⟨x, by rw [hn]; simp [hx], rfl, rfl, rfl⟩
  | removeAt t' =>
    obtain ⟨m', h1, h2⟩ := Outcome.bind_eq_ok.1 e
    cases h2
    rcases remove_spec h t' with ⟨_, ha⟩ | ⟨k', c', m1, _, e1, hwf, _, hcont⟩
    · rw [ha] at h1; cases h1
    · rw [e1] at h1; cases h1
      exact (hcont _ _ _).2 ⟨Ne.symm hk, hm⟩
  | updKey k' c' =>
    obtain ⟨m', h1, h2⟩ := Outcome.bind_eq_ok.1 e
    cases h2
    rcases update_spec h k' c' with ⟨_, ha⟩ | ⟨t0, c0, m1, h0, e1, hwf, _, _, hcont⟩
    · rw [ha] at h1; cases h1
    · rw [e1] at h1; cases h1
      rw [hcont]
      simp only [written]
      by_cases ek : k' = k
      · subst ek; left; simp [(h.cont_key_inj hm h0).1]
      · right; simp [ek, Ne.symm ek, hm]
  | updKeys l =>
    obtain ⟨m', h1, h2⟩ := Outcome.bind_eq_ok.1 e
    cases h2
    exact (updKeys_WF h h1).2.2.2 t k c hm
  | modBatch ts cs =>
    obtain ⟨m', h1, h2⟩ := Outcome.bind_eq_ok.1 e
    cases h2
    exact modBatch_survive h.sorted h1 hm
  | move it t' c' =>
    obtain ⟨⟨w', m'⟩, h1, h2⟩ := Outcome.bind_eq_ok.1 e
    cases h2
    cases hna : nodeAt s.m.nodes it with
    | none => simp [Mgr.modifyCoefficient, hna] at h1
    | some n =>
      obtain ⟨hn, ha⟩ := nodeAt_some_mem hna
      subst ha
      have ht : ∀ x ∈ s.m.nodes, x.time ≠ t' := fun x hx =>
        hs (x.time, x.key, x.coef) (mem_contents.2 ⟨x, hx, rfl, rfl, rfl⟩)
      obtain ⟨w1, m1, e1, _, _, hwf, hcont⟩ := move_spec h hn t' c' ht
      rw [e1] at h1; cases h1
      rw [hcont]
      right
      refine ⟨fun et => ?_, hm⟩
      subst et
      exact hk n hn rfl (h.cont_time_inj (mem_contents.2 ⟨n, hn, rfl, rfl, rfl⟩) hm).1
  | clear => exact hk.elim
  | others a b =>
    simp only [step] at e
    cases e
    exact hm

theorem run_keeps {s s' : St T C} {ops : List (Op T C)} (h : WF s.w s.m) (hs : SafeRun s ops)
    (e : run s ops = .ok s') (hc : s'.w.calls + 1 < 2 ^ 64) {t : T} {k : Key} {c : C}
    (hm : (t, k, c) ∈ s.m.contents) (hk : KeepsRun t k s ops) :
    (t, k, lastWritten t k c ops) ∈ s'.m.contents := by
  induction ops generalizing s c with
  | nil => simp only [run] at e; cases e; exact hm
  | cons op rest ih =>
    simp only [run] at e
    obtain ⟨s1, h1, h2⟩ := Outcome.bind_eq_ok.1 e
    have hm2 := run_calls_mono h2
    have hc1 : s1.w.calls + 1 < 2 ^ 64 := by omega
    exact ih (step_WF h hs.1 h1 hc1).1 (hs.2 _ h1) h2
      (step_keeps h hs.1 h1 hc1 hm hk.1) (hk.2 _ h1)

end Verif.Manager

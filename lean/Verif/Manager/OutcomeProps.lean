import Verif.Manager.Props

/-!
# Updating by key, and which calls go wrong

C63 and C64.
-/

set_option linter.unusedSectionVars false

namespace Verif.Manager

variable {T C : Type} [LinearOrder T] [Zero T]

/-! ## C63 -/

/-- C63, one key. `updateCoefficientByKey(k, v)` aborts when no knot has key `k`; otherwise it replaces the
value of that knot and changes nothing else. -/
theorem C63_update_by_key {s : St T C} (hr : Reachable s) (hc : s.w.calls + 1 < 2 ^ 64) (k : Key) (v : C)
    (o : List Key) :
    (k ∉ s.m.getKeys o → s.m.updateCoefficientByKey k v = .abort) ∧
    (∀ pre t v0 post, s.m.contents = pre ++ (t, k, v0) :: post → ∃ m',
      s.m.updateCoefficientByKey k v = .ok m' ∧ m'.contents = pre ++ (t, k, v) :: post ∧
      m'.getCoefficientByKey k = .ok v ∧ m'.getCoefficientTimeByKey k = .ok t) := by
  have h := hr.WF hc
  refine ⟨fun hk => ?_, fun pre t v0 post hcont => ?_⟩
  · rcases update_spec h k v with ⟨-, ha⟩ | ⟨t, c0, m', hm, -⟩
    · exact ha
    · refine absurd ?_ hk
      obtain ⟨n, hn, -, e, -⟩ := mem_contents.1 hm
      simp only [Mgr.getKeys, Mgr.appendKeys, List.nil_append, List.mem_map]
      exact ⟨n, hn, e⟩
  · have hmem : (t, k, v0) ∈ s.m.contents := by rw [hcont]; simp
    obtain ⟨n, hn, rfl, rfl, rfl⟩ := mem_contents.1 hmem
    obtain ⟨e, hw⟩ := h.updateByKey hn v
    have hcc : ({ s.m with nodes := setCoefAt s.m.nodes n.addr v } : Mgr T C).contents =
        s.m.contents.map fun x => if x.2.1 = n.key then (x.1, x.2.1, v) else x := by
      simp only [Mgr.contents, setCoefAt, List.map_map]
      refine List.map_congr_left fun y hy => ?_
      simp only [Function.comp_apply]
      by_cases ha : y.addr = n.addr
      · have : y = n := by
          have := nodeAt_eq_some h.addrNodup hy
          rw [ha, nodeAt_eq_some h.addrNodup hn] at this
          exact (Option.some.inj this).symm
        subst this
        simp
      · have : y.key ≠ n.key := fun e => ha (by
          have h1 := h.keyOf y hy
          rw [e, h.keyOf n hn] at h1
          exact (Option.some.inj h1).symm)
        simp [ha, this]
    have hfr : ∀ x ∈ pre ++ post, x.2.1 ≠ n.key := by
      have hnd : (s.m.contents.map (·.2.1)).Nodup := by
        have := (C01_times_sorted_keys_bijective hr hc [] []).2.2.1
        rwa [← (C01_times_sorted_keys_bijective hr hc [] []).2.2.2.2.1] at this
      rw [hcont, List.map_append, List.map_cons] at hnd
      intro x hx e
      have := List.nodup_middle.1 hnd
      rw [List.nodup_cons] at this
      exact this.1 (by rw [← List.map_append]; exact List.mem_map.2 ⟨x, hx, e⟩)
    have hfin : ({ s.m with nodes := setCoefAt s.m.nodes n.addr v } : Mgr T C).contents =
        pre ++ (n.time, n.key, v) :: post := by
      rw [hcc, hcont, List.map_append, List.map_cons]
      congr 1
      · refine (List.map_congr_left fun x hx => ?_).trans (List.map_id pre)
        rw [if_neg (hfr x (List.mem_append.2 (.inl hx)))]; rfl
      · congr 1
        · simp
        · refine (List.map_congr_left fun x hx => ?_).trans (List.map_id post)
          rw [if_neg (hfr x (List.mem_append.2 (.inr hx)))]; rfl
    exact ⟨_, e, hfin, getByKey_spec hw (by rw [hfin]; simp)⟩

/-- C63, many keys. `updateCoefficients` aborts when some key of the list is unknown; otherwise every knot
named in the list gets the last value given for it, and everything else stays. -/
theorem C63_update_many {s : St T C} (hr : Reachable s) (hc : s.w.calls + 1 < 2 ^ 64)
    (l : List (Key × C)) (o : List Key) :
    ((∃ p ∈ l, p.1 ∉ s.m.getKeys o) → s.m.updateCoefficients l = .abort) ∧
    ((∀ p ∈ l, p.1 ∈ s.m.getKeys o) → ∃ m', s.m.updateCoefficients l = .ok m' ∧
      m'.contents = s.m.contents.map fun x => (x.1, x.2.1, lastWriteKey x.2.1 l x.2.2)) := by
  have hW := hr.WF hc
  have keys : ∀ (m : Mgr T C) (k : Key), k ∈ m.getKeys o ↔ ∃ t c, (t, k, c) ∈ m.contents := by
    intro m k
    simp only [Mgr.getKeys, Mgr.appendKeys, List.nil_append, List.mem_map, mem_contents]
    exact ⟨fun ⟨n, hn, e⟩ => ⟨n.time, n.coef, n, hn, rfl, e, rfl⟩, fun ⟨_, _, n, hn, _, e, _⟩ => ⟨n, hn, e⟩⟩
  have main : ∀ (l : List (Key × C)) (m : Mgr T C), WF s.w m →
      ((∃ p ∈ l, p.1 ∉ m.getKeys o) → m.updateCoefficients l = .abort) ∧
      ((∀ p ∈ l, p.1 ∈ m.getKeys o) → ∃ m', m.updateCoefficients l = .ok m') := by
    intro l
    induction l with
    | nil => intro m _; simp [Mgr.updateCoefficients]
    | cons p l ih =>
      obtain ⟨k, c⟩ := p
      intro m hm
      rcases update_spec hm k c with ⟨hno, ha⟩ | ⟨t, c0, m1, hin, hok, hwf, -, hkeys, -⟩
      · refine ⟨fun _ => by simp [Mgr.updateCoefficients, ha], fun h => ?_⟩
        obtain ⟨t, c', h'⟩ := (keys m k).1 (h (k, c) List.mem_cons_self)
        exact absurd h' (hno t c')
      · have hk' : ∀ k', k' ∈ m1.getKeys o ↔ k' ∈ m.getKeys o := by
          intro k'; simp only [Mgr.getKeys, Mgr.appendKeys, List.nil_append, hkeys]
        refine ⟨fun ⟨p, hp, hn⟩ => ?_, fun h => ?_⟩
        · rcases List.mem_cons.1 hp with rfl | hp
          · exact absurd ((keys m k).2 ⟨t, c0, hin⟩) hn
          · simp [Mgr.updateCoefficients, hok, (ih m1 hwf).1 ⟨p, hp, fun hh => hn ((hk' _).1 hh)⟩]
        · obtain ⟨m', e⟩ := (ih m1 hwf).2 fun p hp => (hk' _).2 (h p (List.mem_cons_of_mem _ hp))
          exact ⟨m', by simp [Mgr.updateCoefficients, hok, e]⟩
  refine ⟨(main l s.m hW).1, fun h => ?_⟩
  obtain ⟨m', e⟩ := (main l s.m hW).2 h
  obtain ⟨hw', ht, hk, hv⟩ := updKeys_WF hW e
  refine ⟨m', e, ?_⟩
  have h1 : (m'.contents.map (·.1)) = s.m.contents.map (·.1) := by
    simpa [Mgr.contents, Function.comp_def] using ht
  have hlen : m'.contents.length = s.m.contents.length := by simpa using congrArg List.length h1
  refine List.ext_getElem (by simpa using hlen) fun i hi hi' => ?_
  have hi2 : i < s.m.contents.length := by omega
  have ht' : m'.contents[i].1 = s.m.contents[i].1 := by
    have := List.getElem_of_eq h1 (i := i) (by simpa using hi)
    simpa using this
  have hmem := hv s.m.contents[i].1 s.m.contents[i].2.1 s.m.contents[i].2.2 (List.getElem_mem hi2)
  have hmem' : (s.m.contents[i].1, m'.contents[i].2.1, m'.contents[i].2.2) ∈ m'.contents := by
    rw [← ht']; exact List.getElem_mem hi
  obtain ⟨e1, e2⟩ := hw'.cont_time_inj hmem' hmem
  rw [List.getElem_map]
  exact Prod.ext ht' (Prod.ext e1 e2)

example : (demo.m.updateCoefficientByKey 103 7 >>= fun m => .ok m.contents) =
      .ok [(1, 102, 11), (3, 103, 7), (9, 106, 90)] ∧
    (demo.m.updateCoefficientByKey 101 7 >>= fun m => .ok m.contents) = .abort ∧
    (demo.m.updateCoefficients [(106, 1), (102, 2), (106, 3)] >>= fun m => .ok m.contents) =
      .ok [(1, 102, 2), (3, 103, 30), (9, 106, 3)] ∧
    (demo.m.updateCoefficients [(106, 1), (101, 2)] >>= fun m => .ok m.contents) = .abort := by decide

/-! ## C64 -/

/-- The calls that are undefined behaviour: appending at a positive time to an empty manager; changing a batch
of values with no times, with a first time that is no knot, or with a run of knots followed by
further times when the knots have run out; moving through an iterator that points to no knot. -/
def Undefined (s : St T C) : Op T C → Prop
  | .addEnd t _ => s.m.size = 0 ∧ 0 < t
  | .modBatch ts cs => ts.length = cs.length ∧ ((∀ t ∈ ts.head?, t ∉ s.m.getTimes []) ∨
      ∃ pre mid more, s.m.getTimes [] = pre ++ mid ∧ mid ≠ [] ∧ more ≠ [] ∧ ts = mid ++ more)
  | .move it _ _ => ∀ n ∈ s.m.nodes, n.addr ≠ it
  | _ => False

/-- The calls that return normally. -/
def Accepted (s : St T C) : Op T C → Prop
  | .insert _ _ => True
  | .insertMany ts cs => ts.length = cs.length
  | .addEnd t _ => s.m.size ≠ 0 ∧ s.m.getMaxTime < t
  | .removeAt t => t ∈ s.m.getTimes []
  | .updKey k _ => k ∈ s.m.getKeys []
  | .updKeys l => ∀ p ∈ l, p.1 ∈ s.m.getKeys []
  | .modBatch ts cs => ts.length = cs.length ∧ ts ≠ [] ∧
      ∃ pre post, s.m.getTimes [] = pre ++ ts ++ post
  | .move it _ _ => ∃ n ∈ s.m.nodes, n.addr = it
  | .clear => True
  | .others _ _ => True

/-- The number of keys a call may draw. -/
def draws : Op T C → Nat
  | .insert _ _ => 1
  | .insertMany ts _ => ts.length
  | .addEnd _ _ => 1
  | _ => 0

/-- Two lists either agree until the second ends, or differ somewhere, or the first ends before. -/
theorem run_cases {α : Type} (a b : List α) :
    (∃ post, a = b ++ post) ∨
    (∃ mid y post x more, a = mid ++ y :: post ∧ b = mid ++ x :: more ∧ y ≠ x) ∨
    (∃ x more, b = a ++ x :: more) := by
  induction a generalizing b with
  | nil =>
    cases b with
    | nil => exact .inl ⟨[], rfl⟩
    | cons x more => exact .inr (.inr ⟨x, more, rfl⟩)
  | cons y a ih =>
    cases b with
    | nil => exact .inl ⟨y :: a, rfl⟩
    | cons x b =>
      by_cases h : y = x
      · subst h
        rcases ih b with ⟨post, e⟩ | ⟨mid, y', post, x', more, e, e', hne⟩ | ⟨x, more, e⟩
        · exact .inl ⟨post, by rw [e]; rfl⟩
        · exact .inr (.inl ⟨y :: mid, y', post, x', more, by rw [e]; rfl, by rw [e']; rfl, hne⟩)
        · exact .inr (.inr ⟨x, more, by rw [e]; rfl⟩)
      · exact .inr (.inl ⟨[], y, a, x, b, rfl, rfl, h⟩)

/-- C64. Every call on a reachable manager returns normally exactly when `Accepted`, is undefined behaviour
exactly when `Undefined`, and aborts in all other cases; none throws. -/
theorem C64_outcomes {s : St T C} (hr : Reachable s) (op : Op T C)
    (hc : s.w.calls + draws op + 1 < 2 ^ 64) :
    ((∃ s', step s op = .ok s') ↔ Accepted s op) ∧ (step s op = .ub ↔ Undefined s op) ∧
    (step s op = .abort ↔ ¬ Accepted s op ∧ ¬ Undefined s op) := by
  have hc' : s.w.calls + 1 < 2 ^ 64 := by omega
  have h := hr.WF hc'
  have fin : ∀ {o : Outcome (St T C)} {P Q : Prop}, (P → ∃ s', o = .ok s') → (Q → o = .ub) →
      (¬ P → ¬ Q → o = .abort) → ¬ (P ∧ Q) →
      ((∃ s', o = .ok s') ↔ P) ∧ (o = .ub ↔ Q) ∧ (o = .abort ↔ ¬ P ∧ ¬ Q) := by
    intro o P Q h1 h2 h3 h4
    by_cases hP : P
    · have hQ : ¬ Q := fun q => h4 ⟨hP, q⟩
      obtain ⟨s', e⟩ := h1 hP
      simp [e, hP, hQ]
    · by_cases hQ : Q
      · simp [h2 hQ, hP, hQ]
      · simp [h3 hP hQ, hP, hQ]
  have htimes : ∀ t, t ∈ s.m.getTimes [] ↔ ∃ k v, (t, k, v) ∈ s.m.contents := 
    (C08_extent_and_listing hr hc' [] []).2.1
  cases op with
  | insert t c =>
    obtain ⟨w', m', k, e, -⟩ := C02_insert_point_update hr hc' t c
    exact fin (fun _ => ⟨⟨w', m'⟩, by simp [step, e]⟩) (fun h => h.elim) (fun h => (h trivial).elim)
      (fun h => h.2)
  | insertMany ts cs =>
    obtain ⟨ha, hok⟩ := C03_batch_insert hr ts cs hc
    refine fin (fun hl => ?_) (fun h => h.elim) (fun hn _ => ?_) (fun h => h.2)
    · obtain ⟨w', m', ks, e, -⟩ := hok hl
      exact ⟨⟨w', m'⟩, by simp [step, e]⟩
    · simp [step, ha hn]
  | addEnd t c =>
    by_cases hs : s.m.size = 0
    · have hm : s.m = Mgr.empty := by
        have hn : s.m.nodes = [] := List.length_eq_zero_iff.1 hs
        have hk : s.m.keyMap = [] := by
          cases hkm : s.m.keyMap with
          | nil => rfl
          | cons p l =>
            have := h.kmFind_none (k := p.1) (by simp [hn])
            simp [hkm, kmFind] at this
        cases hsm : s.m with
        | mk ns km => rw [hsm] at hn hk; simp only at hn hk; rw [hn, hk]; rfl
      obtain ⟨h1, h2⟩ := C12_add_at_end_empty s.w t c
      refine fin (fun h => absurd hs h.1) (fun hu => ?_) (fun _ hn => ?_) (fun h => h.1.1 hs)
      · simp [step, hm, h2 hu.2]
      · simp [step, hm, h1 (not_lt.1 fun h => hn ⟨hs, h⟩)]
    · obtain ⟨h1, h2⟩ := C12_add_at_end hr hc' hs t c
      refine fin (fun ha => ?_) (fun hu => absurd hu.1 hs) (fun hn _ => ?_) (fun h => hs h.2.1)
      · obtain ⟨w', m', k, e, -⟩ := h2 ha.2
        exact ⟨⟨w', m'⟩, by simp [step, e]⟩
      · simp [step, h1 (not_lt.1 fun h => hn ⟨hs, h⟩)]
  | removeAt t =>
    obtain ⟨h1, h2⟩ := C05_remove_exact hr hc' t
    refine fin (fun ha => ?_) (fun h => h.elim) (fun hn _ => ?_) (fun h => h.2)
    · obtain ⟨k, v, hm⟩ := (htimes t).1 ha
      obtain ⟨m', e, -⟩ := h2 k v hm
      exact ⟨⟨s.w, m'⟩, by simp [step, e]⟩
    · have := h1 fun k v hm => hn ((htimes t).2 ⟨k, v, hm⟩)
      simp [step, this]
  | updKey k c =>
    obtain ⟨h1, h2⟩ := C63_update_by_key hr hc' k c []
    refine fin (fun ha => ?_) (fun h => h.elim) (fun hn _ => by simp [step, h1 hn]) (fun h => h.2)
    have ha : k ∈ s.m.getKeys [] := ha
    rw [← (C01_times_sorted_keys_bijective hr hc' [] []).2.2.2.2.1] at ha
    obtain ⟨⟨t, k', v⟩, hx, rfl⟩ := List.mem_map.1 ha
    obtain ⟨pre, post, e⟩ := List.append_of_mem hx
    obtain ⟨m', e, -⟩ := h2 pre t v post e
    exact ⟨⟨s.w, m'⟩, by simp [step, e]⟩
  | updKeys l =>
    obtain ⟨h1, h2⟩ := C63_update_many hr hc' l []
    refine fin (fun ha => ?_) (fun h => h.elim) (fun hn _ => ?_) (fun h => h.2)
    · obtain ⟨m', e, -⟩ := h2 ha
      exact ⟨⟨s.w, m'⟩, by simp [step, e]⟩
    · have hn : ¬ ∀ p ∈ l, p.1 ∈ s.m.getKeys [] := hn
      push Not at hn
      simp [step, h1 hn]
  | modBatch ts cs =>
    obtain ⟨hb1, hb2⟩ := C10_batch_modify_bad_start (s := s) ts cs
    by_cases hl : ts.length = cs.length
    swap
    · exact fin (fun h => absurd h.1 hl) (fun h => absurd h.1 hl) (fun _ _ => by simp [step, hb1 hl])
        (fun h => hl h.1.1)
    have hct : s.m.contents.map (·.1) = s.m.getTimes [] := (C01_times_sorted_keys_bijective hr hc' [] []).2.2.2.1
    have hnd : (s.m.getTimes []).Nodup :=
      (C08_extent_and_listing hr hc' [] []).1.imp fun h => h.ne
    by_cases hh : ∀ t ∈ ts.head?, t ∉ s.m.getTimes []
    · have hub : step s (.modBatch ts cs) = .ub := by
        have := hb2 hl fun t ht k v hm => hh t ht ((htimes t).2 ⟨k, v, hm⟩)
        simp [step, this]
      refine fin (fun ⟨_, hne, pre, post, e⟩ => ?_) (fun _ => hub) (fun _ hn => (hn ⟨hl, .inl hh⟩).elim) ?_
      · cases ts with
        | nil => exact absurd rfl hne
        | cons t ts => exact absurd (by rw [e]; simp) (hh t (by simp))
      · rintro ⟨⟨-, hne, pre, post, e⟩, -⟩
        cases ts with
        | nil => exact absurd rfl hne
        | cons t ts => exact absurd (by rw [e]; simp) (hh t (by simp))
    · push Not at hh
      obtain ⟨t0, ht0, hin⟩ := hh
      cases ts with
      | nil => simp at ht0
      | cons t ts =>
      simp only [List.head?_cons, Option.mem_def, Option.some.injEq] at ht0
      subst ht0
      obtain ⟨pre, rest, e⟩ := List.append_of_mem hin
      -- the part of the knots before `t` is determined
      have huniq : ∀ pre' rest', s.m.getTimes [] = pre' ++ t :: rest' → pre' = pre ∧ rest' = rest := by
        intro pre' rest' e'
        rw [e] at e'
        have hnd' := hnd
        rw [e] at hnd'
        have hp : t ∉ pre := by
          have := List.nodup_middle.1 hnd'
          rw [List.nodup_cons] at this
          exact fun h => this.1 (List.mem_append.2 (.inl h))
        have hp' : t ∉ pre' := by
          rw [e'] at hnd'
          have := List.nodup_middle.1 hnd'
          rw [List.nodup_cons] at this
          exact fun h => this.1 (List.mem_append.2 (.inl h))
        rcases List.append_eq_append_iff.1 e' with ⟨a, h1, h2⟩ | ⟨a, h1, h2⟩
        · cases a with
          | nil => simp at h1 h2; exact ⟨h1, h2.symm⟩
          | cons x a =>
            simp only [List.cons_append, List.cons.injEq] at h2
            exact absurd (by rw [h1, h2.1]; simp) hp'
        · cases a with
          | nil => simp at h1 h2; exact ⟨h1.symm, h2⟩
          | cons x a =>
            simp only [List.cons_append, List.cons.injEq] at h2
            exact absurd (by rw [h1, h2.1]; simp) hp
      -- split the contents along the times
      have split : ∀ {a b : List T}, s.m.getTimes [] = a ++ b → ∃ A B, s.m.contents = A ++ B ∧
          A.map (·.1) = a ∧ B.map (·.1) = b := by
        intro a b hab
        rw [← hct] at hab
        obtain ⟨A, B, e1, e2, e3⟩ := List.map_eq_append_iff.1 hab
        exact ⟨A, B, e1, e2, e3⟩
      rcases run_cases (t :: rest) (t :: ts) with ⟨post, ep⟩ | ⟨mid, y, post, x, more, e1, e2, hne⟩ |
          ⟨x, more, ex⟩
      · -- accepted
        have ett : s.m.getTimes [] = pre ++ (t :: ts) ++ post := by rw [e, ep, List.append_assoc]
        obtain ⟨AB, D, eD, hAB, hD⟩ := split ett
        obtain ⟨A, B, eAB, hA, hB⟩ := List.map_eq_append_iff.1 hAB
        obtain ⟨m', em, -⟩ := C10_batch_modify hr hc' (pre := A) (mid := B) (post := D) (vs := cs)
          (by rw [eD, eAB]) (by rintro rfl; simp at hB)
          (by rw [← hl, ← hB]; simp)
        rw [hB] at em
        refine fin (fun _ => ⟨⟨s.w, m'⟩, by simp [step, em]⟩) ?_
          (fun hn => (hn ⟨hl, by simp, pre, post, ett⟩).elim) ?_
        · rintro ⟨-, hu | ⟨pre', mid, more, e1, e2, e3, e4⟩⟩
          · exact absurd hin (hu t rfl)
          · cases mid with
            | nil => exact absurd rfl e2
            | cons z mid =>
              simp only [List.cons_append, List.cons.injEq] at e4
              obtain ⟨rfl, e4⟩ := e4
              obtain ⟨-, rfl⟩ := huniq _ _ e1
              simp only [List.cons_append, List.cons.injEq, true_and] at ep
              have := congrArg List.length ep
              rw [e4] at this
              cases more with
              | nil => exact absurd rfl e3
              | cons a b => simp at this
        · rintro ⟨-, -, hu | ⟨pre', mid, more, e1, e2, e3, e4⟩⟩
          · exact absurd hin (hu t rfl)
          · cases mid with
            | nil => exact absurd rfl e2
            | cons z mid =>
              simp only [List.cons_append, List.cons.injEq] at e4
              obtain ⟨rfl, e4⟩ := e4
              obtain ⟨-, rfl⟩ := huniq _ _ e1
              simp only [List.cons_append, List.cons.injEq, true_and] at ep
              have := congrArg List.length ep
              rw [e4] at this
              cases more with
              | nil => exact absurd rfl e3
              | cons a b => simp at this
      · -- a mismatch
        cases mid with
        | nil =>
          simp only [List.nil_append, List.cons.injEq] at e1 e2
          exact absurd (e1.1.symm.trans e2.1) hne
        | cons z mid =>
        simp only [List.cons_append, List.cons.injEq] at e1 e2
        obtain ⟨rfl, e1⟩ := e1
        obtain ⟨-, e2⟩ := e2
        have ett : s.m.getTimes [] = pre ++ ((t :: mid) ++ y :: post) := by rw [e, e1]; rfl
        obtain ⟨A, D, eD, hA, hD⟩ := split ett
        obtain ⟨B, E, eE, hB, hE⟩ := List.map_eq_append_iff.1 hD
        cases E with
        | nil => simp at hE
        | cons q E =>
        simp only [List.map_cons, List.cons.injEq] at hE
        have hab := (C10_batch_modify_mismatch hr hc' (pre := A) (mid := B) (post := E) (y := q) (x := x)
          (more := more) (vs := cs) (by rintro rfl; simp at hB)
          (by
            have h1 := congrArg List.length hB
            have h2 := congrArg List.length e2
            simp at h1 h2 hl; omega)).1
          (by rw [eD, eE, List.append_assoc]) (by rw [hE.1]; exact hne)
        rw [hB, List.cons_append, ← e2] at hab
        have hacc : ¬ Accepted s (.modBatch (t :: ts) cs) := by
          rintro ⟨-, -, pre', post', e'⟩
          rw [List.append_assoc, List.cons_append] at e'
          obtain ⟨-, e''⟩ := huniq _ _ e'
          rw [e1, e2, List.append_assoc] at e''
          have := List.append_cancel_left e''
          simp only [List.cons_append, List.cons.injEq] at this
          exact hne this.1.symm
        have hund : ¬ Undefined s (.modBatch (t :: ts) cs) := by
          rintro ⟨-, hu | ⟨pre', mid', more', e1', e2', e3', e4'⟩⟩
          · exact absurd hin (hu t rfl)
          · cases mid' with
            | nil => exact absurd rfl e2'
            | cons z mid' =>
              simp only [List.cons_append, List.cons.injEq] at e4'
              obtain ⟨rfl, e4'⟩ := e4'
              obtain ⟨-, e''⟩ := huniq _ _ e1'
              rw [e'', e1, e2, List.append_assoc] at e4'
              have := List.append_cancel_left e4'
              simp only [List.cons_append, List.cons.injEq] at this
              exact hne this.1.symm
        exact fin (fun h => absurd h hacc) (fun h => absurd h hund) (fun _ _ => by simp [step, hab])
          (fun h => hacc h.1)
      · -- the knots run out
        simp only [List.cons_append, List.cons.injEq, true_and] at ex
        obtain ⟨A, B, eB, hA, hB⟩ := split e
        obtain ⟨c0, -⟩ := List.exists_mem_of_length_pos (l := cs) (by rw [← hl]; simp)
        have hub := (C10_batch_modify_mismatch hr hc' (pre := A) (mid := B) (post := []) (y := (t, 0, c0))
          (x := x) (more := more) (vs := cs) (by rintro rfl; simp at hB)
          (by
            have h1 := congrArg List.length hB
            have h2 := congrArg List.length ex
            simp at h1 h2 hl; omega)).2 eB
        rw [hB, List.cons_append, ← ex] at hub
        refine fin (fun ⟨_, _, pre', post', e'⟩ => ?_) (fun _ => by simp [step, hub])
          (fun _ hn => (hn ⟨hl, .inr ⟨pre, t :: rest, x :: more, e, by simp, by simp, by rw [ex]; rfl⟩⟩).elim)
          (fun ⟨⟨_, _, pre', post', e'⟩, _⟩ => ?_)
        all_goals
          rw [List.append_assoc, List.cons_append] at e'
          obtain ⟨-, e''⟩ := huniq _ _ e'
          have := congrArg List.length e''
          rw [ex] at this
          simp at this
  | move it t c =>
    by_cases hn : ∃ n ∈ s.m.nodes, n.addr = it
    · obtain ⟨n, hn, rfl⟩ := hn
      refine fin (fun _ => ?_) (fun hu => absurd rfl (hu n hn)) (fun ha => (ha ⟨n, hn, rfl⟩).elim)
        (fun h => h.2 n hn rfl)
      simp only [step, Mgr.modifyCoefficient, nodeAt_eq_some h.addrNodup hn]
      exact ⟨_, rfl⟩
    · have hub : step s (.move it t c) = .ub := by
        have : nodeAt s.m.nodes it = none := by
          rw [nodeAt, List.find?_eq_none]
          intro n hm e
          exact hn ⟨n, hm, by simpa using e⟩
        simp [step, Mgr.modifyCoefficient, this]
      refine fin (fun h => absurd h hn) (fun _ => hub) (fun _ h => (h fun n hm e => hn ⟨n, hm, e⟩).elim)
        (fun h => hn h.1)
  | clear => exact fin (fun _ => ⟨_, rfl⟩) (fun h => h.elim) (fun h => (h trivial).elim) (fun h => h.2)
  | others a b => exact fin (fun _ => ⟨_, rfl⟩) (fun h => h.elim) (fun h => (h trivial).elim) (fun h => h.2)

theorem Reachable.step {s s' : St T C} (hr : Reachable s) {op : Op T C} (hs : SafeOp s op)
    (e : step s op = .ok s') : Reachable s' := by
  obtain ⟨w, ops, hsafe, hrun⟩ := hr
  refine ⟨w, ops ++ [op], ?_, ?_⟩
  · clear e
    generalize (⟨w, Mgr.empty⟩ : St T C) = s0 at hsafe hrun
    induction ops generalizing s0 with
    | nil =>
      simp only [run, Outcome.ok.injEq] at hrun
      subst hrun
      exact ⟨hs, fun _ _ => trivial⟩
    | cons o ops ih =>
      refine ⟨hsafe.1, fun s1 e1 => ?_⟩
      simp only [run, e1, Outcome.ok_bind] at hrun
      exact ih s1 (hsafe.2 s1 e1) hrun
  · clear hsafe
    generalize (⟨w, Mgr.empty⟩ : St T C) = s0 at hrun
    induction ops generalizing s0 with
    | nil =>
      simp only [run, Outcome.ok.injEq] at hrun
      subst hrun
      simp [run, e]
    | cons o ops ih =>
      obtain ⟨s1, e1, h1⟩ := Outcome.bind_eq_ok.1 hrun
      simp only [List.cons_append, run, e1, Outcome.ok_bind]
      exact ih s1 h1

/-- C64 over histories: a history of operations is undefined behaviour exactly when some operation of it,
executed in the state the ones before it led to, is `Undefined`. -/
theorem C64_history {s : St T C} (hr : Reachable s) {ops : List (Op T C)} (hs : SafeRun s ops)
    (hc : ∀ pre op post s', ops = pre ++ op :: post → run s pre = .ok s' →
      s'.w.calls + draws op + 1 < 2 ^ 64) :
    run s ops = .ub ↔ ∃ pre op post s', ops = pre ++ op :: post ∧ run s pre = .ok s' ∧ Undefined s' op := by
  induction ops generalizing s with
  | nil => simp [run]
  | cons op ops ih =>
    obtain ⟨hok, hub, hab⟩ := C64_outcomes hr op (hc [] op ops s rfl rfl)
    by_cases hu : Undefined s op
    · have := hub.2 hu
      refine ⟨fun _ => ⟨[], op, ops, s, rfl, rfl, hu⟩, fun _ => by simp [run, this]⟩
    · by_cases ha : Accepted s op
      · obtain ⟨s1, e1⟩ := hok.2 ha
        have hr1 : Reachable s1 := Reachable.step hr hs.1 e1
        have := ih hr1 (hs.2 s1 e1) fun pre op' post s' e e' => hc (op :: pre) op' post s' (by rw [e]; rfl)
          (by simp [run, e1, e'])
        simp only [run, e1, Outcome.ok_bind]
        rw [this]
        constructor
        · rintro ⟨pre, op', post, s', e, e', hu'⟩
          exact ⟨op :: pre, op', post, s', by rw [e]; rfl, by simp [run, e1, e'], hu'⟩
        · rintro ⟨pre, op', post, s', e, e', hu'⟩
          cases pre with
          | nil =>
            simp only [List.nil_append, List.cons.injEq] at e
            obtain ⟨rfl, -⟩ := e
            simp only [run, Outcome.ok.injEq] at e'
            subst e'
            exact absurd hu' hu
          | cons q pre =>
            simp only [List.cons_append, List.cons.injEq] at e
            obtain ⟨rfl, e⟩ := e
            simp only [run, e1, Outcome.ok_bind] at e'
            exact ⟨pre, op', post, s', e, e', hu'⟩
      · have := hab.2 ⟨ha, hu⟩
        simp only [run, this, Outcome.abort_bind]
        constructor
        · intro h; cases h
        rintro ⟨pre, op', post, s', e, e', hu'⟩
        cases pre with
        | nil =>
          simp only [List.nil_append, List.cons.injEq] at e
          obtain ⟨rfl, -⟩ := e
          simp only [run, Outcome.ok.injEq] at e'
          subst e'
          exact absurd hu' hu
        | cons q pre =>
          simp only [List.cons_append, List.cons.injEq] at e
          obtain ⟨rfl, -⟩ := e
          simp [run, this] at e'

example : (step demo (.modBatch [3, 9] [0, 1]) >>= fun s => .ok s.m.contents) =
      .ok [(1, 102, 11), (3, 103, 0), (9, 106, 1)] ∧
    (step demo (.modBatch [3, 9, 10] [0, 1, 2]) >>= fun _ => .ok ()) = .ub ∧
    (step demo (.modBatch [1, 9] [0, 1]) >>= fun _ => .ok ()) = .abort ∧
    (run demo [.clear, .addEnd 5 0] >>= fun _ => .ok ()) = .ub ∧
    (run demo [.removeAt 3, .modBatch [3] [0]] >>= fun _ => .ok ()) = .ub := by decide

example : Undefined (T := Nat) (C := Nat) demo (.modBatch [3, 9, 10] [0, 1, 2]) :=
  ⟨rfl, .inr ⟨[1], [3, 9], [10], by decide, by decide, by decide, rfl⟩⟩

end Verif.Manager

import Verif.Manager.Abstract
import Verif.Manager.OutcomeProps

/-!
# The manager behaves as the table

C119.
-/

set_option linter.unusedSectionVars false

namespace Verif.Manager

open Table (Abs AOp Entry)

variable {T C : Type} [LinearOrder T] [Zero T]

/-- What there is to see of a process with one manager: how many keys have been drawn, and the entries. -/
def St.table (s : St T C) : Abs T C := ⟨s.w.calls, s.m.contents⟩

/-- The operation of the table an operation of the manager stands for: an iterator stands for the key of the
knot it points to. -/
def St.read (s : St T C) : Op T C → AOp T C
  | .insert t c => .insert t c
  | .insertMany ts cs => .insertMany ts cs
  | .addEnd t c => .addEnd t c
  | .removeAt t => .removeAt t
  | .updKey k c => .updKey k c
  | .updKeys l => .updKeys l
  | .modBatch ts cs => .modBatch ts cs
  | .move it t c => .move ((nodeAt s.m.nodes it).map (·.key)) t c
  | .clear => .clear
  | .others k _ => .others k

/-- One operation with the keys it hands to the caller (`outKeys`, return value of `insertCoefficient`). -/
def St.call (s : St T C) : Op T C → Outcome (St T C × List Key)
  | .insert t c => s.m.insertCoefficient s.w t c >>= fun r => .ok (⟨r.1, r.2.1⟩, [r.2.2])
  | .insertMany ts cs => s.m.insertCoefficients s.w ts cs >>= fun r => .ok (⟨r.1, r.2.1⟩, r.2.2)
  | .addEnd t c => s.m.addCoefficientAtEnd s.w t c >>= fun r => .ok (⟨r.1, r.2.1⟩, [r.2.2])
  | op => step s op >>= fun s' => .ok (s', [])

theorem bind_ok_id {α : Type} (o : Outcome α) : (o >>= fun r => .ok r) = o := by cases o <;> rfl

theorem bind_assoc' {α β γ : Type} (o : Outcome α) (f : α → Outcome β) (g : β → Outcome γ) :
    ((o >>= f) >>= g) = o >>= fun a => f a >>= g := by cases o <;> rfl

theorem call_step (s : St T C) (op : Op T C) : (s.call op >>= fun r => .ok r.1) = step s op := by
  cases op <;> simp only [St.call, bind_assoc', Outcome.ok_bind, bind_ok_id] <;> simp only [step]

/-! ### Tables -/

/-- Two tables in order with the same entries are the same. -/
theorem table_ext {l l' : List (Entry T C)} (h : l.Pairwise (fun a b => a.1 < b.1))
    (h' : l'.Pairwise (fun a b => a.1 < b.1)) (he : ∀ x, x ∈ l ↔ x ∈ l') : l = l' := by
  induction l generalizing l' with
  | nil =>
    cases l' with
    | nil => rfl
    | cons y _ => exact absurd ((he y).2 List.mem_cons_self) (by simp)
  | cons x l ih =>
    cases l' with
    | nil => exact absurd ((he x).1 List.mem_cons_self) (by simp)
    | cons y l' =>
      rw [List.pairwise_cons] at h h'
      have hxy : x = y := by
        rcases List.mem_cons.1 ((he x).1 List.mem_cons_self) with e | e
        · exact e
        rcases List.mem_cons.1 ((he y).2 List.mem_cons_self) with e' | e'
        · exact e'.symm
        · exact absurd ((h'.1 x e).trans (h.1 y e')) (lt_irrefl _)
      subst hxy
      refine congrArg _ (ih h.2 h'.2 fun z => ⟨fun hz => ?_, fun hz => ?_⟩)
      · rcases List.mem_cons.1 ((he z).1 (List.mem_cons_of_mem _ hz)) with e | e
        · exact absurd (h.1 z hz) (by simp [e])
        · exact e
      · rcases List.mem_cons.1 ((he z).2 (List.mem_cons_of_mem _ hz)) with e | e
        · exact absurd (h'.1 z hz) (by simp [e])
        · exact e

theorem WF.ordered {w : World} {m : Mgr T C} (h : WF w m) :
    m.contents.Pairwise (fun a b => a.1 < b.1) := by
  have := h.sorted
  simp only [Mgr.contents, List.pairwise_map]
  exact this

theorem add_ordered {e : Entry T C} {l : List (Entry T C)} (h : l.Pairwise (fun a b => a.1 < b.1)) :
    (Table.add e l).Pairwise (fun a b => a.1 < b.1) := by
  simp only [Table.add, List.pairwise_append, List.pairwise_cons]
  refine ⟨h.filter _, ⟨fun x hx => by simpa using (List.mem_filter.1 hx).2, h.filter _⟩,
    fun x hx y hy => ?_⟩
  have hx' : x.1 < e.1 := by simpa using (List.mem_filter.1 hx).2
  rcases List.mem_cons.1 hy with rfl | hy
  · exact hx'
  · exact hx'.trans (by simpa using (List.mem_filter.1 hy).2)

theorem mem_add {e : Entry T C} {l : List (Entry T C)} (x : Entry T C) :
    x ∈ Table.add e l ↔ x = e ∨ (x.1 ≠ e.1 ∧ x ∈ l) := by
  simp only [Table.add, List.mem_append, List.mem_cons, List.mem_filter, decide_eq_true_eq]
  constructor
  · rintro (⟨h, h1⟩ | h | ⟨h, h1⟩)
    · exact .inr ⟨h1.ne, h⟩
    · exact .inl h
    · exact .inr ⟨h1.ne', h⟩
  · rintro (h | ⟨h, h1⟩)
    · exact .inr (.inl h)
    · rcases lt_or_gt_of_ne h with h | h
      · exact .inl ⟨h1, h⟩
      · exact .inr (.inr ⟨h1, h⟩)

theorem overwrite_ordered {l : List (Entry T C)} (h : l.Pairwise (fun a b => a.1 < b.1)) (P : Entry T C → Prop)
    [DecidablePred P] (c : C) :
    (l.map fun y => if P y then (y.1, y.2.1, c) else y).Pairwise (fun a b => a.1 < b.1) := by
  rw [List.pairwise_map]
  refine h.imp fun {a b} hab => ?_
  split <;> split <;> exact hab

theorem table_insert {w : World} {m : Mgr T C} (h : WF w m) (hw : w.calls + 1 < 2 ^ 64) (t : T) (c : C) :
    ∃ w' m' k, m.insertCoefficient w t c = .ok (w', m', k) ∧ WF w' m' ∧
      Table.put ⟨w.calls, m.contents⟩ t c = (⟨w'.calls, m'.contents⟩, k) := by
  obtain ⟨w', m', k, e, hwf, hc, hcase⟩ := insert_spec h hw t c
  refine ⟨w', m', k, e, hwf, ?_⟩
  rcases hcase with ⟨rfl, ⟨c0, hm⟩, -, -⟩ | ⟨h1, -, rfl, hno, -⟩
  · have hf : m.contents.find? (fun x => x.1 = t) = some (t, k, c0) := by
      cases hf : m.contents.find? (fun x => x.1 = t) with
      | none => exact absurd (by simp) (List.find?_eq_none.1 hf _ hm)
      | some x =>
        have hx := List.mem_of_find?_eq_some hf
        have hxt : x.1 = t := by simpa using List.find?_some hf
        obtain ⟨t', k', c'⟩ := x
        simp only at hxt
        subst hxt
        obtain ⟨rfl, rfl⟩ := h.cont_time_inj hx hm
        rfl
    simp only [Table.put, hf, Prod.mk.injEq, Abs.mk.injEq, true_and, and_true]
    refine table_ext (overwrite_ordered h.ordered _ c) hwf.ordered fun ⟨t', k', c'⟩ => ?_
    rw [hc, List.mem_map]
    constructor
    · rintro ⟨⟨t1, k1, c1⟩, hx, e⟩
      by_cases e1 : t1 = t
      · subst e1
        simp only [if_true, Prod.mk.injEq] at e
        obtain ⟨rfl, rfl, rfl⟩ := e
        exact .inl ⟨rfl, (h.cont_time_inj hx hm).1, rfl⟩
      · simp only [e1, if_false] at e
        cases e
        exact .inr ⟨e1, hx⟩
    · rintro (⟨rfl, rfl, rfl⟩ | ⟨hne, hx⟩)
      · exact ⟨_, hm, by simp⟩
      · exact ⟨_, hx, by simp [hne]⟩
  · have hf : m.contents.find? (fun x => x.1 = t) = none := by
      rw [List.find?_eq_none]
      rintro ⟨t', k', c'⟩ hx e
      simp only [decide_eq_true_eq] at e
      subst e
      exact hno _ _ hx
    simp only [Table.put, hf, h1, Prod.mk.injEq, Abs.mk.injEq, true_and, and_true]
    refine table_ext (add_ordered h.ordered) hwf.ordered fun ⟨t', k', c'⟩ => ?_
    rw [hc, mem_add]
    simp only [Prod.mk.injEq]

theorem table_insertLoop {w : World} {m : Mgr T C} (h : WF w m) (l : List (T × C))
    (hw : w.calls + l.length + 1 < 2 ^ 64) :
    ∃ w' m' ks, m.insertLoop w l = .ok (w', m', ks) ∧ WF w' m' ∧
      Table.putAll ⟨w.calls, m.contents⟩ l = (⟨w'.calls, m'.contents⟩, ks) := by
  induction l generalizing w m with
  | nil => exact ⟨w, m, [], rfl, h, rfl⟩
  | cons p l ih =>
    obtain ⟨t, c⟩ := p
    simp only [List.length_cons] at hw
    obtain ⟨w1, m1, k, e, hwf, hput⟩ := table_insert h (by omega) t c
    have hcalls : w1.calls ≤ w.calls + 1 := by
      obtain ⟨w', m', k', e', -, -, hcase⟩ := insert_spec h (by omega) t c
      rw [e] at e'
      cases e'
      rcases hcase with ⟨rfl, -⟩ | ⟨h1, -⟩ <;> omega
    obtain ⟨w2, m2, ks, e2, hwf2, hall⟩ := ih hwf (by omega)
    refine ⟨w2, m2, k :: ks, by simp [Mgr.insertLoop, e, e2], hwf2, ?_⟩
    simp only [Table.putAll, hput, hall]

theorem mem_key_iff {m : Mgr T C} {k : Key} : k ∈ m.contents.map (·.2.1) ↔ ∃ t c, (t, k, c) ∈ m.contents := by
  simp

theorem mem_time_iff {m : Mgr T C} {t : T} : t ∈ m.contents.map (·.1) ↔ ∃ k c, (t, k, c) ∈ m.contents := by
  simp

theorem table_updKey {w : World} {m : Mgr T C} (h : WF w m) (k : Key) (c : C) :
    (k ∉ m.contents.map (·.2.1) ∧ m.updateCoefficientByKey k c = .abort) ∨
    ∃ m', k ∈ m.contents.map (·.2.1) ∧ m.updateCoefficientByKey k c = .ok m' ∧ WF w m' ∧
      m'.contents = Table.setKey k c m.contents := by
  rcases update_spec h k c with ⟨hno, e⟩ | ⟨t, c0, m', hm, e, hwf, -, -, hc⟩
  · exact .inl ⟨fun hk => by obtain ⟨t, c', hx⟩ := mem_key_iff.1 hk; exact hno t c' hx, e⟩
  · refine .inr ⟨m', mem_key_iff.2 ⟨t, c0, hm⟩, e, hwf, ?_⟩
    refine table_ext hwf.ordered (overwrite_ordered h.ordered _ c) fun ⟨t', k', c'⟩ => ?_
    rw [hc]
    simp only [Table.setKey, List.mem_map]
    constructor
    · rintro (⟨rfl, rfl, rfl⟩ | ⟨hne, hx⟩)
      · exact ⟨_, hm, by simp⟩
      · exact ⟨_, hx, by simp [hne]⟩
    · rintro ⟨⟨t1, k1, c1⟩, hx, e⟩
      by_cases e1 : k1 = k
      · subst e1
        simp only [if_true, Prod.mk.injEq] at e
        obtain ⟨rfl, rfl, rfl⟩ := e
        exact .inl ⟨(h.cont_key_inj hx hm).1, rfl, rfl⟩
      · simp only [e1, if_false] at e
        cases e
        exact .inr ⟨e1, hx⟩

theorem table_updKeys {w : World} {m : Mgr T C} (h : WF w m) (l : List (Key × C)) :
    (m.updateCoefficients l >>= fun m' => .ok m'.contents) = Table.setKeys m.contents l := by
  induction l generalizing m with
  | nil => rfl
  | cons p l ih =>
    obtain ⟨k, c⟩ := p
    rcases table_updKey h k c with ⟨hk, e⟩ | ⟨m', hk, e, hwf, hc⟩
    · simp [Mgr.updateCoefficients, Table.setKeys, e, hk]
    · simp only [Mgr.updateCoefficients, Table.setKeys, e, if_pos hk, Outcome.ok_bind, ← hc]
      exact ih hwf

theorem table_assignRun (ns : List (Node T C)) (l : List (T × C)) :
    (assignRun ns l >>= fun ns' => .ok (ns'.map fun n => (n.time, n.key, n.coef))) =
      Table.overlay (ns.map fun n => (n.time, n.key, n.coef)) l := by
  induction l generalizing ns with
  | nil => cases ns <;> rfl
  | cons p l ih =>
    obtain ⟨t, c⟩ := p
    cases ns with
    | nil => rfl
    | cons n ns =>
      by_cases e : n.time = t
      · simp only [assignRun, Table.overlay, e, List.map_cons, if_true, ← ih, bind_assoc',
          Outcome.ok_bind, Outcome.pure_eq]
      · simp [assignRun, Table.overlay, e]

theorem table_modBatch {w : World} {m : Mgr T C} (h : WF w m) {t : T} {ts' : List T} {cs : List C}
    (hl : (t :: ts').length = cs.length) (ht : t ∈ m.contents.map (·.1)) :
    (m.modifyCoefficientsValuesInBatch (t :: ts') cs >>= fun m' => .ok m'.contents) =
      (Table.overlay (m.contents.filter (fun x => t ≤ x.1)) ((t :: ts').zip cs) >>= fun l =>
        .ok (m.contents.filter (fun x => x.1 < t) ++ l)) := by
  obtain ⟨k, c, hm⟩ := mem_time_iff.1 ht
  obtain ⟨n, hn, rfl, -, -⟩ := mem_contents.1 hm
  obtain ⟨pre, mid, hsplit⟩ := List.append_of_mem hn
  have hord := h.ordered
  have hs := h.sorted
  have hcont : m.contents = (pre.map fun n => (n.time, n.key, n.coef)) ++
      (n :: mid).map fun n => (n.time, n.key, n.coef) := by simp [Mgr.contents, hsplit]
  rw [hsplit] at hs
  simp only [Sorted, List.pairwise_append, List.pairwise_cons] at hs
  have hlow : ∀ x ∈ pre, x.time < n.time := fun x hx => hs.2.2 x hx n List.mem_cons_self
  have hhigh : ∀ x ∈ n :: mid, n.time ≤ x.time := by
    intro x hx
    rcases List.mem_cons.1 hx with rfl | hx
    · exact le_rfl
    · exact (hs.2.1.1 x hx).le
  have hf1 : m.contents.filter (fun x => n.time ≤ x.1) = (n :: mid).map fun n => (n.time, n.key, n.coef) := by
    rw [hcont, List.filter_append, List.filter_eq_nil_iff.2, List.nil_append, List.filter_eq_self.2]
    · intro x hx
      obtain ⟨y, hy, rfl⟩ := List.mem_map.1 hx
      simpa using hhigh y hy
    · intro x hx
      obtain ⟨y, hy, rfl⟩ := List.mem_map.1 hx
      simpa using hlow y hy
  have hf2 : m.contents.filter (fun x => x.1 < n.time) = pre.map fun n => (n.time, n.key, n.coef) := by
    rw [hcont, List.filter_append, List.filter_eq_self.2, List.filter_eq_nil_iff.2, List.append_nil]
    · intro x hx
      obtain ⟨y, hy, rfl⟩ := List.mem_map.1 hx
      simpa using hhigh y hy
    · intro x hx
      obtain ⟨y, hy, rfl⟩ := List.mem_map.1 hx
      simpa using hlow y hy
  rw [modBatch_eval h.sorted hsplit hl rfl, hf1, hf2, ← table_assignRun, bind_assoc', bind_assoc']
  simp [Mgr.contents]

/-- C119, calls. Every call on a reachable manager, with its outcome and the keys it returns, is the call on the
table of its entries. -/
theorem C119_call {s : St T C} (hr : Reachable s) (op : Op T C) (hs : SafeOp s op)
    (hc : s.w.calls + draws op + 1 < 2 ^ 64) :
    (s.call op >>= fun r => .ok (r.1.table, r.2)) = Table.call s.table (s.read op) := by
  have h := hr.WF (by omega)
  simp only [St.table]
  cases op with
  | insert t c =>
    obtain ⟨w', m', k, e, -, hp⟩ := table_insert h (by simp only [draws] at hc; omega) t c
    simp [St.call, St.read, Table.call, e, hp]
  | insertMany ts cs =>
    by_cases hl : ts.length = cs.length
    · obtain ⟨w', m', ks, e, -, hp⟩ := table_insertLoop h (ts.zip cs)
        (by simp only [draws] at hc; simp [← hl]; omega)
      simp [St.call, St.read, Table.call, Mgr.insertCoefficients, hl, e, hp]
    · simp [St.call, St.read, Table.call, Mgr.insertCoefficients, hl]
  | addEnd t c =>
    by_cases hne : s.m.nodes = []
    · have : s.m.contents = [] := by simp [Mgr.contents, hne]
      simp only [St.call, St.read, Table.call, Mgr.addCoefficientAtEnd, Mgr.getMaxTime, hne,
        this, Table.maxTime]
      by_cases h0 : (0 : T) < t <;> simp [h0]
    · have hmax : Table.maxTime s.m.contents = s.m.getMaxTime := by
        simp only [Table.maxTime, Mgr.contents, Mgr.getMaxTime, List.getLast?_map]
        cases s.m.nodes.getLast? <;> rfl
      have hne' : s.m.contents ≠ [] := by simpa [Mgr.contents] using hne
      simp only [St.call, St.read, Table.call, hmax, hne', if_false]
      rcases addEnd_spec h (by simp only [draws] at hc; omega) hne t c with
        ⟨hle, e⟩ | ⟨w', m', hlt, e, hcalls, -, -, hn, -⟩
      · simp [e, hle.not_gt]
      · simp [e, hlt, hcalls, Mgr.contents, hn]
  | removeAt t =>
    simp only [St.call, step, St.read, Table.call]
    rcases remove_spec h t with ⟨hno, e⟩ | ⟨k, c, m', hm, e, hwf, -, hc'⟩
    · rw [if_neg fun ht => ?_]
      · simp [e]
      · obtain ⟨k, c, hm⟩ := mem_time_iff.1 ht
        exact hno k c hm
    · rw [if_pos (mem_time_iff.2 ⟨k, c, hm⟩)]
      simp only [e, Outcome.ok_bind, Outcome.ok.injEq, Prod.mk.injEq, Abs.mk.injEq, true_and, and_true]
      refine table_ext hwf.ordered (h.ordered.filter _) fun ⟨t', k', c'⟩ => ?_
      rw [hc', List.mem_filter]
      simp [and_comm]
  | updKey k c =>
    simp only [St.call, step, St.read, Table.call]
    rcases table_updKey h k c with ⟨hk, e⟩ | ⟨m', hk, e, -, hc'⟩
    · simp only [e, if_neg hk, Outcome.abort_bind]
    · simp only [e, if_pos hk, Outcome.ok_bind, hc']
  | updKeys l =>
    simp only [St.call, step, St.read, Table.call, ← table_updKeys h l, bind_assoc', Outcome.ok_bind]
  | modBatch ts cs =>
    simp only [St.call, step, St.read, Table.call, bind_assoc', Outcome.ok_bind]
    by_cases hl : ts.length = cs.length
    · cases ts with
      | nil => simp [Mgr.modifyCoefficientsValuesInBatch, ← hl]
      | cons t ts' =>
        rw [if_pos hl]
        by_cases ht : t ∈ s.m.contents.map (·.1)
        · have := congrArg (fun o => o >>= fun l => Outcome.ok ((⟨s.w.calls, l⟩ : Abs T C), ([] : List Key)))
            (table_modBatch h hl ht)
          simp only [bind_assoc', Outcome.ok_bind] at this
          simp only [if_pos ht, this]
        · have hno : ∀ x ∈ s.m.nodes.reverse, x.time ≠ t := fun x hx e =>
            ht (mem_time_iff.2 ⟨x.key, x.coef, mem_contents.2 ⟨x, List.mem_reverse.1 hx, e, rfl, rfl⟩⟩)
          simp only [if_neg ht, Mgr.modifyCoefficientsValuesInBatch, if_pos hl, searchBack_none [] hno,
            Outcome.ub_bind]
    · simp [Mgr.modifyCoefficientsValuesInBatch, hl]
  | move it t c =>
    simp only [St.call, step, St.read, Table.call, bind_assoc', Outcome.ok_bind]
    cases hn : nodeAt s.m.nodes it with
    | none => simp [Mgr.modifyCoefficient, hn]
    | some n =>
      obtain ⟨hmem, rfl⟩ := nodeAt_some_mem hn
      have hfree : ∀ x ∈ s.m.nodes, x.time ≠ t := fun x hx =>
        hs _ (mem_contents.2 ⟨x, hx, rfl, rfl, rfl⟩)
      obtain ⟨w', m', e, hcalls, -, hwf, hc'⟩ := move_spec h hmem t c hfree
      simp only [e, Outcome.ok_bind, Option.map_some, hcalls, Outcome.ok.injEq, Prod.mk.injEq,
        Abs.mk.injEq, true_and, and_true]
      refine table_ext hwf.ordered (add_ordered (h.ordered.filter _)) fun ⟨t', k', c'⟩ => ?_
      rw [hc', mem_add, List.mem_filter]
      simp only [Prod.mk.injEq, ne_eq, decide_not, Bool.not_eq_eq_eq_not, Bool.not_true, decide_eq_false_iff_not]
      have hnc : (n.time, n.key, n.coef) ∈ s.m.contents := mem_contents.2 ⟨n, hmem, rfl, rfl, rfl⟩
      refine or_congr Iff.rfl ⟨fun ⟨h1, h2⟩ => ⟨fun e => ?_, h2, fun e => ?_⟩, fun ⟨_, h2, h3⟩ => ⟨fun e => ?_, h2⟩⟩
      · exact hs _ h2 e
      · subst e; exact h1 (h.cont_key_inj h2 hnc).1
      · subst e; exact h3 (h.cont_time_inj h2 hnc).1
  | clear => rfl
  | others a b => rfl

/-- The operations of the table that a history of the manager stands for. -/
def St.readRun (s : St T C) : List (Op T C) → List (AOp T C)
  | [] => []
  | op :: rest => s.read op :: match step s op with
    | .ok s' => St.readRun s' rest
    | _ => []

/-- C119, histories. Every history on a reachable manager ends as the same history on the table of its entries:
with the same entries and count of keys, or with the same failure. -/
theorem C119_history {s : St T C} (hr : Reachable s) (ops : List (Op T C)) (hs : SafeRun s ops)
    (hc : ∀ pre op post s', ops = pre ++ op :: post → run s pre = .ok s' →
      s'.w.calls + draws op + 1 < 2 ^ 64) :
    (run s ops >>= fun s' => .ok s'.table) = Table.run s.table (s.readRun ops) := by
  induction ops generalizing s with
  | nil => rfl
  | cons op ops ih =>
    have hcall := C119_call hr op hs.1 (hc [] op ops s rfl rfl)
    have hstep := call_step s op
    simp only [St.readRun, run, Table.run, ← hcall, bind_assoc', Outcome.ok_bind]
    cases e : s.call op with
    | ok r =>
      rw [e, Outcome.ok_bind] at hstep
      simp only [← hstep, Outcome.ok_bind]
      exact ih (Reachable.step hr hs.1 hstep.symm) (hs.2 _ hstep.symm) fun pre op' post s' e1 e2 =>
        hc (op :: pre) op' post s' (by rw [e1]; rfl) (by simp [run, ← hstep, e2])
    | abort => rw [e, Outcome.abort_bind] at hstep; simp [← hstep]
    | throw => rw [e, Outcome.throw_bind] at hstep; simp [← hstep]
    | ub => rw [e, Outcome.ub_bind] at hstep; simp [← hstep]

theorem upperSplit_filter (t : T) {ns : List (Node T C)} (hs : Sorted ns) :
    upperSplit t ns = (ns.filter (fun n => n.time ≤ t), ns.filter (fun n => t < n.time)) := by
  induction ns with
  | nil => rfl
  | cons n ns ih =>
    simp only [Sorted, List.pairwise_cons] at hs
    simp only [upperSplit]
    by_cases h : t < n.time
    · have h1 : ns.filter (fun n => n.time ≤ t) = [] := by
        rw [List.filter_eq_nil_iff]
        intro x hx
        simpa using h.trans (hs.1 x hx)
      have h2 : ns.filter (fun n => t < n.time) = ns := by
        rw [List.filter_eq_self]
        intro x hx
        simpa using h.trans (hs.1 x hx)
      simp [h, h1, h2]
    · simp [h, ih hs.2, not_lt.1 h]

/-- C119, queries. Everything a reachable manager answers is a function of its table. -/
theorem C119_queries {s : St T C} (hr : Reachable s) (hc : s.w.calls + 1 < 2 ^ 64) (t b e : T) (k : Key)
    (o : List T) (o' : List Key) :
    s.m.getTimes o = s.table.tab.map (·.1) ∧ s.m.getKeys o' = s.table.tab.map (·.2.1) ∧
    s.m.size = s.table.tab.length ∧ (s.m.isEmpty = true ↔ s.table.tab = []) ∧
    s.m.getMinTime = Table.minTime s.table.tab ∧ s.m.getMaxTime = Table.maxTime s.table.tab ∧
    (s.m.hasCoefficientAtTime t = true ↔ t ∈ s.table.tab.map (·.1)) ∧
    s.m.getCoefficientByKey k = (Table.byKey s.table.tab k >>= fun x => .ok x.2.2) ∧
    s.m.getCoefficientTimeByKey k = (Table.byKey s.table.tab k >>= fun x => .ok x.1) ∧
    ((s.m.getCoefficientsAt t).map fun p =>
      ((p.1.time, p.1.key, p.1.coef), (p.2.time, p.2.key, p.2.coef))) = Table.around s.table.tab t ∧
    s.m.getTimesInWindow b e = Table.window s.table.tab b e := by
  have h := hr.WF hc
  have hmax : s.m.getMaxTime = Table.maxTime s.m.contents := by
    simp only [Table.maxTime, Mgr.contents, Mgr.getMaxTime, List.getLast?_map]
    cases s.m.nodes.getLast? <;> rfl
  have hmin : s.m.getMinTime = Table.minTime s.m.contents := by
    simp only [Table.minTime, Mgr.contents, Mgr.getMinTime, List.head?_map]
    cases s.m.nodes <;> rfl
  simp only [St.table]
  refine ⟨by simp [Mgr.getTimes, Mgr.contents], by simp [Mgr.getKeys, Mgr.appendKeys, Mgr.contents],
    by simp [Mgr.size, Mgr.contents], by simp [Mgr.isEmpty, Mgr.contents], hmin, hmax, ?_, ?_, ?_, ?_, ?_⟩
  · cases hf : mapFind s.m.nodes t with
    | none =>
      have := mapFind_none.1 hf
      simp only [Mgr.hasCoefficientAtTime, hf, Option.isSome_none, Bool.false_eq_true, false_iff]
      intro ht
      obtain ⟨k, c, hm⟩ := mem_time_iff.1 ht
      obtain ⟨n, hn, e, -⟩ := mem_contents.1 hm
      exact this n hn e
    | some n =>
      obtain ⟨hn, e⟩ := mapFind_some hf
      simp only [Mgr.hasCoefficientAtTime, hf, Option.isSome_some, true_iff]
      exact mem_time_iff.2 ⟨n.key, n.coef, mem_contents.2 ⟨n, hn, e, rfl, rfl⟩⟩
  · cases hf : s.m.contents.find? (fun x => x.2.1 = k) with
    | none =>
      rw [List.find?_eq_none] at hf
      rw [(getByKey_abort (k := k) h fun t c hm => hf _ hm (by simp)).1]
      simp [Table.byKey, List.find?_eq_none.2 hf]
    | some x =>
      have hx := List.mem_of_find?_eq_some hf
      have hxk : x.2.1 = k := by simpa using List.find?_some hf
      obtain ⟨t', k', c'⟩ := x
      simp only at hxk
      subst hxk
      rw [(getByKey_spec h hx).1]
      simp [Table.byKey, hf]
  · cases hf : s.m.contents.find? (fun x => x.2.1 = k) with
    | none =>
      rw [List.find?_eq_none] at hf
      rw [(getByKey_abort (k := k) h fun t c hm => hf _ hm (by simp)).2]
      simp [Table.byKey, List.find?_eq_none.2 hf]
    | some x =>
      have hx := List.mem_of_find?_eq_some hf
      have hxk : x.2.1 = k := by simpa using List.find?_some hf
      obtain ⟨t', k', c'⟩ := x
      simp only at hxk
      subst hxk
      rw [(getByKey_spec h hx).2]
      simp [Table.byKey, hf]
  · unfold Mgr.getCoefficientsAt Table.around
    rw [upperSplit_filter t h.sorted, ← hmax]
    cases hn : s.m.nodes with
    | nil => simp [Mgr.contents, hn]
    | cons n ns =>
      simp only
      rw [← hn]
      by_cases ht : t = s.m.getMaxTime
      · simp only [if_pos ht, Mgr.contents, ← List.map_dropLast, List.getLast?_map]
        cases s.m.nodes.dropLast.getLast? <;> cases s.m.nodes.getLast? <;> rfl
      · simp only [if_neg ht, Mgr.contents, List.filter_map, List.getLast?_map, List.head?_map,
          Function.comp_def]
        cases (s.m.nodes.filter fun n => decide (n.time ≤ t)).getLast? <;>
          cases s.m.nodes.filter fun n => decide (t < n.time) <;> rfl
  · unfold Mgr.getTimesInWindow Table.window
    rw [← hmax, ← hmin]
    by_cases h1 : e = s.m.getMaxTime
    · by_cases h2 : s.m.getMinTime ≤ b
      · simp only [if_pos h1, if_pos h2, if_pos (And.intro h1 h2)]
        by_cases hl : s.m.contents.length ≤ 1
        · rw [if_pos hl]
          have hl' : s.m.nodes.length ≤ 1 := by simpa [Mgr.contents] using hl
          match hn : s.m.nodes, hl' with
          | [], _ => simp [windowLoop]
          | [n], _ => simp [windowLoop]
        · have hw := C09_window_exact hr hc (by simp [Mgr.contents] at hl; exact hl) b h2 []
          simp only [Mgr.getTimesInWindow, if_true, if_pos h2] at hw
          rw [hw, if_neg hl]
          simp [Mgr.getTimes, Mgr.contents, List.map_tail, Function.comp_def]
      · simp [h2]
    · simp [h1]

example : (run demo [.insert 2 20, .updKey 103 7, .removeAt 9, .addEnd 4 40] >>= fun s => .ok s.m.contents) =
      (Table.run demo.table [.insert 2 20, .updKey 103 7, .removeAt 9, .addEnd 4 40] >>= fun a => .ok a.tab) ∧
    (run demo [.insert 2 20, .updKey 103 7, .removeAt 9, .addEnd 4 40] >>= fun s => .ok s.m.contents) ≠ .ub := by
  decide

end Verif.Manager

import Verif.Map.ListModel
import Verif.Map.Props
import Verif.Manager.CurveLemmas

/-!
# C151: lists of times some of which are not a number
-/

set_option linter.unusedSectionVars false
set_option linter.dupNamespace false

namespace Verif.Map

open Verif.Manager Tree

variable {T C : Type} [LinearOrder T]

/-- Specification: write a value at a time into a table ordered by time. -/
def write (l : List (T × C)) (e : T × C) : List (T × C) :=
  l.filter (fun x => x.1 < e.1) ++ e :: l.filter (fun x => e.1 < x.1)

/-- Specification: the entries whose time is a number. -/
def numbers : List (Option T × C) → List (T × C)
  | [] => []
  | (some t, v) :: rest => (t, v) :: numbers rest
  | (none, _) :: rest => numbers rest

/-! ## Numbers among trees that may hold NaN -/

theorem scan_up (ns : List (Node T C)) (k : T) :
    scan (Cmp.nan T) (ns.map up) (some k) = (scanAtTime ns k).map up := by
  induction ns with
  | nil => rfl
  | cons n rest ih =>
    rw [List.map_cons, scan, scanAtTime, ih]
    simp only [Cmp.nan, up, decide_eq_true_eq]
    split
    · split <;> rfl
    · rfl

theorem insert_up {t : Nodes (Option T) C} {ns : List (Node T C)} (ht : t.toList = ns.map up) (hs : Sorted ns)
    (n : Node T C) : insert (Cmp.nan T) t (up n) = .ok ((mapInsert ns n).1.map up, (mapInsert ns n).2) := by
  rw [insert, show (up n).time = some n.time from rfl]
  rcases cut hs n.time with ⟨a, b, rfl, ha, hb⟩ | ⟨a, m, b, rfl, ha, hm, hb⟩
  · rw [uniquePos_spec _ _ _ t (a.map up) (b.map up) (by rw [ht, List.map_append])]
    · rw [mapInsert_between ha hb, List.getLast?_map]
      cases h : a.getLast? with
      | none =>
        rw [List.getLast?_eq_none_iff.1 h] at ht ⊢
        simp [place, ht, up]
      | some x =>
        simp only [Option.map_some]
        rw [if_pos (by simp [up, Cmp.nan, ha x (List.mem_of_getLast? h)]), Outcome.ok_bind, place, ht, List.map_append,
          List.take_left' rfl, List.drop_left' rfl]
        simp [up]
    · intro x hx
      obtain ⟨y, hy, rfl⟩ := List.mem_map.1 hx
      simp [Cmp.nan, up, (ha y hy).le]
    · intro x hx
      obtain ⟨y, hy, rfl⟩ := List.mem_map.1 hx
      simp [Cmp.nan, up, hb y hy]
  · rw [uniquePos_spec _ _ _ t ((a ++ [m]).map up) (b.map up) (by rw [ht]; simp)]
    · rw [mapInsert_on ha hm, List.getLast?_map]
      simp only [List.getLast?_append, List.getLast?_singleton, Option.some_or, Option.map_some]
      rw [if_neg (by simp [up, Cmp.nan, hm]), Outcome.ok_bind, place, ht]
      simp [up]
    · intro x hx
      obtain ⟨y, hy, rfl⟩ := List.mem_map.1 hx
      rcases List.mem_append.1 hy with h | h
      · simp [Cmp.nan, up, (ha y h).le]
      · rw [List.mem_singleton.1 h]; simp [Cmp.nan, up, hm]
    · intro x hx
      obtain ⟨y, hy, rfl⟩ := List.mem_map.1 hx
      simp [Cmp.nan, up, hb y hy]

theorem nodeAt_up (ns : List (Node T C)) (a : Nat) : nodeAt (ns.map up) a = (nodeAt ns a).map up := by
  rw [nodeAt, nodeAt, List.find?_map]
  rfl

theorem setCoefAt_up (ns : List (Node T C)) (a : Nat) (v : C) : setCoefAt (ns.map up) a v = (setCoefAt ns a v).map up := by
  rw [setCoefAt, setCoefAt, List.map_map, List.map_map]
  refine List.map_congr_left fun n _ => ?_
  by_cases h : n.addr = a <;> simp [Function.comp, up, h]

theorem insertCoefficient_up {w : World} {t : Nodes (Option T) C} {m : Mgr T C} (ht : t.toList = m.nodes.map up)
    (hs : Sorted m.nodes) (k : T) (v : C) :
    insertCoefficient (Cmp.nan T) w t m.keyMap (some k) v =
      (m.insertCoefficient w k v >>= fun r => .ok (r.1, upM r.2.1, r.2.2)) := by
  rw [insertCoefficient, ht, scan_up, Mgr.insertCoefficient]
  cases scanAtTime m.nodes k with
  | none =>
    simp only [Option.map_none]
    rw [show (⟨(newAddr (getNextKey w).2).1, some k, (getNextKey w).1, v⟩ : Node (Option T) C) =
      up ⟨(newAddr (getNextKey w).2).1, k, (getNextKey w).1, v⟩ from rfl, insert_up ht hs]
    rfl
  | some n =>
    simp only [Option.map_some, Mgr.updateCoefficientByKey]
    rw [show (up n).key = n.key from rfl]
    cases kmFind m.keyMap n.key with
    | none => rfl
    | some a =>
      simp only
      rw [nodeAt_up, setCoefAt_up]
      cases nodeAt m.nodes a <;> rfl

/-! ## Managers whose key map may have more keys than there are knots -/

/-- What of the invariant of the manager survives a NaN. -/
structure Loose (w : World) (m : Mgr T C) : Prop where
  sorted : Sorted m.nodes
  addrNodup : (m.nodes.map (·.addr)).Nodup
  addrLt : ∀ n ∈ m.nodes, n.addr < w.nextAddr
  keyOf : ∀ n ∈ m.nodes, kmFind m.keyMap n.key = some n.addr
  keyLe : ∀ n ∈ m.nodes, n.key ≤ w.calls

theorem Loose.of_WF {w : World} {m : Mgr T C} (h : WF w m) : Loose w m :=
  ⟨h.sorted, h.addrNodup, h.addrLt, h.keyOf, h.keyLe⟩

theorem Loose.nan {w : World} {m : Mgr T C} (h : Loose w m) (a : Nat) :
    Loose ⟨w.calls + 1, w.nextAddr + 1⟩ ⟨m.nodes, kmSet m.keyMap (w.calls + 1) a⟩ where
  sorted := h.sorted
  addrNodup := h.addrNodup
  addrLt n hn := Nat.lt_succ_of_lt (h.addrLt n hn)
  keyOf n hn := by
    have := h.keyLe n hn
    rw [kmFind_kmSet, if_neg (by omega)]
    exact h.keyOf n hn
  keyLe n hn := Nat.le_succ_of_le (h.keyLe n hn)

theorem write_split {a b : List (T × C)} {k : T} (v : C) (ha : ∀ x ∈ a, x.1 < k) (hb : ∀ x ∈ b, k < x.1)
    (mid : List (T × C)) (hm : ∀ x ∈ mid, x.1 = k) : write (a ++ mid ++ b) (k, v) = a ++ (k, v) :: b := by
  have e1 : a.filter (fun x => decide (x.1 < k)) = a := List.filter_eq_self.2 fun x hx => by simpa using ha x hx
  have e2 : b.filter (fun x => decide (x.1 < k)) = [] := List.filter_eq_nil_iff.2 fun x hx => by simpa using (hb x hx).le
  have e3 : a.filter (fun x => decide (k < x.1)) = [] := List.filter_eq_nil_iff.2 fun x hx => by simpa using (ha x hx).le
  have e4 : b.filter (fun x => decide (k < x.1)) = b := List.filter_eq_self.2 fun x hx => by simpa using hb x hx
  have e5 : mid.filter (fun x => decide (x.1 < k)) = [] := List.filter_eq_nil_iff.2 fun x hx => by simp [hm x hx]
  have e6 : mid.filter (fun x => decide (k < x.1)) = [] := List.filter_eq_nil_iff.2 fun x hx => by simp [hm x hx]
  simp only [write, List.filter_append, e1, e2, e3, e4, e5, e6, List.append_nil, List.nil_append]

theorem Loose.insert {w : World} {m : Mgr T C} (h : Loose w m) (hc : w.calls + 1 < 2 ^ 64) (k : T) (v : C) :
    ∃ w' m' key, m.insertCoefficient w k v = .ok (w', m', key) ∧ Loose w' m' ∧ w'.calls ≤ w.calls + 1 ∧
      m'.nodes ≠ [] ∧ m'.knots = write m.knots (k, v) := by
  have hkey : (w.calls + 1) % 2 ^ 64 = w.calls + 1 := Nat.mod_eq_of_lt hc
  rcases cut h.sorted k with ⟨a, b, e, ha, hb⟩ | ⟨a, n, b, e, ha, hn, hb⟩
  · have hscan : scanAtTime m.nodes k = none := by
      cases hx : scanAtTime m.nodes k with
      | none => rfl
      | some x =>
        obtain ⟨hx1, hx2⟩ := scanAtTime_some hx
        rw [e] at hx1
        rcases List.mem_append.1 hx1 with h' | h'
        · exact absurd hx2 (ha x h').ne
        · exact absurd hx2 (hb x h').ne'
    have hins : mapInsert m.nodes ⟨w.nextAddr, k, w.calls + 1, v⟩ = (a ++ ⟨w.nextAddr, k, w.calls + 1, v⟩ :: b, w.nextAddr) := by
      rw [e]
      exact mapInsert_between ha hb
    refine ⟨⟨w.calls + 1, w.nextAddr + 1⟩, ⟨a ++ ⟨w.nextAddr, k, w.calls + 1, v⟩ :: b, kmSet m.keyMap (w.calls + 1) w.nextAddr⟩,
      w.calls + 1, ?_, ?_, le_rfl, by simp, ?_⟩
    · rw [Mgr.insertCoefficient, hscan]
      simp only [getNextKey, newAddr, hkey, hins]
    · have hnd := h.addrNodup
      have hlt := h.addrLt
      have hko := h.keyOf
      have hkl := h.keyLe
      have hso := h.sorted
      rw [e] at hnd hlt hko hkl hso
      refine ⟨?_, ?_, ?_, ?_, ?_⟩
      · simp only [Sorted, List.pairwise_append, List.pairwise_cons] at hso ⊢
        refine ⟨hso.1, ⟨hb, hso.2.1⟩, fun x hx y hy => ?_⟩
        rcases List.mem_cons.1 hy with rfl | hy
        · exact ha x hx
        · exact hso.2.2 x hx y hy
      · simp only [List.map_append, List.map_cons]
        rw [List.nodup_middle, List.nodup_cons, ← List.map_append]
        refine ⟨fun hm => ?_, hnd⟩
        obtain ⟨x, hx, ex⟩ := List.mem_map.1 hm
        exact absurd ex (hlt x hx).ne
      · intro x hx
        rw [List.mem_append, List.mem_cons] at hx
        rcases hx with hx | rfl | hx
        · exact Nat.lt_succ_of_lt (hlt x (by simp [hx]))
        · exact Nat.lt_succ_self _
        · exact Nat.lt_succ_of_lt (hlt x (by simp [hx]))
      · intro x hx
        simp only
        rw [kmFind_kmSet]
        have old : x ∈ a ++ b → (if x.key = w.calls + 1 then some w.nextAddr else kmFind m.keyMap x.key) = some x.addr := by
          intro hx
          have := hkl x hx
          rw [if_neg (by omega)]
          exact hko x hx
        rw [List.mem_append, List.mem_cons] at hx
        rcases hx with hx | rfl | hx
        · exact old (by simp [hx])
        · rw [if_pos rfl]
        · exact old (by simp [hx])
      · intro x hx
        rw [List.mem_append, List.mem_cons] at hx
        rcases hx with hx | rfl | hx
        · exact Nat.le_succ_of_le (hkl x (by simp [hx]))
        · exact le_rfl
        · exact Nat.le_succ_of_le (hkl x (by simp [hx]))
    · have := write_split (a := a.map fun n => (n.time, n.coef)) (b := b.map fun n => (n.time, n.coef)) v
        (by simpa using ha) (by simpa using hb) [] (by simp)
      simp only [Mgr.knots, e, List.map_append, List.map_cons]
      rw [← this, List.append_nil]
  · have hmem : n ∈ m.nodes := by simp [e]
    have hscan : scanAtTime m.nodes k = some n := by
      cases hx : scanAtTime m.nodes k with
      | none => exact absurd hn (scanAtTime_none h.sorted hx n hmem)
      | some x =>
        obtain ⟨hx1, hx2⟩ := scanAtTime_some hx
        rw [h.sorted.inj hx1 hmem (hx2.trans hn.symm)]
    have hset : ∀ x : Node T C, (if x.addr = n.addr then { x with coef := v } else x).addr = x.addr ∧
        (if x.addr = n.addr then { x with coef := v } else x).time = x.time ∧
        (if x.addr = n.addr then { x with coef := v } else x).key = x.key := by
      intro x
      split <;> simp
    refine ⟨w, ⟨setCoefAt m.nodes n.addr v, m.keyMap⟩, n.key, ?_, ?_, Nat.le_succ _, ?_, ?_⟩
    · rw [Mgr.insertCoefficient, hscan]
      simp only [Mgr.updateCoefficientByKey, h.keyOf n hmem, nodeAt_eq_some h.addrNodup hmem]
      rfl
    · refine ⟨?_, ?_, ?_, ?_, ?_⟩
      · have := h.sorted
        rw [sorted_iff_times] at this ⊢
        simp only [setCoefAt, List.map_map]
        rw [show ((fun x : Node T C => x.time) ∘ fun n_1 => if n_1.addr = n.addr then { n_1 with coef := v } else n_1) =
          fun x => x.time from funext fun x => (hset x).2.1]
        exact this
      · simp only [setCoefAt, List.map_map]
        rw [show ((fun x : Node T C => x.addr) ∘ fun n_1 => if n_1.addr = n.addr then { n_1 with coef := v } else n_1) =
          fun x => x.addr from funext fun x => (hset x).1]
        exact h.addrNodup
      · intro x hx
        obtain ⟨y, hy, rfl⟩ := List.mem_map.1 hx
        rw [(hset y).1]
        exact h.addrLt y hy
      · intro x hx
        obtain ⟨y, hy, rfl⟩ := List.mem_map.1 hx
        rw [(hset y).1, (hset y).2.2]
        exact h.keyOf y hy
      · intro x hx
        obtain ⟨y, hy, rfl⟩ := List.mem_map.1 hx
        rw [(hset y).2.2]
        exact h.keyLe y hy
    · simp [setCoefAt, e]
    · have hnd := h.addrNodup
      rw [e, List.map_append, List.map_cons, List.nodup_middle, List.nodup_cons, ← List.map_append] at hnd
      have keep : ∀ l : List (Node T C), (∀ x ∈ l, x ∈ a ++ b) →
          l.map (fun x => if x.addr = n.addr then { x with coef := v } else x) = l := by
        intro l hl
        conv_rhs => rw [← List.map_id l]
        refine List.map_congr_left fun x hx => ?_
        have hx' : x.addr ≠ n.addr := fun ex => hnd.1 (List.mem_map.2 ⟨x, hl x hx, ex⟩)
        rw [if_neg hx']
        rfl
      have := write_split (a := a.map fun n => (n.time, n.coef)) (b := b.map fun n => (n.time, n.coef)) v
        (by simpa using ha) (by simpa using hb) [(n.time, n.coef)] (by simpa using hn)
      simp only [Mgr.knots, setCoefAt, e, List.map_append, List.map_cons]
      rw [keep a (by simp +contextual), keep b (by simp +contextual)]
      simp only [if_true]
      simp only [List.append_assoc, List.singleton_append] at this
      rw [this, hn]

/-! ## C151 -/

theorem loop_nonempty (shape : Nat → List (Node (Option T) C) → Nodes (Option T) C)
    (hshape : ∀ i l, (shape i l).toList = l) :
    ∀ (l : List (Option T × C)) {w : World} {m : Mgr T C} {t : Nodes (Option T) C}, Loose w m → m.nodes ≠ [] →
    t.toList = m.nodes.map up → w.calls + l.length < 2 ^ 64 →
    ∃ w' m' keys, insertLoop (Cmp.nan T) shape w t m.keyMap l = .ok (w', upM m', keys) ∧
      m'.knots = (numbers l).foldl write m.knots ∧ keys.length = l.length
  | [], w, m, t, _, _, ht, _ => ⟨w, m, [], by rw [insertLoop, ht]; rfl, rfl, rfl⟩
  | (some k, v) :: rest, w, m, t, h, hne, ht, hc => by
    simp only [List.length_cons] at hc
    obtain ⟨w1, m1, key, e1, h1, hc1, hne1, hk1⟩ := h.insert (by omega) k v
    obtain ⟨w2, m2, keys, e2, hk2, hl⟩ := loop_nonempty shape hshape rest (w := w1) (m := m1)
      (t := shape rest.length (m1.nodes.map up)) h1 hne1 (hshape _ _) (by omega)
    refine ⟨w2, m2, key :: keys, ?_, ?_, by simp [hl]⟩
    · rw [insertLoop, insertCoefficient_up ht h.sorted, e1]
      simp only [Outcome.ok_bind]
      rw [show (upM m1).keyMap = m1.keyMap from rfl, show (upM m1).nodes = m1.nodes.map up from rfl, e2]
      rfl
    · rw [hk2, hk1]
      rfl
  | (none, v) :: rest, w, m, t, h, hne, ht, hc => by
    simp only [List.length_cons] at hc
    obtain ⟨l, hl⟩ : ∃ l, m.nodes.getLast? = some l := ⟨_, List.getLast?_eq_some_getLast hne⟩
    have hkey : (w.calls + 1) % 2 ^ 64 = w.calls + 1 := Nat.mod_eq_of_lt (by omega)
    have hscan : ∀ ns : List (Node (Option T) C), scan (Cmp.nan T) ns none = none := by
      intro ns
      induction ns with
      | nil => rfl
      | cons n ns ih => rw [scan, if_neg (by simp [Cmp.nan]), ih]
    have hlt : ∀ x : Option T, (Cmp.nan T).lt none x = false := fun x => rfl
    have hgt : ∀ x : Option T, (Cmp.nan T).lt x none = false := fun x => by cases x <;> rfl
    have hpos : t.uniquePos (Cmp.nan T) Node.time none = .ok (.taken (m.nodes.length - 1)) := by
      rw [uniquePos_spec _ _ _ t t.toList [] (by simp) (fun x _ => hlt _) (by simp), ht, List.getLast?_map, hl]
      simp [hgt]
    have e1 : insertCoefficient (Cmp.nan T) w t m.keyMap none v =
        .ok (⟨w.calls + 1, w.nextAddr + 1⟩, upM ⟨m.nodes, kmSet m.keyMap (w.calls + 1) l.addr⟩, w.calls + 1) := by
      rw [insertCoefficient, hscan]
      simp only [getNextKey, newAddr, hkey]
      rw [insert, hpos]
      simp only [Outcome.ok_bind, place, ht]
      rw [← List.length_map (f := up), ← List.getLast?_eq_getElem?, List.getLast?_map, hl]
      rfl
    obtain ⟨w2, m2, keys, e2, hk2, hl2⟩ := loop_nonempty shape hshape rest (w := ⟨w.calls + 1, w.nextAddr + 1⟩)
      (m := ⟨m.nodes, kmSet m.keyMap (w.calls + 1) l.addr⟩) (t := shape rest.length (m.nodes.map up)) (h.nan _) hne
      (hshape _ _) (by simp only; omega)
    refine ⟨w2, m2, (w.calls + 1) :: keys, ?_, hk2, by simp [hl2]⟩
    rw [insertLoop, e1]
    simp only [Outcome.ok_bind]
    rw [show (upM (⟨m.nodes, kmSet m.keyMap (w.calls + 1) l.addr⟩ : Mgr T C)).keyMap = kmSet m.keyMap (w.calls + 1) l.addr
      from rfl, show (upM (⟨m.nodes, kmSet m.keyMap (w.calls + 1) l.addr⟩ : Mgr T C)).nodes = m.nodes.map up from rfl, e2]
    rfl

/-- C151: into a manager that holds a knot already, the entries of a list whose time is not a number are dropped without
a word (each of them still gets a key), and the others are written one after the other. -/
theorem C151_dropped [Zero T] (shape : Nat → List (Node (Option T) C) → Nodes (Option T) C)
    (hshape : ∀ i l, (shape i l).toList = l) {s : St T C} (hr : Reachable s) (l : List (Option T × C))
    (hc : s.w.calls + l.length + 1 < 2 ^ 64) (hne : s.m.nodes ≠ []) {t : Nodes (Option T) C}
    (ht : t.toList = s.m.nodes.map up) :
    ∃ w' m' keys, insertLoop (Cmp.nan T) shape s.w t s.m.keyMap l = .ok (w', upM m', keys) ∧
      m'.knots = (numbers l).foldl write s.m.knots ∧ keys.length = l.length :=
  loop_nonempty shape hshape l (.of_WF (hr.WF (by omega))) hne ht (by omega)

/-- C151: the same for a new manager, if the first time of the list is a number. -/
theorem C151_new (shape : Nat → List (Node (Option T) C) → Nodes (Option T) C)
    (hshape : ∀ i l, (shape i l).toList = l) (w : World) (k : T) (v : C) (l : List (Option T × C))
    (hc : w.calls + l.length + 1 < 2 ^ 64) :
    ∃ w' m' keys, insertLoop (Cmp.nan T) shape w leaf [] ((some k, v) :: l) = .ok (w', upM m', keys) ∧
      m'.knots = (numbers l).foldl write [(k, v)] ∧ keys.length = l.length + 1 := by
  have h0 : Loose w (Mgr.empty : Mgr T C) := .of_WF (WF.empty w)
  obtain ⟨w1, m1, key, e1, h1, hc1, hne1, hk1⟩ := h0.insert (by omega) k v
  obtain ⟨w2, m2, keys, e2, hk2, hl⟩ := loop_nonempty shape hshape l (w := w1) (m := m1)
    (t := shape l.length (m1.nodes.map up)) h1 hne1 (hshape _ _) (by omega)
  refine ⟨w2, m2, key :: keys, ?_, ?_, by simp [hl]⟩
  · rw [insertLoop, show ([] : List (Key × Nat)) = (Mgr.empty : Mgr T C).keyMap from rfl,
      insertCoefficient_up (m := Mgr.empty) rfl h0.sorted, e1]
    simp only [Outcome.ok_bind]
    rw [show (upM m1).keyMap = m1.keyMap from rfl, show (upM m1).nodes = m1.nodes.map up from rfl, e2]
    rfl
  · rw [hk2, hk1]
    rfl

/-- C151: if the first time is not a number, it is the only one: whatever follows, the manager ends with that one knot,
all keys lead to it, and its value is the first value. -/
theorem C151_first (shape : Nat → List (Node (Option T) C) → Nodes (Option T) C)
    (hshape : ∀ i l, (shape i l).toList = l) (w : World) (v : C) (l : List (Option T × C)) :
    ∃ w' n km keys, insertLoop (Cmp.nan T) shape w leaf [] ((none, v) :: l) = .ok (w', ⟨[n], km⟩, keys) ∧
      n.time = none ∧ n.coef = v ∧ keys.length = l.length + 1 ∧ ∀ key ∈ keys, kmFind km key = some n.addr := by
  have main : ∀ (l : List (Option T × C)) (w : World) (n : Node (Option T) C) (t : Nodes (Option T) C)
      (km : List (Key × Nat)), n.time = none → t.toList = [n] →
      ∃ w' km' keys, insertLoop (Cmp.nan T) shape w t km l = .ok (w', ⟨[n], km'⟩, keys) ∧ keys.length = l.length ∧
        (∀ key ∈ keys, kmFind km' key = some n.addr) ∧
        ∀ key, kmFind km key = some n.addr → kmFind km' key = some n.addr := by
    intro l
    induction l with
    | nil => exact fun w n t km _ ht => ⟨w, km, [], by rw [insertLoop, ht], rfl, by simp, fun _ h => h⟩
    | cons e rest ih =>
      intro w n t km hn ht
      obtain ⟨k, v⟩ := e
      have hlt : (Cmp.nan T).lt k n.time = false := by rw [hn]; cases k <;> rfl
      have hgt : (Cmp.nan T).lt n.time k = false := by rw [hn]; rfl
      have hle : (Cmp.nan T).le k n.time = false := by rw [hn]; cases k <;> rfl
      have hpos : t.uniquePos (Cmp.nan T) Node.time k = .ok (.taken 0) := by
        rw [uniquePos_spec _ _ _ t [n] [] (by simpa using ht) (by simpa using hlt) (by simp)]
        simp [hgt]
      have e1 : insertCoefficient (Cmp.nan T) w t km k v = .ok ((newAddr (getNextKey w).2).2,
          ⟨[n], kmSet km (getNextKey w).1 n.addr⟩, (getNextKey w).1) := by
        rw [insertCoefficient, ht, scan, hle]
        simp only [Bool.false_eq_true, if_false, scan]
        rw [insert, hpos, Outcome.ok_bind, place, ht]
        rfl
      obtain ⟨w2, km2, keys, e2, hl, ha, hb⟩ := ih (newAddr (getNextKey w).2).2 n (shape rest.length [n])
        (kmSet km (getNextKey w).1 n.addr) hn (hshape _ _)
      refine ⟨w2, km2, (getNextKey w).1 :: keys, by rw [insertLoop, e1]; simp only [Outcome.ok_bind, e2], by simp [hl],
        ?_, fun key hk => hb key ?_⟩
      · intro key hk
        rcases List.mem_cons.1 hk with rfl | hk
        · exact hb _ (by rw [kmFind_kmSet, if_pos rfl])
        · exact ha key hk
      · rw [kmFind_kmSet]
        split
        · rfl
        · exact hk
  have e0 : insertCoefficient (Cmp.nan T) w leaf [] none v = .ok (⟨w.calls + 1, w.nextAddr + 1⟩,
      ⟨[⟨w.nextAddr, none, (w.calls + 1) % 2 ^ 64, v⟩], [((w.calls + 1) % 2 ^ 64, w.nextAddr)]⟩, (w.calls + 1) % 2 ^ 64) := rfl
  obtain ⟨w2, km2, keys, e2, hl, ha, hb⟩ := main l ⟨w.calls + 1, w.nextAddr + 1⟩
    ⟨w.nextAddr, none, (w.calls + 1) % 2 ^ 64, v⟩ (shape l.length _) [((w.calls + 1) % 2 ^ 64, w.nextAddr)] rfl (hshape _ _)
  refine ⟨w2, ⟨w.nextAddr, none, (w.calls + 1) % 2 ^ 64, v⟩, km2, ((w.calls + 1) % 2 ^ 64) :: keys, by rw [insertLoop, e0]; simp only [Outcome.ok_bind, e2], rfl, rfl,
    by simp [hl], ?_⟩
  intro key hk
  rcases List.mem_cons.1 hk with rfl | hk
  · exact hb _ (by simp [kmFind])
  · exact ha key hk

/-- A tree that is a list. -/
def slope : List (Node (Option Nat) Nat) → Nodes (Option Nat) Nat
  | [] => .leaf
  | n :: rest => .node .leaf n (slope rest)

theorem slope_toList : ∀ l, (slope l).toList = l
  | [] => rfl
  | n :: rest => by rw [slope, toList, slope_toList rest]; rfl

/-- An instance of C151: the times 3, NaN, 1, NaN, 3. -/
example : ∃ w' m' keys, insertLoop (Cmp.nan Nat) (fun _ => slope) ⟨0, 0⟩ leaf []
    [(some 3, 30), (none, 40), (some 1, 10), (none, 50), (some 3, 60)] = .ok (w', upM m', keys) ∧
    m'.knots = [(1, 10), (3, 60)] ∧ keys.length = 5 :=
  C151_new (fun _ => slope) (fun _ => slope_toList) ⟨0, 0⟩ 3 30 [(none, 40), (some 1, 10), (none, 50), (some 3, 60)] (by decide)

/-- An instance of C151: a manager with knots, and a list that starts with NaN. -/
example := C151_dropped (fun _ => slope) (fun _ => slope_toList) Manager.demo_reachable
  [(none, 7), (some 4, 8), (none, 9), (some 1, 10)] (by decide) (by decide) (slope_toList _)

/-- An instance of C151: the times NaN, 1, 2. -/
example := C151_first (T := Nat) (fun _ => slope) (fun _ => slope_toList) ⟨0, 0⟩ 7 [(some 1, 10), (some 2, 20)]

end Verif.Map

import Verif.Map.Number
import Verif.Manager.ConsistencyProps

/-!
# C149: the knots of the coefficient manager in a search tree
-/

set_option linter.unusedSectionVars false
set_option linter.dupNamespace false

namespace Verif.Map

open Verif.Manager Tree

variable {T C : Type}

/-! ## Numbers -/

section Number
variable [LinearOrder T]

/-- C149, `insert`: with or without a hint, the hint being any node, the tree is searched for the place that the list
model of `std::map` takes, whatever its shape. -/
theorem C149_insert {t : Nodes T C} (hs : Sorted t.toList) (n : Node T C) :
    insert (Cmp.number T) t n = .ok (mapInsert t.toList n) ∧
    ∀ pos < t.size, insertHint (Cmp.number T) t pos n = .ok (mapInsert t.toList n) := by
  refine ⟨insert_eq hs n, fun pos hp => ?_⟩
  rw [insertHint, hintPos_eq hs hp]
  exact insert_eq hs n

/-- C149: on every reachable manager, the operations on a tree of any shape are those on the list. -/
theorem C149_number [Zero T] {s : St T C} (hr : Reachable s) (hc : s.w.calls + 1 < 2 ^ 64) {t : Nodes T C}
    (ht : t.toList = s.m.nodes) (k : T) (v : C) :
    insertCoefficient (Cmp.number T) s.w t s.m.keyMap k v = s.m.insertCoefficient s.w k v ∧
    addCoefficientAtEnd (Cmp.number T) 0 s.w t s.m.keyMap k v = s.m.addCoefficientAtEnd s.w k v ∧
    hasCoefficientAtTime (Cmp.number T) t k = s.m.hasCoefficientAtTime k ∧
    removeCoefficientAtTime (Cmp.number T) t s.m.keyMap k = s.m.removeCoefficientAtTime k ∧
    getCoefficientsAt (Cmp.number T) 0 t k = s.m.getCoefficientsAt k := by
  have hs0 := (hr.WF hc).sorted
  have hs : Sorted t.toList := ht ▸ hs0
  have hsz : t.size = s.m.nodes.length := by rw [size_eq, ht]
  have hmax : maxTime 0 t = s.m.getMaxTime := by rw [maxTime, ht]; rfl
  refine ⟨?_, ?_, ?_, ?_, ?_⟩
  · rw [insertCoefficient, scan_eq, ht, Mgr.insertCoefficient]
    cases scanAtTime s.m.nodes k with
    | none =>
      simp only [insert_eq hs, ht, Outcome.ok_bind]
    | some n =>
      simp only [Mgr.updateCoefficientByKey]
      cases kmFind s.m.keyMap n.key with
      | none => rfl
      | some a =>
        simp only
        cases nodeAt s.m.nodes a <;> rfl
  · rw [addCoefficientAtEnd, Mgr.addCoefficientAtEnd, hmax]
    simp only [show (Cmp.number T).lt s.m.getMaxTime k = decide (s.m.getMaxTime < k) from rfl, decide_eq_true_eq]
    split
    · cases hn : s.m.nodes with
      | nil => rw [if_pos (by rw [hsz, hn]; rfl)]
      | cons x l =>
        have h0 : t.size ≠ 0 := by rw [hsz, hn]; simp
        rw [if_neg h0, (C149_insert hs _).2 _ (by omega), ht, hn]
        rfl
    · rfl
  · rw [hasCoefficientAtTime, find_eq hs, ht]; rfl
  · rw [removeCoefficientAtTime, find_eq hs, ht]; rfl
  · rw [getCoefficientsAt, Mgr.getCoefficientsAt, hmax, hsz]
    simp only [show (Cmp.number T).eq k s.m.getMaxTime = decide (k = s.m.getMaxTime) from rfl, decide_eq_true_eq]
    have main : ∀ a b : List (Node T C), s.m.nodes = a ++ b → s.m.nodes ≠ [] →
        (if a.length = 0 ∨ a.length = s.m.nodes.length then none
          else match s.m.nodes[a.length - 1]?, s.m.nodes[a.length]? with
            | some a, some b => some (a, b)
            | _, _ => none) =
        match a.getLast?, b with
          | some a, b :: _ => some (a, b)
          | _, _ => none := by
      intro a b e hne
      by_cases ha : a = []
      · subst ha; simp
      · have hpos : 0 < a.length := List.length_pos_iff.2 ha
        cases b with
        | nil =>
          rw [e, List.append_nil, if_pos (.inr rfl)]
          cases a.getLast? <;> rfl
        | cons y b =>
          rw [e, if_neg (by simp; omega), List.getElem?_append_left (by omega), ← List.getLast?_eq_getElem?,
            List.getElem?_append_right (le_refl _), Nat.sub_self]
          cases a.getLast? <;> rfl
    by_cases hne : s.m.nodes = []
    · rw [if_pos (by rw [hne]; rfl), hne]
    · rw [if_neg (by simpa using hne)]
      have hgo : ∀ (x : List (Node T C) × List (Node T C)),
          (match s.m.nodes with
            | [] => none
            | _ :: _ =>
              match x.1.getLast?, x.2 with
              | some a, b :: _ => some (a, b)
              | _, _ => none) = match x.1.getLast?, x.2 with
              | some a, b :: _ => some (a, b)
              | _, _ => none := by
        intro x
        cases hn : s.m.nodes with
        | nil => exact absurd hn hne
        | cons _ _ => rfl
      refine Eq.trans ?_ (hgo (if k = s.m.getMaxTime then (s.m.nodes.dropLast, s.m.nodes.getLast?.toList)
        else upperSplit k s.m.nodes)).symm
      rw [ht]
      by_cases hk : k = s.m.getMaxTime
      · rw [if_pos hk, if_pos hk]
        have e : s.m.nodes = s.m.nodes.dropLast ++ s.m.nodes.getLast?.toList := by
          conv_lhs => rw [← List.dropLast_append_getLast hne]
          rw [List.getLast?_eq_some_getLast hne]
          rfl
        have hl : s.m.nodes.dropLast.length = s.m.nodes.length - 1 := List.length_dropLast
        have := main _ _ e hne
        rw [hl] at this
        exact this
      · rw [if_neg hk, if_neg hk]
        obtain ⟨a, b, e, hu, hb⟩ := upperBound_eq hs k
        rw [ht] at e hu
        rw [hb, hu]
        exact main a b e hne

end Number

/-! ## Not a number -/

section NaN
variable [LinearOrder T]

/-- A node whose time is a number, as a node whose time may be NaN. -/
def up (n : Node T C) : Node (Option T) C := ⟨n.addr, some n.time, n.key, n.coef⟩

/-- The same for the manager. -/
def upM (m : Mgr T C) : Mgr (Option T) C := ⟨m.nodes.map up, m.keyMap⟩

/-- C149: what the manager does with a time that is not a number, on a tree of any shape holding one node at least:
* the comparisons with it are all false, so `hasCoefficientAtTime` says that there is a coefficient at that time;
* `removeCoefficientAtTime` removes the first knot, whose time it is not;
* `getCoefficientsAt` finds nothing;
* `insertCoefficient` stores nothing and hands out a new key, with which the *last* knot is reached and written, and
  after which the manager fails its own consistency check;
* `addCoefficientAtEnd` aborts. -/
theorem C149_nan [Zero T] [DecidableEq C] {s : St T C} (hr : Reachable s) (hc : s.w.calls + 2 < 2 ^ 64)
    {t : Nodes (Option T) C} (ht : t.toList = s.m.nodes.map up) {f l : Node T C} (hf : s.m.nodes.head? = some f)
    (hl : s.m.nodes.getLast? = some l) (v : C) :
    hasCoefficientAtTime (Cmp.nan T) t none = true ∧
    removeCoefficientAtTime (Cmp.nan T) t s.m.keyMap none =
      (s.m.removeCoefficientAtTime f.time >>= fun m => .ok (upM m)) ∧
    (∃ m, s.m.removeCoefficientAtTime f.time = .ok m ∧ m.contents = s.m.contents.tail) ∧
    getCoefficientsAt (Cmp.nan T) (some 0) t none = none ∧
    addCoefficientAtEnd (Cmp.nan T) (some 0) s.w t s.m.keyMap none v = .abort ∧
    ∃ w' m' key, insertCoefficient (Cmp.nan T) s.w t s.m.keyMap none v = .ok (w', upM m', key) ∧
      m'.nodes = s.m.nodes ∧ key ∉ s.m.nodes.map (·.key) ∧ m'.getCoefficientTimeByKey key = .ok s.m.getMaxTime ∧
      m'.getCoefficientByKey key = .ok l.coef ∧
      (∀ v', m'.updateCoefficientByKey key v' = s.m.updateCoefficientByKey l.key v' >>= fun x => .ok ⟨x.nodes, m'.keyMap⟩) ∧
      ∀ d, m'.checkInternalConsistency d = .abort := by
  have hw := hr.WF (by omega)
  have hne : s.m.nodes ≠ [] := by rintro h; rw [h] at hf; simp at hf
  have hsz : t.size ≠ 0 := by rw [size_eq, ht]; simpa using hne
  have hfm : f ∈ s.m.nodes := List.mem_of_head? hf
  have hlm : l ∈ s.m.nodes := List.mem_of_getLast? hl
  have hlt : ∀ x : Option T, (Cmp.nan T).lt none x = false := fun x => rfl
  have hgt : ∀ x : Option T, (Cmp.nan T).lt x none = false := fun x => by cases x <;> rfl
  have hfind : t.find (Cmp.nan T) Node.time none = some (up f) := by
    rw [find_spec _ _ _ t [] t.toList rfl (by simp) (fun x _ => hgt _), ht, List.head?_map, hf]
    rfl
  have hup : t.upperBound (Cmp.nan T) Node.time none = t.size := by
    rw [upperBound_spec _ _ _ t t.toList [] (by simp) (fun x _ => hlt _) (by simp), size_eq]
  have hscan : ∀ ns : List (Node (Option T) C), scan (Cmp.nan T) ns none = none := by
    intro ns
    induction ns with
    | nil => rfl
    | cons n ns ih => rw [scan, if_neg (by simp [Cmp.nan]), ih]
  have hpos : t.uniquePos (Cmp.nan T) Node.time none = .ok (.taken (s.m.nodes.length - 1)) := by
    rw [uniquePos_spec _ _ _ t t.toList [] (by simp) (fun x _ => hlt _) (by simp), ht, List.getLast?_map, hl]
    simp [hgt]
  refine ⟨by rw [hasCoefficientAtTime, hfind]; rfl, ?_, ?_, ?_, ?_, ?_⟩
  · rw [removeCoefficientAtTime, hfind, Mgr.removeCoefficientAtTime, mapFind_eq_some hw.sorted hfm]
    simp only [up]
    rw [hw.keyOf f hfm]
    simp only [Outcome.ok_bind, upM, mapErase, ht, List.filter_map]
    rfl
  · refine ⟨⟨mapErase s.m.nodes f.addr, kmErase s.m.keyMap f.key⟩, ?_, ?_⟩
    · rw [Mgr.removeCoefficientAtTime, mapFind_eq_some hw.sorted hfm]
      simp only
      rw [hw.keyOf f hfm]
    · cases hn : s.m.nodes with
      | nil => exact absurd hn hne
      | cons x rest =>
        rw [hn] at hf
        simp only [List.head?_cons, Option.some.injEq] at hf
        subst hf
        have hnd := hw.addrNodup
        rw [hn, List.map_cons, List.nodup_cons] at hnd
        simp only [Mgr.contents, mapErase, hn, List.map_cons, List.tail_cons]
        rw [List.filter_cons_of_neg (by simp), List.filter_eq_self.2]
        intro y hy
        have : y.addr ≠ x.addr := fun h => hnd.1 (h ▸ List.mem_map_of_mem hy)
        simpa using this
  · rw [getCoefficientsAt, if_neg hsz, hup]
    simp [Cmp.nan]
  · rw [addCoefficientAtEnd, hgt]
    rfl
  · have hkey : (s.w.calls + 1) % 2 ^ 64 = s.w.calls + 1 := Nat.mod_eq_of_lt (by omega)
    have hnew : s.w.calls + 1 ∉ s.m.nodes.map (·.key) := by
      intro h
      obtain ⟨n, hn, e⟩ := List.mem_map.1 h
      have := hw.keyLe n hn
      have e' : n.key = s.w.calls + 1 := e
      omega
    have hnone : kmFind s.m.keyMap (s.w.calls + 1) = none := by
      cases h : kmFind s.m.keyMap (s.w.calls + 1) with
      | none => rfl
      | some a =>
        obtain ⟨n, hn, e, -⟩ := hw.kmSound _ _ h
        exact absurd (List.mem_map.2 ⟨n, hn, e⟩) hnew
    have hat : nodeAt s.m.nodes l.addr = some l := nodeAt_eq_some hw.addrNodup hlm
    have hks : kmFind (kmSet s.m.keyMap (s.w.calls + 1) l.addr) (s.w.calls + 1) = some l.addr := by
      rw [kmFind_kmSet, if_pos rfl]
    refine ⟨⟨s.w.calls + 1, s.w.nextAddr + 1⟩, ⟨s.m.nodes, kmSet s.m.keyMap (s.w.calls + 1) l.addr⟩, s.w.calls + 1, ?_, rfl,
      hnew, ?_, ?_, ?_, ?_⟩
    · rw [insertCoefficient, hscan]
      simp only [getNextKey, newAddr, hkey]
      rw [insert, hpos]
      simp only [Outcome.ok_bind, place, ht]
      rw [← List.length_map (f := up), ← List.getLast?_eq_getElem?, List.getLast?_map, hl]
      rfl
    · rw [Mgr.getCoefficientTimeByKey, hks]
      simp only [hat, Outcome.deref_some, Outcome.ok_bind, Mgr.getMaxTime, hl]
    · rw [Mgr.getCoefficientByKey, hks]
      simp only [hat, Outcome.deref_some, Outcome.ok_bind]
    · intro v'
      rw [Mgr.updateCoefficientByKey, Mgr.updateCoefficientByKey, hks, hw.keyOf l hlm]
      simp only [hat, Outcome.ok_bind]
    · intro d
      rw [Mgr.checkInternalConsistency, Mgr.checkIn, if_neg]
      have h1 := hw.length_eq
      have h2 : (kmSet s.m.keyMap (s.w.calls + 1) l.addr).length = s.m.keyMap.length + 1 := by
        rw [← List.length_map (f := Prod.fst), kmSet_keys, if_neg (kmFind_none_iff.1 hnone)]
        simp
      simp only [h2]
      omega

/-- C149: a time that is not a number, inserted into an empty manager, is stored; and then it is in the way of all
others: the manager claims a coefficient at every time, no time is inserted any more (each call hands out another key to
the one coefficient), nothing is added at the end, nothing is found, and removing at any time removes it. -/
theorem C149_alone (w : World) (v : C) :
    ∃ w' n, insertCoefficient (Cmp.nan T) w leaf [] none v = .ok (w', ⟨[n], [(n.key, n.addr)]⟩, n.key) ∧
      n.time = none ∧ n.coef = v ∧
      ∀ (t : Nodes (Option T) C), t.toList = [n] → ∀ (k z : Option T) (v' : C),
        hasCoefficientAtTime (Cmp.nan T) t k = true ∧
        (∃ w'' km key, insertCoefficient (Cmp.nan T) w' t [(n.key, n.addr)] k v' = .ok (w'', ⟨[n], km⟩, key) ∧
          kmFind km key = some n.addr) ∧
        addCoefficientAtEnd (Cmp.nan T) z w' t [(n.key, n.addr)] k v' = .abort ∧
        getCoefficientsAt (Cmp.nan T) z t k = none ∧
        removeCoefficientAtTime (Cmp.nan T) t [(n.key, n.addr)] k = .ok ⟨[], []⟩ := by
  refine ⟨⟨w.calls + 1, w.nextAddr + 1⟩, ⟨w.nextAddr, none, (w.calls + 1) % 2 ^ 64, v⟩, rfl, rfl, rfl, ?_⟩
  intro t ht k z v'
  generalize hn : (⟨w.nextAddr, none, (w.calls + 1) % 2 ^ 64, v⟩ : Node (Option T) C) = n at ht
  have hnt : n.time = none := by rw [← hn]
  have hlt : (Cmp.nan T).lt k n.time = false := by rw [hnt]; cases k <;> rfl
  have hgt : (Cmp.nan T).lt n.time k = false := by rw [hnt]; rfl
  have hle : (Cmp.nan T).le k n.time = false := by rw [hnt]; cases k <;> rfl
  have hsz : t.size = 1 := by rw [size_eq, ht]; rfl
  have hfind : t.find (Cmp.nan T) Node.time k = some n := by
    rw [find_spec _ _ _ t [] [n] (by simpa using ht) (by simp) (by simpa using hgt)]
    simp [hlt]
  have hpos : t.uniquePos (Cmp.nan T) Node.time k = .ok (.taken 0) := by
    rw [uniquePos_spec _ _ _ t [n] [] (by simpa using ht) (by simpa using hlt) (by simp)]
    simp [hgt]
  have hmax : maxTime z t = none := by rw [maxTime, ht]; exact hnt
  refine ⟨by rw [hasCoefficientAtTime, hfind]; rfl, ?_, ?_, ?_, ?_⟩
  · rw [insertCoefficient, ht, scan, hle]
    simp only [Bool.false_eq_true, if_false, scan]
    rw [insert, hpos, Outcome.ok_bind, place, ht]
    exact ⟨_, _, _, rfl, by rw [kmFind_kmSet, if_pos rfl]⟩
  · rw [addCoefficientAtEnd, hmax]
    rfl
  · have he : (Cmp.nan T).eq k (maxTime z t) = false := by rw [hmax]; cases k <;> rfl
    have hu : t.upperBound (Cmp.nan T) Node.time k = 1 :=
      upperBound_spec _ _ _ t [n] [] (by simpa using ht) (by simpa using hlt) (by simp)
    rw [getCoefficientsAt, he, hu, hsz]
    rfl
  · rw [removeCoefficientAtTime, hfind, ht]
    simp [kmFind, kmErase, mapErase]

/-- An instance of C149: three knots in a crooked tree. -/
def crooked : Nodes (Option Nat) Nat :=
  .node (.node .leaf ⟨10, some 1, 1, 100⟩ (.node .leaf ⟨11, some 2, 2, 200⟩ .leaf)) ⟨12, some 5, 3, 300⟩ .leaf

example : ∃ w' m', insertCoefficient (Cmp.nan Nat) ⟨3, 13⟩ crooked [(1, 10), (2, 11), (3, 12)] none 7 = .ok (w', m', 4) ∧
    m'.keyMap = [(1, 10), (2, 11), (3, 12), (4, 12)] ∧ m'.nodes = crooked.toList := ⟨_, _, rfl, rfl, rfl⟩

example : hasCoefficientAtTime (Cmp.nan Nat) crooked none = true ∧
    hasCoefficientAtTime (Cmp.nan Nat) crooked (some 3) = false := ⟨rfl, rfl⟩

/-- An instance of C149 on numbers: a reachable manager with three knots, and two trees that hold them. -/
example : Reachable demo ∧ demo.w.calls + 2 < 2 ^ 64 ∧
    ∃ t t' : Nodes Nat Nat, t.toList = demo.m.nodes ∧ t'.toList = demo.m.nodes ∧ t.size = 3 ∧ t ≠ t' := by
  obtain ⟨a, b, c, e⟩ : ∃ a b c, demo.m.nodes = [a, b, c] := ⟨_, _, _, rfl⟩
  refine ⟨demo_reachable, by decide, .node (.node .leaf a .leaf) b (.node .leaf c .leaf),
    .node .leaf a (.node .leaf b (.node .leaf c .leaf)), e.symm, e.symm, rfl, fun h => ?_⟩
  injection h with h1
  injection h1

end NaN

end Verif.Map

import Verif.Manager.Model
import Mathlib.Data.List.Nodup
import Mathlib.Data.List.Pairwise
import Mathlib.Order.Basic
import Mathlib.Order.Lattice
import Mathlib.Tactic.Push

/-!
# Lemmas about the coefficient manager model

Nothing in this file is a property statement; those are in `Verif.Manager.Props`.
-/

namespace Verif.Manager

section KeyMap

theorem kmFind_some_mem {km : List (Key × Nat)} {k : Key} {a : Nat}
    (h : kmFind km k = some a) : (k, a) ∈ km := by
  induction km with
  | nil => simp [kmFind] at h
  | cons p rest ih =>
    obtain ⟨k', a'⟩ := p
    simp only [kmFind] at h
    split at h
    · next e => subst e; simp_all
    · simp [ih h]

theorem kmFind_none_iff {km : List (Key × Nat)} {k : Key} :
    kmFind km k = none ↔ k ∉ km.map Prod.fst := by
  induction km with
  | nil => simp [kmFind]
  | cons p rest ih =>
    obtain ⟨k', a'⟩ := p
    simp only [kmFind, List.map_cons, List.mem_cons, not_or]
    split
    · next e => simp [e]
    · next e => rw [ih]; simp [Ne.symm e]

theorem kmFind_eq_some_iff {km : List (Key × Nat)} (h : (km.map Prod.fst).Nodup) {k : Key}
    {a : Nat} : kmFind km k = some a ↔ (k, a) ∈ km := by
  refine ⟨kmFind_some_mem, fun hm => ?_⟩
  induction km with
  | nil => simp at hm
  | cons p rest ih =>
    obtain ⟨k', a'⟩ := p
    simp only [List.map_cons, List.nodup_cons] at h
    simp only [List.mem_cons, Prod.mk.injEq] at hm
    simp only [kmFind]
    rcases hm with ⟨rfl, rfl⟩ | hm
    · simp
    · have : k' ≠ k := by
        rintro rfl
        exact h.1 (List.mem_map_of_mem (f := Prod.fst) hm)
      simp [this, ih h.2 hm]

theorem kmFind_kmSet (km : List (Key × Nat)) (k k' : Key) (a : Nat) :
    kmFind (kmSet km k a) k' = if k' = k then some a else kmFind km k' := by
  induction km with
  | nil => simp [kmSet, kmFind, eq_comm]
  | cons p rest ih =>
    obtain ⟨k1, a1⟩ := p
    simp only [kmSet]
    split
    · next e => subst e; simp only [kmFind]; split <;> simp_all [eq_comm]
    · next e =>
      simp only [kmFind, ih]
      split
      · next e' => subst e'; simp [e]
      · rfl

theorem kmSet_keys (km : List (Key × Nat)) (k : Key) (a : Nat) :
    (kmSet km k a).map Prod.fst =
      if k ∈ km.map Prod.fst then km.map Prod.fst else km.map Prod.fst ++ [k] := by
  induction km with
  | nil => simp [kmSet]
  | cons p rest ih =>
    obtain ⟨k1, a1⟩ := p
    simp only [kmSet]
    split
    · next e => subst e; simp
    · next e =>
      simp only [List.map_cons, ih, List.mem_cons, Ne.symm e, false_or]
      split <;> simp

theorem kmSet_nodup {km : List (Key × Nat)} (h : (km.map Prod.fst).Nodup) (k : Key) (a : Nat) :
    ((kmSet km k a).map Prod.fst).Nodup := by
  rw [kmSet_keys]
  split
  · exact h
  · next hk => rw [← List.concat_eq_append]; exact h.concat hk

theorem kmFind_kmErase {km : List (Key × Nat)} (h : (km.map Prod.fst).Nodup) (k k' : Key) :
    kmFind (kmErase km k) k' = if k' = k then none else kmFind km k' := by
  induction km with
  | nil => simp [kmErase, kmFind]
  | cons p rest ih =>
    obtain ⟨k1, a1⟩ := p
    simp only [List.map_cons, List.nodup_cons] at h
    simp only [kmErase]
    split
    · next e =>
      subst e
      simp only [kmFind]
      split
      · next e' => subst e'; exact kmFind_none_iff.2 h.1
      · next e' => simp [Ne.symm e']
    · next e =>
      simp only [kmFind, ih h.2]
      split
      · next e' => subst e'; simp [e]
      · rfl

theorem kmErase_sublist (km : List (Key × Nat)) (k : Key) : (kmErase km k).Sublist km := by
  induction km with
  | nil => simp [kmErase]
  | cons p rest ih =>
    obtain ⟨k1, a1⟩ := p
    simp only [kmErase]
    split
    · exact List.sublist_cons_self _ _
    · exact ih.cons_cons _

theorem kmErase_nodup {km : List (Key × Nat)} (h : (km.map Prod.fst).Nodup) (k : Key) :
    ((kmErase km k).map Prod.fst).Nodup :=
  h.sublist ((kmErase_sublist km k).map _)

theorem kmInsert_of_none {km : List (Key × Nat)} {k : Key} {a : Nat} (h : kmFind km k = none) :
    kmInsert km k a = (k, a) :: km := by simp [kmInsert, h]

end KeyMap

section Nodes
variable {T C : Type}

theorem nodeAt_some_mem {ns : List (Node T C)} {a : Nat} {n : Node T C}
    (h : nodeAt ns a = some n) : n ∈ ns ∧ n.addr = a := by
  unfold nodeAt at h
  exact ⟨List.mem_of_find?_eq_some h, by simpa using List.find?_some h⟩

theorem nodeAt_eq_some {ns : List (Node T C)} (hd : (ns.map (·.addr)).Nodup) {n : Node T C}
    (hn : n ∈ ns) : nodeAt ns n.addr = some n := by
  cases h : nodeAt ns n.addr with
  | none =>
    unfold nodeAt at h
    rw [List.find?_eq_none] at h
    exact absurd (by simp) (h n hn)
  | some x =>
    obtain ⟨hx, hxa⟩ := nodeAt_some_mem h
    rw [List.inj_on_of_nodup_map hd hx hn hxa]

theorem mem_setCoefAt {ns : List (Node T C)} (hd : (ns.map (·.addr)).Nodup) {n : Node T C}
    (hn : n ∈ ns) (c : C) (x : Node T C) :
    x ∈ setCoefAt ns n.addr c ↔ x = { n with coef := c } ∨ (x ∈ ns ∧ x.addr ≠ n.addr) := by
  unfold setCoefAt
  constructor
  · intro h
    obtain ⟨y, hy, rfl⟩ := List.mem_map.1 h
    by_cases e : y.addr = n.addr
    · have : y = n := List.inj_on_of_nodup_map hd hy hn e
      subst this; simp
    · right; simp [e, hy]
  · rintro (rfl | ⟨hx, hne⟩)
    · exact List.mem_map.2 ⟨n, hn, by simp⟩
    · exact List.mem_map.2 ⟨x, hx, by simp [hne]⟩

@[simp] theorem setCoefAt_times (ns : List (Node T C)) (a : Nat) (c : C) :
    (setCoefAt ns a c).map (·.time) = ns.map (·.time) := by
  simp only [setCoefAt, List.map_map]
  apply List.map_congr_left
  intro n _
  simp only [Function.comp]
  split <;> rfl

@[simp] theorem setCoefAt_addrs (ns : List (Node T C)) (a : Nat) (c : C) :
    (setCoefAt ns a c).map (·.addr) = ns.map (·.addr) := by
  simp only [setCoefAt, List.map_map]
  apply List.map_congr_left
  intro n _
  simp only [Function.comp]
  split <;> rfl

@[simp] theorem setCoefAt_keys (ns : List (Node T C)) (a : Nat) (c : C) :
    (setCoefAt ns a c).map (·.key) = ns.map (·.key) := by
  simp only [setCoefAt, List.map_map]
  apply List.map_congr_left
  intro n _
  simp only [Function.comp]
  split <;> rfl

@[simp] theorem setCoefAt_length (ns : List (Node T C)) (a : Nat) (c : C) :
    (setCoefAt ns a c).length = ns.length := by simp [setCoefAt]

end Nodes

section Ordered
variable {T C : Type} [LinearOrder T]

/-- Nodes are sorted strictly by time. -/
def Sorted (ns : List (Node T C)) : Prop := ns.Pairwise (fun a b => a.time < b.time)

theorem sorted_iff_times {ns : List (Node T C)} :
    Sorted ns ↔ (ns.map (·.time)).Pairwise (· < ·) := by
  simp [Sorted, List.pairwise_map]

theorem Sorted.inj {ns : List (Node T C)} (h : Sorted ns) {x y : Node T C} (hx : x ∈ ns)
    (hy : y ∈ ns) (e : x.time = y.time) : x = y := by
  induction ns with
  | nil => simp at hx
  | cons n rest ih =>
    simp only [Sorted, List.pairwise_cons] at h
    simp only [List.mem_cons] at hx hy
    rcases hx with rfl | hx <;> rcases hy with rfl | hy
    · rfl
    · exact absurd e (h.1 y hy).ne
    · exact absurd e.symm (h.1 x hx).ne
    · exact ih h.2 hx hy

theorem scanAtTime_some {ns : List (Node T C)} {t : T} {n : Node T C}
    (h : scanAtTime ns t = some n) : n ∈ ns ∧ n.time = t := by
  induction ns with
  | nil => simp [scanAtTime] at h
  | cons m rest ih =>
    simp only [scanAtTime] at h
    split at h
    · split at h
      · next h1 h2 => simp at h; subst h; exact ⟨by simp, le_antisymm h2 h1⟩
      · simp at h
    · obtain ⟨a, b⟩ := ih h
      exact ⟨by simp [a], b⟩

theorem scanAtTime_none {ns : List (Node T C)} (hs : Sorted ns) {t : T}
    (h : scanAtTime ns t = none) : ∀ n ∈ ns, n.time ≠ t := by
  induction ns with
  | nil => simp
  | cons m rest ih =>
    simp only [Sorted, List.pairwise_cons] at hs
    simp only [scanAtTime] at h
    split at h
    · split at h
      · simp at h
      · next h1 h2 =>
        intro n hn
        simp only [List.mem_cons] at hn
        push Not at h2
        rcases hn with rfl | hn
        · exact h2.ne'
        · exact (h2.trans (hs.1 n hn)).ne'
    · next h1 =>
      intro n hn
      simp only [List.mem_cons] at hn
      push Not at h1
      rcases hn with rfl | hn
      · exact h1.ne
      · exact ih hs.2 h n hn

theorem mapFind_some {ns : List (Node T C)} {t : T} {n : Node T C}
    (h : mapFind ns t = some n) : n ∈ ns ∧ n.time = t := by
  unfold mapFind at h
  exact ⟨List.mem_of_find?_eq_some h, by simpa using List.find?_some h⟩

theorem mapFind_none {ns : List (Node T C)} {t : T} :
    mapFind ns t = none ↔ ∀ n ∈ ns, n.time ≠ t := by
  simp [mapFind]

theorem mapFind_eq_some {ns : List (Node T C)} (hs : Sorted ns) {n : Node T C} (hn : n ∈ ns) :
    mapFind ns n.time = some n := by
  cases h : mapFind ns n.time with
  | none => exact absurd rfl (mapFind_none.1 h n hn)
  | some x =>
    obtain ⟨hx, hxt⟩ := mapFind_some h
    rw [hs.inj hx hn hxt]

theorem mapInsert_fresh {ns : List (Node T C)} (n : Node T C)
    (h : ∀ m ∈ ns, m.time ≠ n.time) :
    (mapInsert ns n).2 = n.addr ∧ (mapInsert ns n).1.Perm (n :: ns) := by
  induction ns with
  | nil => simp [mapInsert]
  | cons m rest ih =>
    have hm := h m (by simp)
    have ih := ih (fun x hx => h x (by simp [hx]))
    simp only [mapInsert]
    split
    · simp
    · next h1 =>
      have h2 : m.time < n.time := lt_of_le_of_ne (not_lt.1 h1) hm
      simp only [h2, if_true]
      exact ⟨ih.1, (ih.2.cons m).trans (List.Perm.swap _ _ _)⟩

theorem mapInsert_sorted {ns : List (Node T C)} (hs : Sorted ns) (n : Node T C) :
    Sorted (mapInsert ns n).1 := by
  induction ns with
  | nil => simp [mapInsert, Sorted]
  | cons m rest ih =>
    have hs' := hs
    simp only [Sorted, List.pairwise_cons] at hs
    simp only [mapInsert]
    split
    · next h1 =>
      simp only [Sorted, List.pairwise_cons, List.mem_cons]
      refine ⟨?_, hs⟩
      rintro x (rfl | hx)
      · exact h1
      · exact h1.trans (hs.1 x hx)
    · split
      · next h1 h2 =>
        simp only [Sorted, List.pairwise_cons]
        refine ⟨?_, ih hs.2⟩
        intro x hx
        by_cases hf : ∀ y ∈ rest, y.time ≠ n.time
        · have := ((mapInsert_fresh n hf).2.mem_iff (a := x)).1 hx
          simp only [List.mem_cons] at this
          rcases this with rfl | hx
          · exact h2
          · exact hs.1 x hx
        · have key : ∀ l : List (Node T C), ∀ x ∈ (mapInsert l n).1, x = n ∨ x ∈ l := by
            intro l
            induction l with
            | nil => simp [mapInsert]
            | cons a l ihl =>
              intro x hx
              simp only [mapInsert] at hx
              split at hx
              · simpa using hx
              · split at hx
                · simp only [List.mem_cons] at hx
                  rcases hx with rfl | hx
                  · simp
                  · rcases ihl x hx with rfl | h <;> simp [*]
                · right; exact hx
          rcases key rest x hx with rfl | hx
          · exact h2
          · exact hs.1 x hx
      · exact hs'

theorem mapInsert_present {ns : List (Node T C)} (hs : Sorted ns) (n : Node T C) {m : Node T C}
    (hm : m ∈ ns) (e : m.time = n.time) : mapInsert ns n = (ns, m.addr) := by
  induction ns with
  | nil => simp at hm
  | cons a rest ih =>
    simp only [Sorted, List.pairwise_cons] at hs
    simp only [List.mem_cons] at hm
    simp only [mapInsert]
    rcases hm with rfl | hm
    · simp [e]
    · have h1 : a.time < n.time := e ▸ hs.1 m hm
      simp [h1, h1.not_gt, ih hs.2 hm]

/-! ### The representation invariant -/

/-- The representation invariant tying the two containers and the process state together. -/
structure WF (w : World) (m : Mgr T C) : Prop where
  sorted : Sorted m.nodes
  addrNodup : (m.nodes.map (·.addr)).Nodup
  addrLt : ∀ n ∈ m.nodes, n.addr < w.nextAddr
  keyOf : ∀ n ∈ m.nodes, kmFind m.keyMap n.key = some n.addr
  kmSound : ∀ k a, kmFind m.keyMap k = some a → ∃ n ∈ m.nodes, n.key = k ∧ n.addr = a
  kmNodup : (m.keyMap.map Prod.fst).Nodup
  keyLe : ∀ n ∈ m.nodes, n.key ≤ w.calls
  keyPos : ∀ n ∈ m.nodes, 1 ≤ n.key

theorem WF.empty (w : World) : WF w (Mgr.empty : Mgr T C) := by
  constructor <;> simp [Mgr.empty, Sorted, kmFind]

theorem WF.keyInj {w : World} {m : Mgr T C} (h : WF w m) {x y : Node T C} (hx : x ∈ m.nodes)
    (hy : y ∈ m.nodes) (e : x.key = y.key) : x = y := by
  have h1 := h.keyOf x hx
  have h2 := h.keyOf y hy
  rw [e, h2] at h1
  exact (List.inj_on_of_nodup_map h.addrNodup hy hx (by simpa using h1)).symm

theorem WF.nodesNodup {w : World} {m : Mgr T C} (h : WF w m) : m.nodes.Nodup :=
  List.Nodup.of_map _ h.addrNodup

theorem WF.keysNodup {w : World} {m : Mgr T C} (h : WF w m) : (m.nodes.map (·.key)).Nodup := by
  rw [List.nodup_map_iff_inj_on h.nodesNodup]
  exact fun x hx y hy e => h.keyInj hx hy e

theorem WF.kmFind_none {w : World} {m : Mgr T C} (h : WF w m) {k : Key}
    (hk : ∀ n ∈ m.nodes, n.key ≠ k) : kmFind m.keyMap k = none := by
  cases e : kmFind m.keyMap k with
  | none => rfl
  | some a =>
    obtain ⟨n, hn, hk', _⟩ := h.kmSound k a e
    exact absurd hk' (hk n hn)

theorem WF.mono {w w' : World} {m : Mgr T C} (h : WF w m) (h1 : w.calls ≤ w'.calls)
    (h2 : w.nextAddr ≤ w'.nextAddr) : WF w' m :=
  { h with
    addrLt := fun n hn => (h.addrLt n hn).trans_le h2
    keyLe := fun n hn => (h.keyLe n hn).trans h1 }

/-- Updating by an existing key. -/
theorem WF.updateByKey {w : World} {m : Mgr T C} (h : WF w m) {n : Node T C} (hn : n ∈ m.nodes)
    (c : C) :
    m.updateCoefficientByKey n.key c = .ok { m with nodes := setCoefAt m.nodes n.addr c } ∧
      WF w { m with nodes := setCoefAt m.nodes n.addr c } := by
  constructor
  · simp [Mgr.updateCoefficientByKey, h.keyOf n hn, nodeAt_eq_some h.addrNodup hn]
  · have hmem := mem_setCoefAt h.addrNodup hn c
    constructor
    · rw [sorted_iff_times]; simpa [sorted_iff_times] using h.sorted
    · simpa using h.addrNodup
    · intro x hx
      rcases (hmem x).1 hx with rfl | ⟨hx, _⟩
      · exact h.addrLt n hn
      · exact h.addrLt x hx
    · intro x hx
      rcases (hmem x).1 hx with rfl | ⟨hx, _⟩
      · exact h.keyOf n hn
      · exact h.keyOf x hx
    · intro k a hk
      obtain ⟨y, hy, rfl, rfl⟩ := h.kmSound k a hk
      by_cases e : y.addr = n.addr
      · have : y = n := List.inj_on_of_nodup_map h.addrNodup hy hn e
        subst this
        exact ⟨_, (hmem _).2 (.inl rfl), rfl, rfl⟩
      · exact ⟨y, (hmem _).2 (.inr ⟨hy, e⟩), rfl, rfl⟩
    · exact h.kmNodup
    · intro x hx
      rcases (hmem x).1 hx with rfl | ⟨hx, _⟩
      · exact h.keyLe n hn
      · exact h.keyLe x hx
    · intro x hx
      rcases (hmem x).1 hx with rfl | ⟨hx, _⟩
      · exact h.keyPos n hn
      · exact h.keyPos x hx

/-- Adding a node with a fresh time, key and address. -/
theorem WF.addNode {w : World} {m : Mgr T C} (h : WF w m) (t : T) (c : C)
    (ht : ∀ n ∈ m.nodes, n.time ≠ t) (km : List (Key × Nat))
    (hkm : ∀ k, kmFind km k = if k = w.calls + 1 then some w.nextAddr else kmFind m.keyMap k)
    (hnd : (km.map Prod.fst).Nodup) :
    WF ⟨w.calls + 1, w.nextAddr + 1⟩
      ⟨(mapInsert m.nodes ⟨w.nextAddr, t, w.calls + 1, c⟩).1, km⟩ := by
  obtain ⟨_, hp⟩ := mapInsert_fresh (ns := m.nodes) ⟨w.nextAddr, t, w.calls + 1, c⟩ ht
  have hmem : ∀ x, x ∈ (mapInsert m.nodes ⟨w.nextAddr, t, w.calls + 1, c⟩).1 ↔
      x = ⟨w.nextAddr, t, w.calls + 1, c⟩ ∨ x ∈ m.nodes := fun x => by
    rw [hp.mem_iff]; simp
  constructor
  · exact mapInsert_sorted h.sorted _
  · rw [(hp.map _).nodup_iff]
    simp only [List.map_cons, List.nodup_cons]
    refine ⟨?_, h.addrNodup⟩
    intro hx
    obtain ⟨y, hy, e⟩ := List.mem_map.1 hx
    have := h.addrLt y hy
    omega
  · intro x hx
    rcases (hmem x).1 hx with rfl | hx
    · simp
    · exact (h.addrLt x hx).trans (Nat.lt_succ_self _)
  · intro x hx
    rw [hkm]
    rcases (hmem x).1 hx with rfl | hx
    · simp
    · have := h.keyLe x hx
      have hk' : x.key ≠ w.calls + 1 := by omega
      rw [if_neg hk']
      exact h.keyOf x hx
  · intro k a hk
    rw [hkm] at hk
    split at hk
    · next e => subst e; simp at hk; subst hk; exact ⟨_, (hmem _).2 (.inl rfl), rfl, rfl⟩
    · obtain ⟨y, hy, hyk, hya⟩ := h.kmSound k a hk
      exact ⟨y, (hmem _).2 (.inr hy), hyk, hya⟩
  · exact hnd
  · intro x hx
    rcases (hmem x).1 hx with rfl | hx
    · simp
    · exact (h.keyLe x hx).trans (Nat.le_succ _)
  · intro x hx
    rcases (hmem x).1 hx with rfl | hx
    · simp
    · exact h.keyPos x hx

end Ordered

end Verif.Manager

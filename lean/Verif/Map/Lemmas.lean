import Verif.Map.Model
import Verif.Manager.OpLemmas2

/-!
# Searching a tree

If the order and the comparisons agree, the searches find the place where the comparisons change, whatever the shape.
-/

set_option linter.unusedSectionVars false
set_option linter.dupNamespace false

namespace Verif.Map

open Verif.Manager

namespace Tree

variable {N T : Type} (c : Cmp T) (time : N → T) (k : T)

theorem size_eq : ∀ t : Tree N, t.size = t.toList.length
  | leaf => rfl
  | node l x r => by simp [size, toList, size_eq l, size_eq r]; omega

theorem split_left {L R a b : List N} {x : N} {p : N → Prop} (h : L ++ x :: R = a ++ b) (ha : ∀ y ∈ a, ¬ p y)
    (hx : p x) : ∃ b', L = a ++ b' ∧ b = b' ++ x :: R := by
  rcases List.append_eq_append_iff.1 h with ⟨d, h1, h2⟩ | ⟨d, h1, h2⟩
  · cases d with
    | nil => exact ⟨[], by simpa using h1.symm, by simpa using h2.symm⟩
    | cons y d =>
      simp only [List.cons_append, List.cons.injEq] at h2
      refine absurd hx (ha x ?_)
      rw [h1, h2.1]
      simp
  · exact ⟨d, h1, h2⟩

theorem split_right {L R a b : List N} {x : N} {p : N → Prop} (h : L ++ x :: R = a ++ b) (hb : ∀ y ∈ b, p y)
    (hx : ¬ p x) : ∃ a', a = L ++ x :: a' ∧ R = a' ++ b := by
  rcases List.append_eq_append_iff.1 h with ⟨d, h1, h2⟩ | ⟨d, h1, h2⟩
  · cases d with
    | nil =>
      simp only [List.nil_append] at h2
      refine absurd (hb x ?_) hx
      rw [← h2]
      simp
    | cons y d =>
      simp only [List.cons_append, List.cons.injEq] at h2
      exact ⟨d, by rw [h1, h2.1], h2.2⟩
  · refine absurd (hb x ?_) hx
    rw [h2]
    simp

theorem upper_spec : ∀ (t : Tree N) (base y : Nat) (a b : List N), t.toList = a ++ b →
    (∀ x ∈ a, c.lt k (time x) = false) → (∀ x ∈ b, c.lt k (time x) = true) →
    t.upper c time k base y = if b = [] then y else base + a.length
  | leaf, base, y, a, b, h, _, _ => by
    have : b = [] := by
      simp only [toList] at h
      exact (List.append_eq_nil_iff.1 h.symm).2
    simp [upper, this]
  | node l x r, base, y, a, b, h, ha, hb => by
    rw [upper]
    cases hx : c.lt k (time x) with
    | true =>
      obtain ⟨b', e1, e2⟩ := split_left (p := fun x => c.lt k (time x) = true) h (fun y hy => by simp [ha y hy]) hx
      rw [if_pos rfl, upper_spec l base _ a b' e1 ha (fun y hy => hb y (by rw [e2]; simp [hy])),
        if_neg (show b ≠ [] by rw [e2]; simp)]
      split
      · rename_i h0
        rw [size_eq, e1, h0, List.append_nil]
      · rfl
    | false =>
      obtain ⟨a', e1, e2⟩ := split_right (p := fun x => c.lt k (time x) = true) h hb (by simp [hx])
      rw [if_neg (by simp), upper_spec r _ y a' b e2 (fun y hy => ha y (by rw [e1]; simp [hy])) hb]
      split
      · rfl
      · rw [size_eq, e1]
        simp only [List.length_append, List.length_cons]
        omega

theorem lower_spec : ∀ (t : Tree N) (base y : Nat) (a b : List N), t.toList = a ++ b →
    (∀ x ∈ a, c.lt (time x) k = true) → (∀ x ∈ b, c.lt (time x) k = false) →
    t.lower c time k base y = if b = [] then y else base + a.length
  | leaf, base, y, a, b, h, _, _ => by
    have : b = [] := by
      simp only [toList] at h
      exact (List.append_eq_nil_iff.1 h.symm).2
    simp [lower, this]
  | node l x r, base, y, a, b, h, ha, hb => by
    rw [lower]
    cases hx : c.lt (time x) k with
    | false =>
      obtain ⟨b', e1, e2⟩ := split_left (p := fun x => c.lt (time x) k = false) h (fun y hy => by simp [ha y hy]) hx
      rw [if_neg (by simp), lower_spec l base _ a b' e1 ha (fun y hy => hb y (by rw [e2]; simp [hy])),
        if_neg (show b ≠ [] by rw [e2]; simp)]
      split
      · rename_i h0
        rw [size_eq, e1, h0, List.append_nil]
      · rfl
    | true =>
      obtain ⟨a', e1, e2⟩ := split_right (p := fun x => c.lt (time x) k = false) h hb (by simp [hx])
      rw [if_pos rfl, lower_spec r _ y a' b e2 (fun y hy => ha y (by rw [e1]; simp [hy])) hb]
      split
      · rfl
      · rw [size_eq, e1]
        simp only [List.length_append, List.length_cons]
        omega

/-- The place a descent ends at: before or behind the last node visited. -/
def gapOf (y : Nat × Bool) : Nat := if y.2 then y.1 else y.1 + 1

theorem descend_spec : ∀ (t : Tree N) (base : Nat) (y : Nat × Bool) (a b : List N), t.toList = a ++ b →
    (∀ x ∈ a, c.lt k (time x) = false) → (∀ x ∈ b, c.lt k (time x) = true) →
    gapOf (t.descend c time k base y) = if t.toList = [] then gapOf y else base + a.length
  | leaf, base, y, a, b, h, _, _ => by simp [descend, toList]
  | node l x r, base, y, a, b, h, ha, hb => by
    rw [descend, if_neg (show (node l x r).toList ≠ [] by simp [toList])]
    cases hx : c.lt k (time x) with
    | true =>
      obtain ⟨b', e1, e2⟩ := split_left (p := fun x => c.lt k (time x) = true) h (fun y hy => by simp [ha y hy]) hx
      rw [if_pos rfl, descend_spec l base _ a b' e1 ha (fun y hy => hb y (by rw [e2]; simp [hy]))]
      split
      · rename_i h0
        rw [gapOf, if_pos rfl, size_eq, h0]
        rw [h0] at e1
        rw [(List.append_eq_nil_iff.1 e1.symm).1]
      · rfl
    | false =>
      obtain ⟨a', e1, e2⟩ := split_right (p := fun x => c.lt k (time x) = true) h hb (by simp [hx])
      rw [if_neg (by simp), descend_spec r _ _ a' b e2 (fun y hy => ha y (by rw [e1]; simp [hy])) hb]
      split
      · rename_i h0
        rw [h0] at e2
        rw [gapOf, if_neg (by simp), e1, (List.append_eq_nil_iff.1 e2.symm).1, size_eq]
        simp
        omega
      · rw [size_eq, e1]
        simp only [List.length_append, List.length_cons]
        omega

theorem upperBound_spec (t : Tree N) (a b : List N) (h : t.toList = a ++ b) (ha : ∀ x ∈ a, c.lt k (time x) = false)
    (hb : ∀ x ∈ b, c.lt k (time x) = true) : t.upperBound c time k = a.length := by
  rw [upperBound, upper_spec c time k t 0 _ a b h ha hb]
  split
  · rename_i h0
    rw [size_eq, h, h0, List.append_nil]
  · omega

theorem find_spec (t : Tree N) (a b : List N) (h : t.toList = a ++ b) (ha : ∀ x ∈ a, c.lt (time x) k = true)
    (hb : ∀ x ∈ b, c.lt (time x) k = false) :
    t.find c time k = b.head?.bind fun x => if c.lt k (time x) then none else some x := by
  have e : t.lower c time k 0 t.size = a.length := by
    rw [lower_spec c time k t 0 _ a b h ha hb]
    split
    · rename_i h0
      rw [size_eq, h, h0, List.append_nil]
    · omega
  rw [find, e, h, List.getElem?_append_right (Nat.le_refl _), Nat.sub_self]
  cases b <;> rfl

theorem uniquePos_spec (t : Tree N) (a b : List N) (h : t.toList = a ++ b) (ha : ∀ x ∈ a, c.lt k (time x) = false)
    (hb : ∀ x ∈ b, c.lt k (time x) = true) :
    t.uniquePos c time k = match a.getLast? with
      | none => .ok (.gap 0)
      | some x => if c.lt (time x) k then .ok (.gap a.length) else .ok (.taken (a.length - 1)) := by
  have hg := descend_spec c time k t 0 (0, true) a b h ha hb
  have hg : gapOf (t.descend c time k 0 (0, true)) = a.length := by
    rw [hg]
    split
    · rename_i h0
      rw [h0] at h
      rw [(List.append_eq_nil_iff.1 h.symm).1]
      rfl
    · omega
  have key : ∀ g, g = a.length → g ≠ 0 → compareBefore c time k t (g - 1) g = match a.getLast? with
      | none => .ok (.gap 0)
      | some x => if c.lt (time x) k then .ok (.gap a.length) else .ok (.taken (a.length - 1)) := by
    rintro g rfl h0
    rw [compareBefore, h, List.getElem?_append_left (by omega), ← List.getLast?_eq_getElem?]
    cases hl : a.getLast? with
    | none => rw [List.getLast?_eq_none_iff] at hl; simp [hl] at h0
    | some x => rfl
  rw [uniquePos]
  generalize t.descend c time k 0 (0, true) = y at hg
  obtain ⟨y, s⟩ := y
  cases s with
  | true =>
    simp only [gapOf, if_true] at hg
    simp only [if_true]
    split
    · rename_i h0
      rw [h0] at hg
      rw [List.length_eq_zero_iff.1 hg.symm]
      rfl
    · rename_i h0
      exact key y hg h0
  | false =>
    simp only [gapOf, Bool.false_eq_true, if_false] at hg
    simp only [Bool.false_eq_true, if_false]
    exact key (y + 1) hg (by omega)

end Tree

end Verif.Map

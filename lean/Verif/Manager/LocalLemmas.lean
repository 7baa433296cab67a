import Verif.Manager.EvalLemmas

/-!
# Evaluation looks only at the knots around the time
-/

set_option linter.unusedSectionVars false

namespace Verif.Manager

variable {T C X : Type} [LinearOrder T] [Zero T]
variable {single : C → X} {f : Node T C → Node T C → T → X} {m m' : Mgr T C}

/-- Two managers have the same knots (times and values; keys may differ) from `ta` to `tb`. -/
def AgreeOn (ta tb : T) (k k' : List (T × C)) : Prop :=
  ∀ x v, ta ≤ x → x ≤ tb → ((x, v) ∈ k ↔ (x, v) ∈ k')

theorem mem_knots_of_node {n : Node T C} (h : n ∈ m.nodes) : (n.time, n.coef) ∈ m.knots := List.mem_map.2 ⟨n, h, rfl⟩

/-- The neighbours around a time between two knots. -/
theorem segment_at (hs : Sorted m.nodes) {ta tb t : T} {A B : C} (ha : (ta, A) ∈ m.knots)
    (hb : (tb, B) ∈ m.knots) (h0 : ta ≤ t) (h1 : t < tb) :
    ∃ pre a b post, m.nodes = pre ++ a :: b :: post ∧ a.time ≤ t ∧ t < b.time ∧ ta ≤ a.time ∧ b.time ≤ tb := by
  obtain ⟨na, hna, ea⟩ := List.mem_map.1 ha
  obtain ⟨nb, hnb, eb⟩ := List.mem_map.1 hb
  cases ea; cases eb
  have hlt := lt_of_le_of_lt h0 h1
  have hsize : 2 ≤ m.size := by
    rcases hm : m.nodes with _ | ⟨x, _ | ⟨y, l⟩⟩
    · rw [hm] at hna; simp at hna
    · rw [hm] at hna hnb
      simp at hna hnb
      rw [hna, hnb] at hlt
      exact absurd hlt (lt_irrefl _)
    · simp [Mgr.size, hm]
  obtain ⟨⟨a, b⟩, e⟩ := Option.isSome_iff_exists.1 ((getAt_isSome_iff hs t).2
    ⟨hsize, (min_le_node hs hna).1.trans h0, h1.le.trans (min_le_node hs hnb).2⟩)
  obtain ⟨pre, post, hm, hc⟩ := getAt_some e
  have hs' := hs
  rw [hm, Sorted, List.pairwise_append, List.pairwise_cons, List.pairwise_cons] at hs'
  obtain ⟨-, ⟨q1, q2, -⟩, q3⟩ := hs'
  have place : ∀ n ∈ m.nodes, n.time ≤ a.time ∨ b.time ≤ n.time := by
    intro n hn
    rw [hm] at hn
    rcases List.mem_append.1 hn with h | h
    · exact Or.inl (q3 n h a (by simp)).le
    · rcases List.mem_cons.1 h with rfl | h
      · exact Or.inl le_rfl
      · rcases List.mem_cons.1 h with rfl | h
        · exact Or.inr le_rfl
        · exact Or.inr (q2 n h).le
  have hab : a.time ≤ t ∧ t < b.time := by
    rcases hc with ⟨rfl, rfl⟩ | h
    · have : m.getMaxTime = b.time := by simp [Mgr.getMaxTime, hm]
      have h2 := (min_le_node hs hnb).2
      rw [this] at h2
      exact absurd h1 (not_lt.2 h2)
    · exact h
  refine ⟨pre, a, b, post, hm, hab.1, hab.2, ?_, ?_⟩
  · rcases place na hna with h | h
    · exact h
    · exact absurd (lt_of_le_of_lt h0 hab.2) (not_lt.2 h)
  · rcases place nb hnb with h | h
    · exact absurd (lt_of_le_of_lt hab.1 h1) (not_lt.2 h)
    · exact h

/-- Evaluation before the last of some common knots. -/
theorem evalWith_local (hs : Sorted m.nodes) (hs' : Sorted m'.nodes) {ta tb t : T} {A B : C}
    (ha : (ta, A) ∈ m.knots) (hb : (tb, B) ∈ m.knots) (hag : AgreeOn ta tb m.knots m'.knots) (h0 : ta ≤ t)
    (h1 : t < tb) (hf : ∀ a b a' b' : Node T C, a'.time = a.time → a'.coef = a.coef → b'.time = b.time →
      b'.coef = b.coef → f a' b' t = f a b t) :
    evalWith single f t m' = evalWith single f t m := by
  obtain ⟨pre, a, b, post, hm, k0, k1, k2, k3⟩ := segment_at hs ha hb h0 h1
  have hab := neighbours_lt hs hm
  have ma := mem_knots_of_node (show a ∈ m.nodes by simp [hm])
  have mb := mem_knots_of_node (show b ∈ m.nodes by simp [hm])
  have hs2 := hs
  rw [hm, Sorted, List.pairwise_append, List.pairwise_cons, List.pairwise_cons] at hs2
  obtain ⟨-, ⟨-, q2, -⟩, q3⟩ := hs2
  obtain ⟨pre', a', b', post', hm', e1, e2, e3, e4⟩ := exists_segment hs'
    ((hag _ _ k2 (hab.le.trans k3)).1 ma) ((hag _ _ (k2.trans hab.le) k3).1 mb) hab (by
      rintro s k hk ⟨l1, l2⟩
      have := (hag s k (k2.trans l1.le) (l2.le.trans k3)).2 hk
      obtain ⟨n, hn, e⟩ := List.mem_map.1 this
      cases e
      rw [hm] at hn
      rcases List.mem_append.1 hn with h | h
      · exact absurd l1 (not_lt.2 (q3 n h a (by simp)).le)
      · rcases List.mem_cons.1 h with rfl | h
        · exact absurd l1 (lt_irrefl _)
        · rcases List.mem_cons.1 h with rfl | h
          · exact absurd l2 (lt_irrefl _)
          · exact absurd l2 (not_lt.2 (q2 n h).le))
  rw [evalWith_interior hs hm k0 k1, evalWith_interior hs' hm' (by rw [e1]; exact k0) (by rw [e3]; exact k1),
    hf a b a' b' e1 e2 e3 e4]

end Verif.Manager

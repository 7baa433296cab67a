import Verif.Manager.EvalLemmas

/-!
# Curves at other times

What evaluation makes of a curve whose knots were moved to other times by an increasing function, of one
that runs backwards, and of two curves that share a segment.
-/

set_option linter.unusedSectionVars false

namespace Verif.Manager

variable {T T' C C' X X' Y : Type} [LinearOrder T] [Zero T] [LinearOrder T'] [Zero T']

section retimed
variable {m : Mgr T C} {m' : Mgr T' C'} {φ : T → T'} {F : C → C'}

theorem retimed_min (h : m'.knots = m.knots.map fun p => (φ p.1, F p.2)) (hne : m.knots ≠ []) :
    m'.getMinTime = φ m.getMinTime := by
  have := congrArg (fun l => l.head?.map Prod.fst) h
  simp only [Mgr.knots, List.head?_map, Option.map_map] at this
  have hn := knots_ne_nil.1 hne
  unfold Mgr.getMinTime
  cases h1 : m.nodes <;> cases h2 : m'.nodes <;> simp [h1, h2] at this hn ⊢
  exact this

theorem retimed_max (h : m'.knots = m.knots.map fun p => (φ p.1, F p.2)) (hne : m.knots ≠ []) :
    m'.getMaxTime = φ m.getMaxTime := by
  have := congrArg (fun l => l.getLast?.map Prod.fst) h
  simp only [Mgr.knots, List.getLast?_map, Option.map_map] at this
  have hn := knots_ne_nil.1 hne
  unfold Mgr.getMaxTime
  cases h1 : m.nodes.getLast? <;> cases h2 : m'.nodes.getLast? <;> simp [h1, h2] at this hn ⊢
  · simp at h1; exact absurd h1 hn
  · exact this

theorem retimed_size (h : m'.knots = m.knots.map fun p => (φ p.1, F p.2)) : m'.size = m.size := by
  have := congrArg List.length h
  simpa [Mgr.knots, Mgr.size] using this

theorem retimed_sorted (hφ : StrictMono φ) (h : m'.knots = m.knots.map fun p => (φ p.1, F p.2))
    (hs : Sorted m.nodes) : Sorted m'.nodes := by
  rw [sorted_iff_knots] at hs ⊢
  rw [h, List.map_map]
  rw [List.pairwise_map] at hs ⊢
  exact hs.imp fun h => hφ h

theorem retimed_split (h : m'.knots = m.knots.map fun p => (φ p.1, F p.2)) {pre post : List (Node T C)}
    {a b : Node T C} (hm : m.nodes = pre ++ a :: b :: post) :
    ∃ pre' a' b' post', m'.nodes = pre' ++ a' :: b' :: post' ∧ a'.time = φ a.time ∧ b'.time = φ b.time ∧
      a'.coef = F a.coef ∧ b'.coef = F b.coef ∧ post'.length = post.length := by
  simp only [Mgr.knots, hm, List.map_append, List.map_cons] at h
  obtain ⟨pre', r, e, -, h⟩ := List.map_eq_append_iff.1 h
  obtain ⟨a', r, rfl, ha, h⟩ := List.map_eq_cons_iff.1 h
  obtain ⟨b', post', rfl, hb, h⟩ := List.map_eq_cons_iff.1 h
  simp only [Prod.mk.injEq] at ha hb
  refine ⟨pre', a', b', post', e, ha.1, hb.1, ha.2, hb.2, ?_⟩
  simpa using congrArg List.length h

theorem retimed_getAt (hφ : StrictMono φ) (h : m'.knots = m.knots.map fun p => (φ p.1, F p.2))
    (hs : Sorted m.nodes) (t : T) :
    (m.getCoefficientsAt t = none ∧ m'.getCoefficientsAt (φ t) = none) ∨
    ∃ a b a' b', m.getCoefficientsAt t = some (a, b) ∧ m'.getCoefficientsAt (φ t) = some (a', b') ∧
      a'.time = φ a.time ∧ b'.time = φ b.time ∧ a'.coef = F a.coef ∧ b'.coef = F b.coef := by
  have hs' := retimed_sorted hφ h hs
  cases e : m.getCoefficientsAt t with
  | none =>
    left
    have h1 := mt (getAt_isSome_iff hs t).2 (by simp [e])
    refine ⟨rfl, ?_⟩
    by_cases hne : m.knots = []
    · have hm' : m'.nodes = [] := by
        rw [hne] at h
        simpa [Mgr.knots] using h
      simp [Mgr.getCoefficientsAt, hm']
    · have h2 := mt (getAt_isSome_iff hs' (φ t)).1 (by
        rwa [retimed_size h, retimed_min h hne, retimed_max h hne, hφ.le_iff_le, hφ.le_iff_le])
      simpa using h2
  | some p =>
    right
    obtain ⟨a, b⟩ := p
    obtain ⟨pre, post, hm, hc⟩ := getAt_some e
    obtain ⟨pre', a', b', post', hm', ta, tb, ca, cb, hl⟩ := retimed_split h hm
    refine ⟨a, b, a', b', rfl, ?_, ta, tb, ca, cb⟩
    rcases hc with ⟨rfl, rfl⟩ | ⟨h0, h1⟩
    · obtain rfl : post' = [] := List.length_eq_zero_iff.1 hl
      rw [← tb]
      exact getAt_max hm'
    · exact getAt_interior hs' hm' (by rw [ta]; exact hφ.monotone h0) (by rw [tb]; exact hφ h1)

/-- Evaluation of two curves with related values at related times. -/
theorem evalWith_retimed {single : C → X} {f : Node T C → Node T C → T → X} {single' : C' → X'}
    {f' : Node T' C' → Node T' C' → T' → X'} (hφ : StrictMono φ) (hs : Sorted m.nodes)
    (hne : m.knots ≠ []) (g : X → X') (h : m'.knots = m.knots.map fun p => (φ p.1, F p.2))
    (hsingle : ∀ n ∈ m.nodes, single' (F n.coef) = g (single n.coef)) (t : T)
    (hf : ∀ (a b : Node T C) (a' b' : Node T' C'), a ∈ m.nodes → b ∈ m.nodes → a.time < b.time →
      a'.time = φ a.time → b'.time = φ b.time → a'.coef = F a.coef → b'.coef = F b.coef →
      f' a' b' (φ t) = g (f a b t)) :
    evalWith single' f' (φ t) m' = (evalWith single f t m >>= fun r => .ok (r.map g)) := by
  have hh : m'.nodes.head?.map (·.coef) = m.nodes.head?.map fun n => F n.coef := by
    have := congrArg (fun l => l.head?.map Prod.snd) h
    simpa [Mgr.knots, Function.comp_def] using this
  unfold evalWith
  simp only [retimed_min h hne, retimed_max h hne, hφ.injective.eq_iff]
  split
  · cases h1 : m.nodes.head? <;> cases h2 : m'.nodes.head? <;> simp [h1, h2] at hh ⊢
    rw [hh, hsingle _ (List.mem_of_head? h1)]
  · rcases retimed_getAt hφ h hs t with ⟨e, e'⟩ | ⟨a, b, a', b', e, e', h1, h2, h3, h4⟩
    · rw [e, e']; rfl
    · rw [e, e']
      obtain ⟨pre, post, hm, -⟩ := getAt_some e
      simp only [Outcome.ok_bind, Option.map_some]
      rw [hf a b a' b' (by simp [hm]) (by simp [hm]) (neighbours_lt hs hm) h1 h2 h3 h4]

end retimed

section reversed
variable {m : Mgr T C} {m' : Mgr T' C'} {φ : T → T'} {F : C → C'}

theorem reversed_split (h : m'.knots = (m.knots.map fun p => (φ p.1, F p.2)).reverse)
    {pre post : List (Node T C)} {a b : Node T C} (hm : m.nodes = pre ++ a :: b :: post) :
    ∃ pre' a' b' post', m'.nodes = pre' ++ b' :: a' :: post' ∧ a'.time = φ a.time ∧ b'.time = φ b.time ∧
      a'.coef = F a.coef ∧ b'.coef = F b.coef ∧ post'.length = pre.length := by
  simp only [Mgr.knots, hm, List.map_append, List.map_cons, List.reverse_append, List.reverse_cons,
    List.append_assoc, List.cons_append, List.nil_append] at h
  obtain ⟨pre', r, e, -, h⟩ := List.map_eq_append_iff.1 h
  obtain ⟨b', r, rfl, hb, h⟩ := List.map_eq_cons_iff.1 h
  obtain ⟨a', post', rfl, ha, h⟩ := List.map_eq_cons_iff.1 h
  simp only [Prod.mk.injEq] at ha hb
  refine ⟨pre', a', b', post', e, ha.1, hb.1, ha.2, hb.2, ?_⟩
  simpa using congrArg List.length h

theorem reversed_sorted (hφ : StrictAnti φ)
    (h : m'.knots = (m.knots.map fun p => (φ p.1, F p.2)).reverse) (hs : Sorted m.nodes) :
    Sorted m'.nodes := by
  rw [sorted_iff_knots] at hs ⊢
  rw [h, List.map_reverse, List.pairwise_reverse, List.map_map]
  rw [List.pairwise_map] at hs ⊢
  exact hs.imp fun h => hφ h

theorem reversed_size (h : m'.knots = (m.knots.map fun p => (φ p.1, F p.2)).reverse) :
    m'.size = m.size := by
  have := congrArg List.length h
  simpa [Mgr.knots, Mgr.size] using this

theorem reversed_min (h : m'.knots = (m.knots.map fun p => (φ p.1, F p.2)).reverse)
    (hne : m.knots ≠ []) : m'.getMinTime = φ m.getMaxTime := by
  have := congrArg (fun l => l.head?.map Prod.fst) h
  simp only [Mgr.knots, List.head?_map, List.head?_reverse, List.getLast?_map, Option.map_map] at this
  have hn := knots_ne_nil.1 hne
  unfold Mgr.getMinTime Mgr.getMaxTime
  cases h1 : m.nodes.getLast? <;> cases h2 : m'.nodes <;> simp [h1, h2] at this hn ⊢
  · simp at h1; exact absurd h1 hn
  · exact this

theorem reversed_max (h : m'.knots = (m.knots.map fun p => (φ p.1, F p.2)).reverse)
    (hne : m.knots ≠ []) : m'.getMaxTime = φ m.getMinTime := by
  have := congrArg (fun l => l.getLast?.map Prod.fst) h
  simp only [Mgr.knots, List.head?_map, List.getLast?_reverse, List.getLast?_map, Option.map_map] at this
  have hn := knots_ne_nil.1 hne
  unfold Mgr.getMinTime Mgr.getMaxTime
  cases h1 : m.nodes <;> cases h2 : m'.nodes.getLast? <;> simp [h1, h2] at this hn ⊢
  exact this

/-- Evaluation of a curve and of one that runs backwards, for a formula `f` that is right at the ends of a
segment. -/
theorem evalWith_reversed {single : C → X} {f : Node T C → Node T C → T → X} {single' : C' → X'}
    {f' : Node T' C' → Node T' C' → T' → X'} (hφ : StrictAnti φ) (hs : Sorted m.nodes)
    (hne : m.knots ≠ []) (g : X → X') (h : m'.knots = (m.knots.map fun p => (φ p.1, F p.2)).reverse)
    (hsingle : ∀ n ∈ m.nodes, single' (F n.coef) = g (single n.coef))
    (hl : ∀ a b : Node T C, a.time < b.time → f a b a.time = single a.coef)
    (hr : ∀ a b : Node T C, a.time < b.time → f a b b.time = single b.coef)
    (hl' : ∀ a b : Node T' C', a.time < b.time → f' a b a.time = single' a.coef)
    (hr' : ∀ a b : Node T' C', a.time < b.time → f' a b b.time = single' b.coef) (t : T)
    (hf : ∀ (a b : Node T C) (a' b' : Node T' C'), a.time < b.time →
      a'.time = φ a.time → b'.time = φ b.time → a'.coef = F a.coef → b'.coef = F b.coef →
      f' b' a' (φ t) = g (f a b t)) :
    evalWith single' f' (φ t) m' = (evalWith single f t m >>= fun r => .ok (r.map g)) := by
  have hs' := reversed_sorted hφ h hs
  have hne' : m'.knots ≠ [] := by rw [h]; simpa using hne
  by_cases hd : m.getMinTime ≤ t ∧ t ≤ m.getMaxTime
  · by_cases h2 : 2 ≤ m.size
    · obtain ⟨pre, a, b, post, hm, h0, h1, -⟩ := exists_bracket hs h2 hd.1 hd.2
      obtain ⟨pre', a', b', post', hm', ta, tb, ca, cb, -⟩ := reversed_split h hm
      obtain ⟨x, e, hx⟩ := evalWith_between (single := single) (f := f) hs id
        (fun a b _ _ h => hl a b h) (fun a b _ _ h => hr a b h) hm h0 h1
      obtain ⟨x', e', hx'⟩ := evalWith_between (single := single') (f := f') hs' id
        (fun a b _ _ h => hl' a b h) (fun a b _ _ h => hr' a b h) hm' (t := φ t)
        (by rw [tb]; exact hφ.antitone h1) (by rw [ta]; exact hφ.antitone h0)
      rw [e, e']
      simp only [id] at hx hx'
      rw [hx, hx', hf a b a' b' (neighbours_lt hs hm) ta tb ca cb]
      rfl
    · obtain ⟨n, l, hn⟩ := List.exists_cons_of_ne_nil (knots_ne_nil.1 hne)
      obtain rfl : l = [] := by
        rw [Mgr.size, hn] at h2
        cases l with
        | nil => rfl
        | cons x l => simp at h2
      have hk : m'.knots = [(φ n.time, F n.coef)] := by rw [h]; simp [Mgr.knots, hn]
      obtain ⟨n', l', hn'⟩ := List.exists_cons_of_ne_nil (knots_ne_nil.1 hne')
      rw [Mgr.knots, hn'] at hk
      simp only [List.map_cons, List.cons.injEq, Prod.mk.injEq, List.map_eq_nil_iff] at hk
      obtain ⟨⟨e1, e2⟩, rfl⟩ := hk
      have ht : t = n.time := by
        simp only [Mgr.getMinTime, Mgr.getMaxTime, hn, List.getLast?_singleton] at hd
        exact le_antisymm hd.2 hd.1
      subst ht
      simp [evalWith, Mgr.getMinTime, Mgr.getMaxTime, hn, hn', e1, e2, hsingle n (by simp [hn])]
  · obtain ⟨r, e, hr1⟩ := evalWith_domain (single := single) (f := f) hs t (Or.inl hne)
    obtain ⟨r', e', hr2⟩ := evalWith_domain (single := single') (f := f') hs' (φ t) (Or.inl hne')
    have : r = none := by
      cases r with
      | none => rfl
      | some x => exact absurd (hr1.1 rfl).2 hd
    have : r' = none := by
      cases r' with
      | none => rfl
      | some x =>
        have := (hr2.1 rfl).2
        rw [reversed_min h hne, reversed_max h hne, hφ.le_iff_ge, hφ.le_iff_ge] at this
        exact absurd ⟨this.2, this.1⟩ hd
    subst_vars
    rw [e, e']; rfl

end reversed

/-- Where a value comes from: a point of the curve, or two neighbouring ones around the time. -/
theorem evalWith_some {single : C → X} {f : Node T C → Node T C → T → X} {t : T} {r : X} (hs : Sorted m.nodes)
    (e : evalWith single f t m = .ok (some r)) :
    (∃ n ∈ m.nodes, r = single n.coef) ∨
      ∃ pre a b post, m.nodes = pre ++ a :: b :: post ∧ a.time ≤ t ∧ t ≤ b.time ∧ r = f a b t := by
  unfold evalWith at e
  split at e
  · cases hn : m.nodes with
    | nil => rw [hn] at e; cases e
    | cons n l =>
      rw [hn] at e
      cases e
      exact Or.inl ⟨n, by simp, rfl⟩
  · cases hg : m.getCoefficientsAt t with
    | none => rw [hg] at e; cases e
    | some p =>
      obtain ⟨a, b⟩ := p
      rw [hg] at e
      cases e
      obtain ⟨pre, post, hm, h⟩ := getAt_some hg
      have := neighbours_lt hs hm
      refine Or.inr ⟨pre, a, b, post, hm, ?_, ?_, rfl⟩
      · rcases h with ⟨rfl, -⟩ | h
        exacts [this.le, h.1]
      · rcases h with ⟨rfl, -⟩ | h
        exacts [le_rfl, h.2.le]

end Verif.Manager

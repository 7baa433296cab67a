import Verif.Manager.CurveLemmas
import Verif.Hermite.E3Lemmas

/-!
# The common shape of the `evaluate` functions

All curves on a `LocalSupport2CoefficientManager` evaluate alike: a curve whose first and last times are
both the queried one returns its first knot, everything else goes through `getCoefficientsAt` and a
formula for the segment. `evalWith` is that shape; the lemmas below are about any formula.
-/

set_option linter.unusedSectionVars false

namespace Verif.Manager

section order
variable {T C X Y : Type} [LinearOrder T] [Zero T]

def evalWith (single : C → X) (f : Node T C → Node T C → T → X) (t : T) (m : Mgr T C) :
    Outcome (Option X) :=
  if m.getMaxTime = t ∧ m.getMinTime = t then
    Outcome.deref m.nodes.head? >>= fun n => .ok (some (single n.coef))
  else
    match m.getCoefficientsAt t with
    | none => .ok none
    | some (a, b) => .ok (some (f a b t))

variable {single : C → X} {f : Node T C → Node T C → T → X} {m : Mgr T C}

theorem knots_ne_nil : m.knots ≠ [] ↔ m.nodes ≠ [] := by simp [Mgr.knots]

theorem evalWith_domain (hs : Sorted m.nodes) (t : T) (hg : m.knots ≠ [] ∨ t ≠ 0) :
    ∃ r, evalWith single f t m = .ok r ∧
      (r.isSome ↔ m.knots ≠ [] ∧ m.getMinTime ≤ t ∧ t ≤ m.getMaxTime) := by
  simp only [knots_ne_nil] at *
  cases hn : m.nodes with
  | nil =>
    have ht : t ≠ 0 := by rcases hg with h | h; exacts [absurd hn h, h]
    have e1 : m.getMaxTime = 0 := by simp [Mgr.getMaxTime, hn]
    have e2 : m.getCoefficientsAt t = none := by simp [Mgr.getCoefficientsAt, hn]
    refine ⟨none, ?_, by simp⟩
    rw [evalWith, if_neg (by rw [e1]; exact fun h => ht h.1.symm), e2]
  | cons a l =>
    cases l with
    | nil =>
      have e1 : m.getMaxTime = a.time := by simp [Mgr.getMaxTime, hn]
      have e2 : m.getMinTime = a.time := by simp [Mgr.getMinTime, hn]
      have e3 : m.getCoefficientsAt t = none := by
        have := mt (getAt_isSome_iff hs t).1 (by simp [Mgr.size, hn])
        simpa using this
      rw [evalWith, e1, e2, e3, hn]
      by_cases h : a.time = t
      · rw [if_pos ⟨h, h⟩]
        simp [h]
      · rw [if_neg (fun x => h x.1)]
        refine ⟨none, rfl, ?_⟩
        simp only [Option.isSome_none, Bool.false_eq_true, false_iff, not_and, not_le]
        exact fun _ hle => lt_of_le_of_ne hle h
    | cons b l =>
      have hm : m.nodes = [] ++ a :: b :: l := hn
      rw [evalWith, if_neg (not_single hs hm t)]
      have key := getAt_isSome_iff hs t
      cases h : m.getCoefficientsAt t with
      | none =>
        rw [h] at key
        exact ⟨none, rfl, by simpa [Mgr.size, hn] using key⟩
      | some p =>
        rw [h] at key
        exact ⟨_, rfl, by simpa [Mgr.size, hn] using key⟩

theorem evalWith_map (g : X → Y) (t : T) : evalWith (fun c => g (single c)) (fun a b t => g (f a b t)) t m =
    (evalWith single f t m >>= fun r => .ok (r.map g)) := by
  unfold evalWith
  split
  · cases m.nodes.head? <;> simp
  · cases m.getCoefficientsAt t with
    | none => rfl
    | some p => rfl

theorem evalWith_empty (h : m.knots = []) : evalWith single f 0 m = .ub := by
  have hn : m.nodes = [] := by simpa [Mgr.knots] using h
  simp [evalWith, Mgr.getMaxTime, Mgr.getMinTime, hn]

/-- `g` of the value, anywhere on a segment, when `g` of the formula is right at the left and right ends
of segments. -/
theorem evalWith_between (hs : Sorted m.nodes) (g : X → Y)
    (hl : ∀ a b : Node T C, a ∈ m.nodes → b ∈ m.nodes → a.time < b.time →
      g (f a b a.time) = g (single a.coef))
    (hr : ∀ a b : Node T C, a ∈ m.nodes → b ∈ m.nodes → a.time < b.time →
      g (f a b b.time) = g (single b.coef))
    {pre post : List (Node T C)} {a b : Node T C} (hm : m.nodes = pre ++ a :: b :: post) {t : T}
    (h0 : a.time ≤ t) (h1 : t ≤ b.time) :
    ∃ x, evalWith single f t m = .ok (some x) ∧ g x = g (f a b t) := by
  rw [evalWith, if_neg (not_single hs hm t)]
  rcases getAt_between hs hm h0 h1 with h | ⟨x, hx, rfl, hlt, h⟩
  · rw [h]
    exact ⟨_, rfl, rfl⟩
  · rw [h]
    refine ⟨_, rfl, ?_⟩
    have hxm : x ∈ m.nodes := by
      have := List.mem_of_head? hx
      simp [hm, this]
    rw [hl b x (by simp [hm]) hxm hlt, hr a b (by simp [hm]) (by simp [hm]) (neighbours_lt hs hm)]

/-- Before the right end the formula of the segment is used as it is. -/
theorem evalWith_interior (hs : Sorted m.nodes) {pre post : List (Node T C)} {a b : Node T C}
    (hm : m.nodes = pre ++ a :: b :: post) {t : T} (h0 : a.time ≤ t) (h1 : t < b.time) :
    evalWith single f t m = .ok (some (f a b t)) := by
  rw [evalWith, if_neg (not_single hs hm t), getAt_interior hs hm h0 h1]

/-- The value at a knot. -/
theorem evalWith_knot (hs : Sorted m.nodes) (g : X → Y)
    (hl : ∀ a b : Node T C, a ∈ m.nodes → b ∈ m.nodes → a.time < b.time →
      g (f a b a.time) = g (single a.coef))
    (hr : ∀ a b : Node T C, a ∈ m.nodes → b ∈ m.nodes → a.time < b.time →
      g (f a b b.time) = g (single b.coef))
    {t : T} {k : C} (hk : (t, k) ∈ m.knots) :
    ∃ x, evalWith single f t m = .ok (some x) ∧ g x = g (single k) := by
  obtain ⟨n, hn, e⟩ := List.mem_map.1 hk
  cases e
  obtain ⟨pre, post, hm⟩ := List.append_of_mem hn
  cases post with
  | cons b post =>
    have hlt := neighbours_lt hs hm
    exact ⟨_, evalWith_interior hs hm le_rfl hlt, hl n b (by simp [hm]) (by simp [hm]) hlt⟩
  | nil =>
    rcases List.eq_nil_or_concat pre with rfl | ⟨pre', a, rfl⟩
    · have e1 : m.getMaxTime = n.time := by simp [Mgr.getMaxTime, hm]
      have e2 : m.getMinTime = n.time := by simp [Mgr.getMinTime, hm]
      rw [evalWith, if_pos ⟨e1, e2⟩, hm]
      exact ⟨_, rfl, rfl⟩
    · have hm' : m.nodes = pre' ++ a :: n :: [] := by simp [hm]
      have hlt := neighbours_lt hs hm'
      obtain ⟨x, h1, h2⟩ := evalWith_between hs g hl hr hm' hlt.le le_rfl
      exact ⟨x, h1, h2.trans (hr a n (by simp [hm]) (by simp [hm]) hlt)⟩

/-- Two knots without another one in between are neighbours. -/
theorem exists_segment (hs : Sorted m.nodes) {ta tb : T} {ka kb : C} (ha : (ta, ka) ∈ m.knots)
    (hb : (tb, kb) ∈ m.knots) (hlt : ta < tb) (hno : ∀ s k, (s, k) ∈ m.knots → ¬(ta < s ∧ s < tb)) :
    ∃ pre a b post, m.nodes = pre ++ a :: b :: post ∧ a.time = ta ∧ a.coef = ka ∧ b.time = tb ∧
      b.coef = kb := by
  obtain ⟨na, hna, ea⟩ := List.mem_map.1 ha
  obtain ⟨nb, hnb, eb⟩ := List.mem_map.1 hb
  cases ea; cases eb
  obtain ⟨pre, post, hm⟩ := List.append_of_mem hna
  have hs' := hs
  rw [hm, Sorted, List.pairwise_append, List.pairwise_cons] at hs'
  obtain ⟨-, ⟨h1, h2⟩, h3⟩ := hs'
  have hmem : nb ∈ post := by
    rw [hm] at hnb
    rcases List.mem_append.1 hnb with h | h
    · exact absurd hlt (not_lt.2 (h3 nb h na (by simp)).le)
    · rcases List.mem_cons.1 h with rfl | h
      · exact absurd hlt (lt_irrefl _)
      · exact h
  cases post with
  | nil => simp at hmem
  | cons b post =>
    refine ⟨pre, na, b, post, hm, rfl, rfl, ?_⟩
    rcases List.mem_cons.1 hmem with rfl | h
    · exact ⟨rfl, rfl⟩
    · refine absurd ⟨h1 b (by simp), ?_⟩ (hno b.time b.coef (List.mem_map.2 ⟨b, by simp [hm], rfl⟩))
      exact (List.pairwise_cons.1 h2).1 nb h

/-- Evaluation of two curves whose knots have the same times and related values. -/
theorem evalWith_related {C' X' : Type} {m' : Mgr T C'} {single' : C' → X'}
    {f' : Node T C' → Node T C' → T → X'} (hs : Sorted m.nodes) {F : C → C'} (g : X → X')
    (h : m'.knots = m.knots.map fun p => (p.1, F p.2)) (hsingle : ∀ n ∈ m.nodes, single' (F n.coef) = g (single n.coef))
    (t : T)
    (hf : ∀ (a b : Node T C) (a' b' : Node T C'), a ∈ m.nodes → b ∈ m.nodes → a.time < b.time →
      a'.time = a.time → b'.time = b.time → a'.coef = F a.coef → b'.coef = F b.coef →
      f' a' b' t = g (f a b t)) :
    evalWith single' f' t m' = (evalWith single f t m >>= fun r => .ok (r.map g)) := by
  have hh : m'.nodes.head?.map (·.coef) = m.nodes.head?.map fun n => F n.coef := by
    have := congrArg (fun l => l.head?.map Prod.snd) h
    simpa [Mgr.knots, Function.comp_def] using this
  unfold evalWith
  rw [related_min h, related_max h]
  split
  · cases h1 : m.nodes.head? <;> cases h2 : m'.nodes.head? <;> simp [h1, h2] at hh ⊢
    rw [hh, hsingle _ (List.mem_of_head? h1)]
  · rcases related_getAt h hs t with ⟨e, e'⟩ | ⟨a, b, a', b', e, e', h1, h2, h3, h4⟩
    · rw [e, e']; rfl
    · rw [e, e']
      obtain ⟨pre, post, hm, -⟩ := getAt_some e
      simp only [Outcome.ok_bind, Option.map_some]
      rw [hf a b a' b' (by simp [hm]) (by simp [hm]) (neighbours_lt hs hm) h1 h2 h3 h4]

end order

/-! ## Gluing the segments -/

section real
variable {C X Y : Type} [NormedAddCommGroup Y] [NormedSpace ℝ Y]
variable {single : C → X} {f : Node ℝ C → Node ℝ C → ℝ → X} {m : Mgr ℝ C}

/-- The values on the domain, as functions. -/
theorem evalWith_functions [Nonempty X] (hs : Sorted m.nodes) (hne : m.knots ≠ []) :
    ∃ p : ℝ → X, ∀ t ∈ Set.Icc m.getMinTime m.getMaxTime, evalWith single f t m = .ok (some (p t)) := by
  refine ⟨fun t => match evalWith single f t m with | .ok (some v) => v | _ => Classical.arbitrary X, ?_⟩
  intro t ht
  obtain ⟨r, e, h⟩ := evalWith_domain (single := single) (f := f) hs t (Or.inl hne)
  obtain ⟨v, rfl⟩ := Option.isSome_iff_exists.1 (h.2 ⟨hne, ht.1, ht.2⟩)
  simp [e]

/-- What holds on every segment and is kept by gluing holds on the domain. -/
theorem glue_domain {Q : Set ℝ → Prop} (hs : Sorted m.nodes) (hne : m.knots ≠ [])
    (hQ1 : ∀ x, Q {x})
    (hu : ∀ a b c : ℝ, a ≤ b → b ≤ c → Q (Set.Icc a b) → Q (Set.Icc b c) → Q (Set.Icc a c))
    (h : ∀ pre a b post, m.nodes = pre ++ a :: b :: post → Q (Set.Icc a.time b.time)) :
    Q (Set.Icc m.getMinTime m.getMaxTime) := by
  have hn := knots_ne_nil.1 hne
  obtain ⟨x, l, hx⟩ := List.exists_cons_of_ne_nil hn
  have e1 : m.getMinTime = x.time := by simp [Mgr.getMinTime, hx]
  cases l with
  | nil =>
    have e2 : m.getMaxTime = x.time := by simp [Mgr.getMaxTime, hx]
    rw [e1, e2, Set.Icc_self]
    exact hQ1 _
  | cons y l =>
    have e2 : m.getMaxTime = ((y :: l).map (·.time)).getLast (by simp) := by
      rw [List.getLast_map]
      simp [Mgr.getMaxTime, hx, List.getLast?_eq_some_getLast]
    have hp : (x.time :: y.time :: l.map (·.time)).Pairwise (· < ·) := by
      have := sorted_iff_times.1 hs
      rw [hx] at this
      exact this
    rw [e1, e2]
    refine Verif.Hermite.glue hu (l.map (·.time)) x.time y.time hp (fun pre a b post he => ?_)
    have : m.nodes.map (·.time) = pre ++ a :: b :: post := by rw [hx, ← he]; rfl
    obtain ⟨pre', r, er, -, h'⟩ := List.map_eq_append_iff.1 this
    obtain ⟨na, r, rfl, rfl, h2⟩ := List.map_eq_cons_iff.1 h'
    obtain ⟨nb, post', rfl, rfl, -⟩ := List.map_eq_cons_iff.1 h2
    exact h pre' na nb post' er

/-- `g` of the value is differentiable on the whole domain, with derivative `G` of the value. -/
theorem evalWith_deriv (hs : Sorted m.nodes) (hne : m.knots ≠ []) (g : X → Y) (G : X → Y)
    (hl : ∀ a b : Node ℝ C, a ∈ m.nodes → b ∈ m.nodes → a.time < b.time →
      g (f a b a.time) = g (single a.coef))
    (hr : ∀ a b : Node ℝ C, a ∈ m.nodes → b ∈ m.nodes → a.time < b.time →
      g (f a b b.time) = g (single b.coef))
    (hL : ∀ a b : Node ℝ C, a ∈ m.nodes → b ∈ m.nodes → a.time < b.time →
      G (f a b a.time) = G (single a.coef))
    (hR : ∀ a b : Node ℝ C, a ∈ m.nodes → b ∈ m.nodes → a.time < b.time →
      G (f a b b.time) = G (single b.coef))
    (hd : ∀ a b : Node ℝ C, a ∈ m.nodes → b ∈ m.nodes → a.time < b.time → ∀ t,
      HasDerivAt (fun s => g (f a b s)) (G (f a b t)) t)
    {p : ℝ → X}
    (hp : ∀ t ∈ Set.Icc m.getMinTime m.getMaxTime, evalWith single f t m = .ok (some (p t))) :
    ∀ t ∈ Set.Icc m.getMinTime m.getMaxTime,
      HasDerivWithinAt (fun s => g (p s)) (G (p t)) (Set.Icc m.getMinTime m.getMaxTime) t := by
  refine glue_domain (Q := fun S => ∀ t ∈ S, HasDerivWithinAt (fun s => g (p s)) (G (p t)) S t) hs hne
    ?_ (fun a b c hab hbc h1 h2 => Verif.Hermite.glue_deriv (fun s => g (p s)) (fun t => G (p t))
      a b c hab hbc h1 h2) ?_
  · rintro x t rfl
    exact hasDerivWithinAt_iff_hasFDerivWithinAt.2
      (HasFDerivWithinAt.of_subsingleton Set.subsingleton_singleton)
  · intro pre a b post hm t ht
    have hamem : a ∈ m.nodes := by simp [hm]
    have hbmem : b ∈ m.nodes := by simp [hm]
    have hin : ∀ s ∈ Set.Icc a.time b.time, s ∈ Set.Icc m.getMinTime m.getMaxTime := fun s h =>
      ⟨(min_le_node hs hamem).1.trans h.1, h.2.trans (min_le_node hs hbmem).2⟩
    have hg : ∀ s ∈ Set.Icc a.time b.time, g (p s) = g (f a b s) := fun s h => by
      obtain ⟨x, e, hx⟩ := evalWith_between hs g hl hr hm h.1 h.2
      rw [hp s (hin s h)] at e
      cases e; exact hx
    have hG : G (p t) = G (f a b t) := by
      obtain ⟨x, e, hx⟩ := evalWith_between hs G hL hR hm ht.1 ht.2
      rw [hp t (hin t ht)] at e
      cases e; exact hx
    rw [hG]
    exact (hd a b hamem hbmem (neighbours_lt hs hm) t).hasDerivWithinAt.congr hg (hg t ht)

/-- `g` of the value is continuous on the whole domain. -/
theorem evalWith_cont (hs : Sorted m.nodes) (hne : m.knots ≠ []) (g : X → Y)
    (hl : ∀ a b : Node ℝ C, a ∈ m.nodes → b ∈ m.nodes → a.time < b.time →
      g (f a b a.time) = g (single a.coef))
    (hr : ∀ a b : Node ℝ C, a ∈ m.nodes → b ∈ m.nodes → a.time < b.time →
      g (f a b b.time) = g (single b.coef))
    (hd : ∀ a b : Node ℝ C, a ∈ m.nodes → b ∈ m.nodes → a.time < b.time →
      Continuous (fun s => g (f a b s)))
    {p : ℝ → X}
    (hp : ∀ t ∈ Set.Icc m.getMinTime m.getMaxTime, evalWith single f t m = .ok (some (p t))) :
    ContinuousOn (fun s => g (p s)) (Set.Icc m.getMinTime m.getMaxTime) := by
  refine glue_domain (Q := fun S => ContinuousOn (fun s => g (p s)) S) hs hne
    (fun x => continuousOn_singleton _ _)
    (fun a b c hab hbc h1 h2 => Verif.Hermite.glue_cont (fun s => g (p s)) a b c hab hbc h1 h2) ?_
  intro pre a b post hm
  have hamem : a ∈ m.nodes := by simp [hm]
  have hbmem : b ∈ m.nodes := by simp [hm]
  have hin : ∀ s ∈ Set.Icc a.time b.time, s ∈ Set.Icc m.getMinTime m.getMaxTime := fun s h =>
    ⟨(min_le_node hs hamem).1.trans h.1, h.2.trans (min_le_node hs hbmem).2⟩
  have hg : ∀ s ∈ Set.Icc a.time b.time, g (p s) = g (f a b s) := fun s h => by
    obtain ⟨x, e, hx⟩ := evalWith_between hs g hl hr hm h.1 h.2
    rw [hp s (hin s h)] at e
    cases e; exact hx
  exact (hd a b hamem hbmem (neighbours_lt hs hm)).continuousOn.congr hg

end real

end Verif.Manager

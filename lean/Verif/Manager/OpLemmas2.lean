import Verif.Manager.OpLemmas
import Verif.Manager.History

/-!
# Batch modification, bracketing, windows, histories

Lemmas only; the property statements are in `Verif.Manager.Props`.
-/

set_option linter.unusedSectionVars false

namespace Verif.Manager

variable {T C : Type} [LinearOrder T]

/-- Address, time and key of a node: everything but the value. -/
def Node.frame (n : Node T C) : Nat × T × Key := (n.addr, n.time, n.key)

theorem map_time_of_frame {a b : List (Node T C)} (h : a.map Node.frame = b.map Node.frame) :
    a.map (·.time) = b.map (·.time) := by
  have := congrArg (List.map (fun x : Nat × T × Key => x.2.1)) h
  simpa [List.map_map, Function.comp_def, Node.frame] using this

theorem map_key_of_frame {a b : List (Node T C)} (h : a.map Node.frame = b.map Node.frame) :
    a.map (·.key) = b.map (·.key) := by
  have := congrArg (List.map (fun x : Nat × T × Key => x.2.2)) h
  simpa [List.map_map, Function.comp_def, Node.frame] using this

theorem map_addr_of_frame {a b : List (Node T C)} (h : a.map Node.frame = b.map Node.frame) :
    a.map (·.addr) = b.map (·.addr) := by
  have := congrArg (List.map (fun x : Nat × T × Key => x.1)) h
  simpa [List.map_map, Function.comp_def, Node.frame] using this

theorem mem_of_frame {a b : List (Node T C)} (h : a.map Node.frame = b.map Node.frame)
    {x : Node T C} (hx : x ∈ a) : ∃ y ∈ b, y.addr = x.addr ∧ y.time = x.time ∧ y.key = x.key := by
  have : x.frame ∈ b.map Node.frame := h ▸ List.mem_map_of_mem hx
  obtain ⟨y, hy, e⟩ := List.mem_map.1 this
  simp only [Node.frame, Prod.mk.injEq] at e
  exact ⟨y, hy, e⟩

/-- The invariant does not depend on the values. -/
theorem WF.of_frame {w : World} {m : Mgr T C} (h : WF w m) {ns : List (Node T C)}
    (hf : ns.map Node.frame = m.nodes.map Node.frame) : WF w ⟨ns, m.keyMap⟩ := by
  constructor
  · rw [sorted_iff_times]; simpa [map_time_of_frame hf, sorted_iff_times] using h.sorted
  · simpa [map_addr_of_frame hf] using h.addrNodup
  · intro x hx
    obtain ⟨y, hy, e, _, _⟩ := mem_of_frame hf hx
    exact e ▸ h.addrLt y hy
  · intro x hx
    obtain ⟨y, hy, e, _, e'⟩ := mem_of_frame hf hx
    have := h.keyOf y hy
    rwa [e, e'] at this
  · intro k a hk
    obtain ⟨y, hy, e, e'⟩ := h.kmSound k a hk
    obtain ⟨x, hx, f, _, f'⟩ := mem_of_frame hf.symm hy
    exact ⟨x, hx, f'.trans e, f.trans e'⟩
  · exact h.kmNodup
  · intro x hx
    obtain ⟨y, hy, _, _, e⟩ := mem_of_frame hf hx
    exact e ▸ h.keyLe y hy
  · intro x hx
    obtain ⟨y, hy, _, _, e⟩ := mem_of_frame hf hx
    exact e ▸ h.keyPos y hy

theorem assignRun_frame {ns ns' : List (Node T C)} {l : List (T × C)}
    (h : assignRun ns l = .ok ns') : ns'.map Node.frame = ns.map Node.frame := by
  induction l generalizing ns ns' with
  | nil => simp only [assignRun] at h; cases h; rfl
  | cons p rest ih =>
    obtain ⟨t, c⟩ := p
    cases ns with
    | nil => simp [assignRun] at h
    | cons n ns =>
      simp only [assignRun] at h
      split at h
      · obtain ⟨ns1, h1, h2⟩ := Outcome.bind_eq_ok.1 h
        cases h2
        simp [ih h1, Node.frame]
      · cases h

theorem assignRun_abort {ns post : List (Node T C)} {run : List T} {cs : List C} {y : Node T C}
    {x : T} {more : List T} (hns : ns.map (·.time) = run)
    (hl : cs.length = run.length + 1 + more.length) (hxy : y.time ≠ x) :
    assignRun (ns ++ y :: post) ((run ++ x :: more).zip cs) = .abort := by
  induction ns generalizing run cs with
  | nil =>
    simp only [List.map_nil] at hns
    subst hns
    cases cs with
    | nil => simp at hl; omega
    | cons c cs => simp [assignRun, hxy]
  | cons n rest ih =>
    cases run with
    | nil => simp at hns
    | cons t run =>
      simp only [List.map_cons, List.cons.injEq] at hns
      cases cs with
      | nil => simp at hl; omega
      | cons c cs =>
        have := ih hns.2 (cs := cs) (by simp at hl; omega)
        simp [assignRun, hns.1, this]

theorem assignRun_ub {ns : List (Node T C)} {run : List T} {cs : List C}
    {x : T} {more : List T} (hns : ns.map (·.time) = run)
    (hl : cs.length = run.length + 1 + more.length) :
    assignRun ns ((run ++ x :: more).zip cs) = .ub := by
  induction ns generalizing run cs with
  | nil =>
    simp only [List.map_nil] at hns
    subst hns
    cases cs with
    | nil => simp at hl; omega
    | cons c cs => simp [assignRun]
  | cons n rest ih =>
    cases run with
    | nil => simp at hns
    | cons t run =>
      simp only [List.map_cons, List.cons.injEq] at hns
      cases cs with
      | nil => simp at hl; omega
      | cons c cs =>
        have := ih hns.2 (cs := cs) (by simp at hl; omega)
        simp [assignRun, hns.1, this]

theorem searchBack_frame {t0 : T} {l acc : List (Node T C)} {b f : List (Node T C)}
    (h : searchBack t0 l acc = some (b, f)) : b ++ f = l.reverse ++ acc := by
  induction l generalizing acc with
  | nil => simp [searchBack] at h
  | cons n prev ih =>
    simp only [searchBack] at h
    split at h
    · simp only [Option.some.injEq, Prod.mk.injEq] at h
      obtain ⟨rfl, rfl⟩ := h
      simp
    · have := ih h
      simpa using this

theorem modBatch_frame {m m' : Mgr T C} {ts : List T} {cs : List C}
    (h : m.modifyCoefficientsValuesInBatch ts cs = .ok m') :
    m'.nodes.map Node.frame = m.nodes.map Node.frame ∧ m'.keyMap = m.keyMap := by
  unfold Mgr.modifyCoefficientsValuesInBatch at h
  split at h
  · split at h
    · cases h
    · split at h
      · cases h
      · next b f hsb =>
        obtain ⟨ns, h1, h2⟩ := Outcome.bind_eq_ok.1 h
        cases h2
        have e := searchBack_frame hsb
        simp only [List.reverse_reverse, List.append_nil] at e
        constructor
        · rw [List.map_append, assignRun_frame h1, ← List.map_append, e]
        · rfl
  · cases h

theorem mapAppend_split {ns : List (Node T C)} {a b : List T}
    (h : ns.map (·.time) = a ++ b) :
    ∃ x y, ns = x ++ y ∧ x.map (·.time) = a ∧ y.map (·.time) = b :=
  List.map_eq_append_iff.1 h

/-- The three outcomes of a batch modification that starts at an existing knot. -/
theorem modBatch_eval {m : Mgr T C} (hs : Sorted m.nodes) {pre mid : List (Node T C)} {n : Node T C}
    (hm : m.nodes = pre ++ n :: mid) {ts : List T} {cs : List C} (hl : ts.length = cs.length)
    {ts' : List T} (ht : ts = n.time :: ts') :
    m.modifyCoefficientsValuesInBatch ts cs =
      (assignRun (n :: mid) (ts.zip cs) >>= fun ns => .ok { m with nodes := pre ++ ns }) := by
  have hpost : ∀ x ∈ mid, x.time ≠ n.time := by
    rw [hm] at hs
    simp only [Sorted, List.pairwise_append, List.pairwise_cons] at hs
    exact fun x hx => (hs.2.1.1 x hx).ne'
  have hsb := searchBack_some (pre := pre) (post := mid) [] (rfl : n.time = n.time) hpost
  subst ht
  simp only [Mgr.modifyCoefficientsValuesInBatch, hl, if_true, hm]
  rw [show (pre ++ n :: mid).reverse = mid.reverse ++ n :: pre.reverse by simp, hsb]
  simp

/-! ### Bracketing -/

section Bracket
variable [Zero T]

theorem upperSplit_append (t : T) (ns : List (Node T C)) :
    (upperSplit t ns).1 ++ (upperSplit t ns).2 = ns := by
  induction ns with
  | nil => simp [upperSplit]
  | cons n rest ih =>
    simp only [upperSplit]
    split
    · simp
    · simp [ih]

theorem upperSplit_fst_le (t : T) (ns : List (Node T C)) :
    ∀ x ∈ (upperSplit t ns).1, x.time ≤ t := by
  induction ns with
  | nil => simp [upperSplit]
  | cons n rest ih =>
    simp only [upperSplit]
    split
    · simp
    · next h =>
      intro x hx
      simp only [List.mem_cons] at hx
      rcases hx with rfl | hx
      · exact not_lt.1 h
      · exact ih x hx

theorem upperSplit_snd_gt (t : T) (ns : List (Node T C)) :
    ∀ x rest, (upperSplit t ns).2 = x :: rest → t < x.time := by
  induction ns with
  | nil => simp [upperSplit]
  | cons n rest ih =>
    simp only [upperSplit]
    split
    · next h => intro x r e; simp only [List.cons.injEq] at e; exact e.1 ▸ h
    · exact ih

/-- If the time lies in `[a, b)` for neighbours `a`, `b`, these are found. -/
theorem getAt_interior {m : Mgr T C} (hs : Sorted m.nodes) {t : T} {a b : Node T C}
    {pre post : List (Node T C)} (hm : m.nodes = pre ++ a :: b :: post) (h1 : a.time ≤ t)
    (h2 : t < b.time) : m.getCoefficientsAt t = some (a, b) := by
  have hne : m.nodes ≠ [] := by simp [hm]
  obtain ⟨x, xs, hx⟩ := List.exists_cons_of_ne_nil hne
  have hmax : t ≠ m.getMaxTime := by
    obtain ⟨l, hl⟩ : ∃ l, m.nodes.getLast? = some l := by
      cases e : m.nodes.getLast? with
      | none => simp at e; exact absurd e hne
      | some l => exact ⟨l, rfl⟩
    have := (getLast?_max hs hl).2 b (by simp [hm])
    simp only [Mgr.getMaxTime, hl]
    exact (h2.trans_le this).ne
  have hsp : upperSplit t m.nodes = (pre ++ [a], b :: post) := by
    rw [hm]
    have hpre : ∀ y ∈ pre, y.time ≤ t := by
      rw [hm] at hs
      simp only [Sorted, List.pairwise_append] at hs
      exact fun y hy => ((hs.2.2 y hy a (by simp)).le).trans h1
    clear hm hx hne hmax hs
    induction pre with
    | nil => simp [upperSplit, not_lt.2 h1, h2]
    | cons p rest ih =>
      have hp := hpre p (by simp)
      have := ih (fun y hy => hpre y (by simp [hy]))
      simp [upperSplit, not_lt.2 hp, this]
  unfold Mgr.getCoefficientsAt
  simp only [hx]
  rw [← hx]
  simp [hmax, hsp]

/-- At the largest time the last two nodes are found. -/
theorem getAt_max {m : Mgr T C} {a b : Node T C}
    {pre : List (Node T C)} (hm : m.nodes = pre ++ [a, b]) :
    m.getCoefficientsAt b.time = some (a, b) := by
  have hmax : m.getMaxTime = b.time := by simp [Mgr.getMaxTime, hm]
  obtain ⟨x, xs, hx⟩ := List.exists_cons_of_ne_nil (show m.nodes ≠ [] by simp [hm])
  unfold Mgr.getCoefficientsAt
  simp only [hx]
  rw [← hx]
  simp [hmax, hm]

theorem getAt_some {m : Mgr T C} {t : T} {a b : Node T C} 
    (h : m.getCoefficientsAt t = some (a, b)) :
    ∃ pre post, m.nodes = pre ++ a :: b :: post ∧
      ((t = b.time ∧ post = [] ) ∨ (a.time ≤ t ∧ t < b.time)) := by
  unfold Mgr.getCoefficientsAt at h
  split at h
  · simp at h
  · next hd tl hm =>
    simp only at h
    split at h
    · next a' b' bs ha hb =>
      simp only [Option.some.injEq, Prod.mk.injEq] at h
      obtain ⟨rfl, rfl⟩ := h
      split at ha
      · next hmax =>
        simp only [hmax, if_true] at hb
        obtain ⟨ys, hys⟩ := List.getLast?_eq_some_iff.1 ha
        obtain ⟨l, hl⟩ : ∃ l, m.nodes.getLast? = some l := by
          cases e : m.nodes.getLast? with
          | none => simp [e] at hb
          | some l => exact ⟨l, rfl⟩
        simp only [hl, Option.toList_some, List.cons.injEq] at hb
        obtain ⟨rfl, rfl⟩ := hb
        refine ⟨ys, [], ?_, .inl ⟨?_, rfl⟩⟩
        · obtain ⟨zs, hzs⟩ := List.getLast?_eq_some_iff.1 hl
          simp only [hzs, List.dropLast_concat] at hys
          rw [hzs, hys]; simp
        · rw [hmax]; simp [Mgr.getMaxTime, hl]
      · next hmax =>
        simp only [hmax, if_false] at hb
        obtain ⟨ys, hys⟩ := List.getLast?_eq_some_iff.1 ha
        refine ⟨ys, bs, ?_, .inr ⟨?_, ?_⟩⟩
        · have := upperSplit_append t m.nodes
          rw [hys, hb] at this
          simpa using this.symm
        · exact upperSplit_fst_le t m.nodes _ (by simp [hys])
        · exact upperSplit_snd_gt t m.nodes _ _ hb
    · simp at h

theorem split_at_time {ns : List (Node T C)} (hs : Sorted ns) {t : T} {x y : Node T C}
    (hx : ns.head? = some x) (hy : ns.getLast? = some y) (h1 : x.time ≤ t) (h2 : t < y.time) :
    ∃ pre a b post, ns = pre ++ a :: b :: post ∧ a.time ≤ t ∧ t < b.time := by
  have happ := upperSplit_append t ns
  have hle := upperSplit_fst_le t ns
  have hgt := upperSplit_snd_gt t ns
  cases h1e : (upperSplit t ns).1 using List.reverseRecOn with
  | nil =>
    rw [h1e] at happ
    cases ns with
    | nil => simp at hx
    | cons n rest =>
      simp only [List.head?_cons, Option.some.injEq] at hx
      subst hx
      exact absurd (hgt n rest (by simpa using happ)) (not_lt.2 h1)
  | append_singleton pre a =>
    cases h2e : (upperSplit t ns).2 with
    | nil =>
      rw [h2e, List.append_nil] at happ
      have : y ∈ ns := List.mem_of_getLast? hy
      rw [← happ] at this
      exact absurd (hle y this) (not_le.2 h2)
    | cons b post =>
      refine ⟨pre, a, b, post, ?_, hle a (by simp [h1e]), hgt b post h2e⟩
      rw [h1e, h2e] at happ
      simpa using happ.symm

theorem getAt_isSome_iff {m : Mgr T C} (hs : Sorted m.nodes) (t : T) :
    (m.getCoefficientsAt t).isSome ↔ 2 ≤ m.size ∧ m.getMinTime ≤ t ∧ t ≤ m.getMaxTime := by
  constructor
  · intro h
    obtain ⟨⟨a, b⟩, hsome⟩ := Option.isSome_iff_exists.1 h
    obtain ⟨pre, post, hm, hb⟩ := getAt_some hsome
    have hs' := hs
    rw [hm] at hs'
    simp only [Sorted, List.pairwise_append, List.pairwise_cons] at hs'
    have hab : a.time < b.time := hs'.2.1.1 b (by simp)
    have hat : a.time ≤ t := by
      rcases hb with ⟨rfl, _⟩ | ⟨h1, _⟩
      · exact hab.le
      · exact h1
    have htb : t ≤ b.time := by
      rcases hb with ⟨rfl, _⟩ | ⟨_, h1⟩
      · exact le_rfl
      · exact h1.le
    refine ⟨by simp [Mgr.size, hm]; omega, ?_, ?_⟩
    · cases pre with
      | nil => simpa [Mgr.getMinTime, hm] using hat
      | cons p ps =>
        simp only [Mgr.getMinTime, hm, List.cons_append]
        exact ((hs'.2.2 p (by simp) a (by simp)).le).trans hat
    · have hne : m.nodes ≠ [] := by simp [hm]
      obtain ⟨l, hl⟩ : ∃ l, m.nodes.getLast? = some l := by
        cases e : m.nodes.getLast? with
        | none => simp at e; exact absurd e hne
        | some l => exact ⟨l, rfl⟩
      have := (getLast?_max hs hl).2 b (by simp [hm])
      simp only [Mgr.getMaxTime, hl]
      exact htb.trans this
  · rintro ⟨h2, hmin, hmax⟩
    cases hm : m.nodes using List.reverseRecOn with
    | nil => simp [Mgr.size, hm] at h2
    | append_singleton l1 b =>
      have hmaxe : m.getMaxTime = b.time := by simp [Mgr.getMaxTime, hm]
      cases l1 using List.reverseRecOn with
      | nil => simp [Mgr.size, hm] at h2
      | append_singleton l2 a =>
        by_cases e : t = b.time
        · subst e
          rw [getAt_max (pre := l2) (a := a) (b := b) (by simp [hm])]
          rfl
        · have hlt : t < b.time := lt_of_le_of_ne (hmaxe ▸ hmax) e
          obtain ⟨x, xs, hx⟩ := List.exists_cons_of_ne_nil (show m.nodes ≠ [] by simp [hm])
          have hmin' : x.time ≤ t := by simpa [Mgr.getMinTime, hx] using hmin
          obtain ⟨pre, a', b', post, hsplit, ha, hb⟩ :=
            split_at_time hs (x := x) (y := b) (by simp [hx]) (by simp [hm]) hmin' hlt
          rw [getAt_interior hs hsplit ha hb]
          rfl

end Bracket

/-! ### Windows -/

theorem windowLoop_ok (beg : T) (l : List T) (hl : 2 ≤ l.length) (hs : l.Pairwise (· > ·)) :
    windowLoop beg l = .ok (l.dropLast.filter (fun x => decide (beg ≤ x))) := by
  induction l with
  | nil => simp at hl
  | cons x rest ih =>
    cases rest with
    | nil => simp at hl
    | cons y more =>
      cases more with
      | nil =>
        simp only [windowLoop, List.dropLast_cons_cons, List.dropLast_singleton, List.filter_cons,
          List.filter_nil]
        split <;> simp_all
      | cons z more =>
        simp only [List.pairwise_cons] at hs
        simp only [windowLoop]
        by_cases hy : beg ≤ y
        · have hx : beg ≤ x := hy.trans (hs.1 y (by simp)).le
          have := ih (by simp) (by simpa using hs.2)
          simp [hy, hx, this]
        · have hall : ∀ v ∈ (y :: z :: more), ¬ beg ≤ v := by
            intro v hv
            rcases List.mem_cons.1 hv with rfl | hv
            · exact hy
            · exact fun h => hy (h.trans (hs.2.1 v hv).le)
          have hf : ((y :: z :: more).dropLast.filter (fun x => decide (beg ≤ x))) = [] := by
            rw [List.filter_eq_nil_iff]
            intro v hv
            simpa using hall v (List.dropLast_subset _ hv)
          rw [if_neg hy, List.dropLast_cons_cons, List.filter_cons, hf]
          split <;> simp_all

end Verif.Manager

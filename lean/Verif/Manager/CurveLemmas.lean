import Verif.Manager.HistoryLemmas

/-!
# Facts about the manager used by the curve classes
-/

namespace Verif.Manager

set_option linter.unusedSectionVars false

variable {T C : Type} [LinearOrder T]

/-- Times and values of the knots, in order. -/
def Mgr.knots (m : Mgr T C) : List (T × C) := m.nodes.map fun n => (n.time, n.coef)

theorem sorted_iff_knots {m : Mgr T C} :
    Sorted m.nodes ↔ (m.knots.map Prod.fst).Pairwise (· < ·) := by
  rw [sorted_iff_times]; simp [Mgr.knots, Function.comp_def]

/-- Whatever the keys do, the map stays sorted. -/
theorem insert_sorted {w w' : World} {m m' : Mgr T C} {t : T} {c : C} {k : Key}
    (hs : Sorted m.nodes) (e : m.insertCoefficient w t c = .ok (w', m', k)) : Sorted m'.nodes := by
  unfold Mgr.insertCoefficient at e
  cases h : scanAtTime m.nodes t with
  | none =>
    simp only [h] at e
    cases e
    exact mapInsert_sorted hs _
  | some n =>
    simp only [h] at e
    obtain ⟨m1, h1, h2⟩ := Outcome.bind_eq_ok.1 e
    cases h2
    unfold Mgr.updateCoefficientByKey at h1
    cases h3 : kmFind m.keyMap n.key with
    | none => simp [h3] at h1
    | some a =>
      simp only [h3] at h1
      cases h4 : nodeAt m.nodes a with
      | none => simp [h4] at h1
      | some x =>
        simp only [h4] at h1
        cases h1
        rw [sorted_iff_times] at hs ⊢
        simpa [setCoefAt_times] using hs

theorem insertLoop_sorted {w w' : World} {m m' : Mgr T C} {l : List (T × C)} {ks : List Key}
    (hs : Sorted m.nodes) (e : m.insertLoop w l = .ok (w', m', ks)) : Sorted m'.nodes := by
  induction l generalizing w m ks with
  | nil => simp only [Mgr.insertLoop] at e; cases e; exact hs
  | cons p rest ih =>
    obtain ⟨t, c⟩ := p
    obtain ⟨⟨w1, m1, k1⟩, h1, h2⟩ := Outcome.bind_eq_ok.1 e
    obtain ⟨⟨w2, m2, ks2⟩, h3, h4⟩ := Outcome.bind_eq_ok.1 h2
    cases h4
    exact ih (insert_sorted hs h1) h3

theorem insertCoefficients_sorted {w w' : World} {m m' : Mgr T C} {ts : List T} {cs : List C}
    {ks : List Key} (hs : Sorted m.nodes) (e : m.insertCoefficients w ts cs = .ok (w', m', ks)) :
    Sorted m'.nodes :=
  insertLoop_sorted hs (insertCoefficients_ok e).2

/-- What holds of all values and of the inserted one holds of all values afterwards. -/
theorem mapInsert_forall {P : C → Prop} {ns : List (Node T C)} {n : Node T C}
    (hm : ∀ x ∈ ns, P x.coef) (hc : P n.coef) : ∀ x ∈ (mapInsert ns n).1, P x.coef := by
  induction ns with
  | nil => simpa [mapInsert] using hc
  | cons a l ih =>
    unfold mapInsert
    split
    · intro x hx
      rcases List.mem_cons.1 hx with rfl | hx
      exacts [hc, hm x hx]
    · split
      · intro x hx
        rcases List.mem_cons.1 hx with rfl | hx
        exacts [hm x (by simp), ih (fun y hy => hm y (by simp [hy])) x hx]
      · exact hm

theorem setCoefAt_forall {P : C → Prop} {ns : List (Node T C)} {a : Nat} {c : C}
    (hm : ∀ x ∈ ns, P x.coef) (hc : P c) : ∀ x ∈ setCoefAt ns a c, P x.coef := by
  intro x hx
  obtain ⟨y, hy, rfl⟩ := List.mem_map.1 hx
  split
  exacts [hc, hm y hy]

theorem insert_forall {P : C → Prop} {w w' : World} {m m' : Mgr T C} {t : T} {c : C} {k : Key}
    (hm : ∀ n ∈ m.nodes, P n.coef) (hc : P c) (e : m.insertCoefficient w t c = .ok (w', m', k)) :
    ∀ n ∈ m'.nodes, P n.coef := by
  unfold Mgr.insertCoefficient at e
  cases h : scanAtTime m.nodes t with
  | none =>
    simp only [h] at e
    cases e
    exact mapInsert_forall hm hc
  | some n =>
    simp only [h] at e
    obtain ⟨m1, h1, h2⟩ := Outcome.bind_eq_ok.1 e
    cases h2
    unfold Mgr.updateCoefficientByKey at h1
    cases h3 : kmFind m.keyMap n.key with
    | none => simp [h3] at h1
    | some a =>
      simp only [h3] at h1
      cases h4 : nodeAt m.nodes a with
      | none => simp [h4] at h1
      | some x =>
        simp only [h4] at h1
        cases h1
        exact setCoefAt_forall hm hc

theorem insertCoefficients_forall {P : C → Prop} {w w' : World} {m m' : Mgr T C} {ts : List T}
    {cs : List C} {ks : List Key} (hm : ∀ n ∈ m.nodes, P n.coef) (hc : ∀ c ∈ cs, P c)
    (e : m.insertCoefficients w ts cs = .ok (w', m', ks)) : ∀ n ∈ m'.nodes, P n.coef := by
  have : ∀ (l : List (T × C)) (w w' : World) (m m' : Mgr T C) (ks : List Key),
      (∀ n ∈ m.nodes, P n.coef) → (∀ p ∈ l, P p.2) → m.insertLoop w l = .ok (w', m', ks) →
      ∀ n ∈ m'.nodes, P n.coef := by
    intro l
    induction l with
    | nil => intro w w' m m' ks hm _ e; simp only [Mgr.insertLoop] at e; cases e; exact hm
    | cons p rest ih =>
      intro w w' m m' ks hm hl e
      obtain ⟨t, c⟩ := p
      obtain ⟨⟨w1, m1, k1⟩, h1, h2⟩ := Outcome.bind_eq_ok.1 e
      obtain ⟨⟨w2, m2, ks2⟩, h3, h4⟩ := Outcome.bind_eq_ok.1 h2
      cases h4
      exact ih _ _ _ _ _ (insert_forall hm (hl (t, c) (by simp)) h1) (fun p hp => hl p (by simp [hp])) h3
  exact this _ _ _ _ _ _ hm (fun p hp => hc _ (List.of_mem_zip hp).2) (insertCoefficients_ok e).2

/-- Inserting at times that hold no knot: succeeds and adds exactly the given knots. -/
theorem insertLoop_fresh (l : List (T × C)) : ∀ (w : World) (m : Mgr T C), Sorted m.nodes →
    (l.map Prod.fst).Nodup → (∀ p ∈ l, ∀ n ∈ m.nodes, n.time ≠ p.1) →
    ∃ w' m' ks, m.insertLoop w l = .ok (w', m', ks) ∧ Sorted m'.nodes ∧
      m'.knots.Perm (l ++ m.knots) ∧ ks.length = l.length := by
  induction l with
  | nil => intro w m hs _ _; exact ⟨w, m, [], rfl, hs, by simp, rfl⟩
  | cons p rest ih =>
    intro w m hs hd hf
    obtain ⟨t, c⟩ := p
    have hnone : scanAtTime m.nodes t = none := by
      cases h : scanAtTime m.nodes t with
      | none => rfl
      | some n =>
        obtain ⟨h1, h2⟩ := scanAtTime_some h
        exact absurd h2 (hf (t, c) (by simp) n h1)
    have e1 : ∃ w1 m1 k1, m.insertCoefficient w t c = .ok (w1, m1, k1) ∧
        m1.knots.Perm ((t, c) :: m.knots) := by
      unfold Mgr.insertCoefficient
      simp only [hnone]
      refine ⟨_, _, _, rfl, ?_⟩
      have := (mapInsert_fresh (ns := m.nodes) ⟨w.nextAddr, t, (w.calls + 1) % 2 ^ 64, c⟩
        (fun x hx => hf (t, c) (by simp) x hx)).2
      exact this.map fun n => (n.time, n.coef)
    obtain ⟨w1, m1, k1, e1, hp1⟩ := e1
    have hs1 := insert_sorted hs e1
    simp only [List.map_cons, List.nodup_cons] at hd
    obtain ⟨w2, m2, ks, e2, hs2, hp2, hl⟩ := ih w1 m1 hs1 hd.2 (by
      intro p hp n hn
      have : (n.time, n.coef) ∈ (t, c) :: m.knots := hp1.subset (List.mem_map_of_mem hn)
      rcases List.mem_cons.1 this with h | h
      · intro e
        apply hd.1
        have : n.time = t := congrArg Prod.fst h
        exact List.mem_map.2 ⟨p, hp, by rw [← e, this]⟩
      · obtain ⟨x, hx, ex⟩ := List.mem_map.1 h
        have : x.time = n.time := congrArg Prod.fst ex
        exact this ▸ hf p (by simp [hp]) x hx)
    refine ⟨w2, m2, k1 :: ks, ?_, hs2, ?_, by simp [hl]⟩
    · simp only [Mgr.insertLoop, e1, e2, Outcome.ok_bind, Outcome.pure_eq]
    · refine hp2.trans ?_
      refine (List.Perm.append_left rest hp1).trans ?_
      simp

/-- Filling an empty manager with strictly increasing times gives exactly these knots, in order. -/
theorem fill_empty (w : World) {ts : List T} {cs : List C} (hl : ts.length = cs.length)
    (hinc : ts.Pairwise (· < ·)) :
    ∃ w' m' ks, (Mgr.empty : Mgr T C).insertCoefficients w ts cs = .ok (w', m', ks) ∧
      Sorted m'.nodes ∧ m'.knots = ts.zip cs ∧ ks.length = ts.length := by
  have hz : (ts.zip cs).map Prod.fst = ts := List.map_fst_zip hl.le
  obtain ⟨w', m', ks, e, hs, hp, hk⟩ := insertLoop_fresh (ts.zip cs) w (Mgr.empty : Mgr T C)
    (by simp [Sorted, Mgr.empty]) (by rw [hz]; exact hinc.imp ne_of_lt) (by simp [Mgr.empty])
  refine ⟨w', m', ks, ?_, hs, ?_, by simp [hk, hl]⟩
  · rw [Mgr.insertCoefficients, if_pos hl, e]
  · have hp' : m'.knots.Perm (ts.zip cs) := by simpa [Mgr.knots, Mgr.empty] using hp
    have h1 : m'.knots.Pairwise (fun a b => a.1 < b.1) := by
      have := sorted_iff_knots.1 hs
      rwa [List.pairwise_map] at this
    have h2 : (ts.zip cs).Pairwise (fun a b => a.1 < b.1) := by
      have := hinc
      rw [← hz, List.pairwise_map] at this
      exact this
    exact hp'.eq_of_pairwise (fun a b _ _ h h' => absurd h h'.not_gt) h1 h2

theorem fill_nodup (w : World) {ts : List T} {cs : List C} (hl : ts.length = cs.length)
    (hd : ts.Nodup) :
    ∃ w' m' ks, (Mgr.empty : Mgr T C).insertCoefficients w ts cs = .ok (w', m', ks) ∧
      Sorted m'.nodes ∧ m'.knots.Perm (ts.zip cs) ∧ ks.length = ts.length := by
  have hz : (ts.zip cs).map Prod.fst = ts := List.map_fst_zip hl.le
  obtain ⟨w', m', ks, e, hs, hp, hk⟩ := insertLoop_fresh (ts.zip cs) w (Mgr.empty : Mgr T C)
    (by simp [Sorted, Mgr.empty]) (by rwa [hz]) (by simp [Mgr.empty])
  refine ⟨w', m', ks, ?_, hs, ?_, by simp [hk, hl]⟩
  · rw [Mgr.insertCoefficients, if_pos hl, e]
  · simpa [Mgr.knots, Mgr.empty] using hp

variable [Zero T]

/-- With two neighbouring nodes the curve is not a single point. -/
theorem not_single {m : Mgr T C} (hs : Sorted m.nodes) {pre post : List (Node T C)} {a b : Node T C}
    (hm : m.nodes = pre ++ a :: b :: post) (t : T) : ¬(m.getMaxTime = t ∧ m.getMinTime = t) := by
  rintro ⟨h1, h2⟩
  have hne : m.nodes ≠ [] := by simp [hm]
  obtain ⟨x, xs, hx⟩ := List.exists_cons_of_ne_nil hne
  have hxs : xs ≠ [] := by
    rintro rfl
    rw [hx] at hm
    have := congrArg List.length hm
    simp at this; omega
  obtain ⟨l, hl⟩ : ∃ l, m.nodes.getLast? = some l := by
    cases e : m.nodes.getLast? with
    | none => simp at e; exact absurd e hne
    | some l => exact ⟨l, rfl⟩
  have e1 : m.getMinTime = x.time := by simp [Mgr.getMinTime, hx]
  have e2 : m.getMaxTime = l.time := by simp [Mgr.getMaxTime, hl]
  have hlx : l ∈ xs := by
    rw [hx, List.getLast?_cons_of_ne_nil hxs] at hl
    exact List.mem_of_getLast? hl
  have := hs
  rw [hx] at this
  have h := (List.pairwise_cons.1 this).1 l hlx
  rw [e1] at h2; rw [e2] at h1
  exact absurd (h1.trans h2.symm) h.ne'

/-- Domain of a curve with two neighbouring nodes. -/
theorem min_le_node {m : Mgr T C} (hs : Sorted m.nodes) {n : Node T C} (hn : n ∈ m.nodes) :
    m.getMinTime ≤ n.time ∧ n.time ≤ m.getMaxTime := by
  constructor
  · unfold Mgr.getMinTime
    cases h : m.nodes with
    | nil => rw [h] at hn; simp at hn
    | cons x xs =>
      rw [h] at hn hs
      rcases List.mem_cons.1 hn with rfl | hn
      · exact le_rfl
      · exact ((List.pairwise_cons.1 hs).1 n hn).le
  · unfold Mgr.getMaxTime
    cases h : m.nodes.getLast? with
    | none => simp at h; rw [h] at hn; simp at hn
    | some l => exact (getLast?_max hs h).2 n hn

/-- A time in the domain of a curve with at least two knots lies between two neighbouring nodes. -/
theorem exists_bracket {m : Mgr T C} (hs : Sorted m.nodes) (h2 : 2 ≤ m.size) {t : T}
    (h0 : m.getMinTime ≤ t) (h1 : t ≤ m.getMaxTime) :
    ∃ pre a b post, m.nodes = pre ++ a :: b :: post ∧ a.time ≤ t ∧ t ≤ b.time ∧
      m.getCoefficientsAt t = some (a, b) := by
  obtain ⟨⟨a, b⟩, hab⟩ := Option.isSome_iff_exists.1 ((getAt_isSome_iff hs t).2 ⟨h2, h0, h1⟩)
  obtain ⟨pre, post, hm, hc⟩ := getAt_some hab
  have hlt : a.time < b.time := by
    rw [hm] at hs
    simp only [Sorted, List.pairwise_append, List.pairwise_cons] at hs
    exact hs.2.1.1 b (by simp)
  rcases hc with ⟨rfl, rfl⟩ | ⟨h3, h4⟩
  · exact ⟨pre, a, b, [], hm, hlt.le, le_rfl, hab⟩
  · exact ⟨pre, a, b, post, hm, h3, h4.le, hab⟩

theorem neighbours_lt {m : Mgr T C} (hs : Sorted m.nodes) {pre post : List (Node T C)}
    {a b : Node T C} (hm : m.nodes = pre ++ a :: b :: post) : a.time < b.time := by
  rw [hm] at hs
  simp only [Sorted, List.pairwise_append, List.pairwise_cons] at hs
  exact hs.2.1.1 b (by simp)

/-- Between two neighbours, `getCoefficientsAt` yields them, except at the right end of a segment that
is not the last one, where it yields the next segment. -/
theorem getAt_between {m : Mgr T C} (hs : Sorted m.nodes) {pre post : List (Node T C)}
    {a b : Node T C} (hm : m.nodes = pre ++ a :: b :: post) {t : T} (h0 : a.time ≤ t)
    (h1 : t ≤ b.time) :
    m.getCoefficientsAt t = some (a, b) ∨
      ∃ c, post.head? = some c ∧ t = b.time ∧ b.time < c.time ∧
        m.getCoefficientsAt t = some (b, c) := by
  rcases h1.lt_or_eq with h1 | rfl
  · exact Or.inl (getAt_interior hs hm h0 h1)
  · cases post with
    | nil => exact Or.inl (getAt_max hm)
    | cons c post =>
      have hm' : m.nodes = (pre ++ [a]) ++ b :: c :: post := by simp [hm]
      have hlt := neighbours_lt hs hm'
      exact Or.inr ⟨c, rfl, rfl, hlt, getAt_interior hs hm' le_rfl hlt⟩

section related
variable {C' : Type} {m : Mgr T C} {m' : Mgr T C'} {f : C → C'}

/-- Two managers with the same times and related values. -/
theorem related_min (h : m'.knots = m.knots.map fun p => (p.1, f p.2)) :
    m'.getMinTime = m.getMinTime := by
  have := congrArg (fun l => l.head?.map Prod.fst) h
  simp only [Mgr.knots, List.head?_map, Option.map_map] at this
  unfold Mgr.getMinTime
  cases h1 : m.nodes <;> cases h2 : m'.nodes <;> simp [h1, h2] at this ⊢
  exact this

theorem related_max (h : m'.knots = m.knots.map fun p => (p.1, f p.2)) :
    m'.getMaxTime = m.getMaxTime := by
  have := congrArg (fun l => l.getLast?.map Prod.fst) h
  simp only [Mgr.knots, List.getLast?_map, Option.map_map] at this
  unfold Mgr.getMaxTime
  cases h1 : m.nodes.getLast? <;> cases h2 : m'.nodes.getLast? <;> simp [h1, h2] at this ⊢
  exact this

theorem related_size (h : m'.knots = m.knots.map fun p => (p.1, f p.2)) : m'.size = m.size := by
  have := congrArg List.length h
  simpa [Mgr.knots, Mgr.size] using this

theorem related_sorted (h : m'.knots = m.knots.map fun p => (p.1, f p.2)) (hs : Sorted m.nodes) :
    Sorted m'.nodes := by
  rw [sorted_iff_knots] at hs ⊢
  rw [h]
  simpa [Function.comp_def] using hs

theorem related_split (h : m'.knots = m.knots.map fun p => (p.1, f p.2)) {pre post : List (Node T C)}
    {a b : Node T C} (hm : m.nodes = pre ++ a :: b :: post) :
    ∃ pre' a' b' post', m'.nodes = pre' ++ a' :: b' :: post' ∧ a'.time = a.time ∧ b'.time = b.time ∧
      a'.coef = f a.coef ∧ b'.coef = f b.coef ∧ post'.length = post.length := by
  simp only [Mgr.knots, hm, List.map_append, List.map_cons] at h
  obtain ⟨pre', r, e, -, h⟩ := List.map_eq_append_iff.1 h
  obtain ⟨a', r, rfl, ha, h⟩ := List.map_eq_cons_iff.1 h
  obtain ⟨b', post', rfl, hb, h⟩ := List.map_eq_cons_iff.1 h
  simp only [Prod.mk.injEq] at ha hb
  refine ⟨pre', a', b', post', e, ha.1, hb.1, ha.2, hb.2, ?_⟩
  simpa using congrArg List.length h

theorem related_getAt (h : m'.knots = m.knots.map fun p => (p.1, f p.2)) (hs : Sorted m.nodes) (t : T) :
    (m.getCoefficientsAt t = none ∧ m'.getCoefficientsAt t = none) ∨
    ∃ a b a' b', m.getCoefficientsAt t = some (a, b) ∧ m'.getCoefficientsAt t = some (a', b') ∧
      a'.time = a.time ∧ b'.time = b.time ∧ a'.coef = f a.coef ∧ b'.coef = f b.coef := by
  have hs' := related_sorted h hs
  cases e : m.getCoefficientsAt t with
  | none =>
    left
    have h1 := mt (getAt_isSome_iff hs t).2 (by simp [e])
    have h2 := mt (getAt_isSome_iff hs' t).1 (by
      rwa [related_size h, related_min h, related_max h])
    exact ⟨rfl, by simpa using h2⟩
  | some p =>
    right
    obtain ⟨a, b⟩ := p
    obtain ⟨pre, post, hm, hc⟩ := getAt_some e
    obtain ⟨pre', a', b', post', hm', ta, tb, ca, cb, hl⟩ := related_split h hm
    refine ⟨a, b, a', b', rfl, ?_, ta, tb, ca, cb⟩
    rcases hc with ⟨rfl, rfl⟩ | ⟨h0, h1⟩
    · obtain rfl : post' = [] := List.length_eq_zero_iff.1 hl
      rw [← tb]
      exact getAt_max hm'
    · exact getAt_interior hs' hm' (by rwa [ta]) (by rwa [tb])

end related

end Verif.Manager

import Verif.Manager.Props
import Verif.Manager.Consistency

/-!
# What `checkInternalConsistency` checks (C143)
-/

set_option linter.unusedSectionVars false

namespace Verif.Manager

variable {T C : Type} [LinearOrder T] [Zero T] [DecidableEq C]

/-- What the loop establishes about one node. -/
def Sound (look : Nat → Option (Node T C)) (km : List (Key × Nat)) (n : Node T C) : Prop :=
  ∃ a x, kmFind km n.key = some a ∧ look a = some x ∧ x.key = n.key ∧ x.coef = n.coef

theorem checkLoop_ok {look : Nat → Option (Node T C)} {km : List (Key × Nat)}
    {ns : List (Node T C)} : checkLoop look km ns = .ok () ↔ ∀ n ∈ ns, Sound look km n := by
  induction ns with
  | nil => simp [checkLoop]
  | cons n rest ih =>
    simp only [checkLoop, List.forall_mem_cons, Sound]
    rcases hk : kmFind km n.key with _ | a
    · simp
    · rcases hl : look a with _ | x
      · simp [hl]
      · by_cases h1 : n.key = x.key
        · by_cases h2 : x.coef = n.coef
          · simp only [Outcome.deref_some, Outcome.ok_bind, hl, if_pos h1, if_pos h2, ih]
            constructor
            · intro h
              exact ⟨⟨a, x, rfl, hl, h1.symm, h2⟩, h⟩
            · exact fun h => h.2
          · simp [hl, h1, h2]
        · simp [hl, h1, eq_comm]

theorem checkLoop_append {look : Nat → Option (Node T C)} {km : List (Key × Nat)}
    {pre ns : List (Node T C)} (h : ∀ n ∈ pre, Sound look km n) :
    checkLoop look km (pre ++ ns) = checkLoop look km ns := by
  induction pre with
  | nil => rfl
  | cons n rest ih =>
    obtain ⟨a, x, h1, h2, h3, h4⟩ := h n (by simp)
    simp only [List.cons_append, checkLoop, h1, h2, Outcome.deref_some, Outcome.ok_bind,
      if_pos h3.symm, if_pos h4]
    exact ih fun n hn => h n (by simp [hn])

theorem checkLoop_abort {look : Nat → Option (Node T C)} {km : List (Key × Nat)}
    {ns : List (Node T C)} (h : ∀ n ∈ ns, ∃ a x, kmFind km n.key = some a ∧ look a = some x)
    (hb : ∃ n ∈ ns, ¬ Sound look km n) : checkLoop look km ns = .abort := by
  induction ns with
  | nil => simp at hb
  | cons n rest ih =>
    obtain ⟨a, x, h1, h2⟩ := h n (by simp)
    simp only [checkLoop, h1, h2, Outcome.deref_some, Outcome.ok_bind]
    by_cases h3 : n.key = x.key
    · by_cases h4 : x.coef = n.coef
      · rw [if_pos h3, if_pos h4]
        refine ih (fun n hn => h n (by simp [hn])) ?_
        obtain ⟨b, hb, hs⟩ := hb
        rcases List.mem_cons.1 hb with rfl | hb
        · exact absurd ⟨a, x, h1, h2, h3.symm, h4⟩ hs
        · exact ⟨b, hb, hs⟩
      · rw [if_pos h3, if_neg h4]
    · rw [if_neg h3]

theorem WF.length_eq {w : World} {m : Mgr T C} (h : WF w m) :
    m.keyMap.length = m.nodes.length := by
  have h1 : (m.keyMap.map Prod.fst).Perm (m.nodes.map (·.key)) := by
    refine (List.perm_ext_iff_of_nodup h.kmNodup h.keysNodup).2 fun k => ?_
    constructor
    · intro hk
      rcases hf : kmFind m.keyMap k with _ | a
      · exact absurd hk (kmFind_none_iff.1 hf)
      · obtain ⟨n, hn, rfl, _⟩ := h.kmSound k a hf
        exact List.mem_map_of_mem hn
    · intro hk
      obtain ⟨n, hn, rfl⟩ := List.mem_map.1 hk
      by_contra hc
      have := kmFind_none_iff.2 hc
      rw [h.keyOf n hn] at this
      cases this
  simpa using h1.length_eq

theorem kmSet_length_mem {km : List (Key × Nat)} {k : Key} {a b : Nat}
    (h : kmFind km k = some b) : (kmSet km k a).length = km.length := by
  have hk : k ∈ km.map Prod.fst := by
    by_contra hc
    rw [kmFind_none_iff.2 hc] at h
    cases h
  have := congrArg List.length (kmSet_keys km k a)
  rw [if_pos hk] at this
  simpa using this

theorem mapErase_length_lt {ns : List (Node T C)} {n : Node T C} (h : n ∈ ns) :
    (mapErase ns n.addr).length < ns.length := by
  unfold mapErase
  refine List.length_filter_lt_length_iff_exists.2 ⟨n, h, by simp⟩

theorem mapInsert_length_fresh {ns : List (Node T C)} (n : Node T C)
    (h : ∀ m ∈ ns, m.time ≠ n.time) : (mapInsert ns n).1.length = ns.length + 1 := by
  induction ns with
  | nil => rfl
  | cons m rest ih =>
    simp only [mapInsert]
    split
    · simp
    · split
      · simp [ih fun x hx => h x (by simp [hx])]
      · next h1 h2 => exact absurd (le_antisymm (not_lt.1 h1) (not_lt.1 h2)) (h m (by simp))

/-! ## C143 -/

/-- C143. On every manager reachable by a history of operations the check passes: it returns, or with
`doExit` ends the process. -/
theorem C143_passes {s : St T C} (hr : Reachable s) (hc : s.w.calls + 1 < 2 ^ 64) :
    s.m.checkInternalConsistency false = .ok .returned ∧
    s.m.checkInternalConsistency true = .ok .exited := by
  have h := hr.WF hc
  have hl := h.length_eq
  have hs : checkLoop (fun a => (nodeAt s.m.nodes a).or (nodeAt (Mgr.empty : Mgr T C).nodes a))
      s.m.keyMap s.m.nodes = .ok () :=
    checkLoop_ok.2 fun n hn =>
      ⟨n.addr, n, h.keyOf n hn, by simp [nodeAt_eq_some h.addrNodup hn], rfl, rfl⟩
  simp [Mgr.checkInternalConsistency, Mgr.checkIn, hl, hs]

/-- C143, exactly what is checked, for any state of the two maps whatsoever: as many keys as knots,
and every knot's key resolves to a knot with that key and an equal value. Whether it is the same
knot is not checked. -/
theorem C143_exact (m : Mgr T C) (d : Bool) :
    (∃ e, m.checkInternalConsistency d = .ok e) ↔
      m.keyMap.length = m.size ∧
      ∀ n ∈ m.nodes, ∃ a x, kmFind m.keyMap n.key = some a ∧ nodeAt m.nodes a = some x ∧
        x.key = n.key ∧ x.coef = n.coef := by
  have hlook : (fun a => (nodeAt m.nodes a).or (nodeAt (Mgr.empty : Mgr T C).nodes a)) =
      fun a => nodeAt m.nodes a := by
    funext a
    simp [Mgr.empty, nodeAt]
  simp only [Mgr.checkInternalConsistency, Mgr.checkIn, hlook, Mgr.size]
  by_cases hl : m.keyMap.length = m.nodes.length
  · simp only [hl, if_true, true_and]
    constructor
    · rintro ⟨e, he⟩
      obtain ⟨⟨⟩, h1, _⟩ := Outcome.bind_eq_ok.1 he
      exact checkLoop_ok.1 h1
    · intro h
      rw [checkLoop_ok.2 h]
      exact ⟨_, rfl⟩
  · simp [hl]

/-- C143, what a passed check means to a caller, for any state whatsoever: every listed key resolves,
to the listed value. -/
theorem C143_resolves {m : Mgr T C} {d : Bool} {e : Ended}
    (h : m.checkInternalConsistency d = .ok e) {t : T} {k : Key} {c : C}
    (hm : (t, k, c) ∈ m.contents) :
    m.getCoefficientByKey k = .ok c ∧ ∃ t', m.getCoefficientTimeByKey k = .ok t' := by
  obtain ⟨n, hn, rfl, rfl, rfl⟩ := mem_contents.1 hm
  obtain ⟨a, x, h1, h2, _, h4⟩ := ((C143_exact m d).1 ⟨e, h⟩).2 n hn
  simp [Mgr.getCoefficientByKey, Mgr.getCoefficientTimeByKey, h1, h2, h4]

/-- C143: the `CHECK` for a key that is not in the map comes too late. When the first knot the loop
would object to is one whose key is missing, the call is undefined behaviour, not a report. -/
theorem C143_missing_key_refuted {m : Mgr T C} (d : Bool) (hl : m.keyMap.length = m.size)
    {pre post : List (Node T C)} {n : Node T C} (hn : m.nodes = pre ++ n :: post)
    (hpre : ∀ p ∈ pre, ∃ a x, kmFind m.keyMap p.key = some a ∧ nodeAt m.nodes a = some x ∧
      x.key = p.key ∧ x.coef = p.coef)
    (hk : kmFind m.keyMap n.key = none) : m.checkInternalConsistency d = .ub := by
  have hpre' : ∀ p ∈ pre, Sound (fun a => (nodeAt m.nodes a).or
      (nodeAt (Mgr.empty : Mgr T C).nodes a)) m.keyMap p := by
    intro p hp
    obtain ⟨a, x, h1, h2, h3, h4⟩ := hpre p hp
    exact ⟨a, x, h1, by simp [h2], h3, h4⟩
  have hloop := checkLoop_append (ns := n :: post) hpre'
  rw [← hn] at hloop
  simp only [Mgr.checkInternalConsistency, Mgr.checkIn]
  rw [if_pos (show m.keyMap.length = m.nodes.length from hl), hloop]
  simp [checkLoop, hk]

/-- C143: both ways in which moving a knot onto a time that holds a knot corrupts the manager
(`C11_move_onto_itself_corrupts`, `C11_move_onto_other_corrupts`) are reported. -/
theorem C143_reports_bad_move {s : St T C} (hr : Reachable s) (hc : s.w.calls + 1 < 2 ^ 64)
    {n b : Node T C} (hn : n ∈ s.m.nodes) (hb : b ∈ s.m.nodes) (v : C) (d : Bool) :
    ∃ w' m', s.m.modifyCoefficient s.w n.addr b.time v = .ok (w', m') ∧
      m'.checkInternalConsistency d = .abort := by
  have h := hr.WF hc
  have hna := nodeAt_eq_some h.addrNodup hn
  have hins := mapInsert_present h.sorted (⟨s.w.nextAddr, b.time, n.key, v⟩ : Node T C) hb rfl
  refine ⟨_, _, by simp only [Mgr.modifyCoefficient, hna, newAddr, hins]; rfl, ?_⟩
  have h1 := mapErase_length_lt hn
  have h2 := kmSet_length_mem (a := b.addr) (h.keyOf n hn)
  have h3 := h.length_eq
  simp only [Mgr.checkInternalConsistency, Mgr.checkIn]
  rw [if_neg]
  omega

/-- C143: a new knot that is given a key in use (the process has drawn `2^64` keys since, see C07)
is reported. -/
theorem C143_reports_reused_key {s : St T C} (hr : Reachable s) (hc : s.w.calls + 1 < 2 ^ 64)
    {n : Node T C} (hn : n ∈ s.m.nodes) {w : World} (hk : (getNextKey w).1 = n.key) {t : T}
    (ht : ∀ k c, (t, k, c) ∉ s.m.contents) (v : C) (d : Bool) :
    ∃ w' m', s.m.insertCoefficient w t v = .ok (w', m', n.key) ∧
      m'.checkInternalConsistency d = .abort := by
  have h := hr.WF hc
  have hfree : ∀ x ∈ s.m.nodes, x.time ≠ t := fun x hx ex =>
    ht x.key x.coef (mem_contents.2 ⟨x, hx, ex, rfl, rfl⟩)
  have hscan : scanAtTime s.m.nodes t = none := by
    rcases hsc : scanAtTime s.m.nodes t with _ | x
    · rfl
    · obtain ⟨hx, ex⟩ := scanAtTime_some hsc
      exact absurd ex (hfree x hx)
  have hlen := mapInsert_length_fresh (⟨w.nextAddr, t, n.key, v⟩ : Node T C) hfree
  have h3 := h.length_eq
  refine ⟨_, _, by simp only [Mgr.insertCoefficient, hscan, newAddr, ← hk]; rfl, ?_⟩
  have h2 := kmSet_length_mem (a := (mapInsert s.m.nodes
    (⟨w.nextAddr, t, n.key, v⟩ : Node T C)).2) (h.keyOf n hn)
  simp only [Mgr.checkInternalConsistency, Mgr.checkIn]
  rw [if_neg]
  simp only [getNextKey] at hk ⊢
  rw [hk]
  simp only [hlen, h2]
  omega

theorem copy_sound {s : St T C} (h : WF s.w s.m) {other : Mgr T C} {x : Node T C}
    (hx : x ∈ (s.m.copy s.w).2.nodes) : ∃ n ∈ s.m.nodes, x.key = n.key ∧ x.coef = n.coef ∧
      kmFind (s.m.copy s.w).2.keyMap x.key = some n.addr ∧
      (nodeAt (s.m.copy s.w).2.nodes n.addr).or (nodeAt other.nodes n.addr) =
        nodeAt other.nodes n.addr := by
  have hc := copyNodes_contents s.w.nextAddr s.m.nodes
  have : (x.time, x.key, x.coef) ∈ s.m.nodes.map (fun n => (n.time, n.key, n.coef)) := by
    rw [← hc]
    exact List.mem_map.2 ⟨x, hx, rfl⟩
  obtain ⟨n, hn, e⟩ := List.mem_map.1 this
  simp only [Prod.mk.injEq] at e
  refine ⟨n, hn, e.2.1.symm, e.2.2.symm, ?_, ?_⟩
  · rw [← e.2.1]
    exact h.keyOf n hn
  · rw [copy_nodeAt_none h hn]
    rfl

theorem copyNodes_length (a : Nat) (ns : List (Node T C)) :
    (Mgr.copyNodes a ns).length = ns.length := by
  induction ns generalizing a with
  | nil => rfl
  | cons n rest ih => simp [Mgr.copyNodes, ih]

/-- C143: the check does not notice that a copied manager refers to the knots of its source
(`C13_refuted`). On the copy it passes as long as the source is alive and unchanged, and is undefined
behaviour once the source is gone. -/
theorem C143_copy {s : St T C} (hr : Reachable s) (hc : s.w.calls + 1 < 2 ^ 64) :
    (s.m.copy s.w).2.checkIn s.m false = .ok .returned ∧
    (s.m.size ≠ 0 → (s.m.copy s.w).2.checkInternalConsistency false = .ub) := by
  have h := hr.WF hc
  have hl : (s.m.copy s.w).2.keyMap.length = (s.m.copy s.w).2.nodes.length := by
    simp [Mgr.copy, copyNodes_length, h.length_eq]
  constructor
  · have : checkLoop (fun a => (nodeAt (s.m.copy s.w).2.nodes a).or (nodeAt s.m.nodes a))
        (s.m.copy s.w).2.keyMap (s.m.copy s.w).2.nodes = .ok () := by
      refine checkLoop_ok.2 fun x hx => ?_
      obtain ⟨n, hn, hk, hv, hf, ho⟩ := copy_sound (other := s.m) h hx
      exact ⟨n.addr, n, hf, ho.trans (nodeAt_eq_some h.addrNodup hn), hk.symm, hv.symm⟩
    simp [Mgr.checkIn, hl, this]
  · intro hne
    simp only [Mgr.checkInternalConsistency, Mgr.checkIn]
    rw [if_pos hl]
    rcases hns : (s.m.copy s.w).2.nodes with _ | ⟨x, rest⟩
    · have := congrArg List.length hns
      simp only [Mgr.copy, copyNodes_length, List.length_nil] at this
      exact absurd this hne
    · obtain ⟨n, hn, hk, hv, hf, ho⟩ := copy_sound (other := (Mgr.empty : Mgr T C)) h
        (x := x) (by rw [hns]; simp)
      rw [hns] at ho
      simp only [checkLoop, hf, Outcome.deref_some, Outcome.ok_bind, ho]
      simp [nodeAt, Mgr.empty]

/-- C143: writing another value through a key of the copy is noticed, in the copy. -/
theorem C143_copy_written {s : St T C} (hr : Reachable s) (hc : s.w.calls + 1 < 2 ^ 64)
    {t : T} {k : Key} {v : C} (hm : (t, k, v) ∈ s.m.contents) {v' : C} (hv : v' ≠ v) (d : Bool) :
    ∃ copy' orig', updateByKeyIn (s.m.copy s.w).2 s.m k v' = .ok (copy', orig') ∧
      copy'.checkIn orig' d = .abort ∧ orig'.checkIn copy' false = .ok .returned := by
  have h := hr.WF hc
  obtain ⟨n, hn, rfl, rfl, rfl⟩ := mem_contents.1 hm
  have hkm : kmFind (s.m.copy s.w).2.keyMap n.key = some n.addr := h.keyOf n hn
  have hnone := copy_nodeAt_none h hn
  have hself := nodeAt_eq_some h.addrNodup hn
  obtain ⟨_, hwf⟩ := h.updateByKey hn v'
  have hmem := mem_setCoefAt h.addrNodup hn v'
  have hl : (s.m.copy s.w).2.keyMap.length = (s.m.copy s.w).2.nodes.length := by
    simp [Mgr.copy, copyNodes_length, h.length_eq]
  refine ⟨(s.m.copy s.w).2, { s.m with nodes := setCoefAt s.m.nodes n.addr v' }, ?_, ?_, ?_⟩
  · simp [updateByKeyIn, hkm, hnone, hself, setCoefAt_not_mem hnone]
  · have hloop : checkLoop (fun a => (nodeAt (s.m.copy s.w).2.nodes a).or
        (nodeAt (setCoefAt s.m.nodes n.addr v') a)) (s.m.copy s.w).2.keyMap
        (s.m.copy s.w).2.nodes = .abort := by
      have hlook : ∀ y ∈ s.m.nodes, ∃ z, nodeAt (setCoefAt s.m.nodes n.addr v') y.addr = some z := by
        intro y hy
        obtain ⟨z, hz, _, ez⟩ := hwf.kmSound y.key y.addr (h.keyOf y hy)
        exact ⟨z, ez ▸ nodeAt_eq_some hwf.addrNodup hz⟩
      refine checkLoop_abort ?_ ?_
      · intro x hx
        obtain ⟨y, hy, hk, _, hf, ho⟩ := copy_sound
          (other := { s.m with nodes := setCoefAt s.m.nodes n.addr v' }) h hx
        obtain ⟨z, hz⟩ := hlook y hy
        exact ⟨y.addr, z, hf, ho.trans hz⟩
      · have hcm : (n.time, n.key, n.coef) ∈ (s.m.copy s.w).2.contents := by
          have : (s.m.copy s.w).2.contents = s.m.contents := copyNodes_contents _ _
          rw [this]; exact hm
        obtain ⟨x, hx, _, hk, hc⟩ := mem_contents.1 hcm
        refine ⟨x, hx, ?_⟩
        rintro ⟨a, z, h1, h2, _, h4⟩
        rw [hk, hkm] at h1
        obtain rfl := Option.some.inj h1
        have hz := nodeAt_eq_some hwf.addrNodup ((hmem _).2 (.inl rfl))
        simp only at hz
        simp only [hnone, Option.none_or, hz, Option.some.injEq] at h2
        rw [← h2, hc] at h4
        exact hv h4
    simp only [Mgr.checkIn]
    rw [if_pos hl, hloop]
    rfl
  · have hloop : checkLoop (fun a => (nodeAt (setCoefAt s.m.nodes n.addr v') a).or
        (nodeAt (s.m.copy s.w).2.nodes a)) s.m.keyMap (setCoefAt s.m.nodes n.addr v') = .ok () :=
      checkLoop_ok.2 fun x hx =>
        ⟨x.addr, x, hwf.keyOf x hx, by simp [nodeAt_eq_some hwf.addrNodup hx], rfl, rfl⟩
    have hl' : s.m.keyMap.length = (setCoefAt s.m.nodes n.addr v').length := hwf.length_eq
    simp only [Mgr.checkIn]
    rw [if_pos hl', hloop]
    rfl

/-! ### Concrete instances -/

example : demo.m.checkInternalConsistency true = .ok .exited ∧
    (∃ r, demo.m.modifyCoefficient demo.w 202 9 77 = .ok r ∧
      r.2.checkInternalConsistency false = .abort) ∧
    (∃ r, demo.m.insertCoefficient ⟨2 ^ 64 + 102, 300⟩ 4 40 = .ok r ∧ r.2.2 = 103 ∧
      r.2.1.checkInternalConsistency false = .abort) ∧
    (demo.m.copy demo.w).2.checkInternalConsistency false = .ub :=
  ⟨by decide, ⟨_, rfl, by decide⟩, ⟨_, rfl, by decide, by decide⟩, by decide⟩

/-- A state that passes although a listed key resolves to the time of another knot: equal values are
all that is compared. -/
example : (⟨[⟨1, 0, 7, 5⟩, ⟨2, 10, 7, 5⟩], [(7, 1), (8, 1)]⟩ : Mgr Nat Nat).checkInternalConsistency
      false = .ok .returned ∧
    (⟨[⟨1, 0, 7, 5⟩, ⟨2, 10, 7, 5⟩], [(7, 1), (8, 1)]⟩ : Mgr Nat Nat).getCoefficientTimeByKey 7 =
      .ok 0 := by decide

/-- The second knot's key is missing and key 3 has taken its place. -/
example : (⟨[⟨1, 0, 7, 5⟩, ⟨2, 10, 8, 5⟩], [(7, 1), (3, 2)]⟩ : Mgr Nat Nat).checkInternalConsistency
      false = .ub :=
  C143_missing_key_refuted (pre := [⟨1, 0, 7, 5⟩]) (post := []) (n := ⟨2, 10, 8, 5⟩) false rfl rfl
    (by
      intro p hp
      obtain rfl := List.mem_singleton.1 hp
      exact ⟨1, ⟨1, 0, 7, 5⟩, by decide, by decide, rfl, rfl⟩) (by decide)

end Verif.Manager

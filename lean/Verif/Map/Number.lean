import Verif.Map.Lemmas

/-!
# Trees whose keys are numbers
-/

set_option linter.unusedSectionVars false
set_option linter.dupNamespace false

namespace Verif.Map

open Verif.Manager Tree

variable {T C : Type} [LinearOrder T]

/-- Where a time falls among sorted nodes: between two of them, or on one. -/
theorem cut {ns : List (Node T C)} (hs : Sorted ns) (k : T) :
    (∃ a b, ns = a ++ b ∧ (∀ x ∈ a, x.time < k) ∧ ∀ x ∈ b, k < x.time) ∨
    (∃ a m b, ns = a ++ m :: b ∧ (∀ x ∈ a, x.time < k) ∧ m.time = k ∧ ∀ x ∈ b, k < x.time) := by
  induction ns with
  | nil => exact .inl ⟨[], [], rfl, by simp, by simp⟩
  | cons n rest ih =>
    have hs' := List.pairwise_cons.1 hs
    rcases lt_trichotomy n.time k with h | h | h
    · rcases ih hs'.2 with ⟨a, b, e, ha, hb⟩ | ⟨a, m, b, e, ha, hm, hb⟩
      · refine .inl ⟨n :: a, b, by rw [e]; rfl, ?_, hb⟩
        rintro x hx
        rcases List.mem_cons.1 hx with rfl | hx
        · exact h
        · exact ha x hx
      · refine .inr ⟨n :: a, m, b, by rw [e]; rfl, ?_, hm, hb⟩
        rintro x hx
        rcases List.mem_cons.1 hx with rfl | hx
        · exact h
        · exact ha x hx
    · exact .inr ⟨[], n, rest, rfl, by simp, h, fun x hx => h ▸ hs'.1 x hx⟩
    · refine .inl ⟨[], n :: rest, rfl, by simp, ?_⟩
      rintro x hx
      rcases List.mem_cons.1 hx with rfl | hx
      · exact h
      · exact h.trans (hs'.1 x hx)

theorem mapInsert_between {a b : List (Node T C)} {n : Node T C} (ha : ∀ x ∈ a, x.time < n.time)
    (hb : ∀ x ∈ b, n.time < x.time) : mapInsert (a ++ b) n = (a ++ n :: b, n.addr) := by
  induction a with
  | nil =>
    cases b with
    | nil => rfl
    | cons m b => simp [mapInsert, hb m (by simp)]
  | cons m a ih =>
    have h := ha m (by simp)
    simp [mapInsert, h, h.not_gt, ih fun x hx => ha x (by simp [hx])]

theorem mapInsert_on {a b : List (Node T C)} {m n : Node T C} (ha : ∀ x ∈ a, x.time < n.time) (hm : m.time = n.time) :
    mapInsert (a ++ m :: b) n = (a ++ m :: b, m.addr) := by
  induction a with
  | nil => simp [mapInsert, hm]
  | cons l a ih =>
    have h := ha l (by simp)
    simp [mapInsert, h, h.not_gt, ih fun x hx => ha x (by simp [hx])]

theorem uniquePos_between {t : Nodes T C} {a b : List (Node T C)} {k : T} (e : t.toList = a ++ b)
    (ha : ∀ x ∈ a, x.time < k) (hb : ∀ x ∈ b, k < x.time) :
    t.uniquePos (Cmp.number T) Node.time k = .ok (.gap a.length) := by
  rw [uniquePos_spec _ _ _ t a b e (fun x hx => by simp [Cmp.number, (ha x hx).le]) (fun x hx => by simp [Cmp.number, hb x hx])]
  cases h : a.getLast? with
  | none => rw [List.getLast?_eq_none_iff.1 h]; rfl
  | some x => simp [Cmp.number, ha x (List.mem_of_getLast? h)]

theorem uniquePos_on {t : Nodes T C} {a b : List (Node T C)} {m : Node T C} {k : T} (e : t.toList = a ++ m :: b)
    (ha : ∀ x ∈ a, x.time < k) (hm : m.time = k) (hb : ∀ x ∈ b, k < x.time) :
    t.uniquePos (Cmp.number T) Node.time k = .ok (.taken a.length) := by
  rw [uniquePos_spec _ _ _ t (a ++ [m]) b (by simp [e]) (fun x hx => ?_) (fun x hx => by simp [Cmp.number, hb x hx])]
  · simp [Cmp.number, hm]
  · rcases List.mem_append.1 hx with h | h
    · simp [Cmp.number, (ha x h).le]
    · rw [List.mem_singleton.1 h]
      simp [Cmp.number, hm]

section
variable {a b : List (Node T C)} {k : T}

theorem at_lt {i : Nat} {x : Node T C} (ha : ∀ x ∈ a, x.time < k) (h : (a ++ b)[i]? = some x) (hi : i < a.length) :
    x.time < k := by
  rw [List.getElem?_append_left hi] at h
  exact ha x (List.mem_of_getElem? h)

theorem at_gt {i : Nat} {x : Node T C} (hb : ∀ x ∈ b, k < x.time) (h : (a ++ b)[i]? = some x) (hi : a.length ≤ i) :
    k < x.time := by
  rw [List.getElem?_append_right hi] at h
  exact hb x (List.mem_of_getElem? h)

end

/-- A hint, good or bad, does not change what is found. -/
theorem hintPos_eq {t : Nodes T C} (hs : Sorted t.toList) {pos : Nat} (hp : pos < t.size) (k : T) :
    t.hintPos (Cmp.number T) Node.time k pos = t.uniquePos (Cmp.number T) Node.time k := by
  rw [size_eq] at hp
  obtain ⟨p, ep⟩ : ∃ p, t.toList[pos]? = some p := ⟨_, List.getElem?_eq_getElem hp⟩
  rw [hintPos, ep]
  simp only [Outcome.deref_some, Outcome.ok_bind, Cmp.number, decide_eq_true_eq]
  rw [show (⟨fun x y => decide (x < y), fun x y => decide (x ≤ y), fun x y => decide (x = y)⟩ : Cmp T) = Cmp.number T from rfl]
  rcases cut hs k with ⟨a, b, e, ha, hb⟩ | ⟨a, m, b, e, ha, hm, hb⟩
  · rw [uniquePos_between e ha hb]
    rw [e] at ep
    by_cases hk : k < p.time
    · have hge : a.length ≤ pos := by
        by_contra hc
        exact absurd (at_lt ha ep (by omega)) hk.not_gt
      rw [if_pos hk]
      by_cases h0 : pos = 0
      · rw [if_pos h0, show a.length = 0 by omega]
      · rw [if_neg h0]
        obtain ⟨q, eq⟩ : ∃ q, t.toList[pos - 1]? = some q := ⟨_, List.getElem?_eq_getElem (by omega)⟩
        rw [eq]
        simp only [Outcome.deref_some, Outcome.ok_bind]
        split
        · rename_i hq
          rw [e] at eq
          have : pos - 1 < a.length := by
            by_contra hc
            exact absurd (at_gt hb eq (by omega)) hq.not_gt
          rw [show pos = a.length by omega]
        · rfl
    · have hlt : pos < a.length := by
        by_contra hc
        exact hk (at_gt hb ep (by omega))
      rw [if_neg hk, if_pos (at_lt ha ep hlt)]
      by_cases h0 : pos + 1 = t.size
      · rw [if_pos h0]
        rw [size_eq, e, List.length_append] at h0
        rw [show a.length = pos + 1 by omega]
      · rw [if_neg h0]
        obtain ⟨q, eq⟩ : ∃ q, t.toList[pos + 1]? = some q := ⟨_, List.getElem?_eq_getElem (by rw [size_eq] at h0; omega)⟩
        rw [eq]
        simp only [Outcome.deref_some, Outcome.ok_bind]
        split
        · rename_i hq
          rw [e] at eq
          have : a.length ≤ pos + 1 := by
            by_contra hc
            exact absurd (at_lt ha eq (by omega)) hq.not_gt
          rw [show pos + 1 = a.length by omega]
        · rfl
  · rw [uniquePos_on e ha hm hb]
    have e' : t.toList = (a ++ [m]) ++ b := by simp [e]
    have ha' : ∀ x ∈ a ++ [m], x.time ≤ k := by
      intro x hx
      rcases List.mem_append.1 hx with h | h
      · exact (ha x h).le
      · rw [List.mem_singleton.1 h, hm]
    have hb' : ∀ x ∈ m :: b, k ≤ x.time := by
      intro x hx
      rcases List.mem_cons.1 hx with rfl | h
      · exact hm.ge
      · exact (hb x h).le
    have low : ∀ {i : Nat} {x : Node T C}, t.toList[i]? = some x → i < a.length → x.time < k := fun h hi =>
      at_lt ha (e ▸ h) hi
    have high : ∀ {i : Nat} {x : Node T C}, t.toList[i]? = some x → a.length < i → k < x.time := fun h hi =>
      at_gt hb (e' ▸ h) (by simp; omega)
    have mid : ∀ {x : Node T C}, t.toList[a.length]? = some x → x.time = k := by
      intro x h
      rw [e, List.getElem?_append_right (le_refl _), Nat.sub_self] at h
      cases h
      exact hm
    rcases lt_trichotomy pos a.length with hlt | heq | hgt
    · have h1 := low ep hlt
      rw [if_neg h1.not_gt, if_pos h1]
      have hl : t.toList.length = a.length + 1 + b.length := by rw [e]; simp; omega
      rw [if_neg (by rw [size_eq]; omega)]
      obtain ⟨q, eq⟩ : ∃ q, t.toList[pos + 1]? = some q := ⟨_, List.getElem?_eq_getElem (by omega)⟩
      rw [eq]
      simp only [Outcome.deref_some, Outcome.ok_bind]
      rw [if_neg]
      rcases (Nat.lt_or_ge (pos + 1) a.length) with h | h
      · exact (low eq h).not_gt
      · have := mid (x := q) (by rw [show a.length = pos + 1 by omega]; exact eq)
        rw [this]
        exact lt_irrefl _
    · subst heq
      rw [if_neg (by rw [mid ep]; exact lt_irrefl _), if_neg (by rw [mid ep]; exact lt_irrefl _)]
    · have h1 := high ep hgt
      rw [if_pos h1, if_neg (by omega)]
      obtain ⟨q, eq⟩ : ∃ q, t.toList[pos - 1]? = some q := ⟨_, List.getElem?_eq_getElem (by omega)⟩
      rw [eq]
      simp only [Outcome.deref_some, Outcome.ok_bind]
      rw [if_neg]
      rcases (Nat.lt_or_ge a.length (pos - 1)) with h | h
      · exact (high eq h).not_gt
      · have := mid (x := q) (by rw [show a.length = pos - 1 by omega]; exact eq)
        rw [this]
        exact lt_irrefl _

theorem insert_eq {t : Nodes T C} (hs : Sorted t.toList) (n : Node T C) :
    insert (Cmp.number T) t n = .ok (mapInsert t.toList n) := by
  rw [insert]
  rcases cut hs n.time with ⟨a, b, e, ha, hb⟩ | ⟨a, m, b, e, ha, hm, hb⟩
  · rw [uniquePos_between e ha hb, Outcome.ok_bind, place, e, mapInsert_between ha hb]
    simp
  · rw [uniquePos_on e ha hm hb, Outcome.ok_bind, place, e, mapInsert_on ha hm]
    simp

theorem find_eq {t : Nodes T C} (hs : Sorted t.toList) (k : T) :
    t.find (Cmp.number T) Node.time k = mapFind t.toList k := by
  rcases cut hs k with ⟨a, b, e, ha, hb⟩ | ⟨a, m, b, e, ha, hm, hb⟩
  · rw [find_spec _ _ _ t a b e (fun x hx => by simp [Cmp.number, ha x hx]) (fun x hx => by simp [Cmp.number, (hb x hx).le])]
    have : mapFind t.toList k = none := by
      rw [mapFind_none, e]
      intro n hn
      rcases List.mem_append.1 hn with h | h
      · exact (ha n h).ne
      · exact (hb n h).ne'
    rw [this]
    cases b with
    | nil => rfl
    | cons x b => simp [Cmp.number, hb x (by simp)]
  · rw [find_spec _ _ _ t a (m :: b) e (fun x hx => by simp [Cmp.number, ha x hx]) (fun x hx => ?_)]
    · have h := mapFind_eq_some hs (n := m) (by rw [e]; simp)
      rw [hm] at h
      rw [h]
      simp [Cmp.number, hm]
    · rcases List.mem_cons.1 hx with rfl | h
      · simp [Cmp.number, hm]
      · simp [Cmp.number, (hb x h).le]

theorem scan_eq (ns : List (Node T C)) (k : T) : scan (Cmp.number T) ns k = scanAtTime ns k := by
  induction ns with
  | nil => rfl
  | cons n rest ih => 
    rw [scan, scanAtTime, ih]
    simp [Cmp.number]

theorem upperSplit_at {a b : List (Node T C)} {k : T} (ha : ∀ x ∈ a, x.time ≤ k) (hb : ∀ x ∈ b, k < x.time) :
    upperSplit k (a ++ b) = (a, b) := by
  induction a with
  | nil =>
    cases b with
    | nil => rfl
    | cons m b => simp [upperSplit, hb m (by simp)]
  | cons m a ih => simp [upperSplit, (ha m (by simp)).not_gt, ih fun x hx => ha x (by simp [hx])]

theorem upperBound_eq {t : Nodes T C} (hs : Sorted t.toList) (k : T) :
    ∃ a b, t.toList = a ++ b ∧ upperSplit k t.toList = (a, b) ∧ t.upperBound (Cmp.number T) Node.time k = a.length := by
  have main : ∀ a b, t.toList = a ++ b → (∀ x ∈ a, x.time ≤ k) → (∀ x ∈ b, k < x.time) →
      ∃ a b, t.toList = a ++ b ∧ upperSplit k t.toList = (a, b) ∧ t.upperBound (Cmp.number T) Node.time k = a.length :=
    fun a b e ha hb => ⟨a, b, e, by rw [e, upperSplit_at ha hb],
      upperBound_spec _ _ _ t a b e (fun x hx => by simp [Cmp.number, ha x hx]) (fun x hx => by simp [Cmp.number, hb x hx])⟩
  rcases cut hs k with ⟨a, b, e, ha, hb⟩ | ⟨a, m, b, e, ha, hm, hb⟩
  · exact main a b e (fun x hx => (ha x hx).le) hb
  · refine main (a ++ [m]) b (by simp [e]) (fun x hx => ?_) hb
    rcases List.mem_append.1 hx with h | h
    · exact (ha x h).le
    · rw [List.mem_singleton.1 h, hm]

end Verif.Map

import Verif.Container.PlayProps

/-!
# Lemmas for C164: where the cursor of a container is after steps of any size
-/

set_option linter.unusedSectionVars false
set_option linter.dupNamespace false

namespace Verif.Container

open Verif.Spline Container

variable {K : Type} [Field K] [LinearOrder K] [IsStrictOrderedRing K] {o : Order}

/-- Specification: how many segments, from the first on, are over at time `t`. -/
def passed (l : List (Spline o K)) (t : K) : ℕ := Nat.findGreatest (fun k => startOf l k ≤ t) l.length

theorem passed_le (l : List (Spline o K)) (t : K) : passed l t ≤ l.length := Nat.findGreatest_le _

theorem succ_le_passed {l : List (Spline o K)} (hl : ∀ s ∈ l, 0 ≤ s.duration) (t : K) (k : ℕ)
    (hk : k < l.length) : k + 1 ≤ passed l t ↔ startOf l (k + 1) ≤ t := by
  refine ⟨fun h => ?_, fun h => Nat.le_findGreatest (by omega) h⟩
  have := Nat.findGreatest_of_ne_zero (P := fun k => startOf l k ≤ t) (n := l.length) (m := passed l t) rfl
    (by omega)
  exact (start_mono hl h (passed_le l t)).trans this

theorem passed_mono {l : List (Spline o K)} (hl : ∀ s ∈ l, 0 ≤ s.duration) {t u : K} (h : t ≤ u) :
    passed l t ≤ passed l u := by
  rcases Nat.eq_zero_or_pos (passed l t) with h0 | h0
  · omega
  · obtain ⟨k, hk⟩ : ∃ k, passed l t = k + 1 := ⟨_, (Nat.succ_pred_eq_of_pos h0).symm⟩
    have hlt : k < l.length := by have := passed_le l t; omega
    rw [hk, succ_le_passed hl u k hlt]
    exact ((succ_le_passed hl t k hlt).mp hk.ge).trans h

/-- The cursor is in segment `k`, or behind the last one, and not ahead of the time. -/
structure Behind (c : Container o K) (k : ℕ) : Prop where
  dur : c.duration = total c.splines
  ne : c.splines ≠ []
  idx : c.idx = (k : ℤ)
  off : c.offset = start c.splines (min k (c.splines.length - 1))
  le : k ≤ passed c.splines c.time

theorem Behind.lt {c : Container o K} {k : ℕ} (h : Behind c k) (hpos : ∀ s ∈ c.splines, 0 ≤ s.duration)
    (ht : c.time < c.duration) : k < c.splines.length := by
  by_contra hk
  have hlen := List.length_pos_of_ne_nil h.ne
  have h1 := (succ_le_passed hpos c.time (c.splines.length - 1) (by omega)).mp (by have := h.le; omega)
  rw [Nat.sub_add_cancel hlen, startOf_eq, start_length, ← h.dur] at h1
  exact absurd ht (not_lt.mpr h1)

theorem Behind.step {c : Container o K} {k : ℕ} (h : Behind c k) (hpos : ∀ s ∈ c.splines, 0 ≤ s.duration)
    (ht : c.time < c.duration) (dt : K) (h0 : 0 ≤ dt) :
    ∃ c', c.advance dt = .ok (true, c') ∧ c'.splines = c.splines ∧ c'.time = c.time + dt ∧
      Behind c' (min (k + 1) (passed c.splines (c.time + dt))) := by
  have hk := h.lt hpos ht
  have e := List.getElem?_eq_getElem hk
  have ho := h.off
  rw [min_eq_left (by omega)] at ho
  have hs := start_succ _ _ _ e
  have hp := succ_le_passed hpos (c.time + dt) k hk
  rw [startOf_eq] at hp
  rw [advance_in_range dt c k _ h.idx e ht]
  refine ⟨_, rfl, ?_⟩
  split
  · rename_i hc
    have h1 : k + 1 ≤ passed c.splines (c.time + dt) := hp.mpr (by rw [hs, ← ho]; linarith)
    refine ⟨rfl, rfl, ?_⟩
    rw [min_eq_left h1]
    refine ⟨h.dur, h.ne, rfl, ?_, h1⟩
    by_cases hn : k + 1 < c.splines.length
    · simp only [hn, if_true]
      rw [min_eq_left (by omega), ho, hs]
    · simp only [hn, if_false]
      rw [min_eq_right (by omega), ho]
      congr 1; omega
  · rename_i hc
    have h1 : ¬ k + 1 ≤ passed c.splines (c.time + dt) := fun hcon => hc (by
      have := hp.mp hcon
      rw [hs, ← ho] at this; linarith)
    have h2 : k ≤ passed c.splines (c.time + dt) := h.le.trans (passed_mono hpos (by linarith))
    have h3 : passed c.splines (c.time + dt) = k := by omega
    refine ⟨rfl, rfl, ?_⟩
    rw [h3, min_eq_right (by omega)]
    exact ⟨h.dur, h.ne, h.idx, h.off, h2⟩

theorem Behind.shows {c : Container o K} {k : ℕ} (h : Behind c k) (hpos : ∀ s ∈ c.splines, 0 ≤ s.duration)
    (q : Quantity) : (k = passed c.splines c.time → q.now c = q.atTime c.time c) ∧
      ∀ s, k < passed c.splines c.time → c.splines[k]? = some s → q.now c = .ok (q.seg s s.duration) := by
  have hlen := List.length_pos_of_ne_nil h.ne
  constructor
  · intro hk
    by_cases hkl : k < c.splines.length
    · have e := List.getElem?_eq_getElem hkl
      have ho := h.off
      rw [min_eq_left (by omega)] at ho
      rw [q.now_eq, q.atTime_eq, current_in_range _ c k _ h.idx e, atTime_of_find _ _ c k _ _ e, ho]
      rw [findLoop_hit _ _ 0 0 k hkl]
      · simp
      · intro j hj
        rw [zero_add]
        exact (succ_le_passed hpos c.time j (by omega)).mp (by omega)
      · rw [zero_add]
        by_contra hcon
        have := (succ_le_passed hpos c.time k hkl).mpr (not_lt.mp hcon)
        omega
    · have hkl' : k = c.splines.length := by have := passed_le c.splines c.time; omega
      have e : c.splines.getLast? = some (c.splines.getLast h.ne) := List.getLast?_eq_some_getLast h.ne
      have ht := (succ_le_passed hpos c.time (c.splines.length - 1) (by omega)).mp (by omega)
      rw [Nat.sub_add_cancel hlen, startOf_eq, start_length] at ht
      have ho := h.off
      rw [min_eq_right (by omega)] at ho
      rw [q.now_eq, q.atTime_eq, current_at_end _ c _ (by rw [h.idx, hkl']) e, atTime_beyond _ c hpos _ e _ ht, ho]
  · intro s hk hs
    have hkl : k < c.splines.length := by have := passed_le c.splines c.time; omega
    have ho := h.off
    rw [min_eq_left (by omega)] at ho
    rw [q.now_eq, current_in_range _ c k _ h.idx hs]
    have h1 := (succ_le_passed hpos c.time k hkl).mp hk
    rw [startOf_eq, start_succ _ _ _ hs] at h1
    rw [q.seg_above s (hpos s (List.mem_of_getElem? hs)) _ (by rw [ho]; linarith)]

/-- The index after the steps: the least of what calls and times allow. -/
theorem Behind.play (S : Solver K) (dts : List K) : ∀ (c : Container o K) (k : ℕ), Behind c k →
    (∀ s ∈ c.splines, 0 ≤ s.duration) → (∀ dt ∈ dts, 0 ≤ dt) →
    (∀ j < dts.length, c.time + (dts.take j).sum < c.duration) →
    ∃ c' m, run S (dts.map .advance) c = .ok c' ∧ c'.splines = c.splines ∧ c'.time = c.time + dts.sum ∧
      c'.duration = c.duration ∧ Behind c' m ∧ m ≤ k + dts.length ∧
      (∀ j ≤ dts.length, m ≤ passed c.splines (c.time + (dts.take j).sum) + (dts.length - j)) ∧
      (m = k + dts.length ∨ ∃ j ≤ dts.length,
        m = passed c.splines (c.time + (dts.take j).sum) + (dts.length - j)) := by
  induction dts with
  | nil =>
    intro c k h hpos _ _
    refine ⟨c, k, rfl, rfl, by simp, rfl, h, by simp, ?_, Or.inl (by simp)⟩
    intro j hj
    simpa using h.le
  | cons dt dts ih =>
    intro c k h hpos h0 hend
    have ht : c.time < c.duration := by simpa using hend 0 (by simp)
    obtain ⟨c1, e1, hs1, ht1, h1⟩ := h.step hpos ht dt (h0 dt (by simp))
    have hd1 : c1.duration = c.duration := by rw [h1.dur, hs1, h.dur]
    obtain ⟨c2, m, e2, hs2, ht2, hd2, h2, hm, hall, hex⟩ := ih c1 _ h1 (by rw [hs1]; exact hpos)
      (fun x hx => h0 x (by simp [hx])) (fun j hj => by
        have := hend (j + 1) (by simpa using hj)
        rw [ht1, hd1]
        simpa [add_assoc] using this)
    rw [hs1, ht1] at hall hex
    refine ⟨c2, m, ?_, hs2.trans hs1, ?_, hd2.trans hd1, h2, ?_, ?_, ?_⟩
    · simp only [List.map_cons, run, Verif.Container.step, e1, Outcome.ok_bind]; exact e2
    · rw [ht2, ht1]; simp [add_assoc]
    · simp only [List.length_cons]
      have := min_le_left (k + 1) (passed c.splines (c.time + dt))
      omega
    · intro j hj
      cases j with
      | zero =>
        have h3 := hall 0 (by omega)
        have h4 := min_le_left (k + 1) (passed c.splines (c.time + dt))
        have h5 := h.le
        simp only [List.take_zero, List.sum_nil, add_zero, List.length_cons] at h3 ⊢
        omega
      | succ j =>
        have := hall j (by simpa using hj)
        simpa [add_assoc] using this
    · rcases hex with hex | ⟨j, hj, hex⟩
      · rcases le_total (k + 1) (passed c.splines (c.time + dt)) with hle | hle
        · left
          rw [min_eq_left hle] at hex
          simp only [List.length_cons]; omega
        · right
          rw [min_eq_right hle] at hex
          exact ⟨1, by simp, by simpa using hex⟩
      · right
        exact ⟨j + 1, by simpa using hj, by simpa [add_assoc] using hex⟩

theorem Behind.rewound {c : Container o K} (hd : c.duration = total c.splines) (hne : c.splines ≠ [])
    (ho : c.offset = 0) (hi : c.idx = 0) : Behind c 0 :=
  ⟨hd, hne, by simpa using hi, by simpa using ho, Nat.zero_le _⟩

end Verif.Container

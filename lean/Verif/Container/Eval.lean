import Verif.Container.Model
import Verif.Spline.Lemmas
import Mathlib.Algebra.BigOperators.Group.List.Basic

/-! # Random access: which segment is evaluated where -/

set_option linter.unusedSectionVars false
set_option linter.dupNamespace false

namespace Verif.Container

open Verif.Spline

variable {K : Type} [Field K] [LinearOrder K] [IsStrictOrderedRing K] {o : Order}

/-- Sum of the durations of a list of segments. -/
def total (l : List (Spline o K)) : K := (l.map Spline.duration).sum

/-- Start time of segment number `k`. -/
def start (l : List (Spline o K)) (k : ℕ) : K := total (l.take k)

@[simp] theorem total_nil : total ([] : List (Spline o K)) = 0 := rfl
@[simp] theorem total_cons (s : Spline o K) (l) : total (s :: l) = s.duration + total l := by
  simp [total]
theorem total_append (l l' : List (Spline o K)) : total (l ++ l') = total l + total l' := by
  simp [total]
@[simp] theorem start_zero (l : List (Spline o K)) : start l 0 = 0 := rfl
@[simp] theorem start_cons_succ (s : Spline o K) (l) (k : ℕ) :
    start (s :: l) (k + 1) = s.duration + start l k := by simp [start]
theorem start_length (l : List (Spline o K)) : start l l.length = total l := by simp [start]

theorem start_succ (l : List (Spline o K)) (k : ℕ) (s : Spline o K) (h : l[k]? = some s) :
    start l (k + 1) = start l k + s.duration := by
  induction l generalizing k with
  | nil => simp at h
  | cons a l ih =>
    cases k with
    | zero => simp at h; subst h; simp
    | succ k => simp at h; simp [ih k h, add_assoc]

theorem start_append (l l' : List (Spline o K)) (k : ℕ) (h : k ≤ l.length) :
    start (l ++ l') k = start l k := by
  simp [start, List.take_append_of_le_length h]

theorem start_mono {l : List (Spline o K)} (hl : ∀ s ∈ l, 0 ≤ s.duration) {j k : ℕ} (h : j ≤ k)
    (hk : k ≤ l.length) : start l j ≤ start l k := by
  induction k, h using Nat.le_induction with
  | base => exact le_rfl
  | succ k hjk ih =>
    have hk' : k < l.length := by omega
    rw [start_succ l k l[k] (by simp)]
    have := hl l[k] (List.getElem_mem hk')
    linarith [ih (by omega)]

namespace Container

/-- The loop stops at segment `k` when all earlier segments end at or before `t` and segment `k` ends
after `t`. -/
theorem findLoop_hit (t : K) (l : List (Spline o K)) : ∀ (i : ℕ) (off : K) (k : ℕ), k < l.length →
    (∀ j < k, off + start l (j + 1) ≤ t) → t < off + start l (k + 1) →
    findLoop t l i off = (((i + k : ℕ) : ℤ), off + start l k) := by
  induction l with
  | nil => intro i off k hk; simp at hk
  | cons s l ih =>
    intro i off k hk hle hlt
    cases k with
    | zero =>
      simp at hlt
      rw [findLoop, if_pos (by linarith)]
      simp
    | succ k =>
      have h0 := hle 0 (by omega)
      simp at h0 hk
      have hne : l ≠ [] := by rintro rfl; simp at hk
      rw [findLoop, if_neg (by linarith), if_neg (by simpa using hne)]
      rw [ih (i + 1) (off + s.duration) k hk
        (fun j hj => by have := hle (j + 1) (by omega); rw [start_cons_succ] at this; linarith)
        (by rw [start_cons_succ] at hlt; linarith)]
      simp only [start_cons_succ, Prod.mk.injEq, ← add_assoc, and_true]
      push_cast; omega

/-- When every segment ends at or before `t` the last one is chosen. -/
theorem findLoop_miss (t : K) (l : List (Spline o K)) : ∀ (i : ℕ) (off : K), l ≠ [] →
    (∀ j < l.length, off + start l (j + 1) ≤ t) →
    findLoop t l i off = (((i + (l.length - 1) : ℕ) : ℤ), off + start l (l.length - 1)) := by
  induction l with
  | nil => intro i off h; simp at h
  | cons s l ih =>
    intro i off _ hle
    have h0 := hle 0 (by simp)
    simp at h0
    rw [findLoop, if_neg (by linarith)]
    by_cases hne : l = []
    · subst hne; simp [findLoop]
    · rw [if_neg (by simpa using hne), ih (i + 1) (off + s.duration) hne
        (fun j hj => by have := hle (j + 1) (by simp; omega); rw [start_cons_succ] at this; linarith)]
      obtain ⟨m, hm⟩ : ∃ m, l.length = m + 1 :=
        ⟨l.length - 1, by have := List.length_pos_of_ne_nil hne; omega⟩
      simp only [List.length_cons, hm, Nat.add_sub_cancel, start_cons_succ, Prod.mk.injEq,
        ← add_assoc, and_true]
      push_cast; omega

/-- Whatever the durations, the loop chooses some segment and its start. -/
theorem findLoop_cases (t : K) (l : List (Spline o K)) (hl : l ≠ []) :
    ∃ k, k < l.length ∧ findLoop t l 0 0 = ((k : ℤ), start l k) ∧
      (∀ j < k, start l (j + 1) ≤ t) ∧ (t < start l (k + 1) ∨ k + 1 = l.length) := by
  classical
  by_cases h : ∃ k, k < l.length ∧ t < start l (k + 1)
  · have hk := Nat.find_spec h
    have hmin : ∀ j < Nat.find h, start l (j + 1) ≤ t := by
      intro j hj
      have := Nat.find_min h hj
      simp only [not_and, not_lt] at this
      exact this (by omega)
    refine ⟨Nat.find h, hk.1, ?_, hmin, Or.inl hk.2⟩
    rw [findLoop_hit t l 0 0 _ hk.1 (fun j hj => by simpa using hmin j hj) (by simpa using hk.2)]
    simp
  · push Not at h
    have hpos := List.length_pos_of_ne_nil hl
    refine ⟨l.length - 1, by omega, ?_, fun j hj => h j (by omega), Or.inr (by omega)⟩
    rw [findLoop_miss t l 0 0 hl (fun j hj => by simpa using h j hj)]
    simp

theorem toSize_nat (k : ℕ) : toSize (k : ℤ) = k := by
  rw [toSize, if_neg (by omega), Int.toNat_natCast]

/-- Random access evaluates the segment the loop chooses. -/
theorem atTime_of_find (f : Spline o K → K → K) (t : K) (c : Container o K) (k : ℕ) (off : K)
    (s : Spline o K) (hs : c.splines[k]? = some s)
    (hf : findLoop t c.splines 0 0 = ((k : ℤ), off)) : c.atTime f t = .ok (f s (t - off)) := by
  have hk : k < c.splines.length := by
    by_contra h
    rw [List.getElem?_eq_none (by omega)] at hs
    simp at hs
  have hne : c.splines ≠ [] := by rintro h; rw [h] at hk; simp at hk
  simp only [atTime, getActiveSplineIndexAtTime, List.isEmpty_iff, hne, if_false, hf]
  rw [if_neg (by omega), if_neg (by simp; omega)]
  simp [at', toSize_nat, hs]

theorem atTime_empty (f : Spline o K → K → K) (t : K) (c : Container o K) (h : c.splines = []) :
    c.atTime f t = .ok 0 := by
  simp [atTime, getActiveSplineIndexAtTime, h]

end Container
end Verif.Container

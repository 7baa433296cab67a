import Verif.Rounding.Double
import Verif.Manager.CurveLemmas
import Mathlib.Tactic.Linarith
import Mathlib.Algebra.Order.BigOperators.Group.List

/-!
# Lemmas for the properties of computing with `double`
-/

set_option linter.unusedSectionVars false
set_option linter.dupNamespace false

namespace Verif.Rounding

open Verif.Container.Container (toSize sizeMinus1)

theorem toSize_nat (k : ℕ) : toSize (k : ℤ) = k := by
  rw [toSize, if_neg (by omega)]
  omega

theorem toSize_neg : toSize (-1) = 2 ^ 64 - 1 := rfl

namespace Box

section arith
variable {S K X : Type} (A : Arith K) (dur : S → K)

/-- Where a segment starts, as the code adds it up. -/
def startOf (l : List S) (k : ℕ) : K := (l.take k).foldl (fun x s => A.add x (dur s)) A.zero

theorem findLoop_spec (t : K) : ∀ (l : List S) (i : ℕ) (off : K), l ≠ [] →
    ∃ k, k < l.length ∧
      findLoop A dur t l i off =
        (((i + k : ℕ) : ℤ), (l.take k).foldl (fun x s => A.add x (dur s)) off) ∧
      (∀ j (hj : j < l.length), j < k →
        A.lt (A.sub t ((l.take j).foldl (fun x s => A.add x (dur s)) off)) (dur l[j]) = false) ∧
      ∀ hk : k < l.length, k + 1 < l.length →
        A.lt (A.sub t ((l.take k).foldl (fun x s => A.add x (dur s)) off)) (dur l[k]) = true := by
  intro l
  induction l with
  | nil => exact fun _ _ h => absurd rfl h
  | cons s l ih =>
    intro i off _
    rw [findLoop]
    cases h : A.lt (A.sub t off) (dur s) with
    | true =>
      refine ⟨0, by simp, by simp, fun j _ hj => absurd hj (by omega), ?_⟩
      intro _ _
      simpa using h
    | false =>
      cases l with
      | nil =>
        refine ⟨0, by simp, by simp [findLoop], fun j _ hj => absurd hj (by omega), ?_⟩
        intro _ h'
        simp at h'
      | cons s' l =>
        obtain ⟨k, hk, e, h1, h2⟩ := ih (i + 1) (A.add off (dur s)) (by simp)
        refine ⟨k + 1, by simpa using hk, ?_, ?_, ?_⟩
        · simp only [Bool.false_eq_true, if_false, List.isEmpty_cons]
          rw [e]
          simp only [List.take_succ_cons, List.foldl_cons]
          congr 2
          omega
        · intro j hj hjk
          cases j with
          | zero => simpa using h
          | succ j => simpa using h1 j (by simpa using hj) (by omega)
        · intro hk' h'
          simpa using h2 hk (by simpa using h')

theorem activeAt_spec (t off : K) (c : Box S K) (hne : c.splines ≠ []) :
    ∃ k, k < c.splines.length ∧ c.activeAt A dur t off = ((k : ℤ), startOf A dur c.splines k) ∧
      (∀ j (hj : j < c.splines.length), j < k →
        A.lt (A.sub t (startOf A dur c.splines j)) (dur c.splines[j]) = false) ∧
      ∀ hk : k < c.splines.length, k + 1 < c.splines.length →
        A.lt (A.sub t (startOf A dur c.splines k)) (dur c.splines[k]) = true := by
  obtain ⟨k, hk, e, h1, h2⟩ := findLoop_spec A dur t c.splines 0 A.zero hne
  refine ⟨k, hk, ?_, h1, h2⟩
  rw [activeAt, if_neg (by simpa using hne), e, Nat.zero_add]
  rfl

/-- The index can be used to read: it is the number of a segment or the number of segments. -/
def Good (c : Box S K) : Prop := 0 ≤ c.idx ∧ c.idx ≤ c.splines.length

theorem good_fresh : Good (fresh A : Box S K) := ⟨le_rfl, le_rfl⟩

theorem advance_good (dt : K) {c : Box S K} (h : Good c) :
    ∃ r, c.advance A dur dt = .ok r ∧ Good r.2 ∧ r.2.splines = c.splines := by
  obtain ⟨h0, h1⟩ := h
  obtain ⟨k, hk⟩ := Int.eq_ofNat_of_zero_le h0
  rw [advance]
  split
  · exact ⟨_, rfl, ⟨h0, h1⟩, rfl⟩
  · rename_i hn
    simp only [not_or] at hn
    have hlt : k < c.splines.length := by
      have := hn.2.2
      rw [hk, toSize_nat] at this
      omega
    rw [hk, toSize_nat, List.getElem?_eq_getElem hlt]
    simp only [Outcome.deref_some, Outcome.ok_bind]
    split
    · split
      · exact ⟨_, rfl, ⟨by simp; omega, by simp; omega⟩, rfl⟩
      · exact ⟨_, rfl, ⟨by simp; omega, by simp; omega⟩, rfl⟩
    · exact ⟨_, rfl, ⟨by simp, by simp; omega⟩, rfl⟩

theorem current_good (f : S → K → X) (x0 : X) {c : Box S K} (h : Good c) :
    (c.splines = [] ∧ c.current A f x0 = .ok x0) ∨
      ∃ s ∈ c.splines, c.current A f x0 = .ok (f s (A.sub c.time c.offset)) := by
  obtain ⟨h0, h1⟩ := h
  obtain ⟨k, hk⟩ := Int.eq_ofNat_of_zero_le h0
  rw [current]
  by_cases hne : c.splines = []
  · exact Or.inl ⟨hne, by simp [hne]⟩
  · refine Or.inr ?_
    rw [if_neg (by simpa using hne)]
    split
    · rw [List.getLast?_eq_some_getLast hne]
      exact ⟨_, List.getLast_mem hne, rfl⟩
    · rename_i hn
      rw [hk, toSize_nat] at hn
      have hlt : k < c.splines.length := by omega
      rw [hk, toSize_nat, List.getElem?_eq_getElem hlt]
      exact ⟨_, List.getElem_mem hlt, rfl⟩

theorem atTime_any (f : S → K → X) (x0 : X) (t : K) (c : Box S K) :
    (c.splines = [] ∧ c.atTime A dur f x0 t = .ok x0) ∨
      ∃ k, ∃ h : k < c.splines.length, c.activeAt A dur t A.zero = ((k : ℤ), startOf A dur c.splines k) ∧
        c.atTime A dur f x0 t = .ok (f c.splines[k] (A.sub t (startOf A dur c.splines k))) := by
  by_cases hne : c.splines = []
  · exact Or.inl ⟨hne, by simp [atTime, activeAt, hne]⟩
  · obtain ⟨k, hk, e, -⟩ := activeAt_spec A dur t A.zero c hne
    refine Or.inr ⟨k, hk, e, ?_⟩
    rw [atTime, e]
    simp only
    rw [if_neg (by omega), if_neg (by omega), toSize_nat, List.getElem?_eq_getElem hk]
    rfl

theorem seek_good (t : K) {c : Box S K} (hne : c.splines ≠ []) : Good (c.seek A dur t) := by
  obtain ⟨k, hk, e, -⟩ := activeAt_spec A dur t c.offset c hne
  simp only [seek, e, Good]
  omega

/-- One step in a container with one segment. -/
theorem advance_single (s : S) (off t d dt : K) (h : A.le d t = false) :
    (⟨[s], off, t, d, 0⟩ : Box S K).advance A dur dt =
      .ok (true, ⟨[s], off, A.add t dt, d, if A.le (dur s) (A.sub (A.add t dt) off) then 1 else 0⟩) := by
  have h0 : toSize 0 = 0 := rfl
  have h1 : sizeMinus1 1 = 0 := rfl
  rw [advance, if_neg (by simp [h, h0])]
  simp only [h0, List.getElem?_cons_zero, Outcome.deref_some, Outcome.ok_bind, List.length_singleton, h1]
  cases A.le (dur s) (A.sub (A.add t dt) off) <;> rfl

theorem run_adds : ∀ (l : List S) (c : Box S K), ∃ c', run A dur c (l.map .addSpline) = .ok c' ∧
    c'.splines = c.splines ++ l ∧ c'.duration = l.foldl (fun x s => A.add x (dur s)) c.duration := by
  intro l
  induction l with
  | nil => exact fun c => ⟨c, rfl, by simp, rfl⟩
  | cons s l ih =>
    intro c
    obtain ⟨c', e, h1, h2⟩ := ih (c.addSpline A dur s)
    exact ⟨c', e, by simpa [addSpline] using h1, h2⟩

end arith

end Box

section rounding
variable {K : Type} [Field K] [LinearOrder K] [IsStrictOrderedRing K] (R : Rounding K)

theorem rnd_zero : R.rnd 0 = 0 := by
  have := R.int 0 (by norm_num)
  simpa using this

theorem rnd_one : R.rnd 1 = 1 := by
  have := R.int 1 (by norm_num)
  simpa using this

theorem rnd_two : R.rnd 2 = 2 := by
  have := R.int 2 (by norm_num)
  simpa using this

theorem rnd_three : R.rnd 3 = 3 := by
  have := R.int 3 (by norm_num)
  simpa using this

theorem rnd_four : R.rnd 4 = 4 := by
  have := R.int 4 (by norm_num)
  simpa using this

theorem rnd_neg_one : R.rnd (-1) = -1 := by
  have := R.int (-1) (by norm_num)
  simpa using this

theorem rnd_neg_two : R.rnd (-2) = -2 := by
  have := R.int (-2) (by norm_num)
  simpa using this

theorem rnd_nonneg {x : K} (h : 0 ≤ x) : 0 ≤ R.rnd x := by
  rw [← rnd_zero R]
  exact R.mono h

/-- The sign of a difference is exact. -/
theorem sub_pos_iff {a b : K} (ha : R.rnd a = a) (hb : R.rnd b = b) : 0 < R.rnd (b - a) ↔ a < b := by
  constructor
  · intro h
    by_contra hn
    have := R.mono (x := b - a) (y := 0) (by linarith)
    rw [rnd_zero] at this
    linarith
  · intro h
    refine lt_of_le_of_ne (rnd_nonneg R (by linarith)) fun e => ?_
    have := R.sub_ne hb ha e.symm
    linarith

theorem alpha_left {a b : K} : alpha R a b a = 0 := by
  rw [alpha, sub_self, rnd_zero, zero_div, rnd_zero]

theorem alpha_right {a b : K} (ha : R.rnd a = a) (hb : R.rnd b = b) (h : a < b) : alpha R a b b = 1 := by
  rw [alpha, div_self ((sub_pos_iff R ha hb).2 h).ne', rnd_one]

open Verif.Manager Verif.Hermite

variable {a b : Node K (Knot (Vec3 K))}

theorem interpolate_left (hp : ∀ x, R.rnd (a.coef.position x) = a.coef.position x) :
    interpolate R a b a.time = a.coef.position := by
  funext x
  simp [interpolate, alpha_left, rnd_zero, rnd_one, hp]

theorem interpolate_right (ha : R.rnd a.time = a.time) (hb : R.rnd b.time = b.time) (h : a.time < b.time)
    (hp : ∀ x, R.rnd (b.coef.position x) = b.coef.position x) :
    interpolate R a b b.time = b.coef.position := by
  funext x
  have e1 : (2 : K) - 3 = -1 := by norm_num
  have e2 : (1 : K) - 2 = -1 := by norm_num
  have e3 : (-2 : K) + 3 = 1 := by norm_num
  simp [interpolate, alpha_right R ha hb h, rnd_zero, rnd_one, rnd_two, rnd_three, rnd_neg_two, rnd_neg_one, hp,
    e1, e2, e3]

theorem velocity_left (hp : ∀ x, R.rnd (a.coef.velocity x) = a.coef.velocity x) :
    interpolateVelocity R a b a.time = a.coef.velocity := by
  funext x
  simp [interpolateVelocity, alpha_left, rnd_zero, rnd_one, hp]

theorem velocity_right (ha : R.rnd a.time = a.time) (hb : R.rnd b.time = b.time) (h : a.time < b.time)
    (hp : ∀ x, R.rnd (b.coef.velocity x) = b.coef.velocity x) :
    interpolateVelocity R a b b.time = b.coef.velocity := by
  funext x
  have e1 : (3 : K) - 4 = -1 := by norm_num
  have e2 : (3 : K) - 2 = 1 := by norm_num
  simp [interpolateVelocity, alpha_right R ha hb h, rnd_zero, rnd_one, rnd_two, rnd_three, rnd_four, rnd_neg_one,
    hp, e1, e2]

theorem segDurations_spec (ts : List K) (hd : ∀ t ∈ ts, R.rnd t = t) : ∀ k i, i + k + 1 = ts.length →
    ∃ r, segDurations R.arith ts k i = .ok r ∧
      (r.isSome ↔ ∀ j (hj : j + 1 < ts.length), i ≤ j → ts[j] < ts[j + 1]) ∧
      ∀ ds, r = some ds → ds.length = k ∧ ∀ d ∈ ds, 0 < d := by
  intro k
  induction k with
  | zero =>
    intro i hi
    refine ⟨some [], rfl, ?_, ?_⟩
    · simp only [Option.isSome_some, true_iff]
      intro j hj hij
      omega
    · rintro ds e
      cases e
      simp
  | succ k ih =>
    intro i hi
    obtain ⟨r, e, h1, h2⟩ := ih (i + 1) (by omega)
    have hi1 : i + 1 < ts.length := by omega
    have hi0 : i < ts.length := by omega
    rw [segDurations, List.getElem?_eq_getElem hi1, List.getElem?_eq_getElem hi0]
    simp only [Outcome.deref_some, Outcome.ok_bind, Rounding.arith, decide_eq_true_eq]
    have key := sub_pos_iff R (hd _ (List.getElem_mem hi0)) (hd _ (List.getElem_mem hi1))
    by_cases hc : R.rnd (ts[i + 1] - ts[i]) ≤ 0
    · rw [if_pos hc]
      refine ⟨none, rfl, ?_, by simp⟩
      simp only [Option.isSome_none, Bool.false_eq_true, false_iff]
      exact fun h => absurd (key.2 (h i hi1 le_rfl)) (not_lt.2 hc)
    · rw [if_neg hc]
      change ∃ r', (segDurations R.arith ts k (i + 1) >>= _) = _ ∧ _
      rw [e]
      refine ⟨_, rfl, ?_, ?_⟩
      · rw [Option.isSome_map, h1]
        constructor
        · intro h j hj hij
          rcases hij.lt_or_eq with h' | rfl
          · exact h j hj h'
          · exact key.1 (not_le.1 hc)
        · exact fun h j hj hij => h j hj (by omega)
      · intro ds hds
        cases r with
        | none => cases hds
        | some ds' =>
          cases hds
          obtain ⟨l1, l2⟩ := h2 ds' rfl
          refine ⟨by simpa using l1, fun d hd' => ?_⟩
          rcases List.mem_cons.1 hd' with rfl | h'
          · exact not_le.1 hc
          · exact l2 d h'

theorem pairwise_of_next {ts : List K} (h : ∀ j (hj : j + 1 < ts.length), ts[j] < ts[j + 1]) :
    ts.Pairwise (· < ·) := by
  rw [List.pairwise_iff_getElem]
  intro i j hi hj hij
  induction j with
  | zero => omega
  | succ j ih =>
    rcases (Nat.lt_succ_iff.1 hij).lt_or_eq with h' | rfl
    · exact lt_trans (ih (by omega) h') (h j hj)
    · exact h i hj

end rounding

end Verif.Rounding

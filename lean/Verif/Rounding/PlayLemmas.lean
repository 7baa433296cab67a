import Verif.Rounding.IeeeProps
import Verif.Rounding.SplineLemmas

/-!
# Lemmas for C161: playing a container with rounded times
-/

set_option linter.unusedSectionVars false
set_option linter.dupNamespace false

namespace Verif.Rounding

open Verif.Container.Container (toSize sizeMinus1)

namespace Box

section arith
variable {S K X : Type} (A : Arith K) (dur : S → K)

theorem startOf_zero (l : List S) : startOf A dur l 0 = A.zero := rfl

theorem startOf_succ {l : List S} {k : ℕ} (hk : k < l.length) :
    startOf A dur l (k + 1) = A.add (startOf A dur l k) (dur l[k]) := by
  rw [startOf, startOf, ← List.take_concat_get' l k hk, List.foldl_append]
  rfl

/-- Filling a container after a reset. -/
theorem run_fill (l : List S) (c : Box S K) :
    run A dur c (.reset :: l.map .addSpline) = .ok ⟨l, A.zero, A.zero, startOf A dur l l.length, 0⟩ := by
  have key : ∀ (l : List S) (c : Box S K), run A dur c (l.map .addSpline) =
      .ok { c with splines := c.splines ++ l, duration := l.foldl (fun x s => A.add x (dur s)) c.duration } := by
    intro l
    induction l with
    | nil => intro c; simp [run]
    | cons s l ih =>
      intro c
      rw [List.map_cons, run, step, Outcome.ok_bind, ih]
      simp [addSpline]
  rw [run, step, Outcome.ok_bind, key]
  simp [reset, resetTime, startOf]

theorem run_append : ∀ (a b : List (Op S K)) (c c' : Box S K), run A dur c a = .ok c' →
    run A dur c (a ++ b) = run A dur c' b := by
  intro a
  induction a with
  | nil => intro b c c' h; rw [run] at h; cases h; rfl
  | cons op a ih =>
    intro b c c' h
    rw [run, Outcome.bind_eq_ok] at h
    obtain ⟨d, h1, h2⟩ := h
    rw [List.cons_append, run, h1, Outcome.ok_bind]
    exact ih b d c' h2

/-- What `advance` does while the cursor is on a segment. -/
theorem advance_at (dt : K) {c : Box S K} {k : ℕ} (hk : k < c.splines.length) (hi : c.idx = k) :
    c.advance A dur dt =
      if A.le c.duration c.time = true then .ok (false, c)
      else if A.le (dur c.splines[k]) (A.sub (A.add c.time dt) c.offset) = true then
        .ok (true, { c with
          time := A.add c.time dt
          offset := if k + 1 < c.splines.length then A.add c.offset (dur c.splines[k]) else c.offset
          idx := k + 1 })
      else .ok (true, { c with time := A.add c.time dt }) := by
  have hne : c.splines ≠ [] := List.ne_nil_of_length_pos (by omega)
  have h1 : sizeMinus1 c.splines.length = c.splines.length - 1 := by
    rw [sizeMinus1, if_neg (by omega)]
  rw [advance]
  simp only [hi, toSize_nat, h1]
  by_cases h : A.le c.duration c.time = true
  · rw [if_pos (by simp [h]), if_pos h]
  · rw [if_neg (by simp [h, hne]; omega), if_neg h, List.getElem?_eq_getElem hk]
    simp only [Outcome.deref_some, Outcome.ok_bind]
    split
    · by_cases h2 : k + 1 < c.splines.length
      · rw [if_pos (by omega), if_pos h2]
      · rw [if_neg (by omega), if_neg h2]
    · rfl

/-- Once the cursor has left the last segment. -/
theorem advance_after (dt : K) {c : Box S K} (hi : c.idx = c.splines.length) :
    c.advance A dur dt = .ok (false, c) := by
  rw [advance, if_pos]
  rw [hi, toSize_nat]
  simp

end arith

section rounding
variable {S K X : Type} [Field K] [LinearOrder K] [IsStrictOrderedRing K] (R : Rounding K) (dur : S → K)

/-- The cursor is on segment `k`, or has left it and it is the last one. -/
structure On (l : List S) (k : ℕ) (c : Box S K) : Prop where
  splines : c.splines = l
  lt : k < l.length
  duration : c.duration = startOf R.arith dur l l.length
  time : R.rnd c.time = c.time
  offset : c.offset = startOf R.arith dur l k
  idx : c.idx = k ∨ c.idx = l.length ∧ k + 1 = l.length ∧ dur (l[k]'lt) ≤ R.rnd (c.time - startOf R.arith dur l k)

/-- Moreover segment `k` is the one that random access finds. -/
structure Sync (l : List S) (k : ℕ) (c : Box S K) : Prop extends On R dur l k c where
  before : ∀ j (hj : j < l.length), j < k → dur l[j] ≤ R.rnd (c.time - startOf R.arith dur l j)
  here : k + 1 < l.length → R.rnd (c.time - startOf R.arith dur l k) < dur (l[k]'lt)

variable {R dur} {l : List S} {k : ℕ} {c : Box S K}

theorem On.current (h : On R dur l k c) (f : S → K → X) (x0 : X) :
    c.current R.arith f x0 = .ok (f (l[k]'h.lt) (R.rnd (c.time - startOf R.arith dur l k))) := by
  have hlt := h.lt
  have hne : l ≠ [] := List.ne_nil_of_length_pos (by omega)
  rw [Box.current, h.splines, if_neg (by simpa using hne), h.offset]
  rcases h.idx with e | ⟨e, e2, -⟩
  · rw [e, toSize_nat, if_neg (by omega), List.getElem?_eq_getElem hlt]
    rfl
  · rw [e, toSize_nat, if_pos rfl, List.getLast?_eq_getElem?, ← e2, Nat.add_sub_cancel,
      List.getElem?_eq_getElem hlt]
    rfl

theorem Sync.atTime (h : Sync R dur l k c) (f : S → K → X) (x0 : X) :
    c.atTime R.arith dur f x0 c.time = .ok (f (l[k]'h.lt) (R.rnd (c.time - startOf R.arith dur l k))) := by
  have hlt := h.lt
  have hs := h.splines
  have hb := h.before
  have hh := h.here
  subst hs
  have hne : c.splines ≠ [] := List.ne_nil_of_length_pos (by omega)
  obtain ⟨i, hi, e, h1, h2⟩ := activeAt_spec R.arith dur c.time R.arith.zero c hne
  have : i = k := by
    rcases lt_trichotomy i k with g | g | g
    · have a := hb i hi g
      have b := h2 hi (by omega)
      simp only [Rounding.arith, decide_eq_true_eq] at b
      exact absurd a (not_le.2 b)
    · exact g
    · have a := h1 k hlt g
      simp only [Rounding.arith, decide_eq_false_iff_not, not_lt] at a
      exact absurd (hh (by omega)) (not_lt.2 a)
  subst this
  rw [Box.atTime, e]
  simp only
  rw [if_neg (by omega), if_neg (by omega), toSize_nat, List.getElem?_eq_getElem hlt]
  rfl

theorem sync_seek (hs : c.splines = l) (hne : l ≠ []) (hd : c.duration = startOf R.arith dur l l.length) {t : K}
    (ht : R.rnd t = t) : ∃ k, Sync R dur l k (c.seek R.arith dur t) := by
  subst hs
  obtain ⟨i, hi, e, h1, h2⟩ := activeAt_spec R.arith dur t c.offset c hne
  refine ⟨i, ⟨⟨rfl, hi, hd, ht, ?_, Or.inl ?_⟩, ?_, ?_⟩⟩
  · simp [seek, e]
  · simp [seek, e]
  · intro j hj hji
    simpa [Rounding.arith, seek] using h1 j hj hji
  · intro h
    simpa [Rounding.arith, seek] using h2 hi h

theorem sync_start (hne : l ≠ []) (hpos : ∀ s ∈ l, 0 < dur s) (hs : c.splines = l) (hd : c.duration = startOf R.arith dur l l.length)
    (ht : c.time = 0) (ho : c.offset = 0) (hi : c.idx = 0) : Sync R dur l 0 c := by
  have hl := List.length_pos_of_ne_nil hne
  have h0 : startOf R.arith dur l 0 = 0 := rfl
  have h1 : R.rnd (c.time - startOf R.arith dur l 0) = 0 := by rw [h0, ht, sub_zero, rnd_zero]
  exact ⟨⟨hs, hl, hd, by rw [ht, rnd_zero], ho.trans h0.symm, Or.inl (by simpa using hi)⟩,
    fun j _ h => absurd h (by omega), fun _ => lt_of_eq_of_lt h1 (hpos _ (List.getElem_mem hl))⟩

theorem rnd_startOf (l : List S) (k : ℕ) (hk : k ≤ l.length) : R.rnd (startOf R.arith dur l k) = startOf R.arith dur l k := by
  cases k with
  | zero => exact rnd_zero R
  | succ k =>
    rw [startOf_succ R.arith dur (by omega : k < l.length)]
    exact R.idem _

/-- Any step keeps the cursor on a segment; if the call returns `true` the step has been added to the time. -/
theorem On.advance (h : On R dur l k c) (dt : K) :
    ∃ b c' k', c.advance R.arith dur dt = .ok (b, c') ∧ On R dur l k' c' ∧
      (b = true → c.time < c.duration ∧ c'.time = R.rnd (c.time + dt)) ∧
      (b = false → c' = c ∧ (c.duration ≤ c.time ∨ c.idx = l.length)) := by
  have hlt := h.lt
  rcases h.idx with e | ⟨e, -, -⟩
  · have hs := h.splines
    subst hs
    rw [advance_at R.arith dur dt hlt e]
    split
    · rename_i g
      simp only [Rounding.arith, decide_eq_true_eq] at g
      exact ⟨_, _, _, rfl, h, by simp, fun _ => ⟨rfl, Or.inl g⟩⟩
    · rename_i g
      simp only [Rounding.arith, decide_eq_true_eq, not_le] at g
      split
      · rename_i g2
        simp only [Rounding.arith, decide_eq_true_eq, h.offset] at g2
        by_cases g3 : k + 1 < c.splines.length
        · refine ⟨_, _, k + 1, rfl, ⟨rfl, g3, h.duration, R.idem _, ?_, Or.inl (by simp)⟩, fun _ => ⟨g, rfl⟩, by simp⟩
          simp only [if_pos g3]
          rw [startOf_succ R.arith dur hlt, h.offset]
        · refine ⟨_, _, k, rfl, ⟨rfl, hlt, h.duration, R.idem _, ?_, Or.inr ⟨?_, by omega, g2⟩⟩, fun _ => ⟨g, rfl⟩, by simp⟩
          · simp only [if_neg g3]
            exact h.offset
          · simp only
            omega
      · exact ⟨_, _, k, rfl, ⟨rfl, hlt, h.duration, R.idem _, h.offset, Or.inl e⟩, fun _ => ⟨g, rfl⟩, by simp⟩
  · rw [advance_after R.arith dur dt (by rw [e, h.splines])]
    exact ⟨_, _, k, rfl, h, by simp, fun _ => ⟨rfl, Or.inr e⟩⟩

/-- A step that is short compared with the segments keeps the cursor where random access finds it. -/
theorem Sync.advance (h : Sync R dur l k c) {dt : K} (h0 : 0 ≤ dt) (hd : ∀ s ∈ l, R.rnd (dur s) = dur s)
    (hshort : ∀ j (hj : j < l.length), R.rnd (R.rnd (startOf R.arith dur l j + dt) - startOf R.arith dur l j) < dur l[j]) :
    ∃ b c' k', c.advance R.arith dur dt = .ok (b, c') ∧ Sync R dur l k' c' := by
  have hlt := h.lt
  have hge : c.time ≤ R.rnd (c.time + dt) := by
    have := R.mono (show c.time ≤ c.time + dt by linarith)
    rwa [h.time] at this
  have later : ∀ j (hj : j < l.length), dur l[j] ≤ R.rnd (c.time - startOf R.arith dur l j) →
      dur l[j] ≤ R.rnd (R.rnd (c.time + dt) - startOf R.arith dur l j) := fun j hj g =>
    g.trans (R.mono (by linarith))
  rcases h.idx with e | ⟨e, -, -⟩
  · have hs := h.splines
    subst hs
    rw [advance_at R.arith dur dt hlt e]
    split
    · exact ⟨_, _, _, rfl, h⟩
    · split
      · rename_i g2
        simp only [Rounding.arith, decide_eq_true_eq, h.offset] at g2
        by_cases g3 : k + 1 < c.splines.length
        · refine ⟨_, _, k + 1, rfl, ⟨⟨rfl, g3, h.duration, R.idem _, ?_, Or.inl (by simp)⟩, ?_, ?_⟩⟩
          · simp only [if_pos g3]
            rw [startOf_succ R.arith dur hlt, h.offset]
          · intro j hj hjk
            rcases Nat.lt_succ_iff_lt_or_eq.1 hjk with g | rfl
            · exact later j hj (h.before j hj g)
            · exact g2
          · intro _
            have hx := h.here g3
            have hlt' : c.time - startOf R.arith dur c.splines k < dur c.splines[k] := by
              by_contra hcon
              have := R.mono (not_lt.1 hcon)
              rw [hd _ (List.getElem_mem hlt)] at this
              exact absurd hx (not_lt.2 this)
            have hle : c.time ≤ startOf R.arith dur c.splines (k + 1) := by
              rw [startOf_succ R.arith dur hlt, ← h.time]
              exact R.mono (by linarith)
            refine lt_of_le_of_lt ?_ (hshort (k + 1) g3)
            apply R.mono
            have : R.rnd (c.time + dt) ≤ R.rnd (startOf R.arith dur c.splines (k + 1) + dt) := R.mono (by linarith)
            change R.rnd (c.time + dt) - _ ≤ _
            linarith
        · refine ⟨_, _, k, rfl, ⟨⟨rfl, hlt, h.duration, R.idem _, ?_, Or.inr ⟨?_, by omega, g2⟩⟩, ?_, fun g => absurd g g3⟩⟩
          · simp only [if_neg g3]
            exact h.offset
          · simp only
            omega
          · exact fun j hj hjk => later j hj (h.before j hj hjk)
      · rename_i g2
        simp only [Rounding.arith, decide_eq_true_eq, h.offset, not_le] at g2
        exact ⟨_, _, k, rfl, ⟨⟨rfl, hlt, h.duration, R.idem _, h.offset, Or.inl e⟩,
          fun j hj hjk => later j hj (h.before j hj hjk), fun _ => g2⟩⟩
  · rw [advance_after R.arith dur dt (by rw [e, h.splines])]
    exact ⟨_, _, k, rfl, h⟩

end rounding

end Box

end Verif.Rounding

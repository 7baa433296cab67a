import Verif.Rounding.NanModel
import Verif.Rounding.Lemmas
import Verif.Rounding.LineProps
import Verif.PolyCurve.MotionProps

/-!
# C148: times that are not a number
-/

set_option linter.unusedSectionVars false
set_option linter.dupNamespace false

namespace Verif.Rounding

open Verif.Spline Box
open Verif.Container.Container (toSize sizeMinus1)

variable {K : Type} [Field K] [LinearOrder K] [IsStrictOrderedRing K] {o : Order} (R : Rounding K) (P : Pow R)

/-! ## On numbers the models are those of the other files -/

theorem clampN_num (t d : K) : clampN R (some t) (some d) = some (clamp t d) := by
  simp only [clampN, Rounding.withNaN, clamp]
  by_cases h : d < t
  · by_cases h' : 0 < d <;> simp [h, h']
  · by_cases h' : 0 < t <;> simp [h, h']

theorem link_positionN (s : Spline o K) (t : K) : positionN R P s (some t) = some (position R P s t) := by
  rw [positionN, clampN_num]; rfl

theorem link_velocityN (s : Spline o K) (t : K) : velocityN R P s (some t) = some (velocity R P s t) := by
  rw [velocityN, clampN_num]; rfl

theorem link_accelerationN (s : Spline o K) (t : K) :
    accelerationN R P s (some t) = some (acceleration R P s t) := by
  rw [accelerationN, clampN_num]; rfl

theorem link_findLoopN {S : Type} (dur : S → K) (t : K) : ∀ (l : List S) (i : ℕ) (off : K),
    findLoop R.withNaN (fun s => some (dur s)) (some t) l i (some off) =
      ((findLoop R.arith dur t l i off).1, some (findLoop R.arith dur t l i off).2)
  | [], _, _ => rfl
  | s :: l, i, off => by
    have ih := link_findLoopN dur t l (i + 1)
    simp only [findLoop, Rounding.withNaN, Rounding.arith, Option.bind_some, Option.map_some, decide_eq_true_eq]
    split
    · rfl
    · by_cases hl : l.isEmpty
      · simp only [hl, if_true]; exact ih off
      · simp only [hl]; exact ih _

theorem link_atTimeN {S X : Type} (dur : S → K) (f : S → K → X) (g : S → Option K → Option X)
    (hg : ∀ s u, g s (some u) = some (f s u)) (x0 : X) (t : K) (c : Box S K) :
    (lift c).atTime R.withNaN (fun s => some (dur s)) g (some x0) (some t) =
      (c.atTime R.arith dur f x0 t >>= fun x => .ok (some x)) := by
  have e : (lift c).activeAt R.withNaN (fun s => some (dur s)) (some t) R.withNaN.zero =
      ((c.activeAt R.arith dur t R.arith.zero).1, some (c.activeAt R.arith dur t R.arith.zero).2) := by
    simp only [activeAt]
    rw [show (lift c).splines = c.splines from rfl]
    split
    · rfl
    · exact link_findLoopN R dur t c.splines 0 0
  rw [Box.atTime, Box.atTime, e]
  generalize c.activeAt R.arith dur t R.arith.zero = r
  rw [show (lift c).splines = c.splines from rfl]
  simp only
  split
  · rfl
  · split
    · cases c.splines.getLast? with
      | none => rfl
      | some s => exact congrArg Outcome.ok (hg s _)
    · cases c.splines[toSize r.1]? with
      | none => rfl
      | some s => exact congrArg Outcome.ok (hg s _)

theorem link_advanceN {S : Type} (dur : S → K) (dt : K) (c : Box S K) :
    (lift c).advance R.withNaN (fun s => some (dur s)) (some dt) =
      (c.advance R.arith dur dt >>= fun r => .ok (r.1, lift r.2)) := by
  simp only [Box.advance]
  rw [show (lift c).splines = c.splines from rfl, show (lift c).idx = c.idx from rfl,
    show R.withNaN.le (lift c).duration (lift c).time = R.arith.le c.duration c.time from rfl]
  split
  · rfl
  · cases c.splines[toSize c.idx]? with
    | none => rfl
    | some s =>
      simp only [Outcome.deref_some, Outcome.ok_bind]
      rw [show R.withNaN.le (some (dur s)) (R.withNaN.sub (R.withNaN.add (lift c).time (some dt)) (lift c).offset) =
        R.arith.le (dur s) (R.arith.sub (R.arith.add c.time dt) c.offset) from rfl]
      split
      · split <;> rfl
      · rfl

theorem clamp_zero (d : K) : clamp 0 d = 0 := by
  simp only [clamp]
  by_cases h : d < 0
  · simp [h, not_lt.2 h.le]
  · simp [h]

/-! ## C148 -/

/-- C148, a segment: at a time that is not a number it reads what it has at its beginning. -/
theorem C148_segment (s : Spline o K) :
    positionN R P s none = positionN R P s (some 0) ∧ velocityN R P s none = velocityN R P s (some 0) ∧
    accelerationN R P s none = accelerationN R P s (some 0) ∧ positionN R P s none ≠ none := by
  have h : clampN R none (some s.duration) = clampN R (some 0) (some s.duration) := by
    rw [clampN_num, clamp_zero]
    rfl
  refine ⟨by rw [positionN, h]; rfl, by rw [velocityN, h]; rfl, by rw [accelerationN, h]; rfl, ?_⟩
  rw [positionN, h, clampN_num]
  simp

theorem findLoop_nan {S : Type} (dur : S → Option K) : ∀ (l : List S) (i : ℕ) (off : Option K), l ≠ [] →
    (findLoop R.withNaN dur none l i off).1 = ((i + l.length - 1 : ℕ) : ℤ)
  | [], _, _, h => absurd rfl h
  | s :: l, i, off, _ => by
    have : R.withNaN.lt (R.withNaN.sub none off) (dur s) = false := rfl
    rw [findLoop, if_neg (by rw [this]; simp)]
    by_cases hl : l = []
    · subst hl
      simp [findLoop]
    · rw [findLoop_nan dur l (i + 1) _ hl]
      simp only [List.length_cons]
      congr 1
      omega

/-- C148, the container: at a time that is not a number it reads the last segment, at a time that is not a number;
and so does the cursor once it is put there. Whatever the segments are and however they are read. -/
theorem C148_container {S X : Type} (dur : S → Option K) (f : S → Option K → X) (x0 : X) (c : Box S (Option K)) (s : S)
    (hs : c.splines.getLast? = some s) :
    c.atTime R.withNaN dur f x0 none = .ok (f s none) ∧
    (c.seek R.withNaN dur none).current R.withNaN f x0 = .ok (f s none) := by
  have hne : c.splines ≠ [] := by rintro e; rw [e] at hs; simp at hs
  have hpos : 0 < c.splines.length := List.length_pos_iff.2 hne
  have hi : ∀ off, (c.activeAt R.withNaN dur none off).1 = ((c.splines.length - 1 : ℕ) : ℤ) := by
    intro off
    rw [activeAt, if_neg (by simpa using hne), findLoop_nan R dur _ _ _ hne, Nat.zero_add]
  have hs' : c.splines[c.splines.length - 1]? = some s := by rw [← List.getLast?_eq_getElem?]; exact hs
  refine ⟨?_, ?_⟩
  · rw [Box.atTime]
    simp only [hi]
    rw [if_neg (by omega), if_neg (by omega), toSize_nat, hs']
    rfl
  · have h1 : (c.seek R.withNaN dur none).idx = ((c.splines.length - 1 : ℕ) : ℤ) := hi c.offset
    have h2 : (c.seek R.withNaN dur none).splines = c.splines := rfl
    rw [Box.current, h1, h2, if_neg (by simpa using hne), toSize_nat, if_neg (by omega), hs']
    rfl

/-- C148, playing: once the time of a container in play is not a number, `advance` returns `true` for ever, whatever
the steps, the segment stays and what is read stays. -/
theorem C148_stuck {S X : Type} (dur : S → Option K) (f : S → Option K → X) (x0 : X) (dts : List (Option K))
    (c : Box S (Option K)) (k : ℕ) (s : S) (hk : c.idx = k) (hs : c.splines[k]? = some s) (ht : c.time = none) :
    ∃ c', steps R dur dts c = .ok (true, c') ∧ c'.time = none ∧ c'.idx = c.idx ∧ c'.splines = c.splines ∧
      c'.current R.withNaN f x0 = .ok (f s none) := by
  have hlt : k < c.splines.length := (List.getElem?_eq_some_iff.1 hs).1
  induction dts generalizing c with
  | nil =>
    refine ⟨c, rfl, ht, rfl, rfl, ?_⟩
    rw [Box.current, hk, if_neg (by rintro h; rw [List.isEmpty_iff.1 h] at hlt; simp at hlt), toSize_nat,
      if_neg (by omega), hs, ht]
    rfl
  | cons dt dts ih =>
    have adv : c.advance R.withNaN dur dt = .ok (true, { c with time := none }) := by
      have e : R.withNaN.le c.duration c.time = false := by rw [ht]; cases c.duration <;> rfl
      rw [Box.advance, if_neg]
      · rw [hk, toSize_nat, hs]
        simp only [Outcome.deref_some, Outcome.ok_bind]
        have e1 : R.withNaN.add c.time dt = none := by rw [ht]; rfl
        have e2 : R.withNaN.le (dur s) (R.withNaN.sub none c.offset) = false := by
          rw [show R.withNaN.sub none c.offset = none from rfl]; cases dur s <;> rfl
        rw [e1, e2]
        rfl
      · rw [e, hk, toSize_nat]
        rintro (h | h | h)
        · rw [List.isEmpty_iff.1 h] at hlt; simp at hlt
        · simp at h
        · omega
    rw [steps, adv]
    exact ih { c with time := none } hk hs rfl hlt

/-- C148, playing: one step that is not a number brings a container in play there. -/
theorem C148_step {S : Type} (dur : S → Option K) (c : Box S (Option K)) (k : ℕ) (s : S) (hk : c.idx = k)
    (hs : c.splines[k]? = some s) (ht : R.withNaN.le c.duration c.time = false) :
    c.advance R.withNaN dur none = .ok (true, { c with time := none }) := by
  have hlt : k < c.splines.length := (List.getElem?_eq_some_iff.1 hs).1
  rw [Box.advance, if_neg]
  · rw [hk, toSize_nat, hs]
    simp only [Outcome.deref_some, Outcome.ok_bind]
    have e1 : R.withNaN.add c.time none = none := by cases c.time <;> rfl
    have e2 : R.withNaN.le (dur s) (R.withNaN.sub none c.offset) = false := by
      rw [show R.withNaN.sub none c.offset = none from rfl]; cases dur s <;> rfl
    rw [e1, e2]
    rfl
  · rw [ht, hk, toSize_nat]
    rintro (h | h | h)
    · rw [List.isEmpty_iff.1 h] at hlt; simp at hlt
    · simp at h
    · omega

/-- C148: a fitted scalar curve read at a time that is not a number gives the value of the last knot but one, a
number. Whatever the order, the knots, the end derivatives and the solver. -/
theorem C148_fit (S : Solver K) (ts ps : List K) (h2 : 2 ≤ ts.length) (hb : ts.length ≤ 2 ^ 28)
    (hp : ps.length = ts.length) (hinc : ts.Pairwise (· < ·)) (v0 a0 vT aT : K) (P : Pow (exact K))
    (c : PolyCurve.ScalarCurve o K) :
    ∃ x, c.fitCurveWith S ts ps v0 a0 vT aT = .ok x ∧
      curveN (exact K) (positionN (exact K) P) x.minTime none (lift (toBox x.container)) =
        .ok (some ps[ts.length - 2]) ∧
      ∀ t, curveN (exact K) (positionN (exact K) P) x.minTime (some t) (lift (toBox x.container)) =
        (x.evaluate t >>= fun v => .ok (some v)) := by
  obtain ⟨n, hn⟩ : ∃ n, ts.length = n + 1 := ⟨ts.length - 1, by omega⟩
  obtain ⟨x, e, g⟩ := Container.Container.acc_through S ts ps v0 a0 vT aT c.container n (by omega) (by omega) hn (by omega) hinc
  obtain ⟨t0, ht0⟩ : ∃ t0, ts.head? = some t0 := by
    cases ts with
    | nil => simp at h2
    | cons t ts => exact ⟨t, rfl⟩
  refine ⟨⟨x, t0⟩, by simp [PolyCurve.ScalarCurve.fitCurveWith, e, ht0], ?_, fun t => ?_⟩
  · have hl := g.len
    have hlt : x.splines.length - 1 < x.splines.length := by omega
    have hs : (lift (toBox x)).splines.getLast? = some x.splines[x.splines.length - 1] := by
      rw [List.getLast?_eq_getElem?]
      exact List.getElem?_eq_getElem hlt
    rw [curveN, show (exact K).withNaN.sub none (some t0) = none from rfl, readN,
      (C148_container (exact K) durN (positionN (exact K) P) (some 0) _ _ hs).1, (C148_segment (exact K) P _).1,
      link_positionN, (link_spline P _ _).1, (g.seg _ _ (List.getElem?_eq_getElem hlt)).2.1, Container.knot_eq (by omega)]
    congr 3
    omega
  · have h := link_atTimeN (exact K) Spline.duration (fun (s : Spline o K) u => s.getPositionAtTime u)
      (positionN (exact K) P) (fun s u => by rw [link_positionN, (link_spline P _ _).1]) 0 (t - t0) (toBox x)
    rw [link_atTime] at h
    exact h

/-- C148, straight-line fits in rounded arithmetic: the value read at a time that is not a number is the last value but
one, to the last digit. -/
theorem C148_line {ts ps : List K} (hd : ∀ t ∈ ts, R.rnd t = t) (hv : ∀ p ∈ ps, R.rnd p = p)
    (hinc : ts.Pairwise (· < ·)) (hl : ps.length = ts.length) (h2 : 2 ≤ ts.length) (c : Box (Spline o K) K) :
    ∃ c', setDataLinear R ts ps c = .ok (true, c') ∧
      readN R (positionN R P) none (lift c') = .ok (some ps[ts.length - 2]) := by
  obtain ⟨c', e, -, -, -, hs⟩ := C146_fit (o := o) hd hinc hl h2 c
  refine ⟨c', e, ?_⟩
  have hlen : c'.splines.length = ts.length - 1 := by rw [hs, lines_length]
  have hlt : c'.splines.length - 1 < (lines R o ts ps).length := by rw [← hs]; omega
  have hlast : (lift c').splines.getLast? = some (lines R o ts ps)[c'.splines.length - 1] := by
    rw [List.getLast?_eq_getElem?, show (lift c').splines = c'.splines from rfl, ← List.getElem?_eq_getElem hlt, hs]
  rw [readN, (C148_container R durN (positionN R P) (some 0) _ _ hlast).1, (C148_segment R P _).1, link_positionN,
    lines_get _ _ hlt, (position_line P _ _ _ _ _).1]
  have e2 : c'.splines.length - 1 = ts.length - 2 := by omega
  have hmem : R.rnd ps[ts.length - 2] = ps[ts.length - 2] := hv _ (List.getElem_mem _)
  have hget : ps.getD (ts.length - 2) 0 = ps[ts.length - 2] := by
    rw [List.getD, List.getElem?_eq_getElem (by omega)]; rfl
  rw [e2, hget, linePosition_eq hmem]
  have hc : clamp (0 : K) (R.rnd (ts.getD (ts.length - 2 + 1) 0 - ts.getD (ts.length - 2) 0)) = 0 := clamp_zero _
  rw [hc, mul_zero, rnd_zero, zero_add, hmem]

/-- An instance of C148: three knots in `double`, read at NaN. -/
example : ∃ c', setDataLinear (double ℚ) [0, 1, 3] [5, 7, 6] (fresh (double ℚ).arith : Box (Spline .o1 ℚ) ℚ) = .ok (true, c') ∧
    ∀ P : Pow (double ℚ), readN (double ℚ) (positionN (double ℚ) P) none (lift c') = .ok (some 7) := by
  obtain ⟨c', e, -⟩ := C146_fit (R := double ℚ) (o := .o1) (ts := [0, 1, 3]) (ps := [5, 7, 6]) (by decide +kernel)
    (by decide +kernel) rfl (by decide) (fresh (double ℚ).arith)
  refine ⟨c', e, fun P => ?_⟩
  obtain ⟨c'', e', h⟩ := C148_line (double ℚ) P (o := .o1) (ts := [0, 1, 3]) (ps := [5, 7, 6]) (by decide +kernel)
    (by decide +kernel) (by decide +kernel) rfl (by decide) (fresh (double ℚ).arith)
  rw [e] at e'
  cases e'
  exact h

/-- An instance of C148: a container of two segments in play, given one step that is not a number. -/
example : ∃ c', steps (double ℚ) (fun s : ℚ => some s) [some (1 / 2), none, some 1, some 5, some 100]
    ⟨[1, 2], some 0, some 0, some 3, 0⟩ = .ok (true, c') ∧ c'.idx = 0 ∧ c'.time = none := by
  refine ⟨⟨[1, 2], some 0, none, some 3, 0⟩, by decide +kernel, rfl, rfl⟩

end Verif.Rounding

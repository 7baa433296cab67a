import Verif.Rounding.Lemmas
import Verif.Rounding.Link
import Verif.Manager.Props

/-!
# Properties C95 - C99: what holds of the code when it computes with `double`
-/

set_option linter.unusedSectionVars false
set_option linter.dupNamespace false

namespace Verif.Rounding

open Box

/-! ## C95: reads stay inside, whatever the arithmetic does -/

section arith
variable {S K X : Type} (A : Arith K) (dur : S → K)

/-- Does the history seek only while there are segments? `n` is the number of segments so far. -/
def SeeksFilled : ℕ → List (Op S K) → Prop
  | _, [] => True
  | _, .reset :: rest => SeeksFilled 0 rest
  | n, .resetTime :: rest => SeeksFilled n rest
  | n, .addSpline _ :: rest => SeeksFilled (n + 1) rest
  | n, .advance _ :: rest => SeeksFilled n rest
  | n, .seek _ :: rest => 0 < n ∧ SeeksFilled n rest

/-- The segments a history leaves behind. -/
def segments : List S → List (Op S K) → List S
  | l, [] => l
  | _, .reset :: rest => segments [] rest
  | l, .addSpline s :: rest => segments (l ++ [s]) rest
  | l, _ :: rest => segments l rest

theorem run_good : ∀ (ops : List (Op S K)) (c : Box S K), Good c → SeeksFilled c.splines.length ops →
    ∃ c', run A dur c ops = .ok c' ∧ Good c' ∧ c'.splines = segments c.splines ops := by
  intro ops
  induction ops with
  | nil => exact fun c h _ => ⟨c, rfl, h, rfl⟩
  | cons op ops ih =>
    intro c h hs
    rw [run]
    cases op with
    | reset =>
      obtain ⟨c', e, g, p⟩ := ih (c.reset A) ⟨le_rfl, le_rfl⟩ hs
      exact ⟨c', e, g, p⟩
    | resetTime =>
      obtain ⟨c', e, g, p⟩ := ih (c.resetTime A) ⟨le_rfl, by simp [resetTime]⟩ hs
      exact ⟨c', e, g, p⟩
    | addSpline s =>
      obtain ⟨c', e, g, p⟩ := ih (c.addSpline A dur s)
        ⟨h.1, by have := h.2; simp [addSpline]; omega⟩ (by
          have hs' : SeeksFilled (c.splines.length + 1) ops := hs
          simpa [addSpline] using hs')
      exact ⟨c', e, g, p⟩
    | advance dt =>
      obtain ⟨r, e, g, p⟩ := advance_good A dur dt h
      obtain ⟨c', e', g', p'⟩ := ih r.2 g (by rw [p]; exact hs)
      refine ⟨c', ?_, g', by rw [p', p]; rfl⟩
      simp only [step, e, Outcome.ok_bind]
      exact e'
    | seek t =>
      obtain ⟨c', e, g, p⟩ := ih (c.seek A dur t) (seek_good A dur t (List.ne_nil_of_length_pos hs.1)) hs.2
      exact ⟨c', e, g, p⟩

/-- **C95 (partial).** Whatever the operations on `double` return (rounding, overflow, NaN durations and
times): after any history that seeks only while there are segments, the next `advance` returns normally; a
read at the cursor or at any time evaluates one of the segments added since the last `reset`, or gives the
default of an empty container. Missing: histories that seek on an empty container, see `C95_refuted`. -/
theorem C95_reads_partial (ops : List (Op S K)) (h : SeeksFilled 0 ops) :
    ∃ c, run A dur (fresh A) ops = .ok c ∧
      (∀ dt, ∃ r, c.advance A dur dt = .ok r) ∧
      ∀ (f : S → K → X) (x0 : X),
        ((segments [] ops = [] ∧ c.current A f x0 = .ok x0) ∨
          ∃ s ∈ segments [] ops, ∃ u, c.current A f x0 = .ok (f s u)) ∧
        ∀ t, (segments [] ops = [] ∧ c.atTime A dur f x0 t = .ok x0) ∨
          ∃ s ∈ segments [] ops, ∃ u, c.atTime A dur f x0 t = .ok (f s u) := by
  obtain ⟨c, e, g, p⟩ := run_good A dur ops (fresh A) (good_fresh A) h
  refine ⟨c, e, fun dt => ?_, fun f x0 => ⟨?_, fun t => ?_⟩⟩
  · obtain ⟨r, e, -⟩ := advance_good A dur dt g
    exact ⟨r, e⟩
  · have p' : c.splines = segments [] ops := p
    rw [← p']
    rcases current_good A f x0 g with h | ⟨s, hs, e⟩
    exacts [Or.inl h, Or.inr ⟨s, hs, _, e⟩]
  · have p' : c.splines = segments [] ops := p
    rw [← p']
    rcases atTime_any A dur f x0 t c with h | ⟨k, hk, -, e⟩
    exacts [Or.inl h, Or.inr ⟨_, List.getElem_mem hk, _, e⟩]

/-- **C95 is false of the code** with any arithmetic: seek on an empty container, add a segment, read. -/
theorem C95_refuted (t : K) (s : S) (f : S → K → X) (x0 : X) :
    ∃ c, run A dur (fresh A) [.seek t, .addSpline s] = .ok c ∧ c.splines = [s] ∧
      c.current A f x0 = .ub :=
  ⟨_, rfl, rfl, by simp [current, seek, activeAt, addSpline, fresh, reset, resetTime, toSize_neg]⟩

/-- A history with a segment of unknown (NaN) duration and a seek to NaN. -/
example : SeeksFilled 0 ([.addSpline none, .seek none, .advance (some 1), .addSpline (some 2), .seek (some 5)] :
    List (Op (Option ℚ) (Option ℚ))) := by
  simp [SeeksFilled]

/-! ## C96: later times never belong to earlier segments -/

/-- **C96**, for any arithmetic. The search returns the first segment that the time does not pass (its
distance to the computed start of the segment is below the duration), or the last segment, together with the
computed start of that segment; adding up the durations in the same way gives the duration of the
container. -/
theorem C96_search (l : List S) (t off : K) (hne : l ≠ []) :
    ∃ c, run A dur (fresh A) (l.map .addSpline) = .ok c ∧ c.splines = l ∧
      c.duration = l.foldl (fun x s => A.add x (dur s)) A.zero ∧
      ∃ k, k < l.length ∧
        c.activeAt A dur t off = ((k : ℤ), (l.take k).foldl (fun x s => A.add x (dur s)) A.zero) ∧
        (∀ j (hj : j < l.length), j < k →
          A.lt (A.sub t ((l.take j).foldl (fun x s => A.add x (dur s)) A.zero)) (dur l[j]) = false) ∧
        ∀ hk : k < l.length, k + 1 < l.length →
          A.lt (A.sub t ((l.take k).foldl (fun x s => A.add x (dur s)) A.zero)) (dur l[k]) = true := by
  obtain ⟨c, e, h1, h2⟩ := run_adds A dur l (fresh A)
  have h1 : c.splines = l := by rw [h1]; rfl
  subst h1
  exact ⟨c, e, rfl, h2, activeAt_spec A dur t off c hne⟩

end arith

section rounding
variable {S K X : Type} [Field K] [LinearOrder K] [IsStrictOrderedRing K] (R : Rounding K) (dur : S → K)

/-- **C96**, with rounding. Of two times the later one belongs to the same or a later segment, and within a
segment the local times have the same order. -/
theorem C96_monotone (c : Box S K) (off t t' : K) (h : t ≤ t') :
    (c.activeAt R.arith dur t off).1 ≤ (c.activeAt R.arith dur t' off).1 ∧
      ((c.activeAt R.arith dur t off).1 = (c.activeAt R.arith dur t' off).1 →
        (c.activeAt R.arith dur t off).2 = (c.activeAt R.arith dur t' off).2 ∧
        R.arith.sub t (c.activeAt R.arith dur t off).2 ≤
          R.arith.sub t' (c.activeAt R.arith dur t' off).2) := by
  by_cases hne : c.splines = []
  · have e : ∀ t, c.activeAt R.arith dur t off = (-1, off) := fun t => by simp [activeAt, hne]
    rw [e, e]
    exact ⟨le_rfl, fun _ => ⟨rfl, R.mono (by linarith)⟩⟩
  · obtain ⟨k, hk, e, h1, h2⟩ := activeAt_spec R.arith dur t off c hne
    obtain ⟨k', hk', e', h1', h2'⟩ := activeAt_spec R.arith dur t' off c hne
    rw [e, e']
    refine ⟨?_, fun he => ?_⟩
    · by_contra hn
      have hlt : k' < k := by
        simp only [Nat.cast_le] at hn
        omega
      have a1 := h1 k' hk' hlt
      have a2 := h2' hk' (by omega)
      simp only [Rounding.arith, decide_eq_true_eq, decide_eq_false_iff_not, not_lt] at a1 a2
      have := R.mono (sub_le_sub_right h (startOf R.arith dur c.splines k'))
      exact absurd (lt_of_le_of_lt (le_trans a1 this) a2) (lt_irrefl _)
    · have : k = k' := by simpa using he
      subst this
      exact ⟨rfl, R.mono (sub_le_sub_right h _)⟩

/-- **C96 (partial)**: asking for the duration of the container gives its end, when the durations are
`double`s that are not negative and adding them up is exact. Missing: sums that are rounded, see
`C96_end_refuted`. -/
theorem C96_end_partial (l : List S) (hne : l ≠ []) (h0 : ∀ s ∈ l, 0 ≤ dur s)
    (hd : ∀ s ∈ l, R.rnd (dur s) = dur s)
    (hs : ∀ k ≤ l.length, R.rnd ((l.take k).map dur).sum = ((l.take k).map dur).sum) (f : S → K → X) (x0 : X) :
    ∃ c, run R.arith dur (fresh R.arith) (l.map .addSpline) = .ok c ∧ c.duration = (l.map dur).sum ∧
      c.atTime R.arith dur f x0 c.duration = .ok (c.atEnd dur f x0) := by
  obtain ⟨c, e, h1, h2⟩ := run_adds R.arith dur l (fresh R.arith)
  have h1 : c.splines = l := by rw [h1]; rfl
  subst h1
  have hst : ∀ k ≤ c.splines.length, startOf R.arith dur c.splines k = ((c.splines.take k).map dur).sum := by
    intro k hk
    induction k with
    | zero => simp [startOf, Rounding.arith]
    | succ k ih =>
      have hk' : k < c.splines.length := by omega
      rw [startOf, List.take_succ_eq_append_getElem hk', List.foldl_append]
      have := ih (by omega)
      rw [startOf] at this
      rw [this, List.map_append, List.sum_append]
      have := hs (k + 1) hk
      rw [List.take_succ_eq_append_getElem hk', List.map_append, List.sum_append] at this
      simpa [Rounding.arith] using this
  have hdur : c.duration = (c.splines.map dur).sum := by
    have := hst c.splines.length le_rfl
    rw [startOf, List.take_length] at this
    rw [h2, ← this]
    rfl
  refine ⟨c, e, hdur, ?_⟩
  rcases atTime_any R.arith dur f x0 c.duration c with ⟨h, -⟩ | ⟨k, hk, ea, et⟩
  · exact absurd h hne
  · obtain ⟨k', hk', ea', -, h2'⟩ := activeAt_spec R.arith dur c.duration R.arith.zero c hne
    have : k = k' := by
      rw [ea'] at ea
      have := congrArg Prod.fst ea
      simp only [Nat.cast_inj] at this
      omega
    subst this
    have hsplit : (c.splines.map dur).sum =
        ((c.splines.take k).map dur).sum + dur c.splines[k] + ((c.splines.drop (k + 1)).map dur).sum := by
      conv_lhs => rw [← List.take_append_drop (k + 1) c.splines, List.map_append, List.sum_append,
        List.take_succ_eq_append_getElem hk, List.map_append, List.sum_append]
      simp
    have hpos : 0 ≤ ((c.splines.drop (k + 1)).map dur).sum := by
      refine List.sum_nonneg fun x hx => ?_
      obtain ⟨s, hs', rfl⟩ := List.mem_map.1 hx
      exact h0 s (List.mem_of_mem_drop hs')
    have hloc : dur c.splines[k] ≤ R.rnd (c.duration - ((c.splines.take k).map dur).sum) := by
      rw [← hd _ (List.getElem_mem hk)]
      refine R.mono ?_
      rw [hdur, hsplit]
      linarith
    have hlast : ¬ k + 1 < c.splines.length := by
      intro h
      have a := h2' hk h
      rw [hst k hk.le] at a
      simp only [Rounding.arith, decide_eq_true_eq] at a
      exact absurd (lt_of_le_of_lt hloc a) (lt_irrefl _)
    have hl : c.splines.getLast? = some c.splines[k] := by
      rw [List.getLast?_eq_getElem?, show c.splines.length - 1 = k by omega, List.getElem?_eq_getElem hk]
    rw [et, atEnd, hl]
    have hz : c.splines.drop (k + 1) = [] := List.drop_eq_nil_of_le (by omega)
    have : R.arith.sub c.duration (startOf R.arith dur c.splines k) = dur c.splines[k] := by
      rw [hst k hk.le]
      simp only [Rounding.arith]
      rw [hdur, hsplit, hz]
      simpa using hd _ (List.getElem_mem hk)
    rw [this]

end rounding

/-- Three segments of 1, 1/2 and 1/4 seconds meet the guard of `C96_end_partial` with `double`. -/
example : (∀ s ∈ ([1, 1 / 2, 1 / 4] : List ℚ), (double ℚ).rnd s = s) ∧
    ∀ k ≤ 3, (double ℚ).rnd ((([1, 1 / 2, 1 / 4] : List ℚ).take k).map id).sum =
      ((([1, 1 / 2, 1 / 4] : List ℚ).take k).map id).sum := by
  decide +kernel

/-- **C96 is false of the code** when the durations are rounded: stand still for one second, then move one
metre per second for 0.9 seconds. The position at the duration of the container is not the end position; the
time of a junction belongs to the segment before it. -/
theorem C96_end_refuted :
    let d : ℚ := toDouble (9 / 10)
    let l : List (ℚ × ℚ × ℚ) := [(1, 0, 0), (d, 1, 0)]
    ∃ c, run (double ℚ).arith Prod.fst (fresh (double ℚ).arith) (l.map .addSpline) = .ok c ∧
      c.atEnd Prod.fst (linePosition (double ℚ)) 0 = d ∧
      ∃ p < d, c.atTime (double ℚ).arith Prod.fst (linePosition (double ℚ)) 0 c.duration = .ok p ∧
      ((c.addSpline (double ℚ).arith Prod.fst (1, 0, d)).activeAt (double ℚ).arith Prod.fst c.duration 0).1 = 1 := by
  refine ⟨_, rfl, ?_, 8106479329266892 / 9007199254740992, ?_, ?_, ?_⟩ <;> decide +kernel


/-! ## C97: the knots of a Hermite curve are hit exactly -/

section hermite
variable {K : Type} [Field K] [LinearOrder K] [IsStrictOrderedRing K] (R : Rounding K)

open Verif.Manager Verif.Hermite

/-- **C97**, the parameter of an interpolation: between two `double`s it is between 0 and 1, it is 0 at the
first and exactly 1 at the second one, and it does not decrease. -/
theorem C97_alpha {a b : K} (ha : R.rnd a = a) (hb : R.rnd b = b) (h : a < b) :
    alpha R a b a = 0 ∧ alpha R a b b = 1 ∧
      (∀ t t', t ≤ t' → alpha R a b t ≤ alpha R a b t') ∧
      ∀ t, a ≤ t → t ≤ b → 0 ≤ alpha R a b t ∧ alpha R a b t ≤ 1 := by
  have hp := (sub_pos_iff R ha hb).2 h
  have hm : ∀ t t', t ≤ t' → alpha R a b t ≤ alpha R a b t' := fun t t' ht =>
    R.mono (div_le_div_of_nonneg_right (R.mono (sub_le_sub_right ht a)) hp.le)
  refine ⟨alpha_left R, alpha_right R ha hb h, hm, fun t h0 h1 => ⟨?_, ?_⟩⟩
  · rw [← alpha_left R (a := a) (b := b)]
    exact hm _ _ h0
  · rw [← alpha_right R ha hb h]
    exact hm _ _ h1

/-- All the numbers of a knot are `double`s. -/
def Stored (n : K × Knot (Vec3 K)) : Prop :=
  R.rnd n.1 = n.1 ∧ (∀ x, R.rnd (n.2.position x) = n.2.position x) ∧ ∀ x, R.rnd (n.2.velocity x) = n.2.velocity x

/-- **C97 (partial).** With rounding, and whatever knots of `double`s the curve has: at the time of a knot, `evaluate`
returns exactly the position of that knot and `evaluateDerivative` of order 1 exactly its velocity, although
the two neighbours are combined by rounded polynomials. Missing: between knots, see `C97_constant_refuted`, and
straight lines, see `C97_line_refuted`. -/
theorem C97_knots_partial {c : St K (Knot (Vec3 K))} (hr : Manager.Reachable c) (hc : c.w.calls + 1 < 2 ^ 64)
    (hd : ∀ n ∈ c.m.knots, Stored R n) {t : K} {k : Knot (Vec3 K)} (hk : (t, k) ∈ c.m.knots) :
    evaluate R t c.m = .ok (some k.position) ∧ evaluateVelocity R t c.m = .ok (some k.velocity) := by
  have hs := (hr.WF hc).sorted
  obtain ⟨n, hn, e⟩ := List.mem_map.1 hk
  cases e
  have hst : ∀ n ∈ c.m.nodes, Stored R (n.time, n.coef) := fun n hn => hd _ (List.mem_map.2 ⟨n, hn, rfl⟩)
  obtain ⟨pre, post, hm⟩ := List.append_of_mem hn
  have sn := hst n hn
  cases post with
  | cons b post =>
    have hlt := neighbours_lt hs hm
    rw [evaluate, evaluateVelocity, if_neg (not_single hs hm _), if_neg (not_single hs hm _),
      getAt_interior hs hm le_rfl hlt]
    simp only [interpolate_left R sn.2.1, velocity_left R sn.2.2, and_self]
  | nil =>
    rcases List.eq_nil_or_concat pre with rfl | ⟨pre', a, rfl⟩
    · have e1 : c.m.getMaxTime = n.time := by simp [Mgr.getMaxTime, hm]
      have e2 : c.m.getMinTime = n.time := by simp [Mgr.getMinTime, hm]
      rw [evaluate, evaluateVelocity, if_pos ⟨e1, e2⟩, if_pos ⟨e1, e2⟩, hm]
      exact ⟨rfl, rfl⟩
    · have hm' : c.m.nodes = pre' ++ a :: n :: [] := by simp [hm]
      have hlt := neighbours_lt hs hm'
      have sa := hst a (by rw [hm']; simp)
      rw [evaluate, evaluateVelocity, if_neg (not_single hs hm' _), if_neg (not_single hs hm' _),
        getAt_max hm']
      simp only [interpolate_right R sa.1 sn.1 hlt sn.2.1, velocity_right R sa.1 sn.1 hlt sn.2.2, and_self]

end hermite

/-- Two knots used in the example: at 0 and 1/2, with positions 0.1 and 0.2. -/
def demo : Manager.St ℚ (Hermite.Knot (Vec3 ℚ)) :=
  ⟨⟨2, 2⟩, ⟨[⟨0, 0, 1, ⟨fun _ => toDouble (1 / 10), fun _ => 1⟩⟩,
    ⟨1, 1 / 2, 2, ⟨fun _ => toDouble (1 / 5), fun _ => 0⟩⟩], [(1, 0), (2, 1)]⟩⟩

open Verif.Manager in
theorem demo_reachable : Manager.Reachable demo := by
  refine ⟨⟨0, 0⟩, [.insert 0 ⟨fun _ => toDouble (1 / 10), fun _ => 1⟩,
    .insert (1 / 2) ⟨fun _ => toDouble (1 / 5), fun _ => 0⟩], by simp [SafeRun, SafeOp], ?_⟩
  simp [Manager.run, Manager.step, Mgr.insertCoefficient, Mgr.empty, scanAtTime, getNextKey, newAddr, mapInsert,
    kmSet, demo, show ¬((2 : ℚ) ≤ 0) by norm_num, show ¬((2 : ℚ) < 0) by norm_num]

example : (∀ n ∈ demo.m.knots, Stored (double ℚ) n) ∧
    evaluate (double ℚ) (1 / 2) demo.m = .ok (some fun _ => toDouble (1 / 5)) := by
  have h : ∀ n ∈ demo.m.knots, Stored (double ℚ) n := by
    intro n hn
    have : n = (0, ⟨fun _ => toDouble (1 / 10), fun _ => 1⟩) ∨ n = (1 / 2, ⟨fun _ => toDouble (1 / 5), fun _ => 0⟩) := by
      simpa [demo, Manager.Mgr.knots] using hn
    rcases this with rfl | rfl
    · exact ⟨rnd_zero _, fun _ => (double ℚ).idem (1 / 10), fun _ => rnd_one _⟩
    · refine ⟨?_, fun _ => (double ℚ).idem (1 / 5), fun _ => rnd_zero _⟩
      change toDouble (1 / 2 : ℚ) = 1 / 2
      decide +kernel
  exact ⟨h, (C97_knots_partial (double ℚ) demo_reachable (by decide) h (k := ⟨fun _ => toDouble (1 / 5), fun _ => 0⟩)
    (by simp [demo, Manager.Mgr.knots])).1⟩

/-- **C97 (partial)**, the straight-line container at the start of a segment: exactly the first value. -/
theorem C97_line_start_partial {K : Type} [Field K] [LinearOrder K] [IsStrictOrderedRing K] (R : Rounding K) (a b p q : K)
    (hp : R.rnd p = p) (ha : R.rnd a = a) (hb : R.rnd b = b) (h : a < b) :
    linePosition R (line R a b p q) 0 = p := by
  have := (sub_pos_iff R ha hb).2 h
  have hc : clamp 0 (R.rnd (b - a)) = 0 := by simp [clamp, not_lt.2 this.le]
  simp [linePosition, line, hc, rnd_zero, hp]

/-- **C97 is false of the straight-line container**: from 0 to 1 in 49 seconds, the end position is not 1. -/
theorem C97_line_refuted : line (double ℚ) 0 49 0 1 = (49, toDouble (1 / 49), 0) ∧
    linePosition (double ℚ) (line (double ℚ) 0 49 0 1) 49 < 1 := by decide +kernel

/-- **C97** does not extend to the times between the knots: a curve with two equal positions and no velocity
does not stay there. -/
theorem C97_constant_refuted :
    (interpolate (double ℚ) ⟨0, 0, 0, ⟨fun _ => 3, fun _ => 0⟩⟩ ⟨1, 10, 1, ⟨fun _ => 3, fun _ => 0⟩⟩ 3) 0 > 3 := by
  decide +kernel

/-! ## C98: equal steps and the end -/

section play
variable {S K : Type} [Field K] [LinearOrder K] [IsStrictOrderedRing K] (R : Rounding K) (dur : S → K)

/-- **C98 (partial).** A segment that lasts `n` steps is played in exactly `n` calls of `advance`, when the
multiples of the step are `double`s: the calls return `true`, the time is then exactly the duration, and
further calls return `false`. Missing: steps whose multiples are rounded, see `C98_refuted`. -/
theorem C98_steps_partial (n : ℕ) (dt : K) (hdt : 0 < dt) (s : S) (hs : dur s = n * dt)
    (he : ∀ k : ℕ, k ≤ n → R.rnd (k * dt) = k * dt) :
    ∃ c, play R.arith dur dt n ((fresh R.arith).addSpline R.arith dur s) = .ok (true, c) ∧
      c.time = dur s ∧ ∀ dt', c.advance R.arith dur dt' = .ok (false, c) := by
  have h0 : R.rnd (dur s) = dur s := by rw [hs]; exact he n le_rfl
  have start : (fresh R.arith).addSpline R.arith dur s = ⟨[s], 0, 0, dur s, 0⟩ := by
    simp [addSpline, fresh, reset, resetTime, Rounding.arith, h0]
  rw [start]
  have stop : ∀ i, ∃ c : Box S K, c = ⟨[s], 0, n * dt, dur s, i⟩ ∧ c.time = dur s ∧
      ∀ dt', c.advance R.arith dur dt' = .ok (false, c) := by
    intro i
    refine ⟨_, rfl, hs.symm, fun dt' => ?_⟩
    rw [advance, if_pos]
    simp [Rounding.arith, hs]
  have key : ∀ m k : ℕ, k + m = n →
      ∃ i, play R.arith dur dt m ⟨[s], 0, k * dt, dur s, 0⟩ = .ok (true, ⟨[s], 0, n * dt, dur s, i⟩) := by
    intro m
    induction m with
    | zero =>
      rintro k rfl
      exact ⟨0, rfl⟩
    | succ m ih =>
      intro k hk
      have hlt : (k : K) * dt < dur s := by
        rw [hs]
        exact mul_lt_mul_of_pos_right (Nat.cast_lt.2 (by omega)) hdt
      have e : R.arith.add (k * dt) dt = ((k + 1 : ℕ) : K) * dt := by
        rw [← he (k + 1) (by omega)]
        simp only [Rounding.arith]
        congr 1
        push_cast
        ring
      have e' : R.arith.sub (((k + 1 : ℕ) : K) * dt) 0 = ((k + 1 : ℕ) : K) * dt := by
        simp only [Rounding.arith, sub_zero]
        exact he (k + 1) (by omega)
      rw [play, advance_single R.arith dur s 0 _ _ dt (by simpa [Rounding.arith] using hlt), e, e']
      simp only [Outcome.ok_bind, if_true]
      cases m with
      | zero =>
        have : k + 1 = n := by omega
        exact ⟨_, by rw [play, this]⟩
      | succ m =>
        have hn : R.arith.le (dur s) (((k + 1 : ℕ) : K) * dt) = false := by
          simp only [Rounding.arith, decide_eq_false_iff_not, not_le, hs]
          exact mul_lt_mul_of_pos_right (Nat.cast_lt.2 (by omega)) hdt
        rw [hn]
        exact ih (k + 1) (by omega)
  obtain ⟨i, e⟩ := key n 0 (by omega)
  obtain ⟨c, hc, h1, h2⟩ := stop i
  rw [Nat.cast_zero, zero_mul] at e
  exact ⟨c, by rw [e, hc], h1, h2⟩

/-- **C98 is false of the code**, whenever the step is so small that adding it leaves the time as it is:
`advance` then returns `true` forever. -/
theorem C98_stuck (t dt : K) (s : S) (ht : R.rnd t = t) (hd : t < dur s) (hdt : R.rnd (t + dt) = t)
    (hs : R.rnd (dur s) = dur s) (n : ℕ) :
    let c := ((fresh R.arith).addSpline R.arith dur s).seek R.arith dur t
    play R.arith dur dt n c = .ok (true, c) ∧ c.time = t ∧ c.duration = dur s := by
  have start : ((fresh R.arith).addSpline R.arith dur s).seek R.arith dur t = ⟨[s], 0, t, dur s, 0⟩ := by
    simp [addSpline, fresh, reset, resetTime, Rounding.arith, hs, seek, activeAt, findLoop, ht, hd]
  intro c
  have hc : c = ⟨[s], 0, t, dur s, 0⟩ := start
  have adv : c.advance R.arith dur dt = .ok (true, c) := by
    rw [hc, advance_single R.arith dur s 0 t _ dt (by simpa [Rounding.arith] using hd)]
    simp [Rounding.arith, hdt, ht, not_le.2 hd]
  refine ⟨?_, by rw [hc], by rw [hc]⟩
  induction n with
  | zero => rfl
  | succ n ih =>
    rw [play, adv]
    exact ih

end play

/-- Eight steps of 1/8 second in a segment of one second. -/
example : (1 : ℚ) = (8 : ℕ) * (1 / 8) ∧ ∀ k : ℕ, k ≤ 8 → (double ℚ).rnd (k * (1 / 8)) = k * (1 / 8) := by
  decide +kernel

/-- Nine thousand million million seconds into the segment, one second is lost. -/
example : (double ℚ).rnd (2 ^ 53) = 2 ^ 53 ∧ (2 ^ 53 : ℚ) < 2 ^ 54 ∧ (double ℚ).rnd (2 ^ 53 + 1) = 2 ^ 53 ∧
    (double ℚ).rnd (2 ^ 54) = 2 ^ 54 := by decide +kernel

/-- **C98 is false of the code**: ten steps of 0.1 seconds do not reach the end of a segment of one second. -/
theorem C98_refuted :
    ∃ c, play (double ℚ).arith id (toDouble (1 / 10)) 10 ((fresh (double ℚ).arith).addSpline (double ℚ).arith id 1) =
        .ok (true, c) ∧ c.time < c.duration ∧
      ∃ c', c.advance (double ℚ).arith id (toDouble (1 / 10)) = .ok (true, c') ∧ c'.time > c'.duration + 9 / 100 := by
  refine ⟨⟨[1], 0, 1 - 1 / 2 ^ 53, 1, 0⟩, ?_, ?_, ⟨[1], 0, toDouble (1 - 1 / 2 ^ 53 + toDouble (1 / 10)), 1, 1⟩, ?_, ?_⟩ <;>
    decide +kernel

/-! ## C99: knot times that do not increase -/

section knots
variable {K : Type} [Field K] [LinearOrder K] [IsStrictOrderedRing K] (R : Rounding K)

/-- **C99 (partial).** With rounding, `setData` accepts knot times that are `double`s exactly if they are
strictly increasing, and then uses positive durations. Missing: NaN, see `C99_refuted`. -/
theorem C99_increasing_partial (ts : List K) (hne : ts ≠ []) (hd : ∀ t ∈ ts, R.rnd t = t) :
    ∃ r, segDurations R.arith ts (ts.length - 1) 0 = .ok r ∧ (r.isSome ↔ ts.Pairwise (· < ·)) ∧
      ∀ ds, r = some ds → ds.length = ts.length - 1 ∧ ∀ d ∈ ds, 0 < d := by
  obtain ⟨r, e, h1, h2⟩ := segDurations_spec R ts hd (ts.length - 1) 0
    (by have := List.length_pos_of_ne_nil hne; omega)
  refine ⟨r, e, h1.trans ⟨fun h => pairwise_of_next fun j hj => h j hj (by omega), fun h j hj _ => ?_⟩, h2⟩
  exact List.pairwise_iff_getElem.1 h j (j + 1) (by omega) hj (by omega)

example : (∀ t ∈ [0, toDouble (1 / 10), 1], (double ℚ).rnd t = t) ∧
    [0, toDouble (1 / 10), (1 : ℚ)].Pairwise (· < ·) := by decide +kernel

/-- **C99 is false of the code**: a knot time that is NaN is accepted, whatever the other times are, and the
durations on both sides are NaN. Even decreasing times are accepted around it. -/
theorem C99_refuted (a b : K) :
    segDurations R.withNaN [some a, none, some b] 2 0 = .ok (some [none, none]) := rfl

/-- **C99**, continued: a container with a segment of NaN duration never ends; `advance` always returns
`true`, whatever the steps. -/
theorem C99_never_ends (S : Type) (dur : S → Option K) (s : S) (hs : dur s = none) (dt : Option K) (n : ℕ) :
    ∃ c, play R.withNaN dur dt n ((fresh R.withNaN).addSpline R.withNaN dur s) = .ok (true, c) ∧ c.idx = 0 := by
  have key : ∀ n t, ∃ c, play R.withNaN dur dt n ⟨[s], some 0, t, none, 0⟩ = .ok (true, c) ∧ c.idx = 0 := by
    intro n
    induction n with
    | zero => exact fun t => ⟨_, rfl, rfl⟩
    | succ n ih =>
      intro t
      have adv : (⟨[s], some 0, t, none, 0⟩ : Box S (Option K)).advance R.withNaN dur dt =
          .ok (true, ⟨[s], some 0, R.withNaN.add t dt, none, 0⟩) := by
        rw [advance_single R.withNaN dur s _ t _ dt (by cases t <;> rfl)]
        simp [Rounding.withNaN, hs]
      rw [play, adv]
      exact ih _
  have start : (fresh R.withNaN).addSpline R.withNaN dur s = ⟨[s], some 0, some 0, none, 0⟩ := by
    simp [addSpline, fresh, reset, resetTime, Rounding.withNaN, hs]
  rw [start]
  exact key n _

end knots

end Verif.Rounding

import Verif.Container.History
import Verif.Container.FitProps

/-!
# Properties C25 - C29 and C49: evaluating and playing a container
-/

set_option linter.unusedSectionVars false
set_option linter.dupNamespace false

namespace Verif.Container

open Verif.Spline Container

variable {K : Type} [Field K] [LinearOrder K] [IsStrictOrderedRing K] {o : Order}

/-- The three evaluated quantities. -/
inductive Quantity | position | velocity | acceleration

/-- The quantity of one segment. -/
def Quantity.seg : Quantity → Spline o K → K → K
  | .position => Spline.getPositionAtTime
  | .velocity => Spline.getVelocityAtTime
  | .acceleration => Spline.getAccelerationAtTime

/-- Random access: `getPositionAtTime(t)` and so on. -/
def Quantity.atTime (q : Quantity) (t : K) (c : Container o K) : Outcome K :=
  match q with
  | .position => c.getPositionAtTime t
  | .velocity => c.getVelocityAtTime t
  | .acceleration => c.getAccelerationAtTime t

/-- At the cursor: `getPosition()` and so on. -/
def Quantity.now (q : Quantity) (c : Container o K) : Outcome K :=
  match q with
  | .position => c.getPosition
  | .velocity => c.getVelocity
  | .acceleration => c.getAcceleration

theorem Quantity.atTime_eq (q : Quantity) (t : K) (c : Container o K) :
    q.atTime t c = Container.atTime q.seg t c := by cases q <;> rfl
theorem Quantity.now_eq (q : Quantity) (c : Container o K) : q.now c = c.current q.seg := by
  cases q <;> rfl

theorem Quantity.seg_below (q : Quantity) (s : Spline o K) (hd : 0 ≤ s.duration) (t : K)
    (h : t ≤ 0) : q.seg s t = q.seg s 0 := by
  have := (C18_saturates o s hd t).1 h
  cases q
  · exact this.1
  · exact this.2.1
  · exact this.2.2

theorem Quantity.seg_above (q : Quantity) (s : Spline o K) (hd : 0 ≤ s.duration) (t : K)
    (h : s.duration ≤ t) : q.seg s t = q.seg s s.duration := by
  have := (C18_saturates o s hd t).2 h
  cases q
  · exact this.1
  · exact this.2.1
  · exact this.2.2

/-- Specification: sum of the durations of the first `k` segments. -/
def startOf (l : List (Spline o K)) (k : ℕ) : K := ((l.take k).map Spline.duration).sum

theorem startOf_eq (l : List (Spline o K)) (k : ℕ) : startOf l k = start l k := rfl

/-! ## C25 -/

theorem step_duration (S : Solver K) (op : Op o K) (c c' : Container o K)
    (h : c.duration = total c.splines) (e : step S op c = .ok c') :
    c'.duration = total c'.splines := by
  cases op with
  | addSpline s => cases e; simp [Container.addSpline, total_append, h]
  | reset => cases e; rfl
  | resetTime => cases e; exact h
  | setContainerTime t => cases e; exact h
  | advance dt =>
    rw [step, Outcome.bind_eq_ok] at e
    obtain ⟨⟨b, d⟩, e, e'⟩ := e
    cases e'
    rw [advance] at e
    split at e
    · cases e; exact h
    · simp only at e
      rw [Outcome.bind_eq_ok] at e
      obtain ⟨s, -, e⟩ := e
      split at e
      · split at e <;> (cases e; exact h)
      · cases e; exact h
  | setDataLinear ts ps =>
    rcases step_setData S _ c c' (Or.inl ⟨ts, ps, rfl⟩) e with h' | rfl
    · exact h'.duration
    · exact h
  | setDataVel ts ps v w =>
    rcases step_setData S _ c c' (Or.inr (Or.inl ⟨ts, ps, v, w, rfl⟩)) e with h' | rfl
    · exact h'.duration
    · exact h
  | setDataAcc ts ps v a w b =>
    rcases step_setData S _ c c' (Or.inr (Or.inr ⟨ts, ps, v, a, w, b, rfl⟩)) e with h' | rfl
    · exact h'.duration
    · exact h

/-- **C25.** After any history the reported duration is the sum of the durations of the contained
segments. -/
theorem C25_duration (S : Solver K) (ops : List (Op o K)) (c : Container o K)
    (h : run S ops fresh = .ok c) : c.duration = (c.splines.map Spline.duration).sum :=
  run_invariant S (fun c => c.duration = total c.splines) (fun _ _ => True)
    (fun op c c' hI _ e => step_duration S op c c' hI e) ops fresh c rfl (fun _ _ _ _ _ _ => trivial) h

/-- **C25**, second part: after each variant of `setData` on strictly increasing knots the duration is
last time minus first time. -/
theorem C25_duration_of_fit (S : Solver K) (ts ps : List K) (h2 : 2 ≤ ts.length)
    (hb : ts.length ≤ 2 ^ 28) (hl : ps.length = ts.length) (hinc : ts.Pairwise (· < ·))
    (v0 a0 vT aT : K) (c : Container o K) (r : Outcome (Bool × Container o K))
    (hr : r = setDataLinear ts ps c ∨ r = setDataVel S ts ps v0 vT c ∨
      r = setDataAcc S ts ps v0 a0 vT aT c) :
    ∃ c', r = .ok (true, c') ∧ c'.duration = ts[ts.length - 1] - ts[0] := by
  obtain ⟨n, hn⟩ : ∃ n, ts.length = n + 1 := ⟨ts.length - 1, by omega⟩
  have : ∃ c', r = .ok (true, c') ∧ Through ts ps c' := by
    rcases hr with rfl | rfl | rfl
    · obtain ⟨c', e, h, -⟩ := linear_through ts ps n (by omega) hn (by omega) hinc c
      exact ⟨c', e, h⟩
    · exact vel_through S ts ps v0 vT c n (by omega) (by omega) hn (by omega) hinc
    · exact acc_through S ts ps v0 a0 vT aT c n (by omega) (by omega) hn (by omega) hinc
  obtain ⟨c', e, h⟩ := this
  refine ⟨c', e, ?_⟩
  rw [h.duration, h.totals (by rintro rfl; simp at h2), knot_eq (by omega), knot_eq (by omega)]

/-- An instance of C25: fit, play, add a segment. -/
example : ∃ S : Solver ℚ, ∀ c, run S [.setDataLinear [0, 2] [1, 5], .advance 1,
    .addSpline ⟨![1, 1], 3⟩] (fresh : Container .o1 ℚ) = .ok c → c.duration =
      (c.splines.map Spline.duration).sum := by
  obtain ⟨S⟩ := solver_exists (K := ℚ)
  exact ⟨S, fun c h => C25_duration S _ c h⟩

/-! ## C26 -/

/-- **C26.** With non-negative segment durations, random access is 0 on the empty container; otherwise
it is the segment whose half-open interval holds `t`, at its local time; before 0 it is the start of
the first segment, from the total duration on the end of the last one. A time inside the duration lies
in exactly one of the half-open intervals. -/
theorem C26_random_access (q : Quantity) (c : Container o K)
    (hpos : ∀ s ∈ c.splines, 0 ≤ s.duration) (t : K) :
    (c.splines = [] → q.atTime t c = .ok 0) ∧
    (∀ k s, c.splines[k]? = some s → startOf c.splines k ≤ t →
      t < startOf c.splines k + s.duration →
      q.atTime t c = .ok (q.seg s (t - startOf c.splines k))) ∧
    (∀ s, c.splines[0]? = some s → t < 0 → q.atTime t c = .ok (q.seg s 0)) ∧
    (∀ s, c.splines.getLast? = some s → (c.splines.map Spline.duration).sum ≤ t →
      q.atTime t c = .ok (q.seg s s.duration)) ∧
    (0 ≤ t → t < (c.splines.map Spline.duration).sum → ∃! k, ∃ s, c.splines[k]? = some s ∧
      startOf c.splines k ≤ t ∧ t < startOf c.splines k + s.duration) := by
  refine ⟨fun h => ?_, fun k s hs h0 h1 => ?_, fun s hs h => ?_, fun s hs h => ?_, fun h0 h1 => ?_⟩
  · rw [Quantity.atTime_eq]; exact atTime_empty _ _ _ h
  · rw [Quantity.atTime_eq]; exact atTime_half_open _ c hpos k s hs t h0 h1
  · have hd := hpos s (List.mem_of_getElem? hs)
    have hlen : 0 < c.splines.length := by
      by_contra hcon
      rw [List.getElem?_eq_none (by omega)] at hs; simp at hs
    rw [Quantity.atTime_eq, atTime_of_find _ _ c 0 0 s hs]
    · rw [sub_zero, q.seg_below s hd t h.le]
    · rw [findLoop_hit _ _ 0 0 0 hlen (by simp) (by
        rw [zero_add, start_succ _ _ _ hs]; simp only [start_zero]; linarith)]
      simp
  · have hne : c.splines ≠ [] := by rintro e; rw [e] at hs; simp at hs
    have hd := hpos s (List.mem_of_getLast? hs)
    have hlen := List.length_pos_of_ne_nil hne
    rw [Quantity.atTime_eq, atTime_beyond _ c hpos s hs t h, q.seg_above s hd]
    rw [List.getLast?_eq_getElem?] at hs
    have := start_succ _ _ _ hs
    rw [show c.splines.length - 1 + 1 = c.splines.length by omega, start_length] at this
    have h' : total c.splines ≤ t := h
    linarith
  · obtain ⟨k, s, hs, a, b⟩ := exists_segment c.splines t h0 h1
    refine ⟨k, ⟨s, hs, a, b⟩, ?_⟩
    rintro k' ⟨s', hs', a', b'⟩
    have lt : ∀ {k s}, c.splines[k]? = some s → k < c.splines.length := by
      intro k s hs
      by_contra hcon
      rw [List.getElem?_eq_none (by omega)] at hs; simp at hs
    rw [startOf_eq] at a' b'
    rw [← start_succ _ _ _ hs] at b
    rw [← start_succ _ _ _ hs'] at b'
    by_contra hne
    rcases Nat.lt_or_gt_of_ne hne with h | h
    · have := start_mono hpos (show k' + 1 ≤ k by omega) (lt hs).le
      exact absurd (lt_of_lt_of_le b' (this.trans a)) (lt_irrefl _)
    · have := start_mono hpos (show k + 1 ≤ k' by omega) (lt hs').le
      exact absurd (lt_of_lt_of_le b (this.trans a')) (lt_irrefl _)

/-- An instance of C26: at the junction of two segments the second one counts. -/
example : ((fresh : Container .o1 ℚ).addSpline ⟨![1, 0], 1⟩ |>.addSpline ⟨![2, 5], 2⟩).getPositionAtTime
    1 = .ok 5 := by
  have h := (C26_random_access .position ((fresh : Container .o1 ℚ).addSpline ⟨![1, 0], 1⟩
    |>.addSpline ⟨![2, 5], 2⟩) (by simp [fresh, reset, resetTime, Container.addSpline]) 1).2.1 1
    ⟨![2, 5], 2⟩ (by simp [fresh, reset, resetTime, Container.addSpline])
    (by simp [fresh, reset, resetTime, Container.addSpline, startOf])
    (by simp [fresh, reset, resetTime, Container.addSpline, startOf])
  rw [Quantity.atTime] at h
  rw [h]
  simp [fresh, reset, resetTime, Container.addSpline, startOf, Quantity.seg, getPosition_eq, toPoly_o1]

/-! ## C27, C28 -/

/-- The cursor agrees with random access. -/
def Sync (c : Container o K) : Prop :=
  c.duration = total c.splines ∧ c.splines ≠ [] ∧
  ((∃ k, k < c.splines.length ∧ c.idx = (k : ℤ) ∧ c.offset = start c.splines k ∧
      findLoop c.time c.splines 0 0 = ((k : ℤ), start c.splines k)) ∨
    (c.idx = c.splines.length ∧ c.offset = start c.splines (c.splines.length - 1) ∧
      total c.splines ≤ c.time))

theorem current_in_range (f : Spline o K → K → K) (c : Container o K) (k : ℕ) (s : Spline o K)
    (hk : c.idx = k) (hs : c.splines[k]? = some s) :
    c.current f = .ok (f s (c.time - c.offset)) := by
  have hlt : k < c.splines.length := by
    by_contra hcon
    rw [List.getElem?_eq_none (by omega)] at hs; simp at hs
  have hne : c.splines ≠ [] := by rintro h; rw [h] at hlt; simp at hlt
  rw [current, if_neg (by simpa using hne), hk, toSize_nat, if_neg (by omega)]
  simp [at', toSize_nat, hs]

theorem current_at_end (f : Spline o K → K → K) (c : Container o K) (s : Spline o K)
    (hk : c.idx = c.splines.length) (hs : c.splines.getLast? = some s) :
    c.current f = .ok (f s (c.time - c.offset)) := by
  have hne : c.splines ≠ [] := by rintro h; rw [h] at hs; simp at hs
  rw [current, if_neg (by simpa using hne), hk, toSize_nat, if_pos rfl, hs]
  rfl

theorem Sync.agrees {c : Container o K} (h : Sync c) (hpos : ∀ s ∈ c.splines, 0 ≤ s.duration)
    (q : Quantity) : q.now c = q.atTime c.time c := by
  obtain ⟨-, hne, h⟩ := h
  rw [q.now_eq, q.atTime_eq]
  rcases h with ⟨k, hk, hi, ho, hf⟩ | ⟨hi, ho, ht⟩
  · have e := List.getElem?_eq_getElem hk
    rw [current_in_range _ c k _ hi e, atTime_of_find _ _ c k _ _ e hf, ho]
  · have e : c.splines.getLast? = some (c.splines.getLast hne) := List.getLast?_eq_some_getLast hne
    rw [current_at_end _ c _ hi e, atTime_beyond _ c hpos _ e _ ht, ho]

theorem Sync.seek {c : Container o K} (hd : c.duration = total c.splines) (hne : c.splines ≠ [])
    (t : K) : Sync (c.setContainerTime t) := by
  obtain ⟨k, hk, hf, e⟩ := setContainerTime_eq t c hne
  rw [e]
  exact ⟨hd, hne, Or.inl ⟨k, hk, rfl, rfl, hf⟩⟩

theorem Sync.rewind {c : Container o K} (hd : c.duration = total c.splines) (hne : c.splines ≠ [])
    (hpos : ∀ s ∈ c.splines, 0 < s.duration) (ht : c.time = 0) (ho : c.offset = 0)
    (hi : c.idx = 0) : Sync c := by
  have hlen := List.length_pos_of_ne_nil hne
  refine ⟨hd, hne, Or.inl ⟨0, hlen, by simpa using hi, by simpa using ho, ?_⟩⟩
  rw [ht, findLoop_hit _ _ 0 0 0 hlen (by simp)]
  · simp
  · rw [zero_add, start_succ _ _ _ (List.getElem?_eq_getElem hlen)]
    simpa using hpos _ (List.getElem_mem hlen)

theorem Sync.advance {c : Container o K} (h : Sync c) (hpos : ∀ s ∈ c.splines, 0 < s.duration)
    (dt : K) (h0 : 0 ≤ dt) (hdt : ∀ s ∈ c.splines, dt ≤ s.duration) :
    ∃ b c', c.advance dt = .ok (b, c') ∧ Sync c' ∧ c'.splines = c.splines := by
  by_cases ht : c.duration ≤ c.time
  · exact ⟨false, c, advance_false dt c (Or.inr (Or.inl ht)), h, rfl⟩
  · have ht := not_le.mp ht
    have hfull := h
    obtain ⟨hd, hne, h⟩ := h
    rcases h with ⟨k, hk, hi, ho, hf⟩ | ⟨hi, -, hle⟩
    · have e := List.getElem?_eq_getElem hk
      have hsu := start_succ _ _ _ e
      have hle0 : ∀ s ∈ c.splines, 0 ≤ s.duration := fun s hs => (hpos s hs).le
      obtain ⟨k', hk', hf', hb, ha⟩ := findLoop_cases c.time c.splines hne
      obtain rfl : k' = k := by
        rw [hf] at hf'; simp at hf'; exact hf'.1.symm
      have hlt : c.time < start c.splines (k' + 1) := by
        rcases ha with ha | ha
        · exact ha
        · rw [ha, start_length, ← hd]; exact ht
      rw [advance_in_range dt c k' _ hi e ht]
      refine ⟨_, _, rfl, ?_⟩
      split
      · rename_i hcr
        refine ⟨⟨hd, hne, ?_⟩, rfl⟩
        by_cases hn : k' + 1 < c.splines.length
        · left
          refine ⟨k' + 1, hn, rfl, by simp only [hn, if_true]; rw [ho, hsu], ?_⟩
          have e1 := List.getElem?_eq_getElem hn
          have hs1 := hdt _ (List.getElem_mem hn)
          rw [findLoop_hit _ _ 0 0 (k' + 1) hn]
          · simp
          · intro j hj
            have := start_mono hle0 (show j + 1 ≤ k' + 1 by omega) hk
            simp only; linarith
          · simp only
            rw [start_succ _ _ _ e1]; linarith
        · right
          have hl : c.splines.length = k' + 1 := by omega
          refine ⟨by simp [hl], by simp only [hn, if_false]; rw [ho, hl]; simp, ?_⟩
          simp only
          rw [← start_length, hl, hsu]; linarith
      · rename_i hcr
        rw [not_le] at hcr
        refine ⟨⟨hd, hne, Or.inl ⟨k', hk, hi, ho, ?_⟩⟩, rfl⟩
        rw [findLoop_hit _ _ 0 0 k' hk]
        · simp
        · intro j hj
          have := hb j hj
          simp only; linarith
        · simp only; linarith
    · rw [hd] at ht; exact absurd (lt_of_lt_of_le ht hle) (lt_irrefl _)

/-- A playback command on a loaded container. -/
inductive Play (K : Type)
  | advance (dt : K)
  | seek (t : K)
  | rewind

/-- The operation of a playback command. -/
def Play.op : Play K → Op o K
  | .advance dt => .advance dt
  | .seek t => .setContainerTime t
  | .rewind => .resetTime

/-- **C27 (partial).** Load a container with segments of positive duration, by any means that leave the
cursor at the start, and play it with any sequence of forward steps, seeks and rewinds. If no step is
longer than any segment, position, velocity and acceleration at the cursor are the random-access values
at the container's time. Missing: steps that skip over a whole segment, see `C27_lags`. -/
theorem C27_playback_partial (S : Solver K) (c : Container o K)
    (hd : c.duration = (c.splines.map Spline.duration).sum) (hne : c.splines ≠ [])
    (hpos : ∀ s ∈ c.splines, 0 < s.duration) (ht : c.time = 0) (ho : c.offset = 0) (hi : c.idx = 0)
    (cmds : List (Play K))
    (hdt : ∀ dt, .advance dt ∈ cmds → 0 ≤ dt ∧ ∀ s ∈ c.splines, dt ≤ s.duration) :
    ∃ c', run S (cmds.map Play.op) c = .ok c' ∧ c'.splines = c.splines ∧
      ∀ q : Quantity, q.now c' = q.atTime c'.time c' := by
  have key : ∀ cmds : List (Play K), ∀ c : Container o K, Sync c →
      (∀ s ∈ c.splines, 0 < s.duration) →
      (∀ dt, .advance dt ∈ cmds → 0 ≤ dt ∧ ∀ s ∈ c.splines, dt ≤ s.duration) →
      ∃ c', run S (cmds.map Play.op) c = .ok c' ∧ c'.splines = c.splines ∧ Sync c' := by
    intro cmds
    induction cmds with
    | nil => intro c h _ _; exact ⟨c, rfl, rfl, h⟩
    | cons p ps ih =>
      intro c h hpos hdt
      have : ∃ d, step S p.op c = .ok d ∧ d.splines = c.splines ∧ Sync d := by
        cases p with
        | advance dt =>
          obtain ⟨b, d, e, h1, h2⟩ := h.advance hpos dt (hdt dt (by simp)).1 (hdt dt (by simp)).2
          exact ⟨d, by simp [Play.op, step, e], h2, h1⟩
        | seek t => exact ⟨_, rfl, rfl, Sync.seek h.1 h.2.1 t⟩
        | rewind =>
          exact ⟨_, rfl, rfl, Sync.rewind (c := c.resetTime) h.1 h.2.1 hpos rfl rfl rfl⟩
      obtain ⟨d, e, hs, hd⟩ := this
      obtain ⟨c', e', hs', h'⟩ := ih d hd (by rw [hs]; exact hpos)
        (fun dt hm => by rw [hs]; exact hdt dt (by simp [hm]))
      exact ⟨c', by simp only [List.map_cons, run, e, Outcome.ok_bind]; exact e', hs'.trans hs, h'⟩
  obtain ⟨c', e, hs, h⟩ := key cmds c (Sync.rewind hd hne hpos ht ho hi) hpos hdt
  exact ⟨c', e, hs, h.agrees (fun s hm => by rw [hs] at hm; exact (hpos s hm).le)⟩

/-- **C27 is false of the code** whenever one step reaches the third segment: on every container with
at least three segments of positive duration, rewound, one `advance(dt)` beyond the second segment
leaves position, velocity and acceleration at the end of the second segment, whatever `dt`. -/
theorem C27_lags (q : Quantity) (c : Container o K) (s0 s1 s2 : Spline o K) (rest)
    (hs : c.splines = s0 :: s1 :: s2 :: rest) (hpos : ∀ s ∈ c.splines, 0 < s.duration)
    (hd : c.duration = (c.splines.map Spline.duration).sum)
    (ht : c.time = 0) (ho : c.offset = 0) (hi : c.idx = 0) (dt : K)
    (h : s0.duration + s1.duration ≤ dt) :
    ∃ c', c.advance dt = .ok (true, c') ∧ c'.time = dt ∧ q.now c' = .ok (q.seg s1 s1.duration) := by
  have p0 := hpos s0 (by simp [hs])
  have p1 := hpos s1 (by simp [hs])
  have hnn : 0 ≤ ((s2 :: rest).map Spline.duration).sum := by
    apply List.sum_nonneg
    intro x hx
    obtain ⟨s, hm, rfl⟩ := List.mem_map.mp hx
    exact (hpos s (by rw [hs]; simp at hm ⊢; tauto)).le
  have htd : c.time < c.duration := by
    rw [ht, hd, hs]; simp only [List.map_cons, List.sum_cons] at hnn ⊢; linarith
  have e := advance_in_range dt c 0 s0 (by simpa using hi) (by rw [hs]; rfl) htd
  rw [if_pos (by rw [ht, ho]; linarith)] at e
  refine ⟨_, e, by simp [ht], ?_⟩
  rw [q.now_eq, current_in_range _ _ 1 s1 (by simp) (by simp [hs])]
  simp only [hs, ho, ht, List.length_cons]
  rw [if_pos (by omega), q.seg_above s1 p1.le _ (by linarith)]

/-- The counterexample to C27 in numbers: three one-second segments holding 1, 2 and 3; one step of
2.5 seconds shows 2 instead of 3. -/
theorem C27_refuted : ∃ (c : Container .o1 ℚ), c.getPosition = .ok 2 ∧
    c.getPositionAtTime c.time = .ok 3 ∧ ∃ S : Solver ℚ,
      run S [.addSpline ⟨![0, 1], 1⟩, .addSpline ⟨![0, 2], 1⟩, .addSpline ⟨![0, 3], 1⟩,
        .advance (5 / 2)] fresh = .ok c := by
  obtain ⟨S⟩ := solver_exists (K := ℚ)
  let c0 : Container .o1 ℚ := ((fresh.addSpline ⟨![0, 1], 1⟩).addSpline ⟨![0, 2], 1⟩).addSpline
    ⟨![0, 3], 1⟩
  obtain ⟨c', e, ht, hn⟩ := C27_lags .position c0 ⟨![0, 1], 1⟩ ⟨![0, 2], 1⟩ ⟨![0, 3], 1⟩ [] rfl
    (by simp [c0, fresh, reset, resetTime, Container.addSpline])
    (by simp [c0, fresh, reset, resetTime, Container.addSpline]; norm_num) rfl rfl rfl (5 / 2)
    (by norm_num)
  have hsp : c'.splines = c0.splines := by
    rw [advance_in_range (5 / 2) c0 0 _ rfl rfl (by
      simp [c0, fresh, reset, resetTime, Container.addSpline]; norm_num)] at e
    split at e <;> (cases e; rfl)
  refine ⟨c', ?_, ?_, S, ?_⟩
  · rw [Quantity.now] at hn
    rw [hn]
    simp [Quantity.seg, getPosition_eq, toPoly_o1]
  · have := (C26_random_access .position c' (by
      rw [hsp]; simp [c0, fresh, reset, resetTime, Container.addSpline]) c'.time).2.1 2 ⟨![0, 3], 1⟩
      (by rw [hsp]; rfl)
      (by rw [hsp, ht]; simp [c0, fresh, reset, resetTime, Container.addSpline, startOf]; norm_num)
      (by rw [hsp, ht]; simp [c0, fresh, reset, resetTime, Container.addSpline, startOf]; norm_num)
    rw [Quantity.atTime] at this
    rw [this, hsp, ht]
    simp only [c0, fresh, reset, resetTime, Container.addSpline, startOf, Quantity.seg]
    rw [getPosition_eq _ _ (by norm_num) (by norm_num), toPoly_o1]
    simp
  · have e' : c0.advance (5 / 2) = .ok (true, c') := e
    simp only [run, step, Outcome.ok_bind]
    change (c0.advance (5 / 2) >>= fun r => Outcome.ok r.2) >>= _ = _
    rw [e']; rfl

/-- **C28.** On a non-empty container (any segment durations, any state of the cursor),
`setContainerTime(t)` makes the container's time `t`, keeps the segments, and position, velocity and
acceleration at the cursor are the random-access values at `t`. -/
theorem C28_seek (q : Quantity) (c : Container o K) (hne : c.splines ≠ []) (t : K) :
    (c.setContainerTime t).time = t ∧ (c.setContainerTime t).splines = c.splines ∧
      q.now (c.setContainerTime t) = q.atTime t c := by
  obtain ⟨k, hk, hf, e⟩ := setContainerTime_eq t c hne
  have e1 := List.getElem?_eq_getElem hk
  refine ⟨rfl, rfl, ?_⟩
  rw [q.now_eq, q.atTime_eq, atTime_of_find _ _ c k _ _ e1 hf, e,
    current_in_range _ _ k _ rfl (by exact e1)]

/-- **C28**, rewinding: after `resetTime` the time is 0 and the cursor shows the start of the first
segment, whatever was played before. -/
theorem C28_rewind (q : Quantity) (c : Container o K) (s : Spline o K)
    (hs : c.splines[0]? = some s) :
    c.resetTime.time = 0 ∧ c.resetTime.splines = c.splines ∧ c.resetTime.duration = c.duration ∧
      q.now c.resetTime = .ok (q.seg s 0) := by
  refine ⟨rfl, rfl, rfl, ?_⟩
  rw [q.now_eq, current_in_range _ c.resetTime 0 s rfl hs]
  simp [resetTime]

/-- C28 has instances with several segments, seeking into the second one. -/
example : Quantity.now .position (((fresh : Container .o1 ℚ).addSpline ⟨![0, 1], 1⟩).addSpline
    ⟨![0, 2], 1⟩ |>.setContainerTime (3 / 2)) = Quantity.atTime .position (3 / 2)
    (((fresh : Container .o1 ℚ).addSpline ⟨![0, 1], 1⟩).addSpline ⟨![0, 2], 1⟩) :=
  (C28_seek .position _ (by simp [fresh, reset, resetTime, Container.addSpline]) _).2.2

/-! ## C29, C49 -/

theorem Cursor.advance {c : Container o K} (h : Cursor c) (dt : K) :
    ∃ b c', c.advance dt = .ok (b, c') ∧ Cursor c' := by
  by_cases hf : c.splines = [] ∨ c.duration ≤ c.time ∨ c.idx = c.splines.length
  · exact ⟨_, _, advance_false dt c hf, h⟩
  · push Not at hf
    obtain ⟨hne, ht, hi⟩ := hf
    obtain ⟨k, hk⟩ := Int.eq_ofNat_of_zero_le h.lo
    have hh := h.hi
    have hlt : k < c.splines.length := by omega
    rw [advance_in_range dt c k _ hk (List.getElem?_eq_getElem hlt) ht]
    refine ⟨_, _, rfl, ?_⟩
    split
    · exact ⟨h.duration, by simp; omega, by simp; omega, fun e => absurd e hne⟩
    · exact ⟨h.duration, h.lo, h.hi, fun e => absurd e hne⟩

theorem step_cursor (S : Solver K) (op : Op o K) (c c' : Container o K) (h : Cursor c)
    (hg : ∀ t, op = .setContainerTime t → c.splines ≠ []) (e : step S op c = .ok c') : Cursor c' := by
  cases op with
  | addSpline s =>
    have hd := step_duration S _ c c' h.duration e
    cases e
    refine ⟨hd, h.lo, ?_, fun e => by simp [Container.addSpline] at e⟩
    have := h.hi
    simp [Container.addSpline]; omega
  | reset => cases e; exact (rewound_reset c).cursor
  | resetTime =>
    cases e
    exact Rewound.cursor (c := c.resetTime) ⟨rfl, rfl, rfl, h.duration⟩
  | setContainerTime t =>
    cases e
    obtain ⟨k, hk, -, e⟩ := setContainerTime_eq t c (hg t rfl)
    rw [e]
    exact ⟨h.duration, by simp, by simp; omega, fun e => absurd e (hg t rfl)⟩
  | advance dt =>
    obtain ⟨b, d, e', h'⟩ := h.advance dt
    simp only [step, e', Outcome.ok_bind] at e
    cases e; exact h'
  | setDataLinear ts ps =>
    rcases step_setData S _ c c' (Or.inl ⟨ts, ps, rfl⟩) e with h' | rfl
    · exact h'.cursor
    · exact h
  | setDataVel ts ps v w =>
    rcases step_setData S _ c c' (Or.inr (Or.inl ⟨ts, ps, v, w, rfl⟩)) e with h' | rfl
    · exact h'.cursor
    · exact h
  | setDataAcc ts ps v a w b =>
    rcases step_setData S _ c c' (Or.inr (Or.inr ⟨ts, ps, v, a, w, b, rfl⟩)) e with h' | rfl
    · exact h'.cursor
    · exact h

/-- The history never seeks on an empty container. -/
def NeverSeeksEmpty (S : Solver K) (ops : List (Op o K)) : Prop :=
  ∀ pre t post d, ops = pre ++ .setContainerTime t :: post → run S pre fresh = .ok d → d.splines ≠ []

/-- **C49 (partial).** After any history that never seeks on an empty container, reading at the cursor
and `advance` (with any step) return normally. Missing: histories that do, see `C49_refuted`. -/
theorem C49_cursor_partial (S : Solver K) (ops : List (Op o K)) (hg : NeverSeeksEmpty S ops)
    (c : Container o K) (h : run S ops fresh = .ok c) (q : Quantity) (dt : K) :
    (∃ x, q.now c = .ok x) ∧ ∃ b c', c.advance dt = .ok (b, c') := by
  have hc : Cursor c := run_invariant S Cursor
    (fun op c => ∀ t, op = .setContainerTime t → c.splines ≠ [])
    (fun op c c' hI hG e => step_cursor S op c c' hI hG e) ops fresh c (rewound_reset _).cursor
    (fun pre op post d e hr t ht => hg pre t post d (ht ▸ e) hr) h
  constructor
  · rw [q.now_eq]
    by_cases hne : c.splines = []
    · exact ⟨0, by simp [current, hne]⟩
    · by_cases hi : c.idx = c.splines.length
      · exact ⟨_, current_at_end _ c _ hi (List.getLast?_eq_some_getLast hne)⟩
      · obtain ⟨k, hk⟩ := Int.eq_ofNat_of_zero_le hc.lo
        have hh := hc.hi
        have hlt : k < c.splines.length := by omega
        exact ⟨_, current_in_range _ c k _ hk (List.getElem?_eq_getElem hlt)⟩
  · obtain ⟨b, c', e, -⟩ := hc.advance dt
    exact ⟨b, c', e⟩

/-- **C49 is false of the code**: seeking on an empty container and then adding any segment makes
every read at the cursor an out-of-bounds access, and `advance` too unless it reports the end. -/
theorem C49_refuted (S : Solver K) (c : Container o K) (he : c.splines = []) (t : K) (s : Spline o K)
    (q : Quantity) (dt : K) :
    ∃ c', run S [.setContainerTime t, .addSpline s] c = .ok c' ∧ q.now c' = .ub ∧
      (c'.time < c'.duration → c'.advance dt = .ub) := by
  refine ⟨_, rfl, ?_, ?_⟩
  · rw [q.now_eq]
    simp [current, setContainerTime, Container.addSpline, he, getActiveSplineIndexAtTime, toSize, at']
  · intro h
    rw [advance, if_neg]
    · simp [setContainerTime, Container.addSpline, he, getActiveSplineIndexAtTime, toSize, at']
    · simp only [not_or, ge_iff_le, not_le]
      refine ⟨by simp [setContainerTime, Container.addSpline], h, ?_⟩
      simp [setContainerTime, Container.addSpline, he, getActiveSplineIndexAtTime, toSize]

/-- The invariant behind C29. -/
structure Tight (c : Container o K) : Prop extends Cursor c where
  inside : c.idx < c.splines.length → c.offset = start c.splines c.idx.toNat
  ended : c.splines ≠ [] → c.idx = c.splines.length → c.duration ≤ c.time

theorem Rewound.tight {c : Container o K} (h : Rewound c) : Tight c :=
  ⟨h.cursor, fun _ => by rw [h.idx, h.offset]; simp, fun hne he => by
    rw [h.idx] at he
    have := List.length_pos_of_ne_nil hne
    omega⟩

theorem Tight.advance {c : Container o K} (h : Tight c) (dt : K) :
    ((c.splines = [] ∨ c.duration ≤ c.time) → c.advance dt = .ok (false, c)) ∧
    (¬(c.splines = [] ∨ c.duration ≤ c.time) → ∃ c', c.advance dt = .ok (true, c') ∧
      c'.time = c.time + dt ∧ c'.splines = c.splines ∧ c'.duration = c.duration ∧ Tight c') := by
  refine ⟨fun hf => advance_false dt c (by tauto), fun hf => ?_⟩
  push Not at hf
  obtain ⟨hne, ht⟩ := hf
  have hi : c.idx ≠ c.splines.length := fun hi => absurd (h.ended hne hi) (not_le.mpr ht)
  obtain ⟨k, hk⟩ := Int.eq_ofNat_of_zero_le h.lo
  have hh := h.hi
  have hlt : k < c.splines.length := by omega
  have e := List.getElem?_eq_getElem hlt
  have ho : c.offset = start c.splines k := by
    have := h.inside (by omega)
    rwa [hk, Int.toNat_natCast] at this
  have hsu := start_succ _ _ _ e
  rw [advance_in_range dt c k _ hk e ht]
  refine ⟨_, rfl, ?_⟩
  split
  · rename_i hcr
    refine ⟨rfl, rfl, rfl, ⟨⟨h.duration, by simp; omega, by simp; omega, fun e => absurd e hne⟩, ?_, ?_⟩⟩
    · intro hl
      simp only at hl
      have hl' : k + 1 < c.splines.length := by omega
      simp only [hl', if_true]
      rw [ho, Int.toNat_natCast, hsu]
    · intro _ hl
      have hl' : c.splines.length = k + 1 := by simp only at hl; omega
      simp only
      rw [h.duration, ← start_length, hl', hsu]
      linarith
  · exact ⟨rfl, rfl, rfl, ⟨⟨h.duration, h.lo, h.hi, fun e => absurd e hne⟩, h.inside,
      fun _ hl => absurd hl hi⟩⟩

/-- What the histories of C29 must respect: no seek on an empty container, and segments are only added
to an empty container or before its end has been reached. -/
def AddsBeforeEnd (S : Solver K) (ops : List (Op o K)) : Prop :=
  ∀ pre s post d, ops = pre ++ .addSpline s :: post → run S pre fresh = .ok d →
    d.splines = [] ∨ d.time < d.duration

theorem step_tight (S : Solver K) (op : Op o K) (c c' : Container o K) (h : Tight c)
    (hg : ∀ t, op = .setContainerTime t → c.splines ≠ [])
    (ha : ∀ s, op = .addSpline s → c.splines = [] ∨ c.time < c.duration)
    (e : step S op c = .ok c') : Tight c' := by
  have hc := step_cursor S op c c' h.toCursor hg e
  cases op with
  | addSpline s =>
    cases e
    have hlt : c.splines = [] ∨ c.idx < c.splines.length := by
      rcases ha s rfl with he | ht
      · exact Or.inl he
      · by_cases he : c.splines = []
        · exact Or.inl he
        · right
          have := h.hi
          have : c.idx ≠ c.splines.length := fun hi => absurd (h.ended he hi) (not_le.mpr ht)
          omega
    have hidx : c.idx ≤ c.splines.length := h.hi
    refine ⟨hc, fun _ => ?_, fun _ hl => ?_⟩
    · simp only [Container.addSpline]
      rcases hlt with he | hlt
      · have h0 : c.idx = 0 := by rw [he] at hidx; have := h.lo; simp at hidx; omega
        rw [h0, (h.empty he).2]; simp
      · rw [start_append _ _ _ (by have := h.lo; omega)]
        exact h.inside hlt
    · simp only [Container.addSpline, List.length_append, List.length_cons, List.length_nil] at hl
      push_cast at hl
      omega
  | reset => cases e; exact (rewound_reset c).tight
  | resetTime => cases e; exact Rewound.tight (c := c.resetTime) ⟨rfl, rfl, rfl, h.duration⟩
  | setContainerTime t =>
    cases e
    obtain ⟨k, hk, -, e⟩ := setContainerTime_eq t c (hg t rfl)
    rw [e] at hc ⊢
    refine ⟨hc, fun _ => by simp, fun _ hl => ?_⟩
    simp only at hl; omega
  | advance dt =>
    have := h.advance dt
    by_cases hf : c.splines = [] ∨ c.duration ≤ c.time
    · simp only [step, this.1 hf, Outcome.ok_bind] at e
      cases e; exact h
    · obtain ⟨d, e', -, -, -, h'⟩ := this.2 hf
      simp only [step, e', Outcome.ok_bind] at e
      cases e; exact h'
  | setDataLinear ts ps =>
    rcases step_setData S _ c c' (Or.inl ⟨ts, ps, rfl⟩) e with h' | rfl
    · exact h'.tight
    · exact h
  | setDataVel ts ps v w =>
    rcases step_setData S _ c c' (Or.inr (Or.inl ⟨ts, ps, v, w, rfl⟩)) e with h' | rfl
    · exact h'.tight
    · exact h
  | setDataAcc ts ps v a w b =>
    rcases step_setData S _ c c' (Or.inr (Or.inr ⟨ts, ps, v, a, w, b, rfl⟩)) e with h' | rfl
    · exact h'.tight
    · exact h

/-- **C29 (partial).** After any history that never seeks on an empty container and adds segments only
to an empty container or before its end, `advance(dt)` (any `dt`) returns false and changes nothing
if the container is empty or its time has reached the duration, and otherwise returns true and adds
`dt` to the time. Missing: segments added after the end has been reached, see `C29_early_end`. -/
theorem C29_advance_partial (S : Solver K) (ops : List (Op o K)) (hg : NeverSeeksEmpty S ops)
    (ha : AddsBeforeEnd S ops) (c : Container o K) (h : run S ops fresh = .ok c) (dt : K) :
    ((c.splines = [] ∨ c.duration ≤ c.time) → c.advance dt = .ok (false, c)) ∧
    (¬(c.splines = [] ∨ c.duration ≤ c.time) → ∃ c', c.advance dt = .ok (true, c') ∧
      c'.time = c.time + dt ∧ c'.splines = c.splines ∧ c'.duration = c.duration) := by
  have ht : Tight c := run_invariant S Tight
    (fun op c => (∀ t, op = .setContainerTime t → c.splines ≠ []) ∧
      ∀ s, op = .addSpline s → c.splines = [] ∨ c.time < c.duration)
    (fun op c c' hI hG e => step_tight S op c c' hI hG.1 hG.2 e) ops fresh c (rewound_reset _).tight
    (fun pre op post d e hr => ⟨fun t h => hg pre t post d (h ▸ e) hr,
      fun s h => ha pre s post d (h ▸ e) hr⟩) h
  refine ⟨(ht.advance dt).1, fun hf => ?_⟩
  obtain ⟨c', e, h1, h2, h3, -⟩ := (ht.advance dt).2 hf
  exact ⟨c', e, h1, h2, h3⟩

/-- The guards of C29 are met by ordinary use: fill, play, seek. -/
example (S : Solver ℚ) : NeverSeeksEmpty S
    ([.addSpline ⟨![0, 1], 1⟩, .advance 3, .setContainerTime 0] : List (Op .o1 ℚ)) ∧
    AddsBeforeEnd S ([.addSpline ⟨![0, 1], 1⟩, .advance 3, .setContainerTime 0] : List (Op .o1 ℚ)) := by
  constructor
  · intro pre t post d e hr
    match pre, e with
    | [a, b], e =>
      simp at e
      obtain ⟨rfl, rfl, -⟩ := e
      have ha := advance_in_range 3 ((fresh : Container .o1 ℚ).addSpline ⟨![0, 1], 1⟩) 0 ⟨![0, 1], 1⟩
        rfl rfl (by simp [fresh, reset, resetTime, Container.addSpline])
      simp only [run, step, Outcome.ok_bind, ha] at hr
      cases hr
      split <;> simp [fresh, reset, resetTime, Container.addSpline]
    | [], e => simp at e
    | [a], e => simp at e
    | a :: b :: c :: pre, e => simp at e
  · intro pre s post d e hr
    match pre, e with
    | [], e => cases hr; exact Or.inl rfl
    | [a], e => simp at e
    | [a, b], e => simp at e
    | a :: b :: c :: pre, e => simp at e

/-- **C29 is false of the code** for every pair of segments with positive durations `d1`, `d2`: play
the first one to its end, add the second, and advance by any `dt` with `d2 - d1 ≤ dt < d2`. Then the
time is below the duration, yet every further `advance` returns false. -/
theorem C29_early_end (S : Solver K) (s1 s2 : Spline o K) (h1 : 0 < s1.duration)
    (h2 : 0 < s2.duration) (dt : K) (hlo : s2.duration - s1.duration ≤ dt) (hhi : dt < s2.duration) :
    ∃ c, run S [.addSpline s1, .advance s1.duration, .addSpline s2, .advance dt] fresh = .ok c ∧
      c.splines ≠ [] ∧ c.time < c.duration ∧ ∀ dt', c.advance dt' = .ok (false, c) := by
  have e1 := advance_in_range s1.duration ((fresh : Container o K).addSpline s1) 0 s1 rfl rfl
    (by simpa [fresh, reset, resetTime, Container.addSpline] using h1)
  rw [if_pos (by simp [fresh, reset, resetTime, Container.addSpline])] at e1
  generalize hc1 : ({ (fresh : Container o K).addSpline s1 with
      time := ((fresh : Container o K).addSpline s1).time + s1.duration
      offset := if 0 + 1 < ((fresh : Container o K).addSpline s1).splines.length then
        ((fresh : Container o K).addSpline s1).offset + s1.duration
        else ((fresh : Container o K).addSpline s1).offset
      idx := (0 + 1 : ℕ) } : Container o K) = c1 at e1
  have k1 : c1 = ⟨[s1], 0, s1.duration, s1.duration, 1⟩ := by
    rw [← hc1]; simp [fresh, reset, resetTime, Container.addSpline]
  subst k1
  have e2 := advance_in_range dt
    (⟨[s1, s2], 0, s1.duration, s1.duration + s2.duration, 1⟩ : Container o K) 1 s2 rfl rfl
    (by simpa using h2)
  rw [if_pos (by simp; linarith)] at e2
  refine ⟨⟨[s1, s2], 0, s1.duration + dt, s1.duration + s2.duration, 2⟩, ?_, by simp, by simpa using hhi,
    fun dt' => advance_false dt' _ (Or.inr (Or.inr (by simp)))⟩
  simp only [run, step, Outcome.ok_bind, e1]
  change (Container.advance dt
    (⟨[s1, s2], 0, s1.duration, s1.duration + s2.duration, 1⟩ : Container o K) >>= _) >>= _ = _
  rw [e2]; simp

end Verif.Container

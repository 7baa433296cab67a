import Verif.Container.PlayProps
import Verif.Container.FitProps

/-!
# Properties C65 - C68: straight lines, playing a fit, the end queries and `checkContainer`
-/

set_option linter.unusedSectionVars false
set_option linter.dupNamespace false

namespace Verif.Container

open Verif.Spline Container

variable {K : Type} [Field K] [LinearOrder K] [IsStrictOrderedRing K] {o : Order}

/-! ## C65 -/

theorem line_seg (o : Order) (p q d t : K) (h0 : 0 ≤ t) (h1 : t ≤ d) :
    (line o p q d).getPositionAtTime t = p + (q - p) / d * t ∧
    (line o p q d).getVelocityAtTime t = (q - p) / d ∧
    (line o p q d).getAccelerationAtTime t = 0 := by
  have hl := line_coeffs o p q d t
  have hc : clamp t (line o p q d).duration = t := clamp_inside h0 h1
  refine ⟨?_, ?_, ?_⟩
  · rw [Spline.getPositionAtTime, hc, hl.1]
  · rw [Spline.getVelocityAtTime, hc, hl.2.1]
  · rw [Spline.getAccelerationAtTime, hc, hl.2.2]

/-- **C65.** For strictly increasing times, the variant of `setData` without end derivatives, and for
the orders 1 and 2 every variant, joins the knots by straight lines run through at constant speed: in
between, position is the linear interpolation of the neighbouring knots, velocity their difference
quotient, acceleration zero. -/
theorem C65_straight (S : Solver K) (ts ps : List K) (h2 : 2 ≤ ts.length)
    (hb : ts.length ≤ 2 ^ 28) (hl : ps.length = ts.length) (hinc : ts.Pairwise (· < ·))
    (v0 a0 vT aT : K) (c : Container o K) (r : Outcome (Bool × Container o K))
    (hr : r = setDataLinear ts ps c ∨
      (o = .o1 ∨ o = .o2) ∧ (r = setDataVel S ts ps v0 vT c ∨ r = setDataAcc S ts ps v0 a0 vT aT c)) :
    ∃ c', r = .ok (true, c') ∧ ∀ (i : ℕ) (hi : i + 1 < ts.length) (hi' : i + 1 < ps.length) (t : K),
      ts[i] ≤ t → (t ≤ ts[i + 1] → c'.getPositionAtTime (t - ts[0]) =
        .ok (ps[i] + (ps[i + 1] - ps[i]) * ((t - ts[i]) / (ts[i + 1] - ts[i])))) ∧
      (t < ts[i + 1] → c'.getVelocityAtTime (t - ts[0]) =
          .ok ((ps[i + 1] - ps[i]) / (ts[i + 1] - ts[i])) ∧
        c'.getAccelerationAtTime (t - ts[0]) = .ok 0) := by
  have hr' : r = setDataLinear ts ps c := by
    rcases hr with h | ⟨ho, h⟩
    · exact h
    · have := (C23_choice S ts ps (by omega) hb v0 a0 vT aT c).1 ho
      rcases h with rfl | rfl
      · exact this.2
      · exact this.1
  obtain ⟨n, hn⟩ : ∃ n, ts.length = n + 1 := ⟨ts.length - 1, by omega⟩
  obtain ⟨c', e, hT, hs⟩ := linear_through ts ps n (by omega) hn (by omega) hinc c
  refine ⟨c', hr'.trans e, fun i hi hi' t ht0 => ?_⟩
  have hpos := hT.pos hinc
  have hlt : ts[i] < ts[i + 1] := by
    have := knot_lt hinc (Nat.lt_succ_self i) hi
    rwa [knot_eq (by omega), knot_eq hi] at this
  have hd : dur ts i = ts[i + 1] - ts[i] := by
    rw [dur, if_pos hi, knot_eq hi, knot_eq (by omega)]
  have hsi : c'.splines[i]? = some (line o ps[i] ps[i + 1] (ts[i + 1] - ts[i])) := by
    rw [hs, List.getElem?_map, List.getElem?_range (by omega), Option.map_some, hd,
      knot_eq (by omega), knot_eq hi']
  have hst : start c'.splines i = ts[i] - ts[0] := by
    rw [hT.starts i (by omega), knot_eq (by omega), knot_eq (by omega)]
  have seg := line_seg o ps[i] ps[i + 1] (ts[i + 1] - ts[i]) (t - ts[i]) (by linarith)
  have at' : ∀ q : Quantity, t < ts[i + 1] → q.atTime (t - ts[0]) c' =
      .ok (q.seg (line o ps[i] ps[i + 1] (ts[i + 1] - ts[i])) (t - ts[i])) := by
    intro q h
    have := (C26_random_access q c' (fun s hs => (hpos s hs).le) (t - ts[0])).2.1 i _ hsi
      (by rw [startOf_eq, hst]; linarith) (by rw [startOf_eq, hst]; simp only [line]; linarith)
    rw [this, startOf_eq, hst]; congr 2; ring
  have hne : ts[i + 1] - ts[i] ≠ 0 := by linarith
  refine ⟨fun ht1 => ?_, fun ht1 => ?_⟩
  · rcases ht1.eq_or_lt with rfl | ht1
    · have := hT.interpolates hinc h2 (i + 1) hi
      rw [knot_eq hi, knot_eq (by omega), knot_eq hi'] at this
      rw [this, div_self hne]; simp
    · have := at' .position ht1
      simp only [Quantity.atTime, Quantity.seg] at this
      rw [this, (seg (by linarith)).1]
      congr 1; field_simp
  · have h1 := at' .velocity ht1
    have h2 := at' .acceleration ht1
    simp only [Quantity.atTime, Quantity.seg] at h1 h2
    rw [h1, h2, (seg (by linarith)).2.1, (seg (by linarith)).2.2]
    exact ⟨rfl, rfl⟩

/-- An instance of C65: half way between the second and the third knot. -/
example : ∃ c', setDataLinear [1, 2, 4] [5, -1, 3] (fresh : Container .o4 ℚ) = .ok (true, c') ∧
    c'.getPositionAtTime 2 = .ok 1 ∧ c'.getVelocityAtTime 2 = .ok 2 := by
  obtain ⟨S⟩ := solver_exists (K := ℚ)
  obtain ⟨c', e, h⟩ := C65_straight S [1, 2, 4] [5, -1, 3] (by simp) (by simp) rfl (by norm_num) 0 0 0 0
    (fresh : Container .o4 ℚ) _ (Or.inl rfl)
  have := h 1 (by simp) (by simp) 3 (by norm_num)
  norm_num at this
  exact ⟨c', e, this.1, this.2.1⟩

/-! ## C66 -/

theorem atTime_congr (f : Spline o K → K → K) (t : K) {c d : Container o K}
    (h : c.splines = d.splines) : c.atTime f t = d.atTime f t := by
  obtain ⟨sp, _, _, _, _⟩ := c
  obtain ⟨sp', _, _, _, _⟩ := d
  obtain rfl : sp = sp' := h
  rfl

/-- **C66.** A successful fit is ready to be played from its beginning, whatever the container held and
whatever had been played before: the time is 0 and the cursor shows the first position; and playing it
with any sequence of seeks, rewinds and forward steps no longer than any knot interval, position,
velocity and acceleration at the cursor are the random-access values at the container's time. -/
theorem C66_play_a_fit (S : Solver K) (ts ps : List K) (h2 : 2 ≤ ts.length)
    (hb : ts.length ≤ 2 ^ 28) (hl : ps.length = ts.length) (hinc : ts.Pairwise (· < ·))
    (v0 a0 vT aT : K) (c : Container o K) (r : Outcome (Bool × Container o K))
    (hr : r = setDataLinear ts ps c ∨ r = setDataVel S ts ps v0 vT c ∨
      r = setDataAcc S ts ps v0 a0 vT aT c)
    (cmds : List (Play K)) (hdt : ∀ dt, .advance dt ∈ cmds → 0 ≤ dt ∧
      ∀ (i : ℕ) (h : i + 1 < ts.length), dt ≤ ts[i + 1] - ts[i]) :
    ∃ c', r = .ok (true, c') ∧ c'.time = 0 ∧ c'.getPosition = .ok ps[0] ∧
      ∃ d, run S (cmds.map Play.op) c' = .ok d ∧ d.splines = c'.splines ∧
        ∀ q : Quantity, q.now d = q.atTime d.time c' := by
  obtain ⟨n, hn⟩ : ∃ n, ts.length = n + 1 := ⟨ts.length - 1, by omega⟩
  have : ∃ c', r = .ok (true, c') ∧ Through ts ps c' := by
    rcases hr with rfl | rfl | rfl
    · obtain ⟨c', e, h, -⟩ := linear_through ts ps n (by omega) hn (by omega) hinc c
      exact ⟨c', e, h⟩
    · exact vel_through S ts ps v0 vT c n (by omega) (by omega) hn (by omega) hinc
    · exact acc_through S ts ps v0 a0 vT aT c n (by omega) (by omega) hn (by omega) hinc
  obtain ⟨c', e, h⟩ := this
  have hpos := h.pos hinc
  have hlen := h.len
  have hne : c'.splines ≠ [] := by rintro h0; rw [h0] at hlen; simp at hlen; omega
  obtain ⟨ht, ho, hi⟩ := h.idle
  have hsy := Sync.rewind h.duration hne hpos ht ho hi
  refine ⟨c', e, ht, ?_, ?_⟩
  · have h0 := hsy.agrees (fun s hs => (hpos s hs).le) .position
    have h1 := h.interpolates hinc h2 0 (by omega)
    rw [knot_eq (by omega), knot_eq (by omega), sub_self] at h1
    simp only [Quantity.now, Quantity.atTime, ht] at h0
    rw [h0, h1]
  · obtain ⟨d, hd, hs, hq⟩ := C27_playback_partial S c' h.duration hne hpos ht ho hi cmds
      (fun dt hm => ⟨(hdt dt hm).1, fun s hs => by
        obtain ⟨j, hj, rfl⟩ := List.getElem_of_mem hs
        have hdj := (h.seg j _ (List.getElem?_eq_getElem hj)).1
        have := (hdt dt hm).2 j (by omega)
        rw [hdj, dur, if_pos (by omega), knot_eq (by omega), knot_eq (by omega)]
        exact this⟩)
    refine ⟨d, hd, hs, fun q => ?_⟩
    rw [hq q, q.atTime_eq, q.atTime_eq]
    exact atTime_congr _ _ hs

/-- An instance of C66: two knot intervals, three steps and a seek. -/
example : ∃ (S : Solver ℚ) (c' d : Container .o3 ℚ),
    setDataVel S [0, 1, 3] [5, -1, 2] 1 2 fresh = .ok (true, c') ∧
    run S [.advance 1, .advance (1 / 2), .setContainerTime (1 / 3), .advance (3 / 4)] c' = .ok d ∧
    Quantity.velocity.now d = Quantity.velocity.atTime d.time c' := by
  obtain ⟨S⟩ := solver_exists (K := ℚ)
  obtain ⟨c', e, -, -, d, hd, -, hq⟩ := C66_play_a_fit S [0, 1, 3] [5, -1, 2] (by simp) (by simp) rfl
    (by simp) 1 0 2 0 (fresh : Container .o3 ℚ) _ (Or.inr (Or.inl rfl))
    [.advance 1, .advance (1 / 2), .seek (1 / 3), .advance (3 / 4)] (by
      intro dt hm
      have hd : 0 ≤ dt ∧ dt ≤ 1 := by
        simp at hm; rcases hm with rfl | rfl | rfl <;> norm_num
      refine ⟨hd.1, fun i hi => ?_⟩
      match i, hi with
      | 0, _ => norm_num; exact hd.2
      | 1, _ => norm_num; linarith [hd.2]
      | i + 2, hi => simp at hi; omega)
  exact ⟨S, c', d, e, hd, hq .velocity⟩

/-! ## C67 -/

/-- The query of the end value: `getEndPosition()` and so on. -/
def Quantity.atEnd (q : Quantity) (c : Container o K) : K :=
  match q with
  | .position => c.getEndPosition
  | .velocity => c.getEndVelocity
  | .acceleration => c.getEndAcceleration

/-- **C67.** The end value of position, velocity and acceleration is the random-access value at the
container's duration, and at every later time; it does not depend on what has been played. `getSpline`
returns the segment of that index and throws for every other index, negative ones included. -/
theorem C67_end (q : Quantity) (c : Container o K) (hpos : ∀ s ∈ c.splines, 0 ≤ s.duration)
    (hd : c.duration = (c.splines.map Spline.duration).sum) (hlen : c.splines.length < 2 ^ 31) :
    (∀ t, c.duration ≤ t → q.atTime t c = .ok (q.atEnd c)) ∧
    (∀ (i : ℤ), 0 ≤ i → ∀ h : i.toNat < c.splines.length, c.getSpline i = .ok c.splines[i.toNat]) ∧
    (∀ (i : ℤ), -(2 ^ 31) ≤ i → i < 0 ∨ (c.splines.length : ℤ) ≤ i → c.getSpline i = .throw) := by
  refine ⟨fun t ht => ?_, fun i hi h => ?_, fun i hi h => ?_⟩
  · have e : q.atEnd c = Container.atEnd q.seg c := by cases q <;> rfl
    rw [e, Container.atEnd]
    cases hl : c.splines.getLast? with
    | none =>
      exact (C26_random_access q c hpos t).1 (List.getLast?_eq_none_iff.mp hl)
    | some s => exact (C26_random_access q c hpos t).2.2.2.1 s hl (by rw [← hd]; exact ht)
  · obtain ⟨k, rfl⟩ := Int.eq_ofNat_of_zero_le hi
    simp only [Int.toNat_natCast] at h
    rw [getSpline, toSize_nat, List.getElem?_eq_getElem h]; rfl
  · rw [getSpline, List.getElem?_eq_none]
    rw [toSize]
    split <;> omega

/-- **C67**, after a fit: the end position is the last knot's. -/
theorem C67_end_of_fit (S : Solver K) (ts ps : List K) (h2 : 2 ≤ ts.length)
    (hb : ts.length ≤ 2 ^ 28) (hl : ps.length = ts.length) (hinc : ts.Pairwise (· < ·))
    (v0 a0 vT aT : K) (c : Container o K) (r : Outcome (Bool × Container o K))
    (hr : r = setDataLinear ts ps c ∨ r = setDataVel S ts ps v0 vT c ∨
      r = setDataAcc S ts ps v0 a0 vT aT c) :
    ∃ c', r = .ok (true, c') ∧ c'.getEndPosition = ps[ps.length - 1] := by
  obtain ⟨n, hn⟩ : ∃ n, ts.length = n + 1 := ⟨ts.length - 1, by omega⟩
  have : ∃ c', r = .ok (true, c') ∧ Through ts ps c' := by
    rcases hr with rfl | rfl | rfl
    · obtain ⟨c', e, h, -⟩ := linear_through ts ps n (by omega) hn (by omega) hinc c
      exact ⟨c', e, h⟩
    · exact vel_through S ts ps v0 vT c n (by omega) (by omega) hn (by omega) hinc
    · exact acc_through S ts ps v0 a0 vT aT c n (by omega) (by omega) hn (by omega) hinc
  obtain ⟨c', e, h⟩ := this
  refine ⟨c', e, ?_⟩
  have hpos := h.pos hinc
  have hlen := h.len
  have h1 := (C67_end .position c' (fun s hs => (hpos s hs).le) h.duration (by omega)).1 _ le_rfl
  have h3 := h.interpolates hinc h2 (ts.length - 1) (by omega)
  have h4 : c'.duration = knot ts (ts.length - 1) - knot ts 0 := by
    rw [h.duration, h.totals (by rintro rfl; simp at h2)]
  rw [← h4] at h3
  simp only [Quantity.atTime, Quantity.atEnd] at h1
  rw [h1, Outcome.ok.injEq, knot_eq (by omega)] at h3
  rw [h3]; congr 1; omega

/-- Instances of C67: end of a fit, and index -1. -/
example : ∃ c', setDataLinear [0, 1, 3] [5, -1, 2] (fresh : Container .o2 ℚ) = .ok (true, c') ∧
    c'.getEndPosition = 2 := by
  obtain ⟨S⟩ := solver_exists (K := ℚ)
  exact C67_end_of_fit S [0, 1, 3] [5, -1, 2] (by simp) (by simp) rfl (by simp) 0 0 0 0 _ _ (Or.inl rfl)
example : ((fresh : Container .o1 ℚ).addSpline ⟨![1, 0], 1⟩).getSpline (-1) = .throw :=
  (C67_end .position _ (by simp [fresh, reset, resetTime, Container.addSpline])
    (by simp [fresh, reset, resetTime, Container.addSpline])
    (by simp [fresh, reset, resetTime, Container.addSpline])).2.2 (-1) (by norm_num) (Or.inl (by norm_num))

/-! ## C68 -/

/-- Specification of a healthy container: what `checkContainer` is meant to certify. -/
structure Healthy (c : Container o K) : Prop where
  time : 0 ≤ c.time ∧ c.time ≤ c.duration
  durations : ∀ s ∈ c.splines, 0 ≤ s.duration
  reads : ∀ q : Quantity, ∃ x, q.now c = .ok x
  advances : ∀ dt, ∃ b c', c.advance dt = .ok (b, c')

/-- The index after any history: in range, or -1 after a seek on an empty container. -/
def InRange (c : Container o K) : Prop := c.idx = -1 ∨ 0 ≤ c.idx ∧ c.idx ≤ c.splines.length

theorem Rewound.inRange {c : Container o K} (h : Rewound c) : InRange c :=
  Or.inr ⟨h.cursor.lo, h.cursor.hi⟩

theorem step_inRange (S : Solver K) (op : Op o K) (c c' : Container o K) (h : InRange c)
    (e : step S op c = .ok c') : InRange c' := by
  cases op with
  | addSpline s =>
    cases e
    rcases h with h | h
    · exact Or.inl h
    · right; simp only [Container.addSpline, List.length_append, List.length_cons, List.length_nil]
      push_cast; omega
  | reset => cases e; exact (rewound_reset c).inRange
  | resetTime => cases e; exact Or.inr ⟨le_rfl, by simp [resetTime]⟩
  | setContainerTime t =>
    cases e
    by_cases hne : c.splines = []
    · left; simp [setContainerTime, getActiveSplineIndexAtTime, hne]
    · obtain ⟨k, hk, -, e⟩ := setContainerTime_eq t c hne
      rw [e]; right; simp only; omega
  | advance dt =>
    rw [step, Outcome.bind_eq_ok] at e
    obtain ⟨⟨b, d⟩, e, e'⟩ := e
    cases e'
    rw [advance] at e
    split at e
    · cases e; exact h
    · rename_i hc
      simp only at e
      rw [Outcome.bind_eq_ok] at e
      obtain ⟨s, -, e⟩ := e
      have key : ∀ d : Container o K, d.splines = c.splines → d.idx = c.idx + 1 → InRange d := by
        intro d h1 h2
        right
        rw [h1, h2]
        rcases h with h | h
        · omega
        · have : c.idx ≠ c.splines.length := fun h' => hc (Or.inr (Or.inr (by rw [h', toSize_nat])))
          omega
      split at e
      · split at e <;> (cases e; exact key _ rfl rfl)
      · cases e; exact h
  | setDataLinear ts ps =>
    rcases step_setData S _ c c' (Or.inl ⟨ts, ps, rfl⟩) e with h' | rfl
    · exact h'.inRange
    · exact h
  | setDataVel ts ps v w =>
    rcases step_setData S _ c c' (Or.inr (Or.inl ⟨ts, ps, v, w, rfl⟩)) e with h' | rfl
    · exact h'.inRange
    · exact h
  | setDataAcc ts ps v a w b =>
    rcases step_setData S _ c c' (Or.inr (Or.inr ⟨ts, ps, v, a, w, b, rfl⟩)) e with h' | rfl
    · exact h'.inRange
    · exact h

theorem check_iff (c : Container o K) : c.checkContainer = true ↔
    0 ≤ c.time ∧ 0 ≤ c.duration ∧ c.time ≤ c.duration ∧ 0 ≤ c.idx ∧ ∀ s ∈ c.splines, 0 ≤ s.duration := by
  simp [checkContainer, and_assoc]

/-- **C68**, soundness: whatever has been done to a container, if `checkContainer` accepts it, its time
is within its duration, no segment has a negative duration, and reading at the cursor and advancing are
defined. -/
theorem C68_check_sound (S : Solver K) (ops : List (Op o K)) (c : Container o K)
    (h : run S ops fresh = .ok c) (hc : c.checkContainer = true) : Healthy c := by
  obtain ⟨h0, -, h1, h2, h3⟩ := (check_iff c).mp hc
  have hr : InRange c := run_invariant S InRange (fun _ _ => True)
    (fun op c c' hI _ e => step_inRange S op c c' hI e) ops fresh c (rewound_reset _).inRange
    (fun _ _ _ _ _ _ => trivial) h
  have hr : c.idx ≤ c.splines.length := by rcases hr with hr | hr <;> omega
  refine ⟨⟨h0, h1⟩, h3, fun q => ?_, fun dt => ?_⟩
  · rw [q.now_eq]
    by_cases hne : c.splines = []
    · exact ⟨0, by simp [current, hne]⟩
    · by_cases hi : c.idx = c.splines.length
      · exact ⟨_, current_at_end _ c _ hi (List.getLast?_eq_some_getLast hne)⟩
      · obtain ⟨k, hk⟩ := Int.eq_ofNat_of_zero_le h2
        have hlt : k < c.splines.length := by omega
        exact ⟨_, current_in_range _ c k _ hk (List.getElem?_eq_getElem hlt)⟩
  · by_cases hf : c.splines = [] ∨ c.duration ≤ c.time ∨ c.idx = c.splines.length
    · exact ⟨_, _, advance_false dt c hf⟩
    · push Not at hf
      obtain ⟨k, hk⟩ := Int.eq_ofNat_of_zero_le h2
      have hlt : k < c.splines.length := by omega
      exact ⟨_, _, advance_in_range dt c k _ hk (List.getElem?_eq_getElem hlt) hf.2.1⟩

/-- The check is not idle: it rejects the container of `C49_refuted`. -/
theorem C68_check_catches (c : Container o K) (he : c.splines = []) (t : K) (s : Spline o K) :
    ((c.setContainerTime t).addSpline s).checkContainer = false := by
  rw [Bool.eq_false_iff]
  intro h
  have := (check_iff _).mp h
  have h4 := this.2.2.2.1
  simp [setContainerTime, Container.addSpline, getActiveSplineIndexAtTime, he] at h4

theorem linearLoop_nonneg (ts ps : List K) (k : ℕ) : ∀ (i : ℕ) (c : Container o K) (b) (c'),
    (∀ s ∈ c.splines, 0 ≤ s.duration) → linearLoop ts ps k i c = .ok (b, c') →
    ∀ s ∈ c'.splines, 0 ≤ s.duration := by
  induction k with
  | zero => intro i c b c' h e; cases e; exact h
  | succ k ih =>
    intro i c b c' h e
    rw [linearLoop, Outcome.bind_eq_ok] at e
    obtain ⟨x, -, e⟩ := e
    rw [Outcome.bind_eq_ok] at e
    obtain ⟨y, -, e⟩ := e
    split at e
    · cases e; exact h
    · rename_i hd
      rw [Outcome.bind_eq_ok] at e
      obtain ⟨p, -, e⟩ := e
      rw [Outcome.bind_eq_ok] at e
      obtain ⟨q, -, e⟩ := e
      refine ih _ _ b c' ?_ e
      intro s hs
      simp only [Container.addSpline, List.mem_append, List.mem_singleton] at hs
      rcases hs with hs | rfl
      · exact h s hs
      · exact (not_le.mp hd).le

theorem segDurations_nonneg (ts : List K) (k : ℕ) : ∀ (i : ℕ) (ds : List K),
    segDurations ts k i = .ok (some ds) → ∀ d ∈ ds, 0 ≤ d := by
  induction k with
  | zero => intro i ds e; cases e; simp
  | succ k ih =>
    intro i ds e
    rw [segDurations, Outcome.bind_eq_ok] at e
    obtain ⟨x, -, e⟩ := e
    rw [Outcome.bind_eq_ok] at e
    obtain ⟨y, -, e⟩ := e
    split at e
    · cases e
    · rename_i hd
      rw [Outcome.bind_eq_ok] at e
      obtain ⟨r, hr, e⟩ := e
      cases r with
      | none => cases e
      | some l =>
        rw [Outcome.ok.injEq, Option.map_some, Option.some.injEq] at e
        rw [← e]
        intro d hd'
        rcases List.mem_cons.mp hd' with rfl | hd'
        · exact (not_le.mp hd).le
        · exact ih _ _ hr d hd'

theorem extract_nonneg (x : ℕ → K) (ds : List K) : ∀ (j : ℕ) (c : Container o K),
    (∀ s ∈ c.splines, 0 ≤ s.duration) → (∀ d ∈ ds, 0 ≤ d) →
    ∀ s ∈ (extract x ds j c).splines, 0 ≤ s.duration := by
  induction ds with
  | nil => intro j c h _; exact h
  | cons d ds ih =>
    intro j c h hd
    refine ih _ _ ?_ (fun e he => hd e (List.mem_cons_of_mem _ he))
    intro s hs
    simp only [Container.addSpline, List.mem_append, List.mem_singleton] at hs
    rcases hs with hs | rfl
    · exact h s hs
    · exact hd d (by simp)

theorem fitWith_nonneg (S : Solver K) (R C J n : ℕ) (ts ps ini fin : List K) (c : Container o K)
    (b) (c') (h : ∀ s ∈ c.splines, 0 ≤ s.duration)
    (e : fitWith S R C J n ts ps ini fin c = .ok (b, c')) : ∀ s ∈ c'.splines, 0 ≤ s.duration := by
  rw [fitWith, Outcome.bind_eq_ok] at e
  obtain ⟨r, hr, e⟩ := e
  cases r with
  | none => cases e; exact h
  | some ds =>
    simp only at e
    rw [Outcome.bind_eq_ok] at e
    obtain ⟨s, -, e⟩ := e
    split at e
    · cases e; exact extract_nonneg _ _ _ _ h (segDurations_nonneg _ _ _ _ hr)
    · cases e; exact h

theorem linear_nonneg (ts ps : List K) (c : Container o K) (b) (c')
    (h : ∀ s ∈ c.splines, 0 ≤ s.duration)
    (e : setDataLinear ts ps c = .ok (b, c')) : ∀ s ∈ c'.splines, 0 ≤ s.duration := by
  rw [setDataLinear] at e
  split at e
  · cases e; exact h
  · exact linearLoop_nonneg ts ps _ _ _ b c' (by simp [reset, resetTime]) e

theorem vel_nonneg (S : Solver K) (ts ps : List K) (v0 vT : K) (c : Container o K) (b) (c')
    (e : setDataVel S ts ps v0 vT c = .ok (b, c')) : ∀ s ∈ c'.splines, 0 ≤ s.duration := by
  have h0 : ∀ s ∈ c.reset.splines, 0 ≤ s.duration := by simp [reset, resetTime]
  rw [setDataVel] at e
  split at e
  · cases e; exact h0
  · split at e
    · exact linear_nonneg _ _ _ _ _ h0 e
    · exact fitWith_nonneg _ _ _ _ _ _ _ _ _ _ b c' h0 e

theorem acc_nonneg (S : Solver K) (ts ps : List K) (v0 a0 vT aT : K) (c : Container o K) (b) (c')
    (e : setDataAcc S ts ps v0 a0 vT aT c = .ok (b, c')) : ∀ s ∈ c'.splines, 0 ≤ s.duration := by
  have h0 : ∀ s ∈ c.reset.splines, 0 ≤ s.duration := by simp [reset, resetTime]
  rw [setDataAcc] at e
  split at e
  · cases e; exact h0
  · split at e
    · exact vel_nonneg S ts ps v0 vT _ b c' e
    · exact fitWith_nonneg _ _ _ _ _ _ _ _ _ _ b c' h0 e

/-- Specification: what a careful caller does with the container `c`. Segments have non-negative
durations, seeks are within the duration of a loaded container, steps are forward and stop at the
end. Loading with `setData` is free, failing calls included. -/
def Careful (c : Container o K) : Op o K → Prop
  | .addSpline s => 0 ≤ s.duration
  | .advance dt => 0 ≤ dt ∧ c.time + dt ≤ c.duration
  | .setContainerTime t => c.splines ≠ [] ∧ 0 ≤ t ∧ t ≤ c.duration
  | _ => True

theorem step_check (S : Solver K) (op : Op o K) (c c' : Container o K)
    (h : c.checkContainer = true ∧ Cursor c) (hg : Careful c op) (e : step S op c = .ok c') :
    c'.checkContainer = true ∧ Cursor c' := by
  obtain ⟨h, hC⟩ := h
  have hC' : Cursor c' := step_cursor S op c c' hC (by rintro t rfl; exact hg.1) e
  refine ⟨?_, hC'⟩
  obtain ⟨h0, h1, h2, h3, h4⟩ := (check_iff c).mp h
  have load : ∀ c' : Container o K, Rewound c' → (∀ s ∈ c'.splines, 0 ≤ s.duration) →
      c'.checkContainer = true := by
    intro c' h h'
    have : 0 ≤ c'.duration := by
      rw [h.duration]
      exact List.sum_nonneg (by
        intro x hx; obtain ⟨s, hs, rfl⟩ := List.mem_map.mp hx; exact h' s hs)
    exact (check_iff c').mpr ⟨h.time.ge, this, by rw [h.time]; exact this, h.idx.ge, h'⟩
  cases op with
  | addSpline s =>
    cases e
    have hs : 0 ≤ s.duration := hg
    refine (check_iff _).mpr ⟨h0, ?_, ?_, h3, ?_⟩
    · simp only [Container.addSpline]; linarith
    · simp only [Container.addSpline]; linarith
    · intro s' hs'
      simp only [Container.addSpline, List.mem_append, List.mem_singleton] at hs'
      rcases hs' with hs' | rfl
      · exact h4 s' hs'
      · exact hs
  | reset => cases e; exact load _ (rewound_reset c) (by simp [reset, resetTime])
  | resetTime => cases e; exact load c.resetTime ⟨rfl, rfl, rfl, hC.duration⟩ h4
  | setContainerTime t =>
    cases e
    obtain ⟨hne, ht0, ht1⟩ := hg
    exact (check_iff _).mpr ⟨ht0, h1, ht1, hC'.lo, h4⟩
  | advance dt =>
    obtain ⟨hd0, hd1⟩ := hg
    rw [step, Outcome.bind_eq_ok] at e
    obtain ⟨⟨b, d⟩, e, e'⟩ := e
    cases e'
    rw [advance] at e
    split at e
    · cases e; exact h
    · simp only at e
      rw [Outcome.bind_eq_ok] at e
      obtain ⟨s, -, e⟩ := e
      have ht : 0 ≤ c.time + dt := by linarith
      split at e
      · split at e <;> (cases e; exact (check_iff _).mpr ⟨ht, h1, hd1, hC'.lo, h4⟩)
      · cases e; exact (check_iff _).mpr ⟨ht, h1, hd1, hC'.lo, h4⟩
  | setDataLinear ts ps =>
    rcases step_setData S _ c c' (Or.inl ⟨ts, ps, rfl⟩) e with h' | rfl
    · rw [step, Outcome.bind_eq_ok] at e
      obtain ⟨⟨b, d⟩, e, e'⟩ := e
      cases e'
      exact load _ h' (linear_nonneg _ _ _ _ _ h4 e)
    · exact h
  | setDataVel ts ps v w =>
    rcases step_setData S _ c c' (Or.inr (Or.inl ⟨ts, ps, v, w, rfl⟩)) e with h' | rfl
    · rw [step, Outcome.bind_eq_ok] at e
      obtain ⟨⟨b, d⟩, e, e'⟩ := e
      cases e'
      exact load _ h' (vel_nonneg _ _ _ _ _ _ _ _ e)
    · exact h
  | setDataAcc ts ps v a w b =>
    rcases step_setData S _ c c' (Or.inr (Or.inr ⟨ts, ps, v, a, w, b, rfl⟩)) e with h' | rfl
    · rw [step, Outcome.bind_eq_ok] at e
      obtain ⟨⟨b, d⟩, e, e'⟩ := e
      cases e'
      exact load _ h' (acc_nonneg _ _ _ _ _ _ _ _ _ _ e)
    · exact h

/-- **C68 (partial)**, completeness: `checkContainer` accepts the container after every careful history.
Missing: histories that play past the end, see `C68_rejects_played_out`. -/
theorem C68_check_complete_partial (S : Solver K) (ops : List (Op o K)) (c : Container o K)
    (h : run S ops fresh = .ok c)
    (hg : ∀ pre op post d, ops = pre ++ op :: post → run S pre fresh = .ok d → Careful d op) :
    c.checkContainer = true :=
  (run_invariant S (fun c => c.checkContainer = true ∧ Cursor c) (fun op c => Careful c op)
    (fun op c c' hI hG e => step_check S op c c' hI hG e) ops fresh c
    ⟨by simp [checkContainer, fresh, reset, resetTime], (rewound_reset _).cursor⟩ hg h).1

/-- **C68 is false of the code**: a container that is played by one step beyond its end, which `advance`
performs and reports as successful, is from then on rejected. -/
theorem C68_rejects_played_out (c : Container o K) (h : Tight c) (hne : c.splines ≠ [])
    (ht : c.time < c.duration) (dt : K) (hdt : c.duration < c.time + dt) :
    ∃ c', c.advance dt = .ok (true, c') ∧ c'.checkContainer = false := by
  obtain ⟨c', e, h1, -, h2, -⟩ := (h.advance dt).2 (by push Not; exact ⟨hne, ht⟩)
  refine ⟨c', e, ?_⟩
  rw [Bool.eq_false_iff]
  intro hc
  have := ((check_iff _).mp hc).2.2.1
  rw [h1, h2] at this
  linarith

/-- **C68**, a concrete rejected container: one segment of duration 1 played by a step of 2. -/
theorem C68_refuted : ∃ (S : Solver ℚ) (c : Container .o1 ℚ),
    run S [.addSpline ⟨![1, 0], 1⟩, .advance 2] fresh = .ok c ∧ c.checkContainer = false ∧
      c.getPosition = .ok 1 := by
  obtain ⟨S⟩ := solver_exists (K := ℚ)
  refine ⟨S, ⟨[⟨![1, 0], 1⟩], 0, 2, 1, 1⟩, ?_, by decide +kernel, by decide +kernel⟩
  norm_num [run, step, advance, fresh, reset, resetTime, Container.addSpline, at', toSize, sizeMinus1]

/-- An instance of the two positive parts of C68. -/
example : ∃ (S : Solver ℚ) (c : Container .o1 ℚ),
    run S [.addSpline ⟨![1, 0], 1⟩, .advance (1 / 2), .setContainerTime 1] fresh = .ok c ∧
      c.checkContainer = true := by
  obtain ⟨S⟩ := solver_exists (K := ℚ)
  refine ⟨S, ⟨[⟨![1, 0], 1⟩], 0, 1, 1, 0⟩, ?_, by decide +kernel⟩
  norm_num [run, step, advance, fresh, reset, resetTime, Container.addSpline, at', toSize, sizeMinus1,
    setContainerTime, getActiveSplineIndexAtTime, findLoop]

/-- **C18, new splines.** A spline made without coefficients is at rest at zero at all times, and makes no container
longer. -/
theorem C18_new (c : Container o K) (t : K) :
    (Spline.empty o : Spline o K).getPositionAtTime t = 0 ∧ (Spline.empty o : Spline o K).getVelocityAtTime t = 0 ∧
      (Spline.empty o : Spline o K).getAccelerationAtTime t = 0 ∧
      (c.addSpline (Spline.empty o)).duration = c.duration := by
  simp [Spline.empty, Spline.getPositionAtTime, Spline.getVelocityAtTime, Spline.getAccelerationAtTime, inner,
    Container.addSpline]

end Verif.Container

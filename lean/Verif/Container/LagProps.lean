import Verif.Container.LagLemmas

/-!
# Property C164: a container played with steps of any size

`advance` (PolynomialSplineContainer.tpp:36-55) enters at most one segment per call. C27 says that the cursor agrees
with random access when no step is longer than a segment. Here the steps are arbitrary.
-/

set_option linter.unusedSectionVars false
set_option linter.dupNamespace false

namespace Verif.Container

open Verif.Spline Container

variable {K : Type} [Field K] [LinearOrder K] [IsStrictOrderedRing K] {o : Order}

/-- **C164.** Play a rewound container with any forward steps, the end not being reached before the last one. The time is
the sum of the steps. The cursor is in segment `k`, the least of the number of calls and of, for each call, the segments
over at that time plus the calls made since. If `k` is the number of segments over by now, position, velocity and
acceleration are those of random access. If it is less, they are those at the end of segment `k`, whatever the time. -/
theorem C164_shows (S : Solver K) (c : Container o K) (hd : c.duration = (c.splines.map Spline.duration).sum)
    (hne : c.splines ≠ []) (hpos : ∀ s ∈ c.splines, 0 ≤ s.duration) (ht : c.time = 0) (ho : c.offset = 0)
    (hi : c.idx = 0) (dts : List K) (h0 : ∀ dt ∈ dts, 0 ≤ dt)
    (hend : ∀ j < dts.length, (dts.take j).sum < c.duration) :
    ∃ c' k, run S (dts.map .advance) c = .ok c' ∧ c'.splines = c.splines ∧ c'.time = dts.sum ∧ c'.idx = (k : ℕ) ∧
      k ≤ dts.length ∧ (∀ j ≤ dts.length, k ≤ passed c.splines (dts.take j).sum + (dts.length - j)) ∧
      (k = dts.length ∨ ∃ j ≤ dts.length, k = passed c.splines (dts.take j).sum + (dts.length - j)) ∧
      ∀ q : Quantity, (k = passed c.splines dts.sum → q.now c' = q.atTime dts.sum c) ∧
        ∀ s, k < passed c.splines dts.sum → c.splines[k]? = some s → q.now c' = .ok (q.seg s s.duration) := by
  obtain ⟨c', k, e, hs, ht', -, h, hk, hall, hex⟩ := Behind.play S dts c 0 (Behind.rewound hd hne ho hi) hpos h0
    (by simpa [ht] using hend)
  simp only [ht, zero_add] at ht' hk hall hex
  refine ⟨c', k, e, hs, ht', h.idx, hk, hall, hex, fun q => ?_⟩
  have := h.shows (by rw [hs]; exact hpos) q
  rw [hs, ht'] at this
  refine ⟨fun hkp => ?_, this.2⟩
  rw [this.1 hkp, q.atTime_eq, q.atTime_eq]
  obtain ⟨sp, _, _, _, _⟩ := c
  obtain ⟨sp', _, _, _, _⟩ := c'
  obtain rfl : sp' = sp := hs
  rfl

/-- **C164, when it keeps up.** If since no call more segments have ended than calls were made, and no more in all than
there were calls, the cursor agrees with random access. In particular, starting inside the first segment, if no single
step passes more than one junction: steps may be longer than the shortest segment. -/
theorem C164_keeps_up (S : Solver K) (c : Container o K) (hd : c.duration = (c.splines.map Spline.duration).sum)
    (hne : c.splines ≠ []) (hpos : ∀ s ∈ c.splines, 0 ≤ s.duration) (ht : c.time = 0) (ho : c.offset = 0)
    (hi : c.idx = 0) (dts : List K) (h0 : ∀ dt ∈ dts, 0 ≤ dt)
    (hend : ∀ j < dts.length, (dts.take j).sum < c.duration)
    (hk : passed c.splines dts.sum ≤ dts.length)
    (hj : ∀ j ≤ dts.length, passed c.splines dts.sum ≤ passed c.splines (dts.take j).sum + (dts.length - j)) :
    ∃ c', run S (dts.map .advance) c = .ok c' ∧ c'.time = dts.sum ∧
      ∀ q : Quantity, q.now c' = q.atTime dts.sum c := by
  obtain ⟨c', k, e, -, ht', -, -, hall, hex, hq⟩ := C164_shows S c hd hne hpos ht ho hi dts h0 hend
  refine ⟨c', e, ht', fun q => (hq q).1 (le_antisymm ?_ ?_)⟩
  · simpa using hall dts.length le_rfl
  · rcases hex with rfl | ⟨j, hjl, rfl⟩
    · exact hk
    · exact hj j hjl

/-- **C164, step by step.** If the first segment is not over at the start and no step ends more than one segment, the
cursor agrees with random access after every step. This is weaker than the guard of C27: steps may be longer than some
segments. -/
theorem C164_one_by_one (S : Solver K) (c : Container o K) (hd : c.duration = (c.splines.map Spline.duration).sum)
    (hne : c.splines ≠ []) (hpos : ∀ s ∈ c.splines, 0 ≤ s.duration) (ht : c.time = 0) (ho : c.offset = 0)
    (hi : c.idx = 0) (dts : List K) (h0 : ∀ dt ∈ dts, 0 ≤ dt)
    (hend : ∀ j < dts.length, (dts.take j).sum < c.duration) (hz : passed c.splines 0 = 0)
    (hone : ∀ j < dts.length, passed c.splines (dts.take (j + 1)).sum ≤ passed c.splines (dts.take j).sum + 1) :
    ∃ c', run S (dts.map .advance) c = .ok c' ∧ c'.time = dts.sum ∧
      ∀ q : Quantity, q.now c' = q.atTime dts.sum c := by
  have key : ∀ i j, j + i = dts.length →
      passed c.splines dts.sum ≤ passed c.splines (dts.take j).sum + i := by
    intro i
    induction i with
    | zero => intro j hj; rw [add_zero] at hj; simp [hj]
    | succ i ih =>
      intro j hj
      have h1 := ih (j + 1) (by omega)
      have h2 := hone j (by omega)
      omega
  refine C164_keeps_up S c hd hne hpos ht ho hi dts h0 hend ?_ fun j hj => key _ j (by omega)
  have := key dts.length 0 (by simp)
  simpa [hz] using this

/-- **C164, catching up.** A container that has fallen behind catches up if it is advanced by nothing, as many times as
segments are over. -/
theorem C164_catches_up (S : Solver K) (c : Container o K) (hd : c.duration = (c.splines.map Spline.duration).sum)
    (hne : c.splines ≠ []) (hpos : ∀ s ∈ c.splines, 0 ≤ s.duration) (ht : c.time = 0) (ho : c.offset = 0)
    (hi : c.idx = 0) (dts : List K) (h0 : ∀ dt ∈ dts, 0 ≤ dt) (hend : dts.sum < c.duration) (m : ℕ)
    (hm : passed c.splines dts.sum ≤ m) :
    ∃ c', run S ((dts ++ List.replicate m 0).map .advance) c = .ok c' ∧ c'.time = dts.sum ∧
      ∀ q : Quantity, q.now c' = q.atTime dts.sum c := by
  have hsum : (dts ++ List.replicate m (0 : K)).sum = dts.sum := by simp
  have hnn : ∀ dt ∈ dts ++ List.replicate m (0 : K), 0 ≤ dt := by
    intro dt hm'
    rcases List.mem_append.mp hm' with h | h
    · exact h0 dt h
    · rw [(List.mem_replicate.mp h).2]
  have := C164_keeps_up S c hd hne hpos ht ho hi (dts ++ List.replicate m 0) hnn (fun j _ => by
      refine lt_of_le_of_lt ?_ hend
      rw [← hsum]
      conv_rhs => rw [← List.take_append_drop j (dts ++ List.replicate m (0 : K)), List.sum_append]
      have : 0 ≤ ((dts ++ List.replicate m (0 : K)).drop j).sum :=
        List.sum_nonneg fun x hx => hnn x (List.mem_of_mem_drop hx)
      linarith)
    (by rw [hsum]; simp; omega) (fun j hj => by
      rw [hsum]
      by_cases hjl : j ≤ dts.length
      · simp only [List.length_append, List.length_replicate]; omega
      · have : (dts ++ List.replicate m (0 : K)).take j = dts ++ List.replicate (min (j - dts.length) m) 0 := by
          rw [List.take_append, List.take_of_length_le (by omega), List.take_replicate]
        rw [this]; simp)
  rw [hsum] at this
  exact this

/-- **C164, the end that is never shown.** If a container reaches its end in fewer calls than it has junctions between
segments, it stays before its last segment for ever: every further call returns false, and position, velocity and
acceleration remain those at the end of a segment that is not the last. -/
theorem C164_stuck (S : Solver K) (c : Container o K) (hd : c.duration = (c.splines.map Spline.duration).sum)
    (hne : c.splines ≠ []) (hpos : ∀ s ∈ c.splines, 0 ≤ s.duration) (ht : c.time = 0) (ho : c.offset = 0)
    (hi : c.idx = 0) (dts : List K) (h0 : ∀ dt ∈ dts, 0 ≤ dt)
    (hend : ∀ j < dts.length, (dts.take j).sum < c.duration) (hover : c.duration ≤ dts.sum)
    (hfew : dts.length + 1 < c.splines.length) :
    ∃ c' k s, run S (dts.map .advance) c = .ok c' ∧ c'.time = dts.sum ∧ k ≤ dts.length ∧ c.splines[k]? = some s ∧
      (∀ q : Quantity, q.now c' = .ok (q.seg s s.duration)) ∧ ∀ dt, c'.advance dt = .ok (false, c') := by
  obtain ⟨c', k, e, hs, ht', hd', h, hk, -, -⟩ := Behind.play S dts c 0 (Behind.rewound hd hne ho hi) hpos h0
    (by simpa [ht] using hend)
  simp only [ht, zero_add] at ht' hk
  have hkl : k < c.splines.length := by omega
  have e1 := List.getElem?_eq_getElem hkl
  have hp : c.splines.length ≤ passed c.splines dts.sum := by
    have := (succ_le_passed hpos dts.sum (c.splines.length - 1) (by omega)).mpr (by
      rw [Nat.sub_add_cancel (by omega), startOf_eq, start_length]
      exact (hd.symm.le).trans hover)
    omega
  refine ⟨c', k, _, e, ht', hk, e1, fun q => ?_, fun dt => ?_⟩
  · have := (h.shows (by rw [hs]; exact hpos) q).2
    rw [hs, ht'] at this
    exact this _ (by omega) e1
  · exact advance_false dt c' (Or.inr (Or.inl (by rw [hd', ht']; exact hover)))

/-- Four segments at 10, 20, 30 and 40. -/
def fourSteps : Container .o1 ℚ :=
  ((((fresh.addSpline ⟨![0, 10], 1⟩).addSpline ⟨![0, 20], 2⟩).addSpline ⟨![0, 30], 3⟩).addSpline ⟨![0, 40], 4⟩)

/-- An instance of C164: two steps of 5 seconds reach the end in the third of four segments, which is then shown for
ever, although the end position is that of the fourth. -/
example : ∃ c' c'', fourSteps.advance 5 = .ok (true, c') ∧ c'.advance 5 = .ok (true, c'') ∧ c''.getPosition = .ok 30 ∧
    c''.getEndPosition = 40 ∧ c''.duration ≤ c''.time ∧ ∀ dt, c''.advance dt = .ok (false, c'') := by
  refine ⟨{ fourSteps with time := 5, offset := 1, idx := 1 }, { fourSteps with time := 10, offset := 3, idx := 2 },
    ?_, ?_, by decide +kernel, by decide +kernel, by decide +kernel,
    fun dt => advance_false dt _ (Or.inr (Or.inl (by decide +kernel)))⟩
  · rw [advance_in_range 5 fourSteps 0 _ rfl rfl (by decide +kernel), if_pos (by decide +kernel)]
    congr 3 <;> decide +kernel
  · rw [advance_in_range 5 _ 1 _ rfl rfl (by decide +kernel), if_pos (by decide +kernel)]
    congr 3 <;> decide +kernel

/-- The hypotheses of `C164_stuck` hold there. -/
example : fourSteps.duration = (fourSteps.splines.map Spline.duration).sum ∧
    (∀ s ∈ fourSteps.splines, 0 ≤ s.duration) ∧ (∀ j < 2, (([5, 5] : List ℚ).take j).sum < fourSteps.duration) ∧
    fourSteps.duration ≤ ([5, 5] : List ℚ).sum ∧ 2 + 1 < fourSteps.splines.length := by decide +kernel

/-- The hypotheses of `C164_one_by_one` hold for steps longer than the first segment. -/
example : passed fourSteps.splines 0 = 0 ∧ ∀ j < 4, passed fourSteps.splines ((([2, 2, 2, 4] : List ℚ).take (j + 1)).sum) ≤
    passed fourSteps.splines ((([2, 2, 2, 4] : List ℚ).take j).sum) + 1 := by decide +kernel

/-- One step of 7 seconds falls behind by two segments; three calls without a step make up for it. -/
example : (fourSteps.advance 7 >>= fun r => r.2.getPosition) = .ok 20 ∧
    (fourSteps.advance 7 >>= fun r => r.2.advance 0 >>= fun r => r.2.advance 0 >>= fun r => r.2.advance 0 >>= fun r =>
      r.2.getPosition) = .ok 40 ∧ passed fourSteps.splines 7 = 3 := by decide +kernel

end Verif.Container

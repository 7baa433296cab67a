import Verif.Container.ReproduceProps

/-!
# Fits over a stretched time

The segments of a fit, stretched, are the segments of the fit of the same positions at the stretched times.
-/

set_option linter.unusedSectionVars false
set_option linter.dupNamespace false

namespace Verif.Container

open Verif.Spline Container

variable {K : Type} [Field K] [LinearOrder K] [IsStrictOrderedRing K] {o : Order}

/-- The spline over `l` times the duration. -/
def slow (l : K) (s : Spline o K) : Spline o K := ⟨fun m => s.coeffs m / l ^ (o.deg - m), l * s.duration⟩

theorem clamp_mul {l : K} (hl : 0 < l) (t d : K) : clamp (l * t) (l * d) = l * clamp t d := by
  unfold clamp
  simp only [mul_lt_mul_iff_right₀ hl]
  split
  · by_cases h : 0 < d
    · rw [if_pos h, if_pos (mul_pos hl h)]
    · rw [if_neg h, if_neg (fun h' => h (pos_of_mul_pos_right h' hl.le)), mul_zero]
  · by_cases h : 0 < t
    · rw [if_pos h, if_pos (mul_pos hl h)]
    · rw [if_neg h, if_neg (fun h' => h (pos_of_mul_pos_right h' hl.le)), mul_zero]

theorem slow_read {l : K} (hl : 0 < l) (s : Spline o K) (t : K) :
    (slow l s).getPositionAtTime (l * t) = s.getPositionAtTime t ∧
    (slow l s).getVelocityAtTime (l * t) = s.getVelocityAtTime t / l ∧
    (slow l s).getAccelerationAtTime (l * t) = s.getAccelerationAtTime t / l ^ 2 := by
  have h0 := hl.ne'
  simp only [Spline.getPositionAtTime, Spline.getVelocityAtTime, Spline.getAccelerationAtTime]
  simp only [slow, clamp_mul hl]
  generalize clamp t s.duration = u
  refine ⟨?_, ?_, ?_⟩ <;> cases o <;>
    simp [inner, tau, dtau, ddtau, sum_o1, sum_o2, sum_o3, sum_o4, sum_o5, Order.deg] <;>
    (try simp only [Order.count, Order.deg, Nat.reduceAdd, Nat.reduceMod, Nat.reduceSub, pow_zero, pow_one, div_one]) <;>
    (try field_simp)

theorem slow_zero {l : K} (hl : 0 < l) (s : Spline o K) :
    (slow l s).getPositionAtTime 0 = s.getPositionAtTime 0 ∧
    (slow l s).getVelocityAtTime 0 = s.getVelocityAtTime 0 / l ∧
    (slow l s).getAccelerationAtTime 0 = s.getAccelerationAtTime 0 / l ^ 2 := by
  have := slow_read hl s 0
  rwa [mul_zero] at this

theorem findLoop_slow {l : K} (hl : 0 < l) (t : K) : ∀ (c : List (Spline o K)) (i : ℕ) (off : K),
    findLoop (l * t) (c.map (slow l)) i (l * off) = ((findLoop t c i off).1, l * (findLoop t c i off).2)
  | [], i, off => rfl
  | s :: c, i, off => by
    have h : l * t - l * off < l * s.duration ↔ t - off < s.duration := by
      rw [← mul_sub, mul_lt_mul_iff_right₀ hl]
    simp only [List.map_cons, findLoop, slow, h]
    split
    · rfl
    · have ih := fun off => findLoop_slow hl t c (i + 1) off
      cases c with
      | nil => simpa using ih off
      | cons a c =>
        have := ih (off + s.duration)
        rw [mul_add] at this
        simpa using this

/-- Reading a container of stretched segments. -/
theorem read_slow {l : K} (hl : 0 < l) {x z : Container o K} (hz : z.splines = x.splines.map (slow l)) (t : K) :
    z.getPositionAtTime (l * t) = x.getPositionAtTime t ∧
    z.getVelocityAtTime (l * t) = (x.getVelocityAtTime t >>= fun v => .ok (v / l)) ∧
    z.getAccelerationAtTime (l * t) = (x.getAccelerationAtTime t >>= fun a => .ok (a / l ^ 2)) := by
  by_cases hne : x.splines = []
  · have hne' : z.splines = [] := by rw [hz, hne]; rfl
    simp only [getPositionAtTime, getVelocityAtTime, getAccelerationAtTime, atTime_empty _ _ _ hne,
      atTime_empty _ _ _ hne', Outcome.ok_bind, zero_div, and_self]
  obtain ⟨k, hk, hfind, -⟩ := findLoop_cases t x.splines hne
  have gx := List.getElem?_eq_getElem hk
  have gz : z.splines[k]? = some (slow l x.splines[k]) := by rw [hz, List.getElem?_map, gx]; rfl
  have hfz := findLoop_slow hl t x.splines 0 0
  rw [mul_zero, hfind, ← hz] at hfz
  have hr := fun f => atTime_of_find f t x k _ _ gx hfind
  have hr' := fun f => atTime_of_find f (l * t) z k _ _ gz hfz
  have hs := slow_read hl x.splines[k]
  refine ⟨?_, ?_, ?_⟩
  · rw [getPositionAtTime, getPositionAtTime, hr, hr', ← mul_sub, (hs _).1]
  · rw [getVelocityAtTime, getVelocityAtTime, hr, hr', ← mul_sub, (hs _).2.1, Outcome.ok_bind]
  · rw [getAccelerationAtTime, getAccelerationAtTime, hr, hr', ← mul_sub, (hs _).2.2, Outcome.ok_bind]

theorem Fulfils.slow {ts ps : List K} {v0 vT : K} {c : List (Spline o K)} (h : Fulfils ts ps v0 vT c) {l : K}
    (hl : 0 < l) (b : K) : Fulfils (ts.map fun t => l * t + b) ps (v0 / l) (vT / l) (c.map (slow l)) := by
  refine ⟨by simpa using h.count, ?_, ?_, ?_, ?_⟩
  · intro j s hs x y p q hx hy hp hq
    simp only [List.getElem?_map, Option.map_eq_some_iff] at hs hx hy
    obtain ⟨s, hs, rfl⟩ := hs
    obtain ⟨x, hx, rfl⟩ := hx
    obtain ⟨y, hy, rfl⟩ := hy
    obtain ⟨h1, h2, h3⟩ := h.segment j s hs x y p q hx hy hp hq
    have e : l * y + b - (l * x + b) = l * (y - x) := by ring
    refine ⟨by rw [e, ← h1]; rfl, by rw [(slow_zero hl s).1, h2], by rw [e, (slow_read hl s _).1, h3]⟩
  · intro j s s' hs hs'
    simp only [List.getElem?_map, Option.map_eq_some_iff] at hs hs'
    obtain ⟨s, hs, rfl⟩ := hs
    obtain ⟨s', hs', rfl⟩ := hs'
    obtain ⟨h1, h2⟩ := h.joint j s s' hs hs'
    have hd : (Container.slow l s).duration = l * s.duration := rfl
    rw [hd, (slow_read hl s _).2.1, (slow_read hl s _).2.2, (slow_zero hl s').2.1, (slow_zero hl s').2.2, h1, h2]
    exact ⟨rfl, rfl⟩
  · intro s hs
    simp only [List.head?_map, Option.map_eq_some_iff] at hs
    obtain ⟨s, hs, rfl⟩ := hs
    rw [(slow_zero hl s).2.1, h.first s hs]
  · intro s hs
    simp only [List.getLast?_map, Option.map_eq_some_iff] at hs
    obtain ⟨s, hs, rfl⟩ := hs
    have hd : (Container.slow l s).duration = l * s.duration := rfl
    rw [hd, (slow_read hl s _).2.1, h.last s hs]

theorem EndAccelerations.slow {a0 aT : K} {c : List (Spline o K)} (h : EndAccelerations a0 aT c) {l : K}
    (hl : 0 < l) : EndAccelerations (a0 / l ^ 2) (aT / l ^ 2) (c.map (slow l)) := by
  refine ⟨?_, ?_⟩
  · intro s hs
    simp only [List.head?_map, Option.map_eq_some_iff] at hs
    obtain ⟨s, hs, rfl⟩ := hs
    rw [(slow_zero hl s).2.2, h.first s hs]
  · intro s hs
    simp only [List.getLast?_map, Option.map_eq_some_iff] at hs
    obtain ⟨s, hs, rfl⟩ := hs
    have hd : (Container.slow l s).duration = l * s.duration := rfl
    rw [hd, (slow_read hl s _).2.2, h.last s hs]

/-- The segments of the fit at stretched times, in the determined cases. -/
theorem slow_fit (S S' : Solver K) (ts ps : List K) (h2 : 2 ≤ ts.length) (hb : ts.length ≤ 2 ^ 28)
    (hp : ps.length = ts.length) (hinc : ts.Pairwise (· < ·))
    (ho : o = .o1 ∨ o = .o2 ∨ o = .o3 ∨ o = .o4 ∧ ts.length = 3 ∨ o = .o5 ∧ ts.length = 2)
    (v0 a0 vT aT : K) {l : K} (hl : 0 < l) (b : K) (c d : Container o K) :
    ∃ x z, setDataAcc S ts ps v0 a0 vT aT c = .ok (true, x) ∧
      setDataAcc S' (ts.map fun t => l * t + b) ps (v0 / l) (a0 / l ^ 2) (vT / l) (aT / l ^ 2) d = .ok (true, z) ∧
      z.splines = x.splines.map (slow l) := by
  obtain ⟨n, hn⟩ : ∃ n, ts.length = n + 1 := ⟨ts.length - 1, by omega⟩
  have hn' : (ts.map fun t => l * t + b).length = n + 1 := by simpa using hn
  have hinc' : (ts.map fun t => l * t + b).Pairwise (· < ·) := by
    rw [List.pairwise_map]
    exact hinc.imp fun h => by have := mul_lt_mul_of_pos_left h hl; linarith
  by_cases h12 : o.deg ≤ 2
  · obtain ⟨x, q1, -, r1⟩ := linear_through ts ps n (by omega) hn (by omega) hinc c
    obtain ⟨z, q2, -, r2⟩ := linear_through (ts.map fun t => l * t + b) ps n (by omega) hn' (by omega) hinc' d
    refine ⟨x, z, ?_, ?_, ?_⟩
    · rw [setDataAcc_vel S ts ps v0 a0 vT aT c n (by omega) (by omega) hn (Or.inl (by omega)),
        setDataVel_linear S ts ps v0 vT c n (by omega) (by omega) hn h12, q1]
    · rw [setDataAcc_vel S' _ ps _ _ _ _ d n (by omega) (by omega) hn' (Or.inl (by omega)),
        setDataVel_linear S' _ ps _ _ d n (by omega) (by omega) hn' h12, q2]
    · rw [r1, r2, List.map_map]
      refine List.map_congr_left fun j hj => ?_
      have hj : j < n := List.mem_range.1 hj
      have hd : dur (ts.map fun t => l * t + b) j = l * dur ts j := by
        rw [dur, dur, if_pos (by omega), if_pos (by omega)]
        simp only [knot, List.getElem?_map]
        rw [List.getElem?_eq_getElem (by omega), List.getElem?_eq_getElem (by omega)]
        simp only [Option.map_some, Option.getD_some]
        ring
      have h0 := (dur_pos hinc j).ne'
      simp only [Function.comp_apply, hd, line, slow]
      congr 1
      funext m
      rcases o with _ | _ | _ | _ | _ <;> simp [Order.deg] at h12
      · fin_cases m <;> simp [Order.deg, Order.count, div_div, mul_comm]
      · fin_cases m <;> simp [Order.deg, Order.count, div_div, mul_comm]
  · have ho' : o = .o3 ∨ o = .o4 ∧ ts.length = 3 ∨ o = .o5 ∧ ts.length = 2 := by
      rcases ho with rfl | rfl | h
      · simp [Order.deg] at h12
      · simp [Order.deg] at h12
      · exact h
    obtain ⟨x, q1, f1, a1, -⟩ := C88_determined_partial S ts ps h2 hb hp hinc ho' v0 a0 vT aT c
    obtain ⟨z, q2, -, -, u2⟩ := C88_determined_partial S' (ts.map fun t => l * t + b) ps (by simpa using h2)
      (by simpa using hb) (by simpa using hp) hinc' (by simpa using ho') (v0 / l) (a0 / l ^ 2) (vT / l) (aT / l ^ 2) d
    exact ⟨x, z, q1, q2, (u2 _ (f1.slow hl b) fun h => (a1 h).slow hl).symm⟩

end Verif.Container

import Verif.Container.Rescale
import Verif.PolyCurve.MotionProps
import Verif.Qr.Tables
import Verif.Qr.OffsetProps

/-!
# C142: the unit of time

Measuring the time in another unit should not change the motion that is fitted.
-/

set_option linter.unusedSectionVars false
set_option linter.dupNamespace false

namespace Verif.Qr

open Finset Verif.Spline Verif.Container Verif.Container.Container Verif.PolyCurve Verif.PolyCurve.ScalarCurve

variable {K : Type} [Field K] [LinearOrder K] [IsStrictOrderedRing K] {o : Order}

/-! ## The matrix of two quintic segments -/

/-- The rows of the matrix of two quintic segments with durations `d` and `e`. -/
def two (d e : ℝ) : List (List ℝ) := [
  [0, 0, 0, 0, 0, 1, 0, 0, 0, 0, 0, 0],
  [0, 0, 0, 0, 1, 0, 0, 0, 0, 0, 0, 0],
  [0, 0, 0, 2, 0, 0, 0, 0, 0, 0, 0, 0],
  [0, 0, 0, 0, 0, 0, e ^ 5, e ^ 4, e ^ 3, e ^ 2, e, 1],
  [0, 0, 0, 0, 0, 0, 5 * e ^ 4, 4 * e ^ 3, 3 * e ^ 2, 2 * e, 1, 0],
  [0, 0, 0, 0, 0, 0, 20 * e ^ 3, 12 * e ^ 2, 6 * e, 2, 0, 0],
  [d ^ 5, d ^ 4, d ^ 3, d ^ 2, d, 1, 0, 0, 0, 0, 0, 0],
  [0, 0, 0, 0, 0, 0, 0, 0, 0, 0, 0, 1],
  [5 * d ^ 4, 4 * d ^ 3, 3 * d ^ 2, 2 * d, 1, 0, -0, -0, -0, -0, -1, -0],
  [20 * d ^ 3, 12 * d ^ 2, 6 * d, 2, 0, 0, -0, -0, -0, -2, -0, -0]]

set_option maxRecDepth 10000 in
theorem two_matrix (d e p0 p1 p2 v0 a0 vT aT : ℝ) :
    ∃ s, assembleWith .o5 10 12 1 [p0, p1, p2] [d, e] [v0, a0] [vT, aT] = .ok s ∧ s.rows = 10 ∧ s.cols = 12 ∧
      ∀ i < 10, ∀ q < 12, s.A i q = ((two d e).getD i []).getD q 0 := by
  refine ⟨_, rfl, rfl, rfl, fun i hi q hq => ?_⟩
  interval_cases i <;> interval_cases q <;> rfl

/-- The fit of two quintic segments. -/
theorem two_fit (t0 d e : ℝ) (hd : 0 < d) (he : 0 < e) (p0 p1 p2 v0 a0 vT aT : ℝ) (c : Container .o5 ℝ) :
    ∃ A b, (∀ i < 10, ∀ q < 12, A i q = ((two d e).getD i []).getD q 0) ∧
      (∀ x, Solves 10 12 A b x ↔ FitEq .o5 2 (dur [t0, t0 + d, t0 + d + e]) (knot [p0, p1, p2]) [v0, a0] [vT, aT] x) ∧
      setDataAcc solver [t0, t0 + d, t0 + d + e] [p0, p1, p2] v0 a0 vT aT c = .ok (true, { c.reset with
        splines := [⟨seg .o5 (solver.solve 10 12 A b) 0, d⟩, ⟨seg .o5 (solver.solve 10 12 A b) 1, e⟩]
        duration := d + e }) := by
  have hinc : [t0, t0 + d, t0 + d + e].Pairwise (· < ·) := by
    simp
    refine ⟨⟨hd, by linarith⟩, he⟩
  obtain ⟨s, e1, e2, e3, e4, e5⟩ := fit_solved (o := .o5) solver 3 [t0, t0 + d, t0 + d + e] [p0, p1, p2] [v0, a0]
    [vT, aT] c.reset 2 (by omega) (by omega) rfl rfl hinc (by omega) rfl rfl
  have hdur : (List.range 2).map (dur [t0, t0 + d, t0 + d + e]) = [d, e] := by
    simp [List.range_succ, dur, knot]
  have d0 : dur [t0, t0 + d, t0 + d + e] 0 = d := by simp [dur, knot]
  have d1 : dur [t0, t0 + d, t0 + d + e] 1 = e := by simp [dur, knot]
  obtain ⟨s', f1, f2, f3, f4⟩ := two_matrix d e p0 p1 p2 v0 a0 vT aT
  have : s = s' := by
    rw [hdur] at e1
    exact Outcome.ok.inj (e1.symm.trans f1)
  subst this
  rw [f2, f3] at e4 e5
  refine ⟨s.A, s.b, f4, e4, ?_⟩
  rw [setDataAcc_fit (o := .o5) _ _ _ _ _ _ _ c 2 (by omega) (by omega) rfl (Or.inl rfl), e5, hdur]
  simp [List.range_succ, d0, d1, reset, resetTime]

theorem long_pivots {A : ℕ → ℕ → ℝ} (hA : ∀ i < 10, ∀ q < 12, A i q = ((two 3 4).getD i []).getD q 0) (q : ℕ) :
    q ∈ pivots 10 12 A ↔ ∃ m < 10, longPivots.getD m 0 = q := by
  refine pivots_of_certificate (fun m => longTables.getD m []) (fun m => longPivots.getD m 0)
    (fun m => longFactors.getD m 0) 1 one_ne_zero ?_ (by simpa using long_steps) q
  intro q hq i hi
  rw [hA i hi q hq]
  interval_cases i <;> interval_cases q <;> norm_num [real, entry, longTables, two]

theorem short_pivots {A : ℕ → ℕ → ℝ} (hA : ∀ i < 10, ∀ q < 12, A i q = ((two (3 / 2) 2).getD i []).getD q 0) (q : ℕ) :
    q ∈ pivots 10 12 A ↔ ∃ m < 10, shortPivots.getD m 0 = q := by
  refine pivots_of_certificate (fun m => shortTables.getD m []) (fun m => shortPivots.getD m 0)
    (fun m => shortFactors.getD m 0) 32 (by norm_num) ?_ (by simpa using short_steps) q
  intro q hq i hi
  rw [hA i hi q hq]
  interval_cases i <;> interval_cases q <;> norm_num [real, entry, shortTables, two]

/-- Reading a curve of two segments. -/
theorem two_read (f : Spline .o5 ℝ → ℝ → ℝ) {x : Container .o5 ℝ} {a b : Spline .o5 ℝ} (hx : x.splines = [a, b])
    (t : ℝ) : x.atTime f t = .ok (if t < a.duration then f a t else f b (t - a.duration)) := by
  by_cases h : t < a.duration
  · rw [atTime_of_find f t x 0 0 a (by rw [hx]; rfl) (by rw [hx]; simp [findLoop, h]), if_pos h, sub_zero]
  · have : findLoop t x.splines 0 0 = (((1 : ℕ) : ℤ), a.duration) := by
      rw [hx]
      simp only [findLoop, sub_zero, if_neg h]
      simp
    rw [atTime_of_find f t x 1 _ b (by rw [hx]; rfl) this, if_neg h]

theorem inner_seg0 (y : ℕ → ℝ) (w : Vec .o5 ℝ) : Spline.inner (seg .o5 y 0) w =
    y 0 * w 0 + y 1 * w 1 + y 2 * w 2 + y 3 * w 3 + y 4 * w 4 + y 5 * w 5 := by
  rw [Spline.inner, sum_o5]
  rfl

theorem inner_seg1 (y : ℕ → ℝ) (w : Vec .o5 ℝ) : Spline.inner (seg .o5 y 1) w =
    y 6 * w 0 + y 7 * w 1 + y 8 * w 2 + y 9 * w 3 + y 10 * w 4 + y 11 * w 5 := by
  rw [Spline.inner, sum_o5]
  rfl

/-- The coefficients of the motion `p + v t + w t ^ 2`, the second segment beginning at `d`. -/
def uniform (p v w d : ℝ) (q : ℕ) : ℝ :=
  [0, 0, 0, w, v, p, 0, 0, 0, w, v + 2 * w * d, p + v * d + w * d ^ 2].getD q 0

/-! ## The theorems -/

/-- C142 (partial). In the cases in which the equations determine the fit, the fit of the same positions at
times `l t + b`, the end derivatives converted, is the same motion: at `l t + b` it is where the other is at
`t`, with the converted velocity and acceleration. The solvers may be different. Missing: order 4 with other
than three knots and order 5 with three or more, for which it is false (`C142_refuted`). -/
theorem C142_scaled_partial (S S' : Solver K) (ts ps : List K) (h2 : 2 ≤ ts.length) (hb : ts.length ≤ 2 ^ 28)
    (hp : ps.length = ts.length) (hinc : ts.Pairwise (· < ·))
    (ho : o = .o1 ∨ o = .o2 ∨ o = .o3 ∨ o = .o4 ∧ ts.length = 3 ∨ o = .o5 ∧ ts.length = 2)
    (v0 a0 vT aT l b : K) (hl : 0 < l) (c d : ScalarCurve o K) :
    ∃ x z, c.fitCurveWith S ts ps v0 a0 vT aT = .ok x ∧
      d.fitCurveWith S' (ts.map fun t => l * t + b) ps (v0 / l) (a0 / l ^ 2) (vT / l) (aT / l ^ 2) = .ok z ∧
      ∀ t, z.evaluate (l * t + b) = x.evaluate t ∧
        ∀ v a, x.evaluateDerivative t 1 = .ok (some v) → x.evaluateDerivative t 2 = .ok (some a) →
          z.evaluateDerivative (l * t + b) 1 = .ok (some (v / l)) ∧
          z.evaluateDerivative (l * t + b) 2 = .ok (some (a / l ^ 2)) := by
  obtain ⟨x, z, e1, e2, hz⟩ := slow_fit S S' ts ps h2 hb hp hinc ho v0 a0 vT aT hl b c.container d.container
  obtain ⟨t0, ht0⟩ : ∃ t0, ts.head? = some t0 := by
    cases ts with
    | nil => simp at h2
    | cons t ts => exact ⟨t, rfl⟩
  refine ⟨⟨x, t0⟩, ⟨z, l * t0 + b⟩, ?_, ?_, fun t => ?_⟩
  · simp [ScalarCurve.fitCurveWith, e1, ht0]
  · simp [ScalarCurve.fitCurveWith, e2, ht0]
  · have e : l * t + b - (l * t0 + b) = l * (t - t0) := by ring
    obtain ⟨h1, h2, h3⟩ := read_slow hl hz (t - t0)
    refine ⟨by simp only [ScalarCurve.evaluate, e, h1], fun v a hv ha => ?_⟩
    simp only [ScalarCurve.evaluateDerivative, if_true, Nat.reduceEqDiff, if_false, e, h2, h3] at hv ha ⊢
    simp only [Outcome.bind_eq_ok, Outcome.ok.injEq, Option.some.injEq, exists_eq_right] at hv ha
    simp [hv, ha]

/-- C142 is false of quintic curves with three knots: with the solver of the code, two segments of durations
3 and 4 meet at rest. Whatever the positions and the end derivatives, the velocity and the acceleration at the
middle knot are zero, and the motion sets out from there as from rest. -/
theorem C142_stops (t0 p0 p1 p2 v0 a0 vT aT : ℝ) (c : ScalarCurve .o5 ℝ) :
    ∃ x, c.fitCurveWith solver [t0, t0 + 3, t0 + 3 + 4] [p0, p1, p2] v0 a0 vT aT = .ok x ∧
      x.evaluateDerivative (t0 + 3) 1 = .ok (some 0) ∧ x.evaluateDerivative (t0 + 3) 2 = .ok (some 0) ∧
      ∃ α β γ : ℝ, ∀ u, 0 ≤ u → u ≤ 4 →
        x.evaluate (t0 + 3 + u) = .ok (p1 + α * u ^ 3 + β * u ^ 4 + γ * u ^ 5) := by
  obtain ⟨A, b, hA, hs, hfit⟩ := two_fit t0 3 4 (by norm_num) (by norm_num) p0 p1 p2 v0 a0 vT aT c.container
  have hz : ∀ q, q = 9 ∨ q = 10 → (solver : Solver ℝ).solve 10 12 A b q = 0 := by
    intro q hq
    refine (solver_pivots 10 12 A).1 b q ?_
    rw [long_pivots hA]
    rintro ⟨m, hm, h⟩
    revert h
    rcases hq with rfl | rfl <;> interval_cases m <;> decide
  have hp : (solver : Solver ℝ).solve 10 12 A b 11 = p1 := by
    obtain ⟨y, hy⟩ := solvable_acc5 2 (by omega) (dur [t0, t0 + 3, t0 + 3 + 4]) (knot [p0, p1, p2])
      (dur_pos (by norm_num; linarith)) v0 a0 vT aT
    have := eqs_start ((hs _).1 ((solver : Solver ℝ).exact 10 12 A b ⟨y, (hs y).2 hy⟩)) (j := 1) (by omega)
    exact this.trans (by simp [knot])
  have hc : clamp (0 : ℝ) 4 = 0 := by norm_num [clamp]
  generalize (solver : Solver ℝ).solve 10 12 A b = y at hz hp hfit
  refine ⟨_, by simp only [ScalarCurve.fitCurveWith, hfit]; rfl, ?_, ?_, y 8, y 7, y 6, fun u h0 h1 => ?_⟩
  · simp only [ScalarCurve.evaluateDerivative, if_true, getVelocityAtTime]
    rw [two_read _ rfl]
    simp [Spline.getVelocityAtTime, inner_seg1, dtau, hc, hz]
  · simp only [ScalarCurve.evaluateDerivative, Nat.reduceEqDiff, if_false, if_true, getAccelerationAtTime]
    rw [two_read _ rfl]
    simp [Spline.getAccelerationAtTime, inner_seg1, ddtau, hc, hz]
  · have e : t0 + 3 + u - t0 = 3 + u := by ring
    simp only [ScalarCurve.evaluate, getPositionAtTime, e]
    rw [two_read _ rfl]
    simp only [if_neg (show ¬ 3 + u < 3 by linarith), add_sub_cancel_left, Spline.getPositionAtTime, inner_seg1,
      clamp_inside h0 h1]
    simp [tau, hz, hp]
    ring

/-- At half the times the same fit follows every motion of constant acceleration. -/
theorem C142_passes (t0 p v w : ℝ) (c : ScalarCurve .o5 ℝ) :
    ∃ x, c.fitCurveWith solver [t0, t0 + 3 / 2, t0 + 3 / 2 + 2]
        [p, p + v * (3 / 2) + w * (3 / 2) ^ 2, p + v * (7 / 2) + w * (7 / 2) ^ 2] v (2 * w) (v + 2 * w * (7 / 2)) (2 * w) =
          .ok x ∧
      ∀ u, 0 ≤ u → u ≤ 7 / 2 → x.evaluate (t0 + u) = .ok (p + v * u + w * u ^ 2) ∧
        x.evaluateDerivative (t0 + u) 1 = .ok (some (v + 2 * w * u)) ∧
        x.evaluateDerivative (t0 + u) 2 = .ok (some (2 * w)) := by
  obtain ⟨A, b, hA, hs, hfit⟩ := two_fit t0 (3 / 2) 2 (by norm_num) (by norm_num) p
    (p + v * (3 / 2) + w * (3 / 2) ^ 2) (p + v * (7 / 2) + w * (7 / 2) ^ 2) v (2 * w) (v + 2 * w * (7 / 2)) (2 * w)
    c.container
  have hy : Solves 10 12 A b (uniform p v w (3 / 2)) := by
    rw [hs]
    have d0 : dur [t0, t0 + 3 / 2, t0 + 3 / 2 + 2] 0 = 3 / 2 := by simp [dur, knot]
    have d1 : dur [t0, t0 + 3 / 2, t0 + 3 / 2 + 2] 1 = 2 := by simp [dur, knot]
    refine ⟨⟨?_, ?_, ?_⟩, ⟨?_, ?_, ?_⟩, ?_⟩
    · intro x hx
      simp [knot] at hx
      rw [← hx, inner_seg0]
      simp [uniform, tauZero]
    · intro x hx
      simp at hx
      rw [← hx, inner_seg0]
      simp [uniform, dtauZero]
    · intro x hx
      simp at hx
      rw [← hx, inner_seg0]
      simp [uniform, ddtauZero]
      ring
    · intro x hx
      simp [knot] at hx
      rw [← hx, inner_seg1, d1]
      simp [uniform, tau]
      ring
    · intro x hx
      simp at hx
      rw [← hx, inner_seg1, d1]
      simp [uniform, dtau]
      ring
    · intro x hx
      simp at hx
      rw [← hx, inner_seg1]
      simp [uniform, ddtau]
      ring
    · intro j hj
      obtain rfl : j = 0 := by omega
      refine ⟨?_, ?_, ?_, ?_⟩
      · rw [inner_seg0, d0]
        simp [uniform, tau, knot]
        ring
      · rw [inner_seg1]
        simp [uniform, tauZero, knot]
      · rw [inner_seg0, inner_seg1, d0]
        simp [uniform, dtau, dtauZero]
        ring
      · rw [inner_seg0, inner_seg1]
        simp [uniform, ddtau, ddtauZero]
  have hz : (solver : Solver ℝ).solve 10 12 A b = uniform p v w (3 / 2) := by
    have hx := (solver : Solver ℝ).exact 10 12 A b ⟨_, hy⟩
    have hP := solver_pivots 10 12 A
    have := hP.2 (fun q => (solver : Solver ℝ).solve 10 12 A b q - uniform p v w (3 / 2) q) (fun q hq => by
      have e : (solver : Solver ℝ).solve 10 12 A b q = 0 := hP.1 b q hq
      rw [e, zero_sub, neg_eq_zero]
      rw [short_pivots hA] at hq
      by_cases hq' : q < 12
      · interval_cases q <;> first
          | rfl
          | exact absurd ⟨5, by decide, rfl⟩ hq
          | exact absurd ⟨6, by decide, rfl⟩ hq
          | exact absurd ⟨7, by decide, rfl⟩ hq
          | exact absurd ⟨8, by decide, rfl⟩ hq
          | exact absurd ⟨9, by decide, rfl⟩ hq
          | exact absurd ⟨4, by decide, rfl⟩ hq
      · rw [uniform, List.getD_eq_getElem?_getD, List.getElem?_eq_none (by simpa using hq')]; rfl) (fun r hr => by
      simp only [mul_sub, Finset.sum_sub_distrib]
      rw [hx r hr, hy r hr, sub_self])
    funext q
    exact sub_eq_zero.1 (congrFun this q)
  rw [hz] at hfit
  refine ⟨_, by simp only [ScalarCurve.fitCurveWith, hfit]; rfl, fun u h0 h1 => ?_⟩
  simp only [ScalarCurve.evaluate, ScalarCurve.evaluateDerivative, if_true, Nat.reduceEqDiff, if_false,
    getPositionAtTime, getVelocityAtTime, getAccelerationAtTime, add_sub_cancel_left]
  have hr := fun f => two_read f (x := { c.container.reset with
        splines := [⟨seg .o5 (uniform p v w (3 / 2)) 0, 3 / 2⟩, ⟨seg .o5 (uniform p v w (3 / 2)) 1, 2⟩]
        duration := 3 / 2 + 2 }) rfl u
  simp only at hr
  rw [hr, hr, hr]
  simp only [Outcome.ok_bind, Outcome.ok.injEq, Option.some.injEq]
  by_cases hu : u < 3 / 2
  · simp only [if_pos hu, Spline.getPositionAtTime, Spline.getVelocityAtTime, Spline.getAccelerationAtTime, inner_seg0,
      clamp_inside h0 hu.le]
    refine ⟨?_, ?_, ?_⟩ <;> simp [uniform, tau, dtau, ddtau] <;> ring
  · simp only [if_neg hu, Spline.getPositionAtTime, Spline.getVelocityAtTime, Spline.getAccelerationAtTime, inner_seg1,
      clamp_inside (show (0 : ℝ) ≤ u - 3 / 2 by linarith) (show u - 3 / 2 ≤ 2 by linarith)]
    refine ⟨?_, ?_, ?_⟩ <;> simp [uniform, tau, dtau, ddtau] <;> ring

/-- C142 is false: a motion with constant speed, sampled at `0`, `3` and `7` with its end derivatives, and the
same motion with the time measured in a unit twice as long. The second fit is the motion, the first is not. -/
theorem C142_refuted (p v : ℝ) (hv : v ≠ 0) (c d : ScalarCurve .o5 ℝ) :
    ∃ x z, c.fitCurveWith solver [0, 3, 7] [p, p + v * 3, p + v * 7] v 0 v 0 = .ok x ∧
      d.fitCurveWith solver ([0, 3, 7].map fun t => 1 / 2 * t + 0) [p, p + v * 3, p + v * 7] (v / (1 / 2)) 0
        (v / (1 / 2)) 0 = .ok z ∧
      (∀ t, 0 ≤ t → t ≤ 7 → z.evaluate (1 / 2 * t) = .ok (p + v * t)) ∧
      (∃ t, 0 < t ∧ t < 7 ∧ x.evaluate t ≠ z.evaluate (1 / 2 * t)) ∧
      x.evaluateDerivative 3 1 = .ok (some 0) := by
  obtain ⟨x, e1, h1, -, α, β, γ, h3⟩ := C142_stops 0 p (p + v * 3) (p + v * 7) v 0 v 0 c
  obtain ⟨z, e2, h2⟩ := C142_passes 0 p (2 * v) 0 d
  have hz : ∀ t, 0 ≤ t → t ≤ 7 → z.evaluate (1 / 2 * t) = .ok (p + v * t) := by
    intro t h0 h7
    have := (h2 (1 / 2 * t) (by linarith) (by linarith)).1
    rw [zero_add] at this
    rw [this]
    congr 1
    ring
  refine ⟨x, z, ?_, ?_, hz, ?_, ?_⟩
  · rw [show [0, 3, 7] = [0, (0 : ℝ) + 3, 0 + 3 + 4] by norm_num]
    exact e1
  · rw [show ([0, 3, 7].map fun t => 1 / 2 * t + 0) = [0, (0 : ℝ) + 3 / 2, 0 + 3 / 2 + 2] by norm_num,
      show [p, p + v * 3, p + v * 7] = [p, p + 2 * v * (3 / 2) + 0 * (3 / 2) ^ 2,
        p + 2 * v * (7 / 2) + 0 * (7 / 2) ^ 2] by congr 1; congr 1; ring; congr 1; ring,
      show v / (1 / 2) = 2 * v by ring]
    simpa using e2
  · by_contra hcon
    push Not at hcon
    have key : ∀ u, 0 < u → u < 4 → v * u = α * u ^ 3 + β * u ^ 4 + γ * u ^ 5 := by
      intro u h0 h4
      have a := h3 u h0.le h4.le
      rw [zero_add] at a
      have b := hcon (3 + u) (by linarith) (by linarith)
      rw [a, hz (3 + u) (by linarith) (by linarith), Outcome.ok.injEq] at b
      linarith
    have k1 := key 1 (by norm_num) (by norm_num)
    have k2 := key 2 (by norm_num) (by norm_num)
    have k3 := key 3 (by norm_num) (by norm_num)
    have k4 := key (1 / 2) (by norm_num) (by norm_num)
    norm_num at k1 k2 k3 k4
    exact hv (by linarith)
  · rw [zero_add] at h1
    exact h1

/-- The same of the vector curve: every component stands still at the middle knot. -/
theorem C142_vector {N : ℕ} (t0 : ℝ) (p0 p1 p2 v0 a0 vT aT : Fin N → ℝ) (c : VectorCurve N ℝ) :
    ∃ x, c.fitCurveWith solver [t0, t0 + 3, t0 + 3 + 4] [p0, p1, p2] v0 a0 vT aT = .ok x ∧
      ∀ i, x.evaluateDerivative 3 1 i = .ok (some 0) ∧ x.evaluateDerivative 3 2 i = .ok (some 0) := by
  obtain ⟨x, e, h⟩ := C71_vector_is_scalar solver [t0, t0 + 3, t0 + 3 + 4] [p0, p1, p2] (by simp) (by norm_num) rfl
    (by norm_num; linarith) v0 a0 vT aT c
  refine ⟨x, e, fun i => ?_⟩
  obtain ⟨y, f, g⟩ := h i
  obtain ⟨y', f', h1, h2, -⟩ := C142_stops t0 (p0 i) (p1 i) (p2 i) (v0 i) (a0 i) (vT i) (aT i) ScalarCurve.fresh
  simp only [List.map_cons, List.map_nil] at f
  rw [f'] at f
  cases f
  rw [(g 3).2, (g 3).2, List.getElem_cons_zero, add_comm]
  exact ⟨h1, h2⟩

/-- An instance of C142: a cubic curve through three points, the time in minutes and in seconds. -/
example : ∃ (S : Solver ℚ) (x z : ScalarCurve .o3 ℚ),
    ScalarCurve.fresh.fitCurveWith S [0, 1, 3] [0, 5, 4] 60 0 0 0 = .ok x ∧
    ScalarCurve.fresh.fitCurveWith S [0, 60, 180] [0, 5, 4] 1 0 0 0 = .ok z ∧ z.evaluate 120 = x.evaluate 2 := by
  obtain ⟨S⟩ := solver_exists (K := ℚ)
  obtain ⟨x, z, h1, h2, h3⟩ := C142_scaled_partial (o := .o3) S S [0, 1, 3] [0, 5, 4] (by simp) (by norm_num) rfl
    (by norm_num) (Or.inr (Or.inr (Or.inl rfl))) 60 0 0 0 60 0 (by norm_num) ScalarCurve.fresh ScalarCurve.fresh
  refine ⟨S, x, z, h1, ?_, ?_⟩
  · rw [← h2]
    norm_num
  · rw [← (h3 2).1]
    norm_num

end Verif.Qr

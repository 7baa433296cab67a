import Verif.Container.Reverse
import Verif.Qr.UnitProps
import Verif.Qr.MirrorTables

/-!
# C147: playing the data backwards

The fit of the same positions in the opposite order, at the mirrored times, should be the same path.
-/

set_option linter.unusedSectionVars false
set_option linter.dupNamespace false

namespace Verif.Qr

open Finset Verif.Spline Verif.Container Verif.Container.Container Verif.PolyCurve Verif.PolyCurve.ScalarCurve

variable {K : Type} [Field K] [LinearOrder K] [IsStrictOrderedRing K] {o : Order}

theorem there_pivots {A : ℕ → ℕ → ℝ} (hA : ∀ i < 10, ∀ q < 12, A i q = ((two 1 2).getD i []).getD q 0) (q : ℕ) :
    q ∈ pivots 10 12 A ↔ ∃ m < 10, therePivots.getD m 0 = q := by
  refine pivots_of_certificate (fun m => thereTables.getD m []) (fun m => therePivots.getD m 0)
    (fun m => thereFactors.getD m 0) 1 one_ne_zero ?_ (by simpa using there_steps) q
  intro q hq i hi
  rw [hA i hi q hq]
  interval_cases i <;> interval_cases q <;> norm_num [real, entry, thereTables, two]

theorem hither_pivots {A : ℕ → ℕ → ℝ} (hA : ∀ i < 10, ∀ q < 12, A i q = ((two 2 1).getD i []).getD q 0) (q : ℕ) :
    q ∈ pivots 10 12 A ↔ ∃ m < 10, hitherPivots.getD m 0 = q := by
  refine pivots_of_certificate (fun m => hitherTables.getD m []) (fun m => hitherPivots.getD m 0)
    (fun m => hitherFactors.getD m 0) 1 one_ne_zero ?_ (by simpa using hither_steps) q
  intro q hq i hi
  rw [hA i hi q hq]
  interval_cases i <;> interval_cases q <;> norm_num [real, entry, hitherTables, two]

/-- C147 (partial). In the cases in which the equations determine the fit, the fit of the positions in the
opposite order at the times `b - t`, with the end velocities exchanged and turned round and the end
accelerations exchanged, is the same path played backwards: at `b - t` it is where the other is at `t`, and if
the order is at least 3 it has the opposite velocity and the same acceleration there. The solvers may be
different. Missing: order 5 with three or more knots (with three it is false, `C147_refuted`); order 4 with other
than three knots, where the equations leave the choice to the solver; the derivatives for order 1 and 2, which
jump at the inner knots. -/
theorem C147_reversed_partial (S S' : Solver K) (ts ps : List K) (h2 : 2 ≤ ts.length) (hb : ts.length ≤ 2 ^ 28)
    (hp : ps.length = ts.length) (hinc : ts.Pairwise (· < ·))
    (ho : o = .o1 ∨ o = .o2 ∨ o = .o3 ∨ o = .o4 ∧ ts.length = 3 ∨ o = .o5 ∧ ts.length = 2)
    (v0 a0 vT aT b : K) (c d : ScalarCurve o K) :
    ∃ x z, c.fitCurveWith S ts ps v0 a0 vT aT = .ok x ∧
      d.fitCurveWith S' (ts.map fun t => b - t).reverse ps.reverse (-vT) aT (-v0) a0 = .ok z ∧
      ∀ t, z.evaluate (b - t) = x.evaluate t ∧
        (3 ≤ o.deg → ∀ v a, x.evaluateDerivative t 1 = .ok (some v) → x.evaluateDerivative t 2 = .ok (some a) →
          z.evaluateDerivative (b - t) 1 = .ok (some (-v)) ∧
          z.evaluateDerivative (b - t) 2 = .ok (some a)) := by
  obtain ⟨x, z, e1, e2, hz, hpos, hj, hj'⟩ := back_fit S S' ts ps h2 hb hp hinc ho v0 a0 vT aT b c.container d.container
  obtain ⟨n, hn⟩ : ∃ n, ts.length = n + 1 := ⟨ts.length - 1, by omega⟩
  obtain ⟨x', e1', g⟩ := acc_through S ts ps v0 a0 vT aT c.container n (by omega) (by omega) hn (by omega) hinc
  rw [e1] at e1'
  cases e1'
  have htot := g.totals (by rintro rfl; simp at h2)
  have h0 : ts.head? = some (knot ts 0) := by
    rw [List.head?_eq_getElem?]
    exact getElem?_knot (by omega)
  have hl : (ts.map fun t => b - t).reverse.head? = some (b - knot ts (ts.length - 1)) := by
    rw [List.head?_reverse, List.getLast?_map, List.getLast?_eq_getElem?, getElem?_knot (by omega)]
    rfl
  refine ⟨⟨x, knot ts 0⟩, ⟨z, b - knot ts (ts.length - 1)⟩, ?_, ?_, fun t => ?_⟩
  · simp only [ScalarCurve.fitCurveWith, e1, h0, Outcome.ok_bind, Outcome.deref_some]
  · simp only [ScalarCurve.fitCurveWith, e2, hl, Outcome.ok_bind, Outcome.deref_some]
  · have e : b - t - (b - knot ts (ts.length - 1)) = total x.splines - (t - knot ts 0) := by rw [htot]; ring
    refine ⟨?_, fun hd v a hv ha => ?_⟩
    · have := read_backs Spline.getPositionAtTime 1 (fun s hs t => by rw [(back_read s hs t).1, one_mul]) hz hpos hj
        (t - knot ts 0)
      simp only [ScalarCurve.evaluate, e, getPositionAtTime]
      rw [this]
      obtain ⟨w, hw⟩ := atTime_isOk Spline.getPositionAtTime x (t - knot ts 0)
      rw [hw, Outcome.ok_bind, one_mul]
    · have r1 := read_backs Spline.getVelocityAtTime (-1) (fun s hs t => by rw [(back_read s hs t).2.1, neg_one_mul]) hz
        hpos (fun j s s' h h' => (hj' hd j s s' h h').1) (t - knot ts 0)
      have r2 := read_backs Spline.getAccelerationAtTime 1 (fun s hs t => by rw [(back_read s hs t).2.2, one_mul]) hz
        hpos (fun j s s' h h' => (hj' hd j s s' h h').2) (t - knot ts 0)
      simp only [ScalarCurve.evaluateDerivative, if_true, Nat.reduceEqDiff, if_false, e, getVelocityAtTime,
        getAccelerationAtTime, r1, r2] at hv ha ⊢
      simp only [Outcome.bind_eq_ok, Outcome.ok.injEq, Option.some.injEq, exists_eq_right] at hv ha
      simp [hv, ha]

/-! ## Two quintic segments -/

/-- The equations of two quintic segments, written out. -/
theorem two_eqs {t0 d e p0 p1 p2 v0 a0 vT aT : ℝ} {y : ℕ → ℝ}
    (h : FitEq .o5 2 (dur [t0, t0 + d, t0 + d + e]) (knot [p0, p1, p2]) [v0, a0] [vT, aT] y) :
    y 5 = p0 ∧ y 4 = v0 ∧ 2 * y 3 = a0 ∧
    y 6 * e ^ 5 + y 7 * e ^ 4 + y 8 * e ^ 3 + y 9 * e ^ 2 + y 10 * e + y 11 = p2 ∧
    y 6 * (5 * e ^ 4) + y 7 * (4 * e ^ 3) + y 8 * (3 * e ^ 2) + y 9 * (2 * e) + y 10 = vT ∧
    y 6 * (20 * e ^ 3) + y 7 * (12 * e ^ 2) + y 8 * (6 * e) + y 9 * 2 = aT ∧
    y 0 * d ^ 5 + y 1 * d ^ 4 + y 2 * d ^ 3 + y 3 * d ^ 2 + y 4 * d + y 5 = p1 ∧ y 11 = p1 ∧
    y 0 * (5 * d ^ 4) + y 1 * (4 * d ^ 3) + y 2 * (3 * d ^ 2) + y 3 * (2 * d) + y 4 = y 10 ∧
    y 0 * (20 * d ^ 3) + y 1 * (12 * d ^ 2) + y 2 * (6 * d) + y 3 * 2 = y 9 * 2 := by
  have d0 : dur [t0, t0 + d, t0 + d + e] 0 = d := by simp [dur, knot]
  have d1 : dur [t0, t0 + d, t0 + d + e] 1 = e := by simp [dur, knot]
  obtain ⟨⟨h1, h2, h3⟩, ⟨h4, h5, h6⟩, h7⟩ := h
  obtain ⟨h7, h8, h9, h10⟩ := h7 0 (by omega)
  have h1 := h1 p0 rfl
  have h2 := h2 v0 rfl
  have h3 := h3 a0 rfl
  have h4 := h4 p2 rfl
  have h5 := h5 vT rfl
  have h6 := h6 aT rfl
  rw [inner_seg0] at h1 h2 h3 h7 h9 h10
  rw [inner_seg1] at h4 h5 h6 h8 h9 h10
  rw [d1] at h4 h5 h6
  rw [d0] at h7 h9 h10
  simp [tauZero, dtauZero, ddtauZero, tau, dtau, ddtau, knot] at h1 h2 h3 h4 h5 h6 h7 h8 h9 h10
  refine ⟨?_, ?_, ?_, ?_, ?_, ?_, ?_, ?_, ?_, ?_⟩ <;> linarith

/-- The velocity in the middle of a curve of two segments. -/
theorem two_velocity {t0 d e : ℝ} (he : 0 ≤ e) {x : ScalarCurve .o5 ℝ} {y : ℕ → ℝ} (hm : x.minTime = t0)
    (hx : x.container.splines = [⟨seg .o5 y 0, d⟩, ⟨seg .o5 y 1, e⟩]) :
    x.evaluateDerivative (t0 + d) 1 = .ok (some (y 10)) := by
  have hc : clamp (0 : ℝ) e = 0 := by simp [clamp, not_lt.2 he]
  simp only [ScalarCurve.evaluateDerivative, if_true, getVelocityAtTime, hm]
  rw [two_read _ hx]
  simp [Spline.getVelocityAtTime, inner_seg1, dtau, hc]

/-- From rest to rest in two segments of durations 1 and 2: the velocity in the middle. -/
theorem C147_there (t0 p0 p1 p2 : ℝ) (c : ScalarCurve .o5 ℝ) :
    ∃ x, c.fitCurveWith solver [t0, t0 + 1, t0 + 1 + 2] [p0, p1, p2] 0 0 0 0 = .ok x ∧
      x.evaluateDerivative (t0 + 1) 1 = .ok (some (40 / 27 * (p1 - p0) + 5 / 27 * (p2 - p0))) := by
  obtain ⟨A, b, hA, hs, hfit⟩ := two_fit t0 1 2 (by norm_num) (by norm_num) p0 p1 p2 0 0 0 0 c.container
  have hz : ∀ q, q = 1 ∨ q = 8 → (solver : Solver ℝ).solve 10 12 A b q = 0 := by
    intro q hq
    refine (solver_pivots 10 12 A).1 b q ?_
    rw [there_pivots hA]
    rintro ⟨m, hm, h⟩
    revert h
    rcases hq with rfl | rfl <;> interval_cases m <;> decide
  obtain ⟨y, hy⟩ := solvable_acc5 2 (by omega) (dur [t0, t0 + 1, t0 + 1 + 2]) (knot [p0, p1, p2])
      (dur_pos (by norm_num; linarith)) 0 0 0 0
  have heq := two_eqs ((hs _).1 ((solver : Solver ℝ).exact 10 12 A b ⟨y, (hs y).2 hy⟩))
  generalize (solver : Solver ℝ).solve 10 12 A b = y at hz heq hfit
  refine ⟨_, by simp only [ScalarCurve.fitCurveWith, hfit]; rfl, ?_⟩
  refine (two_velocity (t0 := t0) (y := y) (d := 1) (e := 2) (by norm_num) rfl rfl).trans ?_
  have z1 := hz 1 (Or.inl rfl)
  have z8 := hz 8 (Or.inr rfl)
  obtain ⟨h1, h2, h3, h4, h5, h6, h7, h8, h9, h10⟩ := heq
  rw [z1] at h7 h9 h10
  rw [z8] at h4 h5 h6
  congr 2
  norm_num at h1 h2 h3 h4 h5 h6 h7 h8 h9 h10
  linarith

/-- The same with the durations exchanged. -/
theorem C147_hither (t0 p0 p1 p2 : ℝ) (c : ScalarCurve .o5 ℝ) :
    ∃ x, c.fitCurveWith solver [t0, t0 + 2, t0 + 2 + 1] [p0, p1, p2] 0 0 0 0 = .ok x ∧
      x.evaluateDerivative (t0 + 2) 1 = .ok (some (15 / 14 * (p2 - p0) - 15 / 28 * (p1 - p0))) := by
  obtain ⟨A, b, hA, hs, hfit⟩ := two_fit t0 2 1 (by norm_num) (by norm_num) p0 p1 p2 0 0 0 0 c.container
  have hz : ∀ q, q = 2 ∨ q = 7 → (solver : Solver ℝ).solve 10 12 A b q = 0 := by
    intro q hq
    refine (solver_pivots 10 12 A).1 b q ?_
    rw [hither_pivots hA]
    rintro ⟨m, hm, h⟩
    revert h
    rcases hq with rfl | rfl <;> interval_cases m <;> decide
  obtain ⟨y, hy⟩ := solvable_acc5 2 (by omega) (dur [t0, t0 + 2, t0 + 2 + 1]) (knot [p0, p1, p2])
      (dur_pos (by norm_num; linarith)) 0 0 0 0
  have heq := two_eqs ((hs _).1 ((solver : Solver ℝ).exact 10 12 A b ⟨y, (hs y).2 hy⟩))
  generalize (solver : Solver ℝ).solve 10 12 A b = y at hz heq hfit
  refine ⟨_, by simp only [ScalarCurve.fitCurveWith, hfit]; rfl, ?_⟩
  refine (two_velocity (t0 := t0) (y := y) (d := 2) (e := 1) (by norm_num) rfl rfl).trans ?_
  have z1 := hz 2 (Or.inl rfl)
  have z8 := hz 7 (Or.inr rfl)
  obtain ⟨h1, h2, h3, h4, h5, h6, h7, h8, h9, h10⟩ := heq
  rw [z1] at h7 h9 h10
  rw [z8] at h4 h5 h6
  congr 2
  norm_num at h1 h2 h3 h4 h5 h6 h7 h8 h9 h10
  linarith

/-- C147 is false of quintic curves with three knots: out to `q` in one second and home in two, at rest at both
ends, and the same data played backwards, with the solver of the code. On the way out the curve passes `q` with
velocity `40/27 (q - p)`; backwards it passes `q` with `-15/28 (q - p)`, not with the opposite velocity. -/
theorem C147_refuted (p q : ℝ) (hq : q ≠ p) (c d : ScalarCurve .o5 ℝ) :
    ∃ x z, c.fitCurveWith solver [0, 1, 3] [p, q, p] 0 0 0 0 = .ok x ∧
      d.fitCurveWith solver ([0, 1, 3].map fun t => 3 - t).reverse [p, q, p].reverse (-0) 0 (-0) 0 = .ok z ∧
      x.evaluateDerivative 1 1 = .ok (some (40 / 27 * (q - p))) ∧
      z.evaluateDerivative (3 - 1) 1 = .ok (some (-(15 / 28 * (q - p)))) ∧
      z.evaluateDerivative (3 - 1) 1 ≠ .ok (some (-(40 / 27 * (q - p)))) := by
  obtain ⟨x, e1, h1⟩ := C147_there 0 p q p c
  obtain ⟨z, e2, h2⟩ := C147_hither 0 p q p d
  have h2' : z.evaluateDerivative (3 - 1) 1 = .ok (some (-(15 / 28 * (q - p)))) := by
    rw [show (3 : ℝ) - 1 = 0 + 2 by norm_num, h2]
    congr 2
    ring
  refine ⟨x, z, ?_, ?_, ?_, h2', ?_⟩
  · rw [← e1]; norm_num
  · rw [← e2]; norm_num
  · rw [show (1 : ℝ) = 0 + 1 by norm_num]
    rw [h1]
    congr 2
    ring
  · rw [h2']
    intro h
    have h := Option.some.inj (Outcome.ok.inj h)
    have : q - p = 0 := by linarith
    exact hq (sub_eq_zero.1 this)

/-- An instance of C147: a cubic curve through three points and back. -/
example : ∃ (S : Solver ℚ) (x z : ScalarCurve .o3 ℚ),
    ScalarCurve.fresh.fitCurveWith S [0, 1, 3] [0, 5, 4] 2 0 7 0 = .ok x ∧
    ScalarCurve.fresh.fitCurveWith S [0, 2, 3] [4, 5, 0] (-7) 0 (-2) 0 = .ok z ∧ z.evaluate 1 = x.evaluate 2 := by
  obtain ⟨S⟩ := solver_exists (K := ℚ)
  obtain ⟨x, z, h1, h2, h3⟩ := C147_reversed_partial (o := .o3) S S [0, 1, 3] [0, 5, 4] (by simp) (by norm_num) rfl
    (by norm_num) (Or.inr (Or.inr (Or.inl rfl))) 2 0 7 0 3 ScalarCurve.fresh ScalarCurve.fresh
  refine ⟨S, x, z, h1, ?_, ?_⟩
  · rw [← h2]
    norm_num
  · rw [← (h3 2).1]
    norm_num

end Verif.Qr

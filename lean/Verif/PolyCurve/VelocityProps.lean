import Verif.PolyCurve.SampleProps

/-!
# Property C173: the velocity and acceleration of a cubic scalar curve between its knots

C167 gives the values of a fitted `PolynomialSplineScalarCurve` of order 3 by the data and the velocities at the knots. Here the same
for `evaluateDerivative`, with what follows for its limits and for samples of a smooth motion.
-/

set_option linter.unusedSectionVars false
set_option linter.dupNamespace false

namespace Verif.PolyCurve

open Verif.Spline Verif.Container Verif.Manager Polynomial
open Hermite.E3 (speed)

variable {K : Type} [Field K] [LinearOrder K] [IsStrictOrderedRing K]

/-- The derivatives of a cubic by its values and slopes at both ends. -/
theorem cubic_speed (s : Spline .o3 K) {h : K} (hh : 0 < h) (hd : s.duration = h) {p q u v : K}
    (hp : s.getPositionAtTime 0 = p) (hq : s.getPositionAtTime h = q) (hu : s.getVelocityAtTime 0 = u)
    (hv : s.getVelocityAtTime h = v) {x : K} (x0 : 0 ≤ x) (x1 : x ≤ h) :
    s.getVelocityAtTime x = speed ((q - p) / h) u v (x / h) ∧
    s.getAccelerationAtTime x =
      (6 * (1 - 2 * (x / h)) * ((q - p) / h) + (6 * (x / h) - 4) * u + (6 * (x / h) - 2) * v) / h := by
  subst hd
  have h0 : (0 : K) ≤ 0 := le_rfl
  rw [getPosition_eq s _ h0 hh.le, toPoly_o3] at hp
  rw [getPosition_eq s _ hh.le le_rfl, toPoly_o3] at hq
  rw [getVelocity_eq s _ h0 hh.le, toPoly_o3] at hu
  rw [getVelocity_eq s _ hh.le le_rfl, toPoly_o3] at hv
  rw [getVelocity_eq s _ x0 x1, getAcceleration_eq s _ x0 x1, toPoly_o3]
  simp at hp hq hu hv
  subst hp hu
  subst hq hv
  refine ⟨?_, ?_⟩
  · simp [speed]
    field_simp
    ring
  · simp
    field_simp
    ring

/-- **C173**: between two neighbouring knots the velocity that a fitted cubic scalar curve reports is the quadratic with the velocities
of the curve at the two knots and with the mean slope of the data as its mean, and the acceleration is the derivative of that
quadratic; up to and including both knots. -/
theorem C173_velocity (S : Solver K) (ts vs : List K) (h2 : 2 ≤ ts.length) (hb : ts.length ≤ 2 ^ 28)
    (hl : vs.length = ts.length) (hinc : ts.Pairwise (· < ·)) (v0 a0 vT aT : K) (c : ScalarCurve .o3 K) :
    ∃ c' : ScalarCurve .o3 K, c.fitCurveWith S ts vs v0 a0 vT aT = .ok c' ∧
      ∀ i (hi : i + 1 < ts.length), ∃ u v, c'.evaluateDerivative ts[i] 1 = .ok (some u) ∧
        c'.evaluateDerivative ts[i + 1] 1 = .ok (some v) ∧
        ∀ t x D h, ts[i] ≤ t → t ≤ ts[i + 1] → h = ts[i + 1] - ts[i] → x = (t - ts[i]) / h → D = (vs[i + 1] - vs[i]) / h →
          c'.evaluateDerivative t 1 =
            .ok (some (6 * (x - x ^ 2) * D + (3 * x ^ 2 - 4 * x + 1) * u + (3 * x ^ 2 - 2 * x) * v)) ∧
          c'.evaluateDerivative t 2 = .ok (some ((6 * (1 - 2 * x) * D + (6 * x - 4) * u + (6 * x - 2) * v) / h)) := by
  obtain ⟨d, e, e', hth⟩ := fitCurveWith_through S ts vs h2 hb hl hinc v0 a0 vT aT c
  obtain ⟨d', e'', hf, -⟩ := C88_determined_partial (o := .o3) S ts vs h2 hb hl hinc (Or.inl rfl) v0 a0 vT aT c.container
  rw [e'] at e''; cases e''
  have hlen := hf.count
  have hpos := hth.pos hinc
  set l := d.splines with hls
  have hdur : ∀ j (hj : j < l.length), dur ts j = ts[j + 1] - ts[j] := fun j hj => by
    rw [dur, if_pos (by omega), knot_eq (by omega), knot_eq (by omega)]
  have hst : ∀ k (hk : k < ts.length), start l k = ts[k] - ts[0] := fun k hk => by
    rw [hls, hth.starts k hk, knot_eq hk, knot_eq (by omega)]
  have hjoint : ∀ j (hj : j + 1 < l.length),
      l[j].getVelocityAtTime l[j].duration = l[j + 1].getVelocityAtTime 0 ∧
      l[j].getAccelerationAtTime l[j].duration = l[j + 1].getAccelerationAtTime 0 := fun j hj =>
    hf.joint j _ _ (List.getElem?_eq_getElem (by omega)) (List.getElem?_eq_getElem hj)
  refine ⟨_, e, fun i hi => ?_⟩
  have hil : i < l.length := by omega
  obtain ⟨a, b, g⟩ := hf.over hl hil
  have hh : 0 < ts[i + 1] - ts[i] := by rw [← hdur i hil]; exact dur_pos hinc i
  rw [hdur i hil] at a g
  rw [knot_eq (by omega)] at b g
  have hs := hst i (by omega)
  have read : ∀ t, ts[i] ≤ t → t ≤ ts[i + 1] →
      d.getVelocityAtTime (t - ts[0]) = .ok (l[i].getVelocityAtTime (t - ts[i])) ∧
      d.getAccelerationAtTime (t - ts[0]) = .ok (l[i].getAccelerationAtTime (t - ts[i])) := by
    intro t h0 h1
    have r1 := Container.atTime_closed Spline.getVelocityAtTime d hpos (by
      intro j s s' q q'
      rw [← hls] at q q'
      obtain ⟨hj, rfl⟩ := List.getElem?_eq_some_iff.1 q
      obtain ⟨hj', rfl⟩ := List.getElem?_eq_some_iff.1 q'
      exact (hjoint j hj').1) i l[i]
      (List.getElem?_eq_getElem (l := l) hil)
      (t - ts[0]) (by rw [← hls, hs]; linarith) (by rw [← hls, hs, a]; linarith)
    have r2 := Container.atTime_closed Spline.getAccelerationAtTime d hpos (by
      intro j s s' q q'
      rw [← hls] at q q'
      obtain ⟨hj, rfl⟩ := List.getElem?_eq_some_iff.1 q
      obtain ⟨hj', rfl⟩ := List.getElem?_eq_some_iff.1 q'
      exact (hjoint j hj').2) i l[i]
      (List.getElem?_eq_getElem (l := l) hil)
      (t - ts[0]) (by rw [← hls, hs]; linarith) (by rw [← hls, hs, a]; linarith)
    rw [← hls, hs, show t - ts[0] - (ts[i] - ts[0]) = t - ts[i] by ring] at r1 r2
    exact ⟨r1, r2⟩
  refine ⟨l[i].getVelocityAtTime 0, l[i].getVelocityAtTime (ts[i + 1] - ts[i]), ?_, ?_, ?_⟩
  · have := (read ts[i] le_rfl (by linarith)).1
    rw [sub_self] at this
    simp [ScalarCurve.evaluateDerivative, this]
  · have := (read ts[i + 1] (by linarith) le_rfl).1
    simp [ScalarCurve.evaluateDerivative, this]
  · rintro t x D h h0 h1 rfl rfl rfl
    obtain ⟨r1, r2⟩ := read t h0 h1
    obtain ⟨k1, k2⟩ := cubic_speed l[i] hh a b g rfl rfl (x := t - ts[i]) (by linarith) (by linarith)
    rw [k1] at r1
    rw [k2] at r2
    constructor
    · simp [ScalarCurve.evaluateDerivative, r1, speed]
    · simp [ScalarCurve.evaluateDerivative, r2]

/-- The segment of a time. -/
theorem segment_of {ts : List K} (h2 : 2 ≤ ts.length) {t : K} (h0 : ts[0] ≤ t) (h1 : t ≤ ts[ts.length - 1]) :
    ∃ i, ∃ hi : i + 1 < ts.length, ts[i] ≤ t ∧ t ≤ ts[i + 1] := by
  have find : ∀ n (hn : n < ts.length), t ≤ ts[n] → n ≠ 0 → ∃ i, ∃ hi : i + 1 < ts.length, ts[i] ≤ t ∧ t ≤ ts[i + 1] := by
    intro n
    induction n with
    | zero => intro _ _ h; exact absurd rfl h
    | succ n ih =>
      intro hn ht _
      rcases le_total ts[n] t with h | h
      · exact ⟨n, hn, h, ht⟩
      · rcases Nat.eq_zero_or_pos n with rfl | hp
        · exact ⟨0, hn, h0, ht⟩
        · exact ih (by omega) h (by omega)
  exact find (ts.length - 1) (by omega) h1 (by omega)

theorem speed_limit {D u v x R : K} (x0 : 0 ≤ x) (x1 : x ≤ 1) (hD : |D| ≤ R) (hu : |u| ≤ 3 * R) (hv : |v| ≤ 3 * R) :
    |6 * (x - x ^ 2) * D + (3 * x ^ 2 - 4 * x + 1) * u + (3 * x ^ 2 - 2 * x) * v| ≤ 3 * R := by
  have hR : 0 ≤ R := (abs_nonneg _).trans hD
  have y0 : 0 ≤ 1 - x := by linarith
  have w0 : 0 ≤ 6 * (x - x ^ 2) := by nlinarith [mul_nonneg x0 y0]
  have s0 : |6 * (x - x ^ 2) * D| ≤ 6 * (x - x ^ 2) * R := by
    rw [abs_mul, abs_of_nonneg w0]; exact mul_le_mul_of_nonneg_left hD w0
  have s1 : |(3 * x ^ 2 - 4 * x + 1) * u| ≤ |3 * x ^ 2 - 4 * x + 1| * (3 * R) := by
    rw [abs_mul]; exact mul_le_mul_of_nonneg_left hu (abs_nonneg _)
  have s2 : |(3 * x ^ 2 - 2 * x) * v| ≤ |3 * x ^ 2 - 2 * x| * (3 * R) := by
    rw [abs_mul]; exact mul_le_mul_of_nonneg_left hv (abs_nonneg _)
  have hw : 2 * (x - x ^ 2) + |3 * x ^ 2 - 4 * x + 1| + |3 * x ^ 2 - 2 * x| ≤ 1 := by
    rcases abs_cases (3 * x ^ 2 - 4 * x + 1) with ⟨a, a'⟩ | ⟨a, a'⟩ <;>
      rcases abs_cases (3 * x ^ 2 - 2 * x) with ⟨b, b'⟩ | ⟨b, b'⟩ <;>
      rw [a, b] <;> nlinarith [mul_nonneg x0 y0, sq_nonneg (2 * x - 1)]
  refine (abs_add_le _ _).trans ?_
  have := abs_add_le (6 * (x - x ^ 2) * D) ((3 * x ^ 2 - 4 * x + 1) * u)
  nlinarith [mul_le_mul_of_nonneg_right hw hR]

/-- The acceleration is straight between the knots. -/
theorem bend_limit {D u v x R : K} (x0 : 0 ≤ x) (x1 : x ≤ 1) (hD : |D| ≤ R) (hu : |u| ≤ 3 * R) (hv : |v| ≤ 3 * R) :
    |6 * (1 - 2 * x) * D + (6 * x - 4) * u + (6 * x - 2) * v| ≤ 24 * R := by
  obtain ⟨d1, d2⟩ := abs_le.1 hD
  obtain ⟨u1, u2⟩ := abs_le.1 hu
  obtain ⟨v1, v2⟩ := abs_le.1 hv
  have y0 : 0 ≤ 1 - x := by linarith
  have e : 6 * (1 - 2 * x) * D + (6 * x - 4) * u + (6 * x - 2) * v =
      (1 - x) * (6 * D - 4 * u - 2 * v) + x * (2 * u + 4 * v - 6 * D) := by ring
  have A : |6 * D - 4 * u - 2 * v| ≤ 24 * R := by rw [abs_le]; constructor <;> linarith
  have B : |2 * u + 4 * v - 6 * D| ≤ 24 * R := by rw [abs_le]; constructor <;> linarith
  rw [e]
  refine (abs_add_le _ _).trans ?_
  rw [abs_mul, abs_mul, abs_of_nonneg y0, abs_of_nonneg x0]
  nlinarith [mul_le_mul_of_nonneg_left A y0, mul_le_mul_of_nonneg_left B x0]

/-- **C173**, limits: if neighbouring values differ by at most `R` times the time between them and the velocities given for the ends
are at most `3 R`, every velocity that the curve reports is at most `3 R` and every acceleration at most `24 R` divided by the time
between the two knots around. -/
theorem C173_limits (S : Solver K) (ts vs : List K) (h2 : 2 ≤ ts.length) (hb : ts.length ≤ 2 ^ 28)
    (hl : vs.length = ts.length) (hinc : ts.Pairwise (· < ·)) (v0 a0 vT aT : K) (c : ScalarCurve .o3 K) {R : K}
    (hR : ∀ i (hi : i + 1 < ts.length), |vs[i + 1] - vs[i]| ≤ R * (ts[i + 1] - ts[i])) (h0 : |v0| ≤ 3 * R)
    (hT : |vT| ≤ 3 * R) :
    ∃ c', c.fitCurveWith S ts vs v0 a0 vT aT = .ok c' ∧
      ∀ i (hi : i + 1 < ts.length) t, ts[i] ≤ t → t ≤ ts[i + 1] →
        (∃ v, c'.evaluateDerivative t 1 = .ok (some v) ∧ |v| ≤ 3 * R) ∧
        ∃ a, c'.evaluateDerivative t 2 = .ok (some a) ∧ |a| ≤ 24 * R / (ts[i + 1] - ts[i]) := by
  obtain ⟨c', e, hk, -⟩ := C168_rate S ts vs h2 hb hl hinc v0 a0 vT aT c hR h0 hT
  obtain ⟨c'', e', hv⟩ := C173_velocity S ts vs h2 hb hl hinc v0 a0 vT aT c
  rw [e] at e'; cases e'
  refine ⟨c', e, fun i hi t t0 t1 => ?_⟩
  obtain ⟨u, v, eu, ev, h⟩ := hv i hi
  have hu := hk i (by omega) u eu
  have hv := hk (i + 1) hi v ev
  have hd : 0 < ts[i + 1] - ts[i] := sub_pos.2 (List.pairwise_iff_getElem.1 hinc i (i + 1) (by omega) hi (by omega))
  obtain ⟨r1, r2⟩ := h t _ _ _ t0 t1 rfl rfl rfl
  have X0 : 0 ≤ (t - ts[i]) / (ts[i + 1] - ts[i]) := div_nonneg (sub_nonneg.2 t0) hd.le
  have X1 : (t - ts[i]) / (ts[i + 1] - ts[i]) ≤ 1 := (div_le_one hd).2 (by linarith)
  have hD : |(vs[i + 1] - vs[i]) / (ts[i + 1] - ts[i])| ≤ R := by
    rw [abs_div, abs_of_pos hd, div_le_iff₀ hd]; exact hR i hi
  refine ⟨⟨_, r1, speed_limit X0 X1 hD hu hv⟩, _, r2, ?_⟩
  rw [abs_div, abs_of_pos hd]
  exact div_le_div_of_nonneg_right (bend_limit X0 X1 hD hu hv) hd.le

/-- **C173**, samples: fitted to samples, at most `h` apart, of a motion whose acceleration is at most `M`, the velocity that the
curve reports is at every time within `5/2 M h` of that of the motion (C172: at the samples `3/2 M h`). -/
theorem C173_motion (S : Solver K) {ts : List K} (h2 : 2 ≤ ts.length) (hb : ts.length ≤ 2 ^ 28) (hinc : ts.Pairwise (· < ·))
    (q v : K → K) {M h : K} (hS : Smooth M ts[0] ts[ts.length - 1] q v)
    (hh : ∀ i (hi : i + 1 < ts.length), ts[i + 1] - ts[i] ≤ h) (a0 aT : K) (c : ScalarCurve .o3 K) :
    ∃ c' : ScalarCurve .o3 K, c.fitCurveWith S ts (ts.map q) (v ts[0]) a0 (v ts[ts.length - 1]) aT = .ok c' ∧
      ∀ t, ts[0] ≤ t → t ≤ ts[ts.length - 1] →
        ∃ r, c'.evaluateDerivative t 1 = .ok (some r) ∧ |r - v t| ≤ 5 / 2 * M * h := by
  obtain ⟨c', e, hk, -⟩ := C172_motion S h2 hb hinc q v hS hh a0 aT c
  obtain ⟨c'', e', hv⟩ := C173_velocity S ts (ts.map q) h2 hb (by simp) hinc (v ts[0]) a0 (v ts[ts.length - 1]) aT c
  rw [e] at e'; cases e'
  have mono : ∀ i j (hj : j < ts.length) (hij : i ≤ j), ts[i] ≤ ts[j] := by
    intro i j hj hij
    rcases hij.lt_or_eq with h | rfl
    · exact (List.pairwise_iff_getElem.1 hinc i j (by omega) hj h).le
    · exact le_rfl
  refine ⟨c', e, fun t h0 h1 => ?_⟩
  obtain ⟨i, hi, g0, g1⟩ := segment_of h2 h0 h1
  have lt : ts[i] < ts[i + 1] := List.pairwise_iff_getElem.1 hinc i (i + 1) (by omega) hi (by omega)
  have hd : 0 < ts[i + 1] - ts[i] := sub_pos.2 lt
  obtain ⟨u, w, eu, ew, hr⟩ := hv i hi
  obtain ⟨-, u', eu', hu⟩ := hk i (by omega)
  obtain ⟨-, w', ew', hw⟩ := hk (i + 1) hi
  rw [eu] at eu'; cases eu'
  rw [ew] at ew'; cases ew'
  obtain ⟨r1, -⟩ := hr t _ _ _ g0 g1 rfl rfl rfl
  refine ⟨_, r1, ?_⟩
  simp only [List.getElem_map]
  have hseg : Smooth M ts[i] ts[i + 1] q v :=
    hS.mono (mono 0 i (by omega) (by omega)) (mono (i + 1) _ (by omega) (by omega))
  have hM := hseg.nonneg lt
  have hMh := mul_le_mul_of_nonneg_left (hh i hi) hM
  have mean : ∀ z, |q ts[i + 1] - q ts[i] - (ts[i + 1] - ts[i]) * z| ≤ M / 2 * (ts[i + 1] - ts[i]) ^ 2 →
      |(q ts[i + 1] - q ts[i]) / (ts[i + 1] - ts[i]) - z| ≤ M / 2 * h := by
    intro z hz
    have e : q ts[i + 1] - q ts[i] - (ts[i + 1] - ts[i]) * z =
        (ts[i + 1] - ts[i]) * ((q ts[i + 1] - q ts[i]) / (ts[i + 1] - ts[i]) - z) := by field_simp
    rw [e, abs_mul, abs_of_pos hd] at hz
    have : |(q ts[i + 1] - q ts[i]) / (ts[i + 1] - ts[i]) - z| ≤ M / 2 * (ts[i + 1] - ts[i]) :=
      le_of_mul_le_mul_left (hz.trans (le_of_eq (by ring))) hd
    linarith
  have m1 := mean _ (hseg.slope lt le_rfl lt.le)
  have m2 := mean _ (hseg.slope lt lt.le le_rfl)
  have m3 := mean _ (hseg.slope lt g0 g1)
  have X0 : 0 ≤ (t - ts[i]) / (ts[i + 1] - ts[i]) := div_nonneg (sub_nonneg.2 g0) hd.le
  have X1 : (t - ts[i]) / (ts[i + 1] - ts[i]) ≤ 1 := (div_le_one hd).2 (by linarith)
  generalize (q ts[i + 1] - q ts[i]) / (ts[i + 1] - ts[i]) = D at *
  generalize (t - ts[i]) / (ts[i + 1] - ts[i]) = x at *
  have near : ∀ y z : K, |y - z| ≤ 3 / 2 * M * h → |D - z| ≤ M / 2 * h → |y - D| ≤ 2 * M * h := fun y z k1 k2 => by
    have := abs_sub_le y z D
    rw [abs_sub_comm z D] at this
    linarith
  have n := (way_near X0 X1 (near _ _ hu m1) (near _ _ hw m2)).2
  simp only [speed] at n
  refine (abs_sub_le _ D _).trans ?_
  linarith

/-- A stone thrown up and caught, three samples: the velocity is known to `5/2 * 2 * 2`. -/
example (S : Solver ℚ) : ∃ c' : ScalarCurve .o3 ℚ,
    ScalarCurve.fresh.fitCurveWith S [0, 1, 3] [0, 1, 9] 0 7 6 8 = .ok c' ∧
    ∀ t, 0 ≤ t → t ≤ 3 → ∃ r, c'.evaluateDerivative t 1 = .ok (some r) ∧ |r - 2 * t| ≤ 10 := by
  obtain ⟨c', e, h⟩ := C173_motion S (ts := [(0 : ℚ), 1, 3]) (by simp) (by norm_num) (by norm_num) (fun t => t ^ 2)
    (fun t => 2 * t) (M := 2) (h := 2) (by
      intro s t _ _ _ _
      rw [abs_le]
      constructor <;> nlinarith [sq_nonneg (t - s)]) (by
      intro i hi
      simp only [List.length_cons, List.length_nil, zero_add, Nat.reduceAdd] at hi
      obtain rfl | rfl : i = 0 ∨ i = 1 := by omega
      all_goals norm_num) 7 8 ScalarCurve.fresh
  norm_num at e h
  exact ⟨c', e, h⟩

/-- Up by 1, down by 2: the velocity is at most 3 and the acceleration at most 24 in the first second. -/
example (S : Solver ℚ) : ∃ c' : ScalarCurve .o3 ℚ,
    ScalarCurve.fresh.fitCurveWith S [0, 1, 3] [0, 1, -1] 0 0 3 0 = .ok c' ∧
    ∀ t, 0 ≤ t → t ≤ 1 → (∃ v, c'.evaluateDerivative t 1 = .ok (some v) ∧ |v| ≤ 3) ∧
      ∃ a, c'.evaluateDerivative t 2 = .ok (some a) ∧ |a| ≤ 24 := by
  obtain ⟨c', e, h⟩ := C173_limits S [(0 : ℚ), 1, 3] [0, 1, -1] (by simp) (by norm_num) rfl (by norm_num) 0 0 3 0
    ScalarCurve.fresh (R := 1) (by
      intro i hi
      simp only [List.length_cons, List.length_nil, zero_add, Nat.reduceAdd] at hi
      obtain rfl | rfl : i = 0 ∨ i = 1 := by omega
      all_goals norm_num) (by norm_num) (by norm_num)
  refine ⟨c', e, fun t h0 h1 => ?_⟩
  have := h 0 (by simp) t (by simpa using h0) (by simpa using h1)
  simpa using this

/-- One segment from 0 to 1 with slopes 1 and 2: half way the velocity is `6/4 - 1/4 * 1 - 1/4 * 2` and the acceleration 1. -/
example (S : Solver ℚ) : ∃ c' : ScalarCurve .o3 ℚ,
    ScalarCurve.fresh.fitCurveWith S [0, 1] [0, 1] 1 0 2 0 = .ok c' ∧
    ∃ u v, c'.evaluateDerivative 0 1 = .ok (some u) ∧ c'.evaluateDerivative 1 1 = .ok (some v) ∧
      c'.evaluateDerivative (1 / 2) 1 = .ok (some (3 / 2 - u / 4 - v / 4)) ∧
      c'.evaluateDerivative (1 / 2) 2 = .ok (some (v - u)) := by
  obtain ⟨c', e, h⟩ := C173_velocity S [(0 : ℚ), 1] [0, 1] (by simp) (by norm_num) rfl (by norm_num) 1 0 2 0 ScalarCurve.fresh
  obtain ⟨u, v, eu, ev, k⟩ := h 0 (by simp)
  obtain ⟨k1, k2⟩ := k (1 / 2) (1 / 2) 1 1 (by norm_num) (by norm_num) (by norm_num) (by norm_num) (by norm_num)
  refine ⟨c', e, u, v, eu, ev, ?_, ?_⟩
  · rw [k1]; congr 2; ring
  · rw [k2]; congr 2; ring

end Verif.PolyCurve

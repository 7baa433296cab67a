import Verif.PolyCurve.SmoothProps

/-!
# Property C172: a cubic scalar curve fitted to samples of a smooth motion

The error of a `PolynomialSplineScalarCurve` of order 3 fitted to samples of a motion whose acceleration is bounded goes down with
the square of the largest distance of the samples, however uneven they are; that of its velocity at the samples with the distance.
-/

set_option linter.unusedSectionVars false
set_option linter.dupNamespace false

namespace Verif.PolyCurve

open Verif.Spline Verif.Container Verif.Manager
open Hermite.E3 (way way_sub speed)

variable {K : Type} [Field K] [LinearOrder K] [IsStrictOrderedRing K]

/-- One row of the equations: if the three errors of the slopes are at most that of the middle one, it is small. -/
theorem row_smooth {x y p q a b c u v w M h : K} (hx : 0 < x) (hy : 0 < y) (hxh : x ≤ h) (hyh : y ≤ h) (hM : 0 ≤ M)
    (e : a / x + 2 * (1 / x + 1 / y) * b + c / y = 3 * (p / x ^ 2 + q / y ^ 2))
    (pu : |p - x * u| ≤ M / 2 * x ^ 2) (pv : |p - x * v| ≤ M / 2 * x ^ 2) (qv : |q - y * v| ≤ M / 2 * y ^ 2)
    (qw : |q - y * w| ≤ M / 2 * y ^ 2) (h1 : |a - u| ≤ |b - v|) (h2 : |c - w| ≤ |b - v|) : |b - v| ≤ 3 / 2 * M * h := by
  -- the equation for the errors, multiplied by the durations
  have key : (2 * (y + x)) * (b - v) = y * (3 * (p / x - v)) + x * (3 * (q / y - v)) - y * (a - u) - x * (c - w)
      + (y * (v - u) + x * (v - w)) := by
    have : x * y * (a / x + 2 * (1 / x + 1 / y) * b + c / y) = x * y * (3 * (p / x ^ 2 + q / y ^ 2)) := by rw [e]
    have l : x * y * (a / x + 2 * (1 / x + 1 / y) * b + c / y) = y * a + 2 * (y + x) * b + x * c := by field_simp
    have r : x * y * (3 * (p / x ^ 2 + q / y ^ 2)) = 3 * (y * (p / x) + x * (q / y)) := by field_simp
    rw [l, r] at this
    linear_combination this
  have dp : ∀ z, |p - x * z| ≤ M / 2 * x ^ 2 → |p / x - z| ≤ M / 2 * x := by
    intro z hz
    have : p - x * z = x * (p / x - z) := by field_simp
    rw [this, abs_mul, abs_of_pos hx] at hz
    refine le_of_mul_le_mul_left (hz.trans (le_of_eq ?_)) hx
    ring
  have dq : ∀ z, |q - y * z| ≤ M / 2 * y ^ 2 → |q / y - z| ≤ M / 2 * y := by
    intro z hz
    have : q - y * z = y * (q / y - z) := by field_simp
    rw [this, abs_mul, abs_of_pos hy] at hz
    refine le_of_mul_le_mul_left (hz.trans (le_of_eq ?_)) hy
    ring
  have k1 := abs_le.1 (dp u pu)
  have k2 := abs_le.1 (dp v pv)
  have k3 := abs_le.1 (dq v qv)
  have k4 := abs_le.1 (dq w qw)
  have xy : 0 < x + y := by linarith
  have big : (2 * (y + x)) * |b - v| ≤ (y + x) * |b - v| + 3 * M * (x * y) := by
    rw [← abs_of_pos (show 0 < 2 * (y + x) by linarith), ← abs_mul, key]
    obtain ⟨c1, c2⟩ := abs_le.1 h1
    obtain ⟨c3, c4⟩ := abs_le.1 h2
    have y1 := mul_le_mul_of_nonneg_left k1.1 hy.le
    have y2 := mul_le_mul_of_nonneg_left k1.2 hy.le
    have y3 := mul_le_mul_of_nonneg_left k2.1 hy.le
    have y4 := mul_le_mul_of_nonneg_left k2.2 hy.le
    have x1 := mul_le_mul_of_nonneg_left k3.1 hx.le
    have x2 := mul_le_mul_of_nonneg_left k3.2 hx.le
    have x3 := mul_le_mul_of_nonneg_left k4.1 hx.le
    have x4 := mul_le_mul_of_nonneg_left k4.2 hx.le
    have z1 := mul_le_mul_of_nonneg_left c1 hy.le
    have z2 := mul_le_mul_of_nonneg_left c2 hy.le
    have z3 := mul_le_mul_of_nonneg_left c3 hx.le
    have z4 := mul_le_mul_of_nonneg_left c4 hx.le
    rw [abs_le]
    constructor <;> linarith
  have hxy : 2 * (x * y) ≤ (x + y) * h := by
    nlinarith [mul_le_mul_of_nonneg_left hyh hx.le, mul_le_mul_of_nonneg_left hxh hy.le]
  refine le_of_mul_le_mul_left (?_ : (x + y) * _ ≤ (x + y) * _) xy
  nlinarith [mul_le_mul_of_nonneg_left hxy hM]

/-- The slopes are near the velocity of the motion. -/
theorem SlopeEq.smooth {ts : List K} (h2 : 2 ≤ ts.length) (hinc : ts.Pairwise (· < ·)) {q v : K → K} {m : ℕ → K} {M h : K}
    (hE : SlopeEq ts (ts.map q) m) (hS : Smooth M ts[0] ts[ts.length - 1] q v) (m0 : m 0 = v ts[0])
    (mT : m (ts.length - 1) = v ts[ts.length - 1]) (hh : ∀ i (hi : i + 1 < ts.length), ts[i + 1] - ts[i] ≤ h) :
    ∀ i (hi : i < ts.length), |m i - v ts[i]| ≤ 3 / 2 * M * h := by
  have mono : ∀ i j (hj : j < ts.length) (hij : i ≤ j), ts[i] ≤ ts[j] := by
    intro i j hj hij
    rcases hij.lt_or_eq with h | rfl
    · exact (List.pairwise_iff_getElem.1 hinc i j (by omega) hj h).le
    · exact le_rfl
  have lt : ∀ i (hi : i + 1 < ts.length), ts[i] < ts[i + 1] := fun i hi =>
    List.pairwise_iff_getElem.1 hinc i (i + 1) (by omega) hi (by omega)
  have hM : 0 ≤ M := hS.nonneg ((lt 0 (by omega)).trans_le (mono 1 _ (by omega) (by omega)))
  have hh0 : 0 ≤ h := (sub_pos.2 (lt 0 (by omega))).le.trans (hh 0 (by omega))
  have seg : ∀ i (hi : i + 1 < ts.length), Smooth M ts[i] ts[i + 1] q v := fun i hi =>
    hS.mono (mono 0 i (by omega) (by omega)) (mono (i + 1) _ (by omega) (by omega))
  obtain ⟨V, hV⟩ : ∃ V : ℕ → K, ∀ i (hi : i < ts.length), V i = v ts[i] :=
    ⟨fun i => (ts[i]?.map v).getD 0, fun i hi => by simp [hi]⟩
  obtain ⟨k, hk, hmax⟩ := Finset.exists_max_image (Finset.range ts.length) (fun i => |m i - V i|)
    ⟨0, Finset.mem_range.2 (by omega)⟩
  rw [Finset.mem_range] at hk
  suffices hz : |m k - V k| ≤ 3 / 2 * M * h from fun i hi => by
    rw [← hV i hi]; exact (hmax i (Finset.mem_range.2 hi)).trans hz
  have pos : 0 ≤ 3 / 2 * M * h := by positivity
  rcases Nat.eq_zero_or_pos k with rfl | hpos
  · rw [hV 0 (by omega), m0, sub_self, abs_zero]; exact pos
  rcases Nat.lt_or_ge (k + 1) ts.length with hlt | hge
  · obtain ⟨i, rfl⟩ : ∃ i, k = i + 1 := ⟨k - 1, by omega⟩
    have e := hE i (by omega) (by simp; omega)
    have g0 := hmax i (Finset.mem_range.2 (by omega))
    have g2 := hmax (i + 2) (Finset.mem_range.2 (by omega))
    simp only [List.getElem_map] at e
    refine row_smooth (sub_pos.2 (lt i (by omega))) (sub_pos.2 (lt (i + 1) (by omega))) (hh i (by omega)) (hh (i + 1) (by omega))
      hM e ?_ ?_ ?_ ?_ g0 g2
    · rw [hV i (by omega)]
      exact (seg i (by omega)).slope (lt i (by omega)) le_rfl (lt i (by omega)).le
    · rw [hV (i + 1) (by omega)]
      exact (seg i (by omega)).slope (lt i (by omega)) (lt i (by omega)).le le_rfl
    · rw [hV (i + 1) (by omega)]
      exact (seg (i + 1) (by omega)).slope (lt (i + 1) (by omega)) le_rfl (lt (i + 1) (by omega)).le
    · rw [hV (i + 2) (by omega)]
      exact (seg (i + 1) (by omega)).slope (lt (i + 1) (by omega)) (lt (i + 1) (by omega)).le le_rfl
  · obtain rfl : k = ts.length - 1 := by omega
    rw [hV _ (by omega), mT, sub_self, abs_zero]; exact pos

/-- **C172**: a `PolynomialSplineScalarCurve` of order 3 fitted to samples, at most `h` apart, of a motion whose acceleration is at
most `M`, with the velocities of the motion at the ends, is within `5/8 M h²` of the motion, and at the samples its velocity is
within `3/2 M h` of that of the motion. The accelerations given for the ends do not matter. -/
theorem C172_motion (S : Solver K) {ts : List K} (h2 : 2 ≤ ts.length) (hb : ts.length ≤ 2 ^ 28) (hinc : ts.Pairwise (· < ·))
    (q v : K → K) {M h : K} (hS : Smooth M ts[0] ts[ts.length - 1] q v)
    (hh : ∀ i (hi : i + 1 < ts.length), ts[i + 1] - ts[i] ≤ h) (a0 aT : K) (c : ScalarCurve .o3 K) :
    ∃ c' : ScalarCurve .o3 K, c.fitCurveWith S ts (ts.map q) (v ts[0]) a0 (v ts[ts.length - 1]) aT = .ok c' ∧
      (∀ i (hi : i < ts.length), c'.evaluate ts[i] = .ok (q ts[i]) ∧
        ∃ u, c'.evaluateDerivative ts[i] 1 = .ok (some u) ∧ |u - v ts[i]| ≤ 3 / 2 * M * h) ∧
      ∀ t, ts[0] ≤ t → t ≤ ts[ts.length - 1] → ∃ r, c'.evaluate t = .ok r ∧ |r - q t| ≤ 5 / 8 * M * h ^ 2 := by
  obtain ⟨c', m, e, hd, m0, mT, hE, -, hev⟩ := C167_hermite S ts (ts.map q) h2 hb (by simp) hinc (v ts[0]) a0
    (v ts[ts.length - 1]) aT c
  have hslope := hE.smooth h2 hinc hS m0 mT hh
  have mono : ∀ i j (hj : j < ts.length) (hij : i ≤ j), ts[i] ≤ ts[j] := by
    intro i j hj hij
    rcases hij.lt_or_eq with h | rfl
    · exact (List.pairwise_iff_getElem.1 hinc i j (by omega) hj h).le
    · exact le_rfl
  have lt : ∀ i (hi : i + 1 < ts.length), ts[i] < ts[i + 1] := fun i hi =>
    List.pairwise_iff_getElem.1 hinc i (i + 1) (by omega) hi (by omega)
  have hM : 0 ≤ M := hS.nonneg ((lt 0 (by omega)).trans_le (mono 1 _ (by omega) (by omega)))
  have w0 : ∀ D u v : K, way D u v 0 = 0 := fun D u v => by simp [way]
  have w1 : ∀ D u v : K, way D u v 1 = D := fun D u v => by simp only [way]; ring
  refine ⟨c', e, fun i hi => ⟨?_, m i, hd i hi, hslope i hi⟩, fun t h0 h1 => ?_⟩
  · rcases Nat.lt_or_ge (i + 1) ts.length with h | h
    · rw [hermite_at (by simp) hev i h le_rfl (lt i h).le, sub_self, zero_div, w0, add_zero, List.getElem_map]
    · obtain ⟨j, rfl⟩ : ∃ j, i = j + 1 := ⟨i - 1, by omega⟩
      rw [hermite_at (by simp) hev j hi (lt j hi).le le_rfl, div_self (sub_pos.2 (lt j hi)).ne', w1, add_sub_cancel,
        List.getElem_map]
  · -- the segment
    obtain ⟨i, hi, g0, g1⟩ : ∃ i, ∃ hi : i + 1 < ts.length, ts[i] ≤ t ∧ t ≤ ts[i + 1] := by
      have find : ∀ n (hn : n < ts.length), t ≤ ts[n] → n ≠ 0 → ∃ i, ∃ hi : i + 1 < ts.length, ts[i] ≤ t ∧ t ≤ ts[i + 1] := by
        intro n
        induction n with
        | zero => intro _ _ h; exact absurd rfl h
        | succ n ih =>
          intro hn ht _
          rcases le_total ts[n] t with h | h
          · exact ⟨n, hn, h, ht⟩
          · rcases Nat.eq_zero_or_pos n with rfl | hp
            · exact ⟨0, hn, h0, ht⟩
            · exact ih (by omega) h (by omega)
      exact find (ts.length - 1) (by omega) h1 (by omega)
    refine ⟨_, hermite_at (by simp) hev i hi g0 g1, ?_⟩
    simp only [List.getElem_map]
    have hdp : 0 < ts[i + 1] - ts[i] := sub_pos.2 (lt i hi)
    have hseg : Smooth M ts[i] ts[i + 1] q v :=
      hS.mono (mono 0 i (by omega) (by omega)) (mono (i + 1) _ (by omega) (by omega))
    have near : ∀ j (hj : j < ts.length), |q ts[i + 1] - q ts[i] - (ts[i + 1] - ts[i]) * v ts[j]| ≤ M / 2 * (ts[i + 1] - ts[i]) ^ 2 →
        |(ts[i + 1] - ts[i]) * m j - (q ts[i + 1] - q ts[i])| ≤ 2 * M * h * (ts[i + 1] - ts[i]) := by
      intro j hj hn
      have s := mul_le_mul_of_nonneg_left (hslope j hj) hdp.le
      rw [← abs_of_pos hdp, ← abs_mul, abs_of_pos hdp] at s
      have g : M / 2 * (ts[i + 1] - ts[i]) * (ts[i + 1] - ts[i]) ≤ M / 2 * (ts[i + 1] - ts[i]) * h :=
        mul_le_mul_of_nonneg_left (hh i hi) (mul_nonneg (by linarith) hdp.le)
      have e1 : (ts[i + 1] - ts[i]) * m j - (q ts[i + 1] - q ts[i]) =
        (ts[i + 1] - ts[i]) * (m j - v ts[j]) - (q ts[i + 1] - q ts[i] - (ts[i + 1] - ts[i]) * v ts[j]) := by ring
      rw [e1]
      refine (abs_sub _ _).trans ?_
      linarith
    have X0 : 0 ≤ (t - ts[i]) / (ts[i + 1] - ts[i]) := div_nonneg (sub_nonneg.2 g0) hdp.le
    have X1 : (t - ts[i]) / (ts[i + 1] - ts[i]) ≤ 1 := (div_le_one hdp).2 (by linarith)
    obtain ⟨n1, -⟩ := way_near X0 X1 (near i (by omega) (hseg.slope (lt i hi) le_rfl (lt i hi).le))
      (near (i + 1) hi (hseg.slope (lt i hi) (lt i hi).le le_rfl))
    have hc := hseg.chord (lt i hi) g0 g1
    have sq : M * (ts[i + 1] - ts[i]) ^ 2 ≤ M * h ^ 2 :=
      mul_le_mul_of_nonneg_left (pow_le_pow_left₀ hdp.le (hh i hi) 2) hM
    have sq' : M * h * (ts[i + 1] - ts[i]) ≤ M * h * h :=
      mul_le_mul_of_nonneg_left (hh i hi) (mul_nonneg hM (hdp.le.trans (hh i hi)))
    have e2 : ∀ A B p z : K, p + A - z = (A - B) + (p + B - z) := fun A B p z => by ring
    rw [e2 _ ((t - ts[i]) / (ts[i + 1] - ts[i]) * (q ts[i + 1] - q ts[i]))]
    refine (abs_add_le _ _).trans ?_
    linarith

/-- **C172**, for motions with a derivative. -/
theorem C172_smooth (S : Solver ℝ) {ts : List ℝ} (h2 : 2 ≤ ts.length) (hb : ts.length ≤ 2 ^ 28) (hinc : ts.Pairwise (· < ·))
    (q v : ℝ → ℝ) {M h : ℝ} (hq : ∀ t, ts[0] ≤ t → t ≤ ts[ts.length - 1] → HasDerivAt q (v t) t)
    (hv : ∀ s t, ts[0] ≤ s → s ≤ t → t ≤ ts[ts.length - 1] → |v t - v s| ≤ M * (t - s))
    (hh : ∀ i (hi : i + 1 < ts.length), ts[i + 1] - ts[i] ≤ h) (a0 aT : ℝ) (c : ScalarCurve .o3 ℝ) :
    ∃ c' : ScalarCurve .o3 ℝ, c.fitCurveWith S ts (ts.map q) (v ts[0]) a0 (v ts[ts.length - 1]) aT = .ok c' ∧
      ∀ t, ts[0] ≤ t → t ≤ ts[ts.length - 1] → ∃ r, c'.evaluate t = .ok r ∧ |r - q t| ≤ 5 / 8 * M * h ^ 2 := by
  obtain ⟨c', e, -, x⟩ := C172_motion S h2 hb hinc q v (smooth_of_deriv hq hv) hh a0 aT c
  exact ⟨c', e, x⟩

/-- A falling stone, sampled at the times 0, 1 and 3. -/
example (S : Solver ℚ) : ∃ c' : ScalarCurve .o3 ℚ,
    ScalarCurve.fresh.fitCurveWith S [0, 1, 3] [0, 1, 9] 0 7 6 8 = .ok c' ∧
    ∀ t, 0 ≤ t → t ≤ 3 → ∃ r, c'.evaluate t = .ok r ∧ |r - t ^ 2| ≤ 5 := by
  obtain ⟨c', e, -, h⟩ := C172_motion S (ts := [(0 : ℚ), 1, 3]) (by simp) (by norm_num) (by norm_num) (fun t => t ^ 2)
    (fun t => 2 * t) (M := 2) (h := 2) (by
      intro s t _ _ _ _
      rw [abs_le]
      constructor <;> nlinarith [sq_nonneg (t - s)]) (by
      intro i hi
      simp only [List.length_cons, List.length_nil, zero_add, Nat.reduceAdd] at hi
      obtain rfl | rfl : i = 0 ∨ i = 1 := by omega
      all_goals norm_num) 7 8 ScalarCurve.fresh
  norm_num at e h
  exact ⟨c', e, h⟩

/-- A swing, sampled ten times a second, in metres. -/
example (S : Solver ℝ) : ∃ c' : ScalarCurve .o3 ℝ,
    ScalarCurve.fresh.fitCurveWith S [0, 1 / 10, 2 / 10] ([0, 1 / 10, 2 / 10].map Real.sin) (Real.cos 0) 0 (Real.cos (2 / 10)) 0 =
      .ok c' ∧
    ∀ t, 0 ≤ t → t ≤ 2 / 10 → ∃ r, c'.evaluate t = .ok r ∧ |r - Real.sin t| ≤ 1 / 160 := by
  obtain ⟨c', e, h⟩ := C172_smooth S (ts := [(0 : ℝ), 1 / 10, 2 / 10]) (by simp) (by norm_num) (by norm_num) Real.sin Real.cos
    (M := 1) (h := 1 / 10) (fun t _ _ => Real.hasDerivAt_sin t) (fun s t _ h _ => by
      have := Real.abs_cos_sub_cos_le t s
      rwa [abs_of_nonneg (sub_nonneg.2 h), ← one_mul (t - s)] at this) (by
      intro i hi
      simp only [List.length_cons, List.length_nil, zero_add, Nat.reduceAdd] at hi
      obtain rfl | rfl : i = 0 ∨ i = 1 := by omega
      all_goals norm_num) 0 0 ScalarCurve.fresh
  refine ⟨c', e, fun t h0 h1 => ?_⟩
  obtain ⟨r, er, x⟩ := h t h0 h1
  refine ⟨r, er, x.trans (by norm_num)⟩

end Verif.PolyCurve

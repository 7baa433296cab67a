import Verif.PolyCurve.CutProps

/-!
# Property C176: the acceleration of a cubic scalar curve

The acceleration that a fitted `PolynomialSplineScalarCurve` of order 3 reports is at most three times as large as the data require,
however close or uneven the knots are. With that, the bounds of C172 and C173 for samples of a smooth motion become smaller.
-/

set_option linter.unusedSectionVars false
set_option linter.dupNamespace false

namespace Verif.PolyCurve

open Verif.Spline Verif.Container Verif.Manager

variable {K : Type} [Field K] [LinearOrder K] [IsStrictOrderedRing K]

/-- The velocity of a cubic at both ends by the mean slope and the accelerations there. -/
theorem cubic_velocities {a b : K} (hab : a < b) (k0 k1 k2 k3 : K) {P V A : K → K}
    (hk : ∀ t, a ≤ t → t ≤ b →
      P t = k0 + k1 * t + k2 * t ^ 2 + k3 * t ^ 3 ∧ V t = k1 + 2 * k2 * t + 3 * k3 * t ^ 2 ∧ A t = 2 * k2 + 6 * k3 * t) :
    (b - a) * (2 * A a + A b) = 6 * ((P b - P a) / (b - a) - V a) ∧
    (b - a) * (A a + 2 * A b) = 6 * (V b - (P b - P a) / (b - a)) := by
  obtain ⟨a1, a2, a3⟩ := hk a le_rfl hab.le
  obtain ⟨b1, b2, b3⟩ := hk b hab.le le_rfl
  obtain ⟨x, rfl⟩ : ∃ x, b = a + x := ⟨b - a, by ring⟩
  have hx : x ≠ 0 := fun h => by simp [h] at hab
  rw [a1, a2, a3, b1, b2, b3, add_sub_cancel_left]
  constructor <;> field_simp <;> ring

/-- A cubic with small accelerations at both ends. -/
theorem cubic_smooth {a b : K} (hab : a < b) (k0 k1 k2 k3 : K) {P V A : K → K}
    (hk : ∀ t, a ≤ t → t ≤ b →
      P t = k0 + k1 * t + k2 * t ^ 2 + k3 * t ^ 3 ∧ V t = k1 + 2 * k2 * t + 3 * k3 * t ^ 2 ∧ A t = 2 * k2 + 6 * k3 * t)
    {N : K} (ha : |A a| ≤ N) (hb : |A b| ≤ N) : (∀ t, a ≤ t → t ≤ b → |A t| ≤ N) ∧ Smooth N a b P V := by
  have hA : ∀ t, a ≤ t → t ≤ b → |A t| ≤ N := by
    intro t h0 h1
    have e : (b - a) * A t = (b - t) * A a + (t - a) * A b := by
      rw [(hk a le_rfl hab.le).2.2, (hk b hab.le le_rfl).2.2, (hk t h0 h1).2.2]
      ring
    have hd : 0 < b - a := sub_pos.2 hab
    refine le_of_mul_le_mul_left (?_ : (b - a) * _ ≤ (b - a) * _) hd
    rw [← abs_of_pos hd, ← abs_mul, abs_of_pos hd, e]
    refine (abs_add_le _ _).trans ?_
    rw [abs_mul, abs_mul, abs_of_nonneg (sub_nonneg.2 h1), abs_of_nonneg (sub_nonneg.2 h0)]
    have x := mul_le_mul_of_nonneg_left ha (sub_nonneg.2 h1)
    have y := mul_le_mul_of_nonneg_left hb (sub_nonneg.2 h0)
    linarith
  refine ⟨hA, fun s t s0 s1 t0 t1 => ?_⟩
  have e : P t - P s - (t - s) * V s = (t - s) ^ 2 * ((2 * A s + A t) / 6) := by
    rw [(hk s s0 s1).1, (hk s s0 s1).2.1, (hk s s0 s1).2.2, (hk t t0 t1).1, (hk t t0 t1).2.2]
    ring
  have g : |(2 * A s + A t) / 6| ≤ N / 2 := by
    obtain ⟨x1, x2⟩ := abs_le.1 (hA s s0 s1)
    obtain ⟨y1, y2⟩ := abs_le.1 (hA t t0 t1)
    rw [abs_le]
    constructor <;> linarith
  rw [e, abs_mul, abs_of_nonneg (sq_nonneg _), mul_comm (N / 2)]
  exact mul_le_mul_of_nonneg_left g (sq_nonneg _)

/-- One row of the equations for the accelerations. -/
theorem accel_row {x y A B C d M : K} (hx : 0 ≤ x) (hy : 0 ≤ y) (hxy : 0 < x + y) (e : x * A + 2 * (x + y) * B + y * C = 6 * d)
    (hd : |d| ≤ M / 2 * (x + y)) (h1 : |A| ≤ |B|) (h2 : |C| ≤ |B|) : |B| ≤ 3 * M := by
  have k : 2 * (x + y) * B = 6 * d - x * A - y * C := by linear_combination e
  have big : 2 * (x + y) * |B| ≤ 6 * |d| + x * |A| + y * |C| := by
    rw [← abs_of_pos (show 0 < 2 * (x + y) by linarith), ← abs_mul, k]
    refine (abs_sub _ _).trans ?_
    have := abs_sub (6 * d) (x * A)
    rw [abs_mul, abs_mul, abs_of_nonneg hx, abs_of_pos (show (0 : K) < 6 by norm_num)] at this
    rw [abs_mul, abs_of_nonneg hy]
    linarith
  have a := mul_le_mul_of_nonneg_left h1 hx
  have c := mul_le_mul_of_nonneg_left h2 hy
  refine le_of_mul_le_mul_left (?_ : (x + y) * _ ≤ (x + y) * _) hxy
  linarith

/-- The accelerations at the knots. -/
theorem Pieces.accel {ts : List K} {P V A : K → K} (h : Pieces ts P V A) (h2 : 2 ≤ ts.length) (hinc : ts.Pairwise (· < ·)) {M : K}
    (h0 : |(P ts[1] - P ts[0]) / (ts[1] - ts[0]) - V ts[0]| ≤ M / 2 * (ts[1] - ts[0]))
    (hT : |V ts[ts.length - 1] - (P ts[ts.length - 1] - P ts[ts.length - 2]) / (ts[ts.length - 1] - ts[ts.length - 2])| ≤
      M / 2 * (ts[ts.length - 1] - ts[ts.length - 2]))
    (hM : ∀ i (hi : i + 2 < ts.length), |(P ts[i + 2] - P ts[i + 1]) / (ts[i + 2] - ts[i + 1]) -
      (P ts[i + 1] - P ts[i]) / (ts[i + 1] - ts[i])| ≤ M / 2 * (ts[i + 2] - ts[i])) :
    ∀ i (hi : i < ts.length), |A ts[i]| ≤ 3 * M := by
  have lt : ∀ i (hi : i + 1 < ts.length), ts[i] < ts[i + 1] := fun i hi =>
    List.pairwise_iff_getElem.1 hinc i (i + 1) (by omega) hi (by omega)
  obtain ⟨B, hB⟩ : ∃ B : ℕ → K, ∀ i (hi : i < ts.length), B i = A ts[i] :=
    ⟨fun i => (ts[i]?.map A).getD 0, fun i hi => by simp [hi]⟩
  obtain ⟨k, hk, hmax⟩ := Finset.exists_max_image (Finset.range ts.length) (fun i => |B i|) ⟨0, Finset.mem_range.2 (by omega)⟩
  rw [Finset.mem_range] at hk
  suffices hz : |B k| ≤ 3 * M from fun i hi => by
    rw [← hB i hi]; exact (hmax i (Finset.mem_range.2 hi)).trans hz
  have seg : ∀ i (hi : i + 1 < ts.length),
      (ts[i + 1] - ts[i]) * (2 * B i + B (i + 1)) = 6 * ((P ts[i + 1] - P ts[i]) / (ts[i + 1] - ts[i]) - V ts[i]) ∧
      (ts[i + 1] - ts[i]) * (B i + 2 * B (i + 1)) = 6 * (V ts[i + 1] - (P ts[i + 1] - P ts[i]) / (ts[i + 1] - ts[i])) := by
    intro i hi
    obtain ⟨k0, k1, k2, k3, hk⟩ := h i hi
    rw [hB i (by omega), hB (i + 1) hi]
    exact cubic_velocities (lt i hi) k0 k1 k2 k3 hk
  rcases Nat.eq_zero_or_pos k with rfl | hpos
  · have l := sub_pos.2 (lt 0 (by omega))
    refine accel_row (x := 0) (A := 0) le_rfl l.le (by rw [zero_add]; exact l) ?_ (by rw [zero_add]; exact h0) (by simp)
      (hmax 1 (Finset.mem_range.2 (by omega)))
    linear_combination (seg 0 (by omega)).1
  rcases Nat.lt_or_ge (k + 1) ts.length with hlt | hge
  · obtain ⟨i, rfl⟩ : ∃ i, k = i + 1 := ⟨k - 1, by omega⟩
    have l1 := sub_pos.2 (lt i (by omega))
    have l2 := sub_pos.2 (lt (i + 1) (by omega))
    refine accel_row l1.le l2.le (by linarith) ?_ ?_ (hmax i (Finset.mem_range.2 (by omega)))
      (hmax (i + 2) (Finset.mem_range.2 (by omega))) (d := (P ts[i + 2] - P ts[i + 1]) / (ts[i + 2] - ts[i + 1]) -
        (P ts[i + 1] - P ts[i]) / (ts[i + 1] - ts[i]))
    · linear_combination (seg i (by omega)).2 + (seg (i + 1) (by omega)).1
    · refine (hM i (by omega)).trans (le_of_eq ?_)
      ring
  · obtain ⟨i, hi⟩ : ∃ i, ts.length = i + 2 := ⟨ts.length - 2, by omega⟩
    obtain rfl : k = i + 1 := by omega
    have l := sub_pos.2 (lt i (by omega))
    simp only [hi, Nat.add_sub_cancel, show i + 2 - 1 = i + 1 by omega] at hT
    refine accel_row (y := 0) (C := 0) l.le le_rfl (by rw [add_zero]; exact l) ?_ (by rw [add_zero]; exact hT)
      (hmax i (Finset.mem_range.2 (by omega))) (by simp)
    linear_combination (seg i (by omega)).2

/-- **C176**: if at no knot the mean slope changes by more than `M` times the mean of the two durations, and at both ends the
mean slope differs from the velocity given there by at most `M` times half of the duration, the acceleration that the curve reports is
at most `3 M` at every time. -/
theorem C176_acceleration (S : Solver K) {ts vs : List K} (h2 : 2 ≤ ts.length) (hb : ts.length ≤ 2 ^ 28)
    (hl : vs.length = ts.length) (hinc : ts.Pairwise (· < ·)) (v0 a0 vT aT : K) (c : ScalarCurve .o3 K) {M : K}
    (h0 : |(vs[1] - vs[0]) / (ts[1] - ts[0]) - v0| ≤ M / 2 * (ts[1] - ts[0]))
    (hT : |vT - (vs[ts.length - 1] - vs[ts.length - 2]) / (ts[ts.length - 1] - ts[ts.length - 2])| ≤
      M / 2 * (ts[ts.length - 1] - ts[ts.length - 2]))
    (hM : ∀ i (hi : i + 2 < ts.length), |(vs[i + 2] - vs[i + 1]) / (ts[i + 2] - ts[i + 1]) -
      (vs[i + 1] - vs[i]) / (ts[i + 1] - ts[i])| ≤ M / 2 * (ts[i + 2] - ts[i])) :
    ∃ c', c.fitCurveWith S ts vs v0 a0 vT aT = .ok c' ∧
      ∀ t, ts[0] ≤ t → t ≤ ts[ts.length - 1] → ∃ a, c'.evaluateDerivative t 2 = .ok (some a) ∧ |a| ≤ 3 * M := by
  obtain ⟨c', P, V, A, e, hp, hv, f0, fT, hev⟩ := fit_pieces_values S ts vs h2 hb hl hinc v0 a0 vT aT c
  subst hv
  simp only [List.getElem_map] at h0 hT hM
  rw [← f0] at h0
  rw [← fT] at hT
  have hA := hp.accel h2 hinc h0 hT hM
  refine ⟨c', e, fun t t0 t1 => ⟨A t, (hev t t0 t1).2.2, ?_⟩⟩
  obtain ⟨i, hi, g0, g1⟩ := segment_of h2 t0 t1
  obtain ⟨k0, k1, k2, k3, hk⟩ := hp i hi
  exact (cubic_smooth (List.pairwise_iff_getElem.1 hinc i (i + 1) (by omega) hi (by omega)) k0 k1 k2 k3 hk (hA i (by omega))
    (hA (i + 1) hi)).1 t g0 g1

/-- **C176**, the factor 3 cannot be improved: for every start `a`, duration `h` and `M` there are data that meet the conditions, with
equality, such that the curve reports the acceleration `3 M` at the start. -/
theorem C176_attained (S : Solver K) (a p : K) {h : K} (hh : 0 < h) (M a0 aT : K) (c : ScalarCurve .o3 K) :
    (p - p) / (a + h - a) - (-(M / 2 * h)) = M / 2 * (a + h - a) ∧ -(M / 2 * h) - (p - p) / (a + h - a) = -(M / 2 * (a + h - a)) ∧
    ∃ c', c.fitCurveWith S [a, a + h] [p, p] (-(M / 2 * h)) a0 (-(M / 2 * h)) aT = .ok c' ∧
      c'.evaluateDerivative a 2 = .ok (some (3 * M)) := by
  obtain ⟨c', P, V, A, e, hp, hv, f0, fT, hev⟩ := fit_pieces_values S [a, a + h] [p, p] (by simp) (by simp) rfl (by simp [hh])
    (-(M / 2 * h)) a0 (-(M / 2 * h)) aT c
  obtain ⟨k0, k1, k2, k3, hk⟩ := hp 0 (by simp)
  simp only [List.map_cons, List.map_nil, List.cons.injEq, and_true, List.getElem_cons_zero, List.length_cons, List.length_nil,
    zero_add, Nat.reduceAdd, Nat.add_one_sub_one, List.getElem_cons_succ] at hv f0 fT hev hk
  have x := (cubic_velocities (by linarith) k0 k1 k2 k3 hk).1
  have y := (cubic_velocities (by linarith) k0 k1 k2 k3 hk).2
  rw [hv.1, hv.2, f0] at x
  rw [hv.1, hv.2, fT] at y
  refine ⟨by rw [sub_self, zero_div]; ring, by rw [sub_self, zero_div]; ring, c', e, ?_⟩
  rw [(hev a le_rfl (by linarith)).2.2]
  have hA : h * A a = h * (3 * M) := by
    rw [sub_self, zero_div, add_sub_cancel_left] at x y
    linarith
  rw [mul_left_cancel₀ hh.ne' hA]

theorem Smooth.sub {M N a b : K} {p q v w : K → K} (h : Smooth M a b p v) (h' : Smooth N a b q w) :
    Smooth (M + N) a b (fun t => p t - q t) (fun t => v t - w t) := by
  intro s t s0 s1 t0 t1
  have e : p t - q t - (p s - q s) - (t - s) * (v s - w s) = (p t - p s - (t - s) * v s) - (q t - q s - (t - s) * w s) := by ring
  show |p t - q t - (p s - q s) - (t - s) * (v s - w s)| ≤ _
  rw [e]
  refine (abs_sub _ _).trans ?_
  have x := h s t s0 s1 t0 t1
  have y := h' s t s0 s1 t0 t1
  linarith

/-- **C176**, samples: fitted to samples, at most `h` apart, of a motion whose acceleration is at most `M`, with the velocities of the
motion at both ends, the curve reports at every time an acceleration of at most `3 M`, a value within `M h² / 2` of the motion
(C172: `5/8 M h²`) and a velocity within `2 M h` of that of the motion (C173: `5/2 M h`). -/
theorem C176_motion (S : Solver K) {ts : List K} (h2 : 2 ≤ ts.length) (hb : ts.length ≤ 2 ^ 28) (hinc : ts.Pairwise (· < ·))
    (q v : K → K) {M h : K} (hS : Smooth M ts[0] ts[ts.length - 1] q v)
    (hh : ∀ i (hi : i + 1 < ts.length), ts[i + 1] - ts[i] ≤ h) (a0 aT : K) (c : ScalarCurve .o3 K) :
    ∃ c' : ScalarCurve .o3 K, c.fitCurveWith S ts (ts.map q) (v ts[0]) a0 (v ts[ts.length - 1]) aT = .ok c' ∧
      ∀ t, ts[0] ≤ t → t ≤ ts[ts.length - 1] → ∃ r u a, c'.evaluate t = .ok r ∧ |r - q t| ≤ M * h ^ 2 / 2 ∧
        c'.evaluateDerivative t 1 = .ok (some u) ∧ |u - v t| ≤ 2 * M * h ∧
        c'.evaluateDerivative t 2 = .ok (some a) ∧ |a| ≤ 3 * M := by
  obtain ⟨c', P, V, A, e, hp, hv, f0, fT, hev⟩ := fit_pieces_values S ts (ts.map q) h2 hb (by simp) hinc (v ts[0]) a0
    (v ts[ts.length - 1]) aT c
  have lt : ∀ i (hi : i + 1 < ts.length), ts[i] < ts[i + 1] := fun i hi =>
    List.pairwise_iff_getElem.1 hinc i (i + 1) (by omega) hi (by omega)
  have hPq : ∀ i (hi : i < ts.length), P ts[i] = q ts[i] := fun i hi => by
    have := List.getElem_of_eq hv (i := i) (by simpa using hi)
    simpa using this
  have seg : ∀ i (hi : i + 1 < ts.length), Smooth M ts[i] ts[i + 1] q v := fun i hi =>
    hS.mono (getElem_mono hinc (by omega) (Nat.zero_le i)) (getElem_mono hinc (by omega) (by omega))
  have mean : ∀ i (hi : i + 1 < ts.length) s, ts[i] ≤ s → s ≤ ts[i + 1] →
      |(q ts[i + 1] - q ts[i]) / (ts[i + 1] - ts[i]) - v s| ≤ M / 2 * (ts[i + 1] - ts[i]) := by
    intro i hi s s0 s1
    have hd := sub_pos.2 (lt i hi)
    have hz := (seg i hi).slope (lt i hi) s0 s1
    have e : q ts[i + 1] - q ts[i] - (ts[i + 1] - ts[i]) * v s =
        (ts[i + 1] - ts[i]) * ((q ts[i + 1] - q ts[i]) / (ts[i + 1] - ts[i]) - v s) := by field_simp
    rw [e, abs_mul, abs_of_pos hd] at hz
    exact le_of_mul_le_mul_left (hz.trans (le_of_eq (by ring))) hd
  have hA : ∀ i (hi : i < ts.length), |A ts[i]| ≤ 3 * M := by
    refine hp.accel h2 hinc ?_ ?_ fun i hi => ?_
    · rw [hPq 1 (by omega), hPq 0 (by omega), f0]
      exact mean 0 (by omega) _ le_rfl (lt 0 (by omega)).le
    · obtain ⟨i, hi⟩ : ∃ i, ts.length = i + 2 := ⟨ts.length - 2, by omega⟩
      rw [fT, hPq _ (by omega), hPq _ (by omega), abs_sub_comm]
      simp only [hi, Nat.add_sub_cancel, show i + 2 - 1 = i + 1 by omega]
      exact mean i (by omega) _ (lt i (by omega)).le le_rfl
    · rw [hPq _ hi, hPq _ (by omega), hPq _ (by omega)]
      refine (abs_sub_le _ (v ts[i + 1]) _).trans ?_
      have x := mean i (by omega) _ (lt i (by omega)).le le_rfl
      have y := mean (i + 1) (by omega) _ le_rfl (lt (i + 1) (by omega)).le
      rw [abs_sub_comm] at x
      have y' : |(q ts[i + 2] - q ts[i + 1]) / (ts[i + 2] - ts[i + 1]) - v ts[i + 1]| ≤ M / 2 * (ts[i + 2] - ts[i + 1]) := y
      linarith
  refine ⟨c', e, fun t t0 t1 => ?_⟩
  obtain ⟨i, hi, g0, g1⟩ := segment_of h2 t0 t1
  obtain ⟨k0, k1, k2, k3, hk⟩ := hp i hi
  obtain ⟨s1, s2⟩ := cubic_smooth (lt i hi) k0 k1 k2 k3 hk (hA i (by omega)) (hA (i + 1) hi)
  have hM := (seg i hi).nonneg (lt i hi)
  have hd := sub_pos.2 (lt i hi)
  have hdiff := s2.sub (seg i hi)
  obtain ⟨r1, r2, r3⟩ := hev t t0 t1
  refine ⟨_, _, _, r1, ?_, r2, ?_, r3, s1 t g0 g1⟩
  · have x := hdiff.chord (lt i hi) g0 g1
    simp only [hPq i (by omega), hPq (i + 1) hi, sub_self, mul_zero, zero_add, zero_sub, abs_neg] at x
    have sq : M * (ts[i + 1] - ts[i]) ^ 2 ≤ M * h ^ 2 := mul_le_mul_of_nonneg_left (pow_le_pow_left₀ hd.le (hh i hi) 2) hM
    linarith
  · have x := hdiff.slope (lt i hi) g0 g1
    simp only [hPq i (by omega), hPq (i + 1) hi, sub_self, zero_sub, abs_neg] at x
    rw [abs_mul, abs_of_pos hd] at x
    have y : |V t - v t| ≤ (3 * M + M) / 2 * (ts[i + 1] - ts[i]) :=
      le_of_mul_le_mul_left (x.trans (le_of_eq (by ring))) hd
    have z := mul_le_mul_of_nonneg_left (hh i hi) hM
    linarith

/-- Slopes 1, -1 and the velocities 0 and 0, at times 0, 1, 2: the acceleration is at most 6. -/
example (S : Solver ℚ) : ∃ c' : ScalarCurve .o3 ℚ,
    ScalarCurve.fresh.fitCurveWith S [0, 1, 2] [0, 1, 0] 0 5 0 7 = .ok c' ∧
    ∀ t, 0 ≤ t → t ≤ 2 → ∃ a, c'.evaluateDerivative t 2 = .ok (some a) ∧ |a| ≤ 3 * 2 :=
  C176_acceleration S (ts := [(0 : ℚ), 1, 2]) (vs := [0, 1, 0]) (by simp) (by norm_num) rfl (by norm_num) 0 5 0 7
    ScalarCurve.fresh (M := 2) (by norm_num) (by norm_num) (by
      intro i hi
      obtain rfl : i = 0 := by simp at hi; omega
      norm_num)

/-- A falling stone, sampled at the times 0, 1 and 3. -/
example (S : Solver ℚ) : ∃ c' : ScalarCurve .o3 ℚ,
    ScalarCurve.fresh.fitCurveWith S [0, 1, 3] [0, 1, 9] 0 7 6 8 = .ok c' ∧
    ∀ t, 0 ≤ t → t ≤ 3 → ∃ r u a, c'.evaluate t = .ok r ∧ |r - t ^ 2| ≤ 4 ∧ c'.evaluateDerivative t 1 = .ok (some u) ∧
      |u - 2 * t| ≤ 8 ∧ c'.evaluateDerivative t 2 = .ok (some a) ∧ |a| ≤ 6 := by
  obtain ⟨c', e, h⟩ := C176_motion S (ts := [(0 : ℚ), 1, 3]) (by simp) (by norm_num) (by norm_num) (fun t => t ^ 2)
    (fun t => 2 * t) (M := 2) (h := 2) (by
      intro s t _ _ _ _
      rw [abs_le]
      constructor <;> nlinarith [sq_nonneg (t - s)]) (by
      intro i hi
      simp only [List.length_cons, List.length_nil, zero_add, Nat.reduceAdd] at hi
      obtain rfl | rfl : i = 0 ∨ i = 1 := by omega
      all_goals norm_num) 7 8 ScalarCurve.fresh
  norm_num at e
  refine ⟨c', e, fun t h0 h1 => ?_⟩
  obtain ⟨r, u, a, r1, r2, u1, u2, a1, a2⟩ := h t h0 h1
  exact ⟨r, u, a, r1, r2.trans (by norm_num), u1, u2.trans (by norm_num), a1, a2.trans (by norm_num)⟩

end Verif.PolyCurve

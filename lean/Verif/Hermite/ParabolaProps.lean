import Verif.Hermite.LocalProps

/-!
# C136: fitting a cubic Hermite curve to samples of a motion with constant acceleration
-/

set_option linter.unusedSectionVars false
set_option linter.dupNamespace false

namespace Verif.Hermite.E3

open Verif.Manager

variable {K V : Type} [Field K] [LinearOrder K] [IsStrictOrderedRing K] [AddCommGroup V] [Module K V]

/-! ### The motion -/

/-- Where the motion is at the time `t`. -/
def parabola (p q a : V) (t : K) : V := p + t • q + t ^ 2 • a

/-- Its velocity. -/
def parabolaVelocity (q a : V) (t : K) : V := q + (2 * t) • a

/-- By how much the velocity of knot `i` of the fit is wrong: at the ends what was asked for less what it should be, and
inside by how much the knot is off the middle of its neighbours. -/
def slip (q a d0 dT : V) (ts : List K) (i : ℕ) : V :=
  if i = 0 then d0 - parabolaVelocity q a (ts[0]?.getD 0)
  else if i + 1 = ts.length then dT - parabolaVelocity q a (ts[i]?.getD 0)
  else (ts[i + 1]?.getD 0 + ts[i - 1]?.getD 0 - 2 * ts[i]?.getD 0) • a

/-! ### Lemmas -/

theorem parabola_segment {a b : Node K (Knot V)} (h : a.time < b.time) {p q x e f : V}
    (ea : a.coef = ⟨parabola p q x a.time, parabolaVelocity q x a.time + e⟩)
    (eb : b.coef = ⟨parabola p q x b.time, parabolaVelocity q x b.time + f⟩) (t α : K)
    (hα : α = (t - a.time) / (b.time - a.time)) :
    interpolate a b t = parabola p q x t + (b.time - a.time) • ((α * (1 - α) ^ 2) • e - (α ^ 2 * (1 - α)) • f) ∧
    interpolateVelocity a b t = parabolaVelocity q x t + ((1 - α) * (1 - 3 * α)) • e - (α * (2 - 3 * α)) • f ∧
    interpolateAcceleration a b t = (2 : K) • x + (b.time - a.time)⁻¹ • ((6 * α - 4) • e + (6 * α - 2) • f) := by
  have hne : b.time - a.time ≠ 0 := sub_ne_zero.2 h.ne'
  obtain ⟨d, hd⟩ : ∃ d, d = b.time - a.time := ⟨_, rfl⟩
  have hb : b.time = a.time + d := by rw [hd]; ring
  have ht : t = a.time + α * d := by rw [hα, hd]; field_simp; ring
  have hd0 : d ≠ 0 := by rw [hd]; exact hne
  simp only [interpolate, interpolateVelocity, interpolateAcceleration, ea, eb, parabola, parabolaVelocity, ← hd, one_div]
  rw [hb, ht]
  refine ⟨?_, ?_, ?_⟩
  · match_scalars <;> field_simp <;> ring
  · match_scalars <;> field_simp <;> ring
  · match_scalars <;> field_simp <;> ring

theorem parabola_slope {p q a : V} {l u : K} (h : l < u) :
    calculateSlope l u (parabola p q a l) (parabola p q a u) = q + (l + u) • a := by
  have hne : u - l ≠ 0 := sub_ne_zero.2 h.ne'
  simp only [calculateSlope, parabola]
  match_scalars <;> field_simp <;> ring

/-- The knots of the fit. -/
theorem parabola_knot {ts : List K} (hinc : ts.Pairwise (· < ·)) {p q a d0 dT : V} {cs : List (Knot V)}
    (f : fitLoop ts (ts.map (parabola p q a)) d0 dT ts.length 0 = .ok cs) {i : ℕ} (hi : i < ts.length) (k : Knot V)
    (hk : cs[i]? = some k) :
    k = ⟨parabola p q a ts[i], parabolaVelocity q a ts[i] + slip q a d0 dT ts i⟩ := by
  obtain ⟨x, ex, hx, h⟩ := fitLoop_ok ts (ts.map (parabola p q a)) d0 dT (by simp) ts.length 0 (by omega)
  obtain rfl : x = cs := by rw [ex] at f; exact Outcome.ok.inj f
  obtain ⟨k', e, h1, h2, h3, h4⟩ := h i hi
  obtain rfl : k' = k := by
    rw [List.getElem?_eq_getElem (by omega), e] at hk
    exact Option.some.inj hk
  simp only [Nat.zero_add] at h1 h2 h3 h4
  obtain ⟨pos, vel⟩ := k'
  simp only at h1 h2 h3 h4
  rw [Knot.mk.injEq]
  refine ⟨by rw [h1]; simp, ?_⟩
  unfold slip
  by_cases hi0 : i = 0
  · subst hi0
    rw [if_pos rfl, h2 rfl, List.getElem?_eq_getElem hi]
    simp
  · by_cases hiT : i + 1 = ts.length
    · rw [if_neg hi0, if_pos hiT, h3 hi0 (by omega), List.getElem?_eq_getElem hi]
      simp
    · have hlt : ts[i - 1]'(by omega) < ts[i + 1]'(by omega) :=
        List.pairwise_iff_getElem.1 hinc (i - 1) (i + 1) (by omega) (by omega) (by omega)
      rw [if_neg hi0, if_neg hiT, h4 hi0 (by omega), List.getElem?_eq_getElem hi,
        List.getElem?_eq_getElem (show i + 1 < ts.length by omega),
        List.getElem?_eq_getElem (show i - 1 < ts.length by omega)]
      simp only [List.getElem_map, Option.getD_some, parabola_slope hlt, parabolaVelocity]
      match_scalars <;> ring

/-! ### The theorems -/

/-- C136. The curve fitted to samples of a motion with constant acceleration, compared with the motion: on the segment from
`ts[i]` to `ts[i + 1]` it is off by a fixed combination of the two slips, and so are velocity and acceleration. -/
theorem C136_error (debug : Bool) (p q a d0 dT : V) {ts : List K} (hinc : ts.Pairwise (· < ·)) (w : World) :
    ∃ c ks, fitCurveWithDerivatives debug ts (ts.map (parabola p q a)) d0 dT (fresh w) = .ok (c, ks) ∧
      ∀ (i : ℕ) (hi : i + 1 < ts.length) (t α : K), ts[i] ≤ t → t ≤ ts[i + 1] →
        α = (t - ts[i]) / (ts[i + 1] - ts[i]) →
        evaluate t c = .ok (some (parabola p q a t + (ts[i + 1] - ts[i]) •
          ((α * (1 - α) ^ 2) • slip q a d0 dT ts i - (α ^ 2 * (1 - α)) • slip q a d0 dT ts (i + 1)))) ∧
        evaluateDerivative t 1 c = .ok (some (parabolaVelocity q a t + ((1 - α) * (1 - 3 * α)) • slip q a d0 dT ts i -
          (α * (2 - 3 * α)) • slip q a d0 dT ts (i + 1))) ∧
        (t < ts[i + 1] → evaluateDerivative t 2 c = .ok (some ((2 : K) • a + (ts[i + 1] - ts[i])⁻¹ •
          ((6 * α - 4) • slip q a d0 dT ts i + (6 * α - 2) • slip q a d0 dT ts (i + 1))))) := by
  obtain ⟨c, ks, cs, e, f, l, s, n⟩ := fit_fresh debug (vs := ts.map (parabola p q a)) (by simp) hinc d0 dT w
  refine ⟨c, ks, e, fun i hi t α h0 h1 hα => ?_⟩
  obtain ⟨pre, x, y, post, hm, tx, ty, cx, cy⟩ := fit_segment n l hi
  have hx := parabola_knot hinc f (by omega) _ cx
  have hy := parabola_knot hinc f hi _ cy
  have hlt : ts[i] < ts[i + 1] := List.pairwise_iff_getElem.1 hinc i (i + 1) (by omega) hi (by omega)
  rw [← tx] at hx h0 hα ⊢
  rw [← ty] at hy h1 hα ⊢
  obtain ⟨g1, g2, g3⟩ := parabola_segment (by rw [tx, ty]; exact hlt) hx hy t α hα
  refine ⟨?_, ?_, fun h3 => ?_⟩
  · rw [evaluate_between s hm h0 h1, g1]
  · rw [velocity_between s hm h0 h1, g2]
  · rw [acceleration_eq, acceleration_between s hm h0 h3, g3]

/-- C136 (partial). Equidistant samples of a motion with constant acceleration, fitted with the right derivatives at the two
ends, give the motion: position and velocity at every time of the domain, acceleration at every time but the last. Without
the right derivatives at the ends (as in `fitCurve`) this still holds from the second to the last but one knot. Missing:
knots that are not equidistant, for which it is false, see `C136_refuted`. -/
theorem C136_reproduces_partial (debug : Bool) (p q a d0 dT : V) {ts : List K} (hinc : ts.Pairwise (· < ·)) (w : World)
    (heq : ∀ (i : ℕ) (_ : i + 2 < ts.length), ts[i + 2] - ts[i + 1] = ts[i + 1] - ts[i]) :
    ∃ c ks, fitCurveWithDerivatives debug ts (ts.map (parabola p q a)) d0 dT (fresh w) = .ok (c, ks) ∧
      ∀ (i : ℕ) (hi : i + 1 < ts.length) (t : K), ts[i] ≤ t → t ≤ ts[i + 1] →
        (i = 0 → d0 = parabolaVelocity q a ts[i]) → (i + 2 = ts.length → dT = parabolaVelocity q a ts[i + 1]) →
        evaluate t c = .ok (some (parabola p q a t)) ∧ evaluateDerivative t 1 c = .ok (some (parabolaVelocity q a t)) ∧
        (t < ts[i + 1] → evaluateDerivative t 2 c = .ok (some ((2 : K) • a))) := by
  obtain ⟨c, ks, e, h⟩ := C136_error debug p q a d0 dT hinc w
  refine ⟨c, ks, e, fun i hi t h0 h1 hd0 hdT => ?_⟩
  have hmid : ∀ j, j ≠ 0 → j + 1 ≠ ts.length → j < ts.length → slip q a d0 dT ts j = 0 := by
    intro j hj0 hj1 hj
    unfold slip
    rw [if_neg hj0, if_neg hj1, List.getElem?_eq_getElem hj, List.getElem?_eq_getElem (show j + 1 < ts.length by omega),
      List.getElem?_eq_getElem (show j - 1 < ts.length by omega)]
    have := heq (j - 1) (by omega)
    simp only [show j - 1 + 1 = j by omega, show j - 1 + 2 = j + 1 by omega] at this
    simp only [Option.getD_some]
    rw [show ts[j + 1] + ts[j - 1] - 2 * ts[j] = 0 by linear_combination this, zero_smul]
  have s0 : slip q a d0 dT ts i = 0 := by
    by_cases hi0 : i = 0
    · subst hi0
      rw [slip, if_pos rfl, List.getElem?_eq_getElem (by omega), hd0 rfl]
      simp
    · exact hmid i hi0 (by omega) (by omega)
  have s1 : slip q a d0 dT ts (i + 1) = 0 := by
    by_cases hi1 : i + 2 = ts.length
    · rw [slip, if_neg (by omega), if_pos (by omega), List.getElem?_eq_getElem hi, hdT hi1]
      simp
    · exact hmid (i + 1) (by omega) (by omega) hi
  have := h i hi t _ h0 h1 rfl
  rw [s0, s1] at this
  simpa using this

/-- Samples of `t²` at 0, 1, 2, 3, 4, by `fitCurve`: exact in the middle. -/
example : ∃ c ks, fitCurve false [0, 1, 2, 3, 4] [0, 1, 4, 9, 16] (fresh ⟨0, 0⟩ : E3 ℚ ℚ) = .ok (c, ks) ∧
    evaluate (5 / 2) c = .ok (some (25 / 4)) ∧ evaluateDerivative (5 / 2) 1 c = .ok (some 5) ∧
    evaluateDerivative (5 / 2) 2 c = .ok (some 2) := by
  obtain ⟨c, ks, e, h⟩ := C136_reproduces_partial (K := ℚ) (V := ℚ) false 0 0 1 0 0 (ts := [0, 1, 2, 3, 4])
    (by decide +kernel) ⟨0, 0⟩ (by
      intro i hi
      have : i = 0 ∨ i = 1 ∨ i = 2 := by simp at hi; omega
      rcases this with rfl | rfl | rfl <;> norm_num)
  have := h 2 (by decide) (5 / 2) (by norm_num) (by norm_num) (by decide) (by decide)
  norm_num [parabola, parabolaVelocity] at this
  refine ⟨c, ks, ?_, this⟩
  rw [← e, fitCurve]
  norm_num [parabola]

/-- C136, refuted for knots that are not equidistant. At every inner knot that is not the middle of its two neighbours, the
velocity of the fitted curve is not that of the motion, whatever derivatives are given at the ends; it is off by the
acceleration times half the difference of the two gaps. -/
theorem C136_refuted (debug : Bool) (p q a d0 dT : V) {ts : List K} (hinc : ts.Pairwise (· < ·)) (w : World) (i : ℕ)
    (hi : i + 2 < ts.length) (hoff : ts[i + 2] - ts[i + 1] ≠ ts[i + 1] - ts[i]) (ha : a ≠ 0) :
    ∃ c ks v, fitCurveWithDerivatives debug ts (ts.map (parabola p q a)) d0 dT (fresh w) = .ok (c, ks) ∧
      evaluateDerivative ts[i + 1] 1 c = .ok (some v) ∧ v ≠ parabolaVelocity q a ts[i + 1] ∧
      v - parabolaVelocity q a ts[i + 1] = (((ts[i + 2] - ts[i + 1]) - (ts[i + 1] - ts[i])) / 2) • ((2 : K) • a) := by
  obtain ⟨c, ks, e, h⟩ := C136_error debug p q a d0 dT hinc w
  have hlt : ts[i + 1] < ts[i + 2] := List.pairwise_iff_getElem.1 hinc (i + 1) (i + 2) (by omega) hi (by omega)
  have := (h (i + 1) hi ts[i + 1] _ le_rfl hlt.le rfl).2.1
  have hs : slip q a d0 dT ts (i + 1) = ((ts[i + 2] - ts[i + 1]) - (ts[i + 1] - ts[i])) • a := by
    rw [slip, if_neg (by omega), if_neg (by omega), List.getElem?_eq_getElem hi,
      List.getElem?_eq_getElem (show i + 1 < ts.length by omega), List.getElem?_eq_getElem (show i + 1 - 1 < ts.length by omega)]
    simp only [Option.getD_some, Nat.add_sub_cancel]
    congr 1
    ring
  refine ⟨c, ks, _, e, this, ?_, ?_⟩
  · rw [hs]
    simp only [sub_self, zero_div, mul_zero, sub_zero, mul_one, one_smul, zero_mul, zero_smul]
    intro hv
    rw [add_eq_left, smul_eq_zero] at hv
    rcases hv with hv | hv
    · exact hoff (sub_eq_zero.1 hv)
    · exact ha hv
  · rw [hs]
    simp only [sub_self, zero_div, mul_zero, sub_zero, mul_one, one_smul, zero_mul, zero_smul]
    match_scalars <;> ring

/-- Samples of `t²` at 0, 1, 3: the velocity at 1 comes out as 3 instead of 2. -/
example : ∃ c ks, fitCurveWithDerivatives false [0, 1, 3] [0, 1, 9] 0 6 (fresh ⟨0, 0⟩ : E3 ℚ ℚ) = .ok (c, ks) ∧
    evaluateDerivative 1 1 c = .ok (some 3) := by
  exact ⟨_, _, rfl, by decide +kernel⟩

end Verif.Hermite.E3

import Verif.PolyCurve.PairProps
import Verif.Hermite.TranslationProps

/-!
# Property C170: the exact limits of a Hermite fit

How fast a fitted `CubicHermiteE3Curve`, or the translation of a `CubicHermiteSE3Curve`, can get, what acceleration it can report
and how far from the straight lines between its points it can be, given the largest mean slope of the points; and that none of
the three bounds can be improved. The first two are statements about what `evaluateDerivative` returns.
-/

set_option linter.unusedSectionVars false
set_option linter.dupNamespace false

namespace Verif.PolyCurve

open Verif.Spline Verif.Container Verif.Manager
open Hermite.E3 (way way_sub speed)

variable {K V : Type} [Field K] [LinearOrder K] [IsStrictOrderedRing K] [AddCommGroup V] [Module K V]

/-- The nodes that `fitCurveWithDerivatives` makes. -/
theorem e3_nodes (debug : Bool) {ts : List K} {vs : List V} (h2 : 2 ≤ ts.length) (hl : ts.length = vs.length)
    (hinc : ts.Pairwise (· < ·)) (d0 dT : V) (w : World) :
    ∃ (c : Hermite.E3 K V) (ks : List Key) (m : ℕ → V),
      Hermite.E3.fitCurveWithDerivatives debug ts vs d0 dT (Hermite.E3.fresh w) = .ok (c, ks) ∧ Sorted c.m.nodes ∧
      (∀ n ∈ c.m.nodes, n.time ∈ ts) ∧ m 0 = d0 ∧ m (ts.length - 1) = dT ∧
      (∀ i (h : i + 2 < ts.length), m (i + 1) = (1 / (ts[i + 2] - ts[i])) • (vs[i + 2] - vs[i])) ∧
      ∀ i (hi : i + 1 < ts.length), ∃ pre a b post, c.m.nodes = pre ++ a :: b :: post ∧ a.time = ts[i] ∧ b.time = ts[i + 1] ∧
        a.coef = ⟨vs[i], m i⟩ ∧ b.coef = ⟨vs[i + 1], m (i + 1)⟩ := by
  obtain ⟨c, ks, cs, e, f1, l, s, n⟩ := Hermite.E3.fit_fresh debug hl hinc d0 dT w
  obtain ⟨x, ex, hx, h⟩ := Hermite.E3.fitLoop_ok ts vs d0 dT hl.le ts.length 0 (by omega)
  obtain rfl : x = cs := by rw [ex] at f1; exact Outcome.ok.inj f1
  obtain ⟨m, hm⟩ : ∃ m : ℕ → V, ∀ j (hj : j < x.length), m j = x[j].velocity :=
    ⟨fun i => (x[i]?.map Hermite.Knot.velocity).getD 0, fun j hj => by simp [hj]⟩
  refine ⟨c, ks, m, e, s, ?_, ?_, ?_, ?_, ?_⟩
  · intro a ha
    have : (a.time, a.coef) ∈ c.m.knots := List.mem_map.2 ⟨a, ha, rfl⟩
    rw [n] at this
    exact (List.of_mem_zip this).1
  · obtain ⟨k, k1, -, k3, -⟩ := h 0 (by omega)
    rw [hm 0 (by omega), k1]
    exact k3 rfl
  · obtain ⟨k, k1, -, -, k4, -⟩ := h (ts.length - 1) (by omega)
    rw [hm _ (by omega), k1]
    exact k4 (by omega) (by omega)
  · intro i hi
    obtain ⟨k, k1, -, -, -, k5⟩ := h (i + 1) (by omega)
    simp only [Nat.zero_add] at k5
    rw [hm _ (by omega), k1]
    exact k5 (by omega) (by omega)
  · intro i hi
    obtain ⟨pre, a, b, post, hn, ta, tb, ca, cb⟩ := Hermite.E3.fit_segment n l hi
    refine ⟨pre, a, b, post, hn, ta, tb, ?_, ?_⟩
    · obtain ⟨k, k1, k2, -⟩ := h i (by omega)
      simp only [Nat.zero_add] at k2
      rw [List.getElem?_eq_getElem (by omega), k1, Option.some.injEq] at ca
      rw [← ca, hm i (by omega), k1, ← k2]
    · obtain ⟨k, k1, k2, -⟩ := h (i + 1) hi
      simp only [Nat.zero_add] at k2
      rw [List.getElem?_eq_getElem (by omega), k1, Option.some.injEq] at cb
      rw [← cb, hm (i + 1) (by omega), k1, ← k2]

/-- The velocity in a coordinate. -/
theorem velocity_speed (f : V →ₗ[K] K) {a b : Node K (Hermite.Knot V)} (h : a.time < b.time) (t : K) :
    (b.time - a.time) * f (Hermite.E3.interpolateVelocity a b t) = speed (f b.coef.position - f a.coef.position)
      ((b.time - a.time) * f a.coef.velocity) ((b.time - a.time) * f b.coef.velocity)
      ((t - a.time) / (b.time - a.time)) := by
  have hd : b.time - a.time ≠ 0 := (sub_pos.2 h).ne'
  simp only [Hermite.E3.interpolateVelocity, map_add, map_smul, smul_eq_mul, speed]
  field_simp
  ring

/-- The acceleration in a coordinate. -/
theorem acceleration_bend (f : V →ₗ[K] K) {a b : Node K (Hermite.Knot V)} (h : a.time < b.time) (t : K) :
    (b.time - a.time) ^ 2 * f (Hermite.E3.interpolateAcceleration a b t) =
      6 * (1 - 2 * ((t - a.time) / (b.time - a.time))) * (f b.coef.position - f a.coef.position) +
      (6 * ((t - a.time) / (b.time - a.time)) - 4) * ((b.time - a.time) * f a.coef.velocity) +
      (6 * ((t - a.time) / (b.time - a.time)) - 2) * ((b.time - a.time) * f b.coef.velocity) := by
  have hd : b.time - a.time ≠ 0 := (sub_pos.2 h).ne'
  simp only [Hermite.E3.interpolateAcceleration, map_add, map_smul, smul_eq_mul]
  field_simp
  ring

theorem bend_le {D u v x B : K} (x0 : 0 ≤ x) (x1 : x ≤ 1) (hD : |D| ≤ B) (hu : |u| ≤ B) (hv : |v| ≤ B) :
    |6 * (1 - 2 * x) * D + (6 * x - 4) * u + (6 * x - 2) * v| ≤ 12 * B := by
  obtain ⟨d1, d2⟩ := abs_le.1 hD
  obtain ⟨u1, u2⟩ := abs_le.1 hu
  obtain ⟨v1, v2⟩ := abs_le.1 hv
  have y0 : 0 ≤ 1 - x := by linarith
  -- between the values at the two ends
  have e : 6 * (1 - 2 * x) * D + (6 * x - 4) * u + (6 * x - 2) * v =
      (1 - x) * (6 * D - 4 * u - 2 * v) + x * (2 * u + 4 * v - 6 * D) := by ring
  rw [e, abs_le]
  constructor
  · nlinarith [mul_nonneg y0 (show 0 ≤ 12 * B + (6 * D - 4 * u - 2 * v) by linarith),
      mul_nonneg x0 (show 0 ≤ 12 * B + (2 * u + 4 * v - 6 * D) by linarith)]
  · nlinarith [mul_nonneg y0 (show 0 ≤ 12 * B - (6 * D - 4 * u - 2 * v) by linarith),
      mul_nonneg x0 (show 0 ≤ 12 * B - (2 * u + 4 * v - 6 * D) by linarith)]

/-- The distance from the straight line: at most 8/27. -/
theorem way_chord {D u v x B : K} (x0 : 0 ≤ x) (x1 : x ≤ 1) (hD : |D| ≤ B) (hu : |u| ≤ B) (hv : |v| ≤ B) :
    |way D u v x - x * D| ≤ 8 / 27 * B := by
  have hB : 0 ≤ B := (abs_nonneg D).trans hD
  obtain ⟨d1, d2⟩ := abs_le.1 hD
  obtain ⟨u1, u2⟩ := abs_le.1 hu
  obtain ⟨v1, v2⟩ := abs_le.1 hv
  have y0 : 0 ≤ 1 - x := by linarith
  have p0 : 0 ≤ x * (1 - x) ^ 2 := mul_nonneg x0 (sq_nonneg _)
  have q0 : 0 ≤ x ^ 2 * (1 - x) := mul_nonneg (sq_nonneg _) y0
  have p1 : x * (1 - x) ^ 2 ≤ 4 / 27 := by
    have := mul_nonneg (show (0 : K) ≤ 4 / 3 - x by linarith) (sq_nonneg (x - 1 / 3))
    nlinarith
  have q1 : x ^ 2 * (1 - x) ≤ 4 / 27 := by
    have := mul_nonneg (show (0 : K) ≤ x + 1 / 3 by linarith) (sq_nonneg (x - 2 / 3))
    nlinarith
  have e : way D u v x - x * D = x * (1 - x) ^ 2 * (u - D) - x ^ 2 * (1 - x) * (v - D) := by simp only [way]; ring
  have i1 := mul_nonneg p0 (show 0 ≤ B - u by linarith)
  have i2 := mul_nonneg p0 (show 0 ≤ B + u by linarith)
  have i3 := mul_nonneg q0 (show 0 ≤ B - v by linarith)
  have i4 := mul_nonneg q0 (show 0 ≤ B + v by linarith)
  have j1 := mul_le_mul_of_nonneg_right p1 (show 0 ≤ B - D by linarith)
  have j2 := mul_le_mul_of_nonneg_right p1 (show 0 ≤ B + D by linarith)
  have j3 := mul_le_mul_of_nonneg_right q1 (show 0 ≤ B - D by linarith)
  have j4 := mul_le_mul_of_nonneg_right q1 (show 0 ≤ B + D by linarith)
  rw [e, abs_le]
  constructor <;> linarith

/-- The values at hand on one segment. -/
theorem e3_limits (debug : Bool) {ts : List K} {vs : List V} (h2 : 2 ≤ ts.length) (hl : ts.length = vs.length)
    (hinc : ts.Pairwise (· < ·)) (d0 dT : V) (w : World) :
    ∃ (c : Hermite.E3 K V) (ks : List Key),
      Hermite.E3.fitCurveWithDerivatives debug ts vs d0 dT (Hermite.E3.fresh w) = .ok (c, ks) ∧
      ∀ i (hi : i + 1 < ts.length) t, ts[i] ≤ t → t ≤ ts[i + 1] →
        (∃ r, Hermite.E3.evaluate t c = .ok (some r) ∧
          ∀ (f : V →ₗ[K] K) (R : K), (∀ i (hi : i + 1 < ts.length), |f vs[i + 1] - f vs[i]| ≤ R * (ts[i + 1] - ts[i])) →
            |f d0| ≤ R → |f dT| ≤ R →
            |f r - (f vs[i] + (t - ts[i]) / (ts[i + 1] - ts[i]) * (f vs[i + 1] - f vs[i]))| ≤
              8 / 27 * (R * (ts[i + 1] - ts[i]))) ∧
        (∃ r, Hermite.E3.evaluateDerivative t 1 c = .ok (some r) ∧
          ∀ (f : V →ₗ[K] K) (R : K), (∀ i (hi : i + 1 < ts.length), |f vs[i + 1] - f vs[i]| ≤ R * (ts[i + 1] - ts[i])) →
            |f d0| ≤ R → |f dT| ≤ R → |f r| ≤ 2 * R) ∧
        (t < ts[i + 1] ∨ i + 2 = ts.length → ∃ r, Hermite.E3.evaluateDerivative t 2 c = .ok (some r) ∧
          ∀ (f : V →ₗ[K] K) (R : K), (∀ i (hi : i + 1 < ts.length), |f vs[i + 1] - f vs[i]| ≤ R * (ts[i + 1] - ts[i])) →
            |f d0| ≤ R → |f dT| ≤ R → |f r| ≤ 12 * R / (ts[i + 1] - ts[i])) := by
  obtain ⟨c, ks, m, e, hs, hmem, m0, mT, hin, hn⟩ := e3_nodes debug h2 hl hinc d0 dT w
  refine ⟨c, ks, e, fun i hi t h0 h1 => ?_⟩
  obtain ⟨pre, a, b, post, hm, ta, tb, ca, cb⟩ := hn i hi
  have hd : 0 < ts[i + 1] - ts[i] :=
    sub_pos.2 (List.pairwise_iff_getElem.1 hinc i (i + 1) (by omega) hi (by omega))
  have hab : a.time < b.time := by rw [ta, tb]; linarith
  have X0 : 0 ≤ (t - ts[i]) / (ts[i + 1] - ts[i]) := div_nonneg (sub_nonneg.2 h0) hd.le
  have X1 : (t - ts[i]) / (ts[i + 1] - ts[i]) ≤ 1 := (div_le_one hd).2 (by linarith)
  have hsl : ∀ (f : V →ₗ[K] K) (R : K), (∀ i (hi : i + 1 < ts.length), |f vs[i + 1] - f vs[i]| ≤ R * (ts[i + 1] - ts[i])) →
      |f d0| ≤ R → |f dT| ≤ R → |(ts[i + 1] - ts[i]) * f (m i)| ≤ R * (ts[i + 1] - ts[i]) ∧
      |(ts[i + 1] - ts[i]) * f (m (i + 1))| ≤ R * (ts[i + 1] - ts[i]) := by
    intro f R hR g0 gT
    have hB := e3_slopes hl hinc m0 mT hin f hR g0 gT
    rw [abs_mul, abs_mul, abs_of_pos hd]
    have a := mul_le_mul_of_nonneg_left (hB i (by omega)) hd.le
    have b := mul_le_mul_of_nonneg_left (hB (i + 1) hi) hd.le
    exact ⟨by linarith, by linarith⟩
  refine ⟨⟨_, Hermite.E3.evaluate_between hs hm (by rw [ta]; exact h0) (by rw [tb]; exact h1), fun f R hR g0 gT => ?_⟩,
    ⟨_, Hermite.E3.velocity_between hs hm (by rw [ta]; exact h0) (by rw [tb]; exact h1), fun f R hR g0 gT => ?_⟩,
    fun hlast => ?_⟩
  · obtain ⟨b1, b2⟩ := hsl f R hR g0 gT
    rw [Hermite.E3.interpolate_way, ta, tb, ca, cb, add_sub_add_left_eq_sub]
    exact way_chord X0 X1 (hR i hi) b1 b2
  · obtain ⟨b1, b2⟩ := hsl f R hR g0 gT
    have hv := velocity_speed f hab t
    rw [ta, tb, ca, cb] at hv
    have := speed_le_two X0 X1 (hR i hi) b1 b2
    rw [← hv, abs_mul, abs_of_pos hd] at this
    refine le_of_mul_le_mul_left (this.trans ?_) hd
    linarith
  · have eg : c.m.getCoefficientsAt t = some (a, b) := by
      rcases getAt_between hs hm (t := t) (by rw [ta]; exact h0) (by rw [tb]; exact h1) with h | ⟨x, hx, rfl, hlt, -⟩
      · exact h
      · exfalso
        rcases hlast with h | h
        · rw [tb] at h; exact lt_irrefl _ h
        · obtain ⟨j, hj, ej⟩ := List.getElem_of_mem (hmem x (by rw [hm]; simp [List.mem_of_mem_head? hx]))
          rw [tb, ← ej] at hlt
          rcases Nat.lt_or_ge j (i + 1) with hj' | hj'
          · exact absurd (List.pairwise_iff_getElem.1 hinc j (i + 1) hj hi hj') (not_lt.2 hlt.le)
          · obtain rfl : j = i + 1 := by omega
            exact lt_irrefl _ hlt
    refine ⟨Hermite.E3.interpolateAcceleration a b t, ?_, fun f R hR g0 gT => ?_⟩
    · rw [Hermite.E3.evaluateDerivative, if_neg (by norm_num), if_pos rfl, Hermite.E3.evaluateLinearAcceleration, eg]
    · obtain ⟨b1, b2⟩ := hsl f R hR g0 gT
      have hv := acceleration_bend f hab t
      rw [ta, tb, ca, cb] at hv
      have := bend_le X0 X1 (hR i hi) b1 b2
      rw [← hv, abs_mul, abs_of_pos (pow_pos hd 2)] at this
      rw [le_div_iff₀ hd]
      refine le_of_mul_le_mul_left (?_ : (ts[i + 1] - ts[i]) * _ ≤ (ts[i + 1] - ts[i]) * _) hd
      linarith

/-- **C170**, `CubicHermiteE3Curve`, in any coordinate `f`: if no two neighbouring points differ by more than `R` times the time
between them and the end derivatives are at most `R`, then between the points `i` and `i + 1`, `h` apart, all three evaluations
succeed: the position is within `8/27 R h` of the straight line, the velocity at most `2 R` and the acceleration at most
`12 R / h`. At a knot between two segments the code reports the acceleration of the later one. -/
theorem C170_limits (debug : Bool) {ts : List K} {vs : List V} (h2 : 2 ≤ ts.length) (hl : ts.length = vs.length)
    (hinc : ts.Pairwise (· < ·)) (d0 dT : V) (w : World) :
    ∃ (c : Hermite.E3 K V) (ks : List Key),
      Hermite.E3.fitCurveWithDerivatives debug ts vs d0 dT (Hermite.E3.fresh w) = .ok (c, ks) ∧
      ∀ (f : V →ₗ[K] K) (R : K), (∀ i (hi : i + 1 < ts.length), |f vs[i + 1] - f vs[i]| ≤ R * (ts[i + 1] - ts[i])) →
        |f d0| ≤ R → |f dT| ≤ R → ∀ i (hi : i + 1 < ts.length) t, ts[i] ≤ t → t ≤ ts[i + 1] →
        (∃ r, Hermite.E3.evaluate t c = .ok (some r) ∧
          |f r - (f vs[i] + (t - ts[i]) / (ts[i + 1] - ts[i]) * (f vs[i + 1] - f vs[i]))| ≤ 8 / 27 * (R * (ts[i + 1] - ts[i]))) ∧
        (∃ r, Hermite.E3.evaluateDerivative t 1 c = .ok (some r) ∧ |f r| ≤ 2 * R) ∧
        (t < ts[i + 1] ∨ i + 2 = ts.length →
          ∃ r, Hermite.E3.evaluateDerivative t 2 c = .ok (some r) ∧ |f r| ≤ 12 * R / (ts[i + 1] - ts[i])) := by
  obtain ⟨c, ks, e, h⟩ := e3_limits debug h2 hl hinc d0 dT w
  refine ⟨c, ks, e, fun f R hR g0 gT i hi t h0 h1 => ?_⟩
  obtain ⟨⟨r, er, vr⟩, ⟨q, eq, vq⟩, ha⟩ := h i hi t h0 h1
  refine ⟨⟨r, er, vr f R hR g0 gT⟩, ⟨q, eq, vq f R hR g0 gT⟩, fun hlast => ?_⟩
  obtain ⟨p, ep, vp⟩ := ha hlast
  exact ⟨p, ep, vp f R hR g0 gT⟩

/-- **C170**, in space: with distances instead of coordinates. -/
theorem C170_space (debug : Bool) {E : Type} [NormedAddCommGroup E] [InnerProductSpace ℝ E] {ts : List ℝ} {vs : List E}
    (h2 : 2 ≤ ts.length) (hl : ts.length = vs.length) (hinc : ts.Pairwise (· < ·)) (d0 dT : E) (w : World) {R : ℝ}
    (hR : ∀ i (hi : i + 1 < ts.length), ‖vs[i + 1] - vs[i]‖ ≤ R * (ts[i + 1] - ts[i])) (h0 : ‖d0‖ ≤ R) (hT : ‖dT‖ ≤ R) :
    ∃ (c : Hermite.E3 ℝ E) (ks : List Key),
      Hermite.E3.fitCurveWithDerivatives debug ts vs d0 dT (Hermite.E3.fresh w) = .ok (c, ks) ∧
      ∀ i (hi : i + 1 < ts.length) t, ts[i] ≤ t → t ≤ ts[i + 1] →
        (∃ r, Hermite.E3.evaluate t c = .ok (some r) ∧
          ‖r - (vs[i] + ((t - ts[i]) / (ts[i + 1] - ts[i])) • (vs[i + 1] - vs[i]))‖ ≤ 8 / 27 * (R * (ts[i + 1] - ts[i]))) ∧
        (∃ r, Hermite.E3.evaluateDerivative t 1 c = .ok (some r) ∧ ‖r‖ ≤ 2 * R) ∧
        (t < ts[i + 1] ∨ i + 2 = ts.length →
          ∃ r, Hermite.E3.evaluateDerivative t 2 c = .ok (some r) ∧ ‖r‖ ≤ 12 * R / (ts[i + 1] - ts[i])) := by
  obtain ⟨c, ks, e, h⟩ := e3_limits debug h2 hl hinc d0 dT w
  have hR0 : 0 ≤ R := (norm_nonneg _).trans h0
  -- in the direction of `u` everything is at most `‖u‖` times as much
  have key : ∀ u : E, ∃ f : E →ₗ[ℝ] ℝ, (∀ v, |f v| ≤ ‖u‖ * ‖v‖) ∧ f u = ‖u‖ * ‖u‖ := fun u =>
    ⟨(innerSL ℝ u).toLinearMap, fun v => by simpa using abs_real_inner_le_norm u v,
      by simp [pow_two]⟩
  have hdir : ∀ (u : E) (f : E →ₗ[ℝ] ℝ), (∀ v, |f v| ≤ ‖u‖ * ‖v‖) →
      (∀ i (hi : i + 1 < ts.length), |f vs[i + 1] - f vs[i]| ≤ (‖u‖ * R) * (ts[i + 1] - ts[i])) ∧ |f d0| ≤ ‖u‖ * R ∧
        |f dT| ≤ ‖u‖ * R := by
    intro u f hf
    refine ⟨fun i hi => ?_, (hf d0).trans (mul_le_mul_of_nonneg_left h0 (norm_nonneg u)),
      (hf dT).trans (mul_le_mul_of_nonneg_left hT (norm_nonneg u))⟩
    rw [← map_sub]
    refine (hf _).trans ?_
    rw [mul_assoc]
    exact mul_le_mul_of_nonneg_left (hR i hi) (norm_nonneg u)
  have fin : ∀ (u : E) (b : ℝ), ‖u‖ * ‖u‖ ≤ ‖u‖ * b → 0 ≤ b → ‖u‖ ≤ b := by
    intro u b hu hb
    rcases (norm_nonneg u).lt_or_eq with hp | hp
    · exact le_of_mul_le_mul_left hu hp
    · rw [← hp]; exact hb
  refine ⟨c, ks, e, fun i hi t g0 g1 => ?_⟩
  have hd : 0 < ts[i + 1] - ts[i] :=
    sub_pos.2 (List.pairwise_iff_getElem.1 hinc i (i + 1) (by omega) hi (by omega))
  obtain ⟨⟨r, er, vr⟩, ⟨q, eq, vq⟩, ha⟩ := h i hi t g0 g1
  refine ⟨⟨r, er, ?_⟩, ⟨q, eq, ?_⟩, fun hlast => ?_⟩
  · set p := vs[i] + ((t - ts[i]) / (ts[i + 1] - ts[i])) • (vs[i + 1] - vs[i]) with hp
    obtain ⟨f, hf, hu⟩ := key (r - p)
    obtain ⟨x, y, z⟩ := hdir _ f hf
    have := vr f _ x y z
    refine fin _ _ ?_ (by have := mul_nonneg hR0 hd.le; linarith)
    rw [← hu]
    have e1 : f (r - p) = f r - (f vs[i] + (t - ts[i]) / (ts[i + 1] - ts[i]) * (f vs[i + 1] - f vs[i])) := by
      rw [hp, map_sub, map_add, map_smul, map_sub, smul_eq_mul]
    rw [← e1] at this
    have h3 := (le_abs_self (f (r - p))).trans this
    linarith
  · obtain ⟨f, hf, hu⟩ := key q
    obtain ⟨x, y, z⟩ := hdir _ f hf
    refine fin _ _ ?_ (by linarith)
    rw [← hu]
    have h3 := (le_abs_self (f q)).trans (vq f _ x y z)
    linarith
  · obtain ⟨p, ep, vp⟩ := ha hlast
    refine ⟨p, ep, ?_⟩
    obtain ⟨f, hf, hu⟩ := key p
    obtain ⟨x, y, z⟩ := hdir _ f hf
    refine fin _ _ ?_ (div_nonneg (by linarith) hd.le)
    rw [← hu]
    have h3 := (le_abs_self (f p)).trans (vp f _ x y z)
    refine h3.trans (le_of_eq ?_)
    ring

/-- **C170**, `CubicHermiteSE3Curve`: the same for the translation of a fitted pose curve, whatever it contained before and
whatever the attitudes are. -/
theorem C170_poses (L : Kindr.LogMap) {ts : List ℝ} {vs : List Kindr.Pose} (h2 : 2 ≤ ts.length) (hl : ts.length = vs.length)
    (hinc : ts.Pairwise (· < ·)) (d0 dT : Kindr.Twist) (c : Hermite.SE3) :
    ∃ (c' : Hermite.SE3) (ks : List Key), Hermite.SE3.fitCurveWithDerivatives L ts vs d0 dT c = .ok (c', ks) ∧
      ∀ (f : Kindr.Vec3 →ₗ[ℝ] ℝ) (R : ℝ),
        (∀ i (hi : i + 1 < ts.length), |f vs[i + 1].position - f vs[i].position| ≤ R * (ts[i + 1] - ts[i])) →
        |f d0.translationalVelocity| ≤ R → |f dT.translationalVelocity| ≤ R →
        ∀ i (hi : i + 1 < ts.length) t, ts[i] ≤ t → t ≤ ts[i + 1] →
        (∃ r, Hermite.SE3.evaluate L t c' = .ok (some r) ∧
          |f r.position - (f vs[i].position + (t - ts[i]) / (ts[i + 1] - ts[i]) * (f vs[i + 1].position - f vs[i].position))| ≤
            8 / 27 * (R * (ts[i + 1] - ts[i]))) ∧
        (∃ r, Hermite.SE3.evaluateDerivative L t 1 c' = .ok (some r) ∧ |f r.translationalVelocity| ≤ 2 * R) ∧
        (t < ts[i + 1] ∨ i + 2 = ts.length →
          ∃ r, Hermite.SE3.evaluateLinearAcceleration t c' = .ok (some r) ∧ |f r| ≤ 12 * R / (ts[i + 1] - ts[i])) := by
  obtain ⟨c', ks, cs, e, -, -, hs, -⟩ := Hermite.SE3.fit_ok L ts vs hl (hinc.imp fun h => h.ne) d0 dT c
  refine ⟨c', ks, e, fun f R hR g0 gT i hi t h0 h1 => ?_⟩
  have hsh := Hermite.SE3.C123_fit L f ts vs d0 dT c
  rw [e, Outcome.ok_bind] at hsh
  obtain ⟨c2, ks2, e2, h⟩ := C170_limits true (vs := vs.map fun v => f v.position) h2 (by simp [hl]) hinc
    (f d0.translationalVelocity) (f dT.translationalVelocity) c.w
  rw [show (Hermite.SE3.shadow f c).clear = Hermite.E3.fresh c.w from rfl, e2] at hsh
  obtain rfl : c2 = Hermite.SE3.shadow f c' := (Prod.mk.inj (Outcome.ok.inj hsh)).1
  have hh := h LinearMap.id R (by
    intro j hj
    simp only [List.getElem_map, LinearMap.id_apply]
    exact hR j hj) g0 gT i hi t h0 h1
  obtain ⟨s1, s2, s3⟩ := Hermite.SE3.evaluate_shadow (e := Hermite.SE3.shadow f c') f hs (conv_knots _ _) (L := L) t
  simp only [List.getElem_map, LinearMap.id_apply] at hh
  obtain ⟨⟨r, er, vr⟩, ⟨q, eq, vq⟩, ha⟩ := hh
  refine ⟨?_, ?_, fun hlast => ?_⟩
  · rw [er] at s1
    obtain ⟨x, ex, y⟩ := Outcome.bind_eq_ok.1 s1.symm
    cases x with
    | none => simp at y
    | some x =>
      simp only [Option.map_some, Outcome.ok.injEq, Option.some.injEq] at y
      exact ⟨x, ex, by rw [y]; exact vr⟩
  · rw [eq] at s2
    obtain ⟨x, ex, y⟩ := Outcome.bind_eq_ok.1 s2.symm
    cases x with
    | none => simp at y
    | some x =>
      simp only [Option.map_some, Outcome.ok.injEq, Option.some.injEq] at y
      exact ⟨x, ex, by rw [y]; exact vq⟩
  · obtain ⟨p, ep, vp⟩ := ha hlast
    rw [ep] at s3
    obtain ⟨x, ex, y⟩ := Outcome.bind_eq_ok.1 s3.symm
    cases x with
    | none => simp at y
    | some x =>
      simp only [Option.map_some, Outcome.ok.injEq, Option.some.injEq] at y
      exact ⟨x, ex, by rw [y]; exact vp⟩

/-- Three poses, the heights of which change by at most 2 per second; the curve had other knots before. -/
example (L : Kindr.LogMap) : ∃ (c' : Hermite.SE3) (ks : List Key),
    Hermite.SE3.fitCurve L [0, 1, 3] [⟨0, 1⟩, ⟨![1, 2, 3], 1⟩, ⟨![6, -2, 0], Kindr.quat 0 ![1, 0, 0]⟩] Hermite.SE3.demo =
      .ok (c', ks) ∧
    ∀ t, 1 ≤ t → t ≤ 3 → ∃ r q, Hermite.SE3.evaluateDerivative L t 1 c' = .ok (some r) ∧ |r.translationalVelocity 1| ≤ 4 ∧
      Hermite.SE3.evaluateLinearAcceleration t c' = .ok (some q) ∧ |q 1| ≤ 12 := by
  obtain ⟨c', ks, e, h⟩ := C170_poses L (ts := [0, 1, 3])
    (vs := [⟨0, 1⟩, ⟨![1, 2, 3], 1⟩, ⟨![6, -2, 0], Kindr.quat 0 ![1, 0, 0]⟩]) (by simp) rfl (by norm_num) Kindr.Twist.zero
    Kindr.Twist.zero Hermite.SE3.demo
  refine ⟨c', ks, e, fun t h0 h1 => ?_⟩
  obtain ⟨-, ⟨r, er, vr⟩, ha⟩ := h (LinearMap.proj 1) 2 (by
    intro i hi
    simp only [List.length_cons, List.length_nil, zero_add, Nat.reduceAdd] at hi
    obtain rfl | rfl : i = 0 ∨ i = 1 := by omega
    all_goals norm_num [abs_le]) (by simp [Kindr.Twist.zero]) (by simp [Kindr.Twist.zero]) 1 (by simp) t h0 h1
  obtain ⟨q, eq, vq⟩ := ha (Or.inr rfl)
  refine ⟨r, q, er, ?_, eq, ?_⟩
  · norm_num at vr
    exact vr
  · norm_num at vq
    exact vq

/-- **C170**, none of the three can be improved: for every start `a`, duration `h` and rate `R` there are points and end
velocities keeping to the rate such that the curve is `2 R` fast half way and reports the acceleration `12 R / h` at the start,
and others such that after a third of the time it is `8/27 R h` off the straight line. -/
theorem C170_attained (debug : Bool) (a p : K) {h : K} (hh : 0 < h) (R : K) (w : World) :
    (∃ (c : Hermite.E3 K K) (ks : List Key),
      Hermite.E3.fitCurveWithDerivatives debug [a, a + h] [p, p + R * h] (-R) (-R) (Hermite.E3.fresh w) = .ok (c, ks) ∧
      Hermite.E3.evaluateDerivative (a + h / 2) 1 c = .ok (some (2 * R)) ∧
      Hermite.E3.evaluateDerivative a 2 c = .ok (some (12 * R / h))) ∧
    ∃ (c : Hermite.E3 K K) (ks : List Key),
      Hermite.E3.fitCurveWithDerivatives debug [a, a + h] [p, p - R * h] R (-R) (Hermite.E3.fresh w) = .ok (c, ks) ∧
      Hermite.E3.evaluate (a + h / 3) c = .ok (some (p - 1 / 3 * (R * h) + 8 / 27 * (R * h))) := by
  have hinc : [a, a + h].Pairwise (· < ·) := by simp [hh]
  constructor
  · obtain ⟨c, ks, m, e, hs, -, m0, mT, -, hn⟩ := e3_nodes debug (ts := [a, a + h]) (vs := [p, p + R * h]) (by simp) rfl
      hinc (-R) (-R) w
    obtain ⟨pre, x, y, post, hm, tx, ty, cx, cy⟩ := hn 0 (by simp)
    simp only [zero_add, List.getElem_cons_zero, List.getElem_cons_succ, List.length_cons, List.length_nil, Nat.reduceAdd,
      Nat.add_one_sub_one] at tx ty cx cy m0 mT
    rw [m0] at cx
    rw [mT] at cy
    refine ⟨c, ks, e, ?_, ?_⟩
    · rw [Hermite.E3.velocity_between hs hm (by rw [tx]; linarith) (by rw [ty]; linarith)]
      simp only [Hermite.E3.interpolateVelocity, tx, ty, cx, cy, smul_eq_mul, Outcome.ok.injEq, Option.some.injEq]
      have : a + h - a = h := by ring
      rw [this]
      field_simp
      ring
    · rw [Hermite.E3.evaluateDerivative, if_neg (by norm_num), if_pos rfl,
        Hermite.E3.acceleration_between hs hm (by rw [tx]) (by rw [ty]; linarith)]
      simp only [Hermite.E3.interpolateAcceleration, tx, ty, cx, cy, smul_eq_mul, Outcome.ok.injEq, Option.some.injEq]
      have : a + h - a = h := by ring
      rw [this]
      field_simp
      ring
  · obtain ⟨c, ks, m, e, hs, -, m0, mT, -, hn⟩ := e3_nodes debug (ts := [a, a + h]) (vs := [p, p - R * h]) (by simp) rfl
      hinc R (-R) w
    obtain ⟨pre, x, y, post, hm, tx, ty, cx, cy⟩ := hn 0 (by simp)
    simp only [zero_add, List.getElem_cons_zero, List.getElem_cons_succ, List.length_cons, List.length_nil, Nat.reduceAdd,
      Nat.add_one_sub_one] at tx ty cx cy m0 mT
    rw [m0] at cx
    rw [mT] at cy
    refine ⟨c, ks, e, ?_⟩
    rw [Hermite.E3.evaluate_between hs hm (by rw [tx]; linarith) (by rw [ty]; linarith)]
    simp only [Hermite.E3.interpolate, tx, ty, cx, cy, smul_eq_mul, Outcome.ok.injEq, Option.some.injEq]
    have : a + h - a = h := by ring
    rw [this]
    field_simp
    ring

/-- One second, from 0 to 1, arriving and leaving backwards: 2 per second half way. -/
example (w : World) : ∃ (c : Hermite.E3 ℚ ℚ) (ks : List Key),
    Hermite.E3.fitCurveWithDerivatives true [0, 1] [0, 1] (-1) (-1) (Hermite.E3.fresh w) = .ok (c, ks) ∧
    Hermite.E3.evaluateDerivative (1 / 2) 1 c = .ok (some 2) ∧ Hermite.E3.evaluateDerivative 0 2 c = .ok (some 12) := by
  obtain ⟨c, ks, e, x, y⟩ := (C170_attained true (0 : ℚ) 0 (h := 1) (by norm_num) 1 w).1
  norm_num at e x y
  exact ⟨c, ks, e, x, y⟩

end Verif.PolyCurve

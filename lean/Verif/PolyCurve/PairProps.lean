import Verif.PolyCurve.ReachProps
import Mathlib.Analysis.InnerProductSpace.Basic

/-!
# Property C169: the two cubic curves of the project

`CubicHermiteE3Curve` and `PolynomialSplineScalarCurve` of order 3, fitted to the same points: how fast the first moves and
how far apart the two can be.
-/

set_option linter.unusedSectionVars false
set_option linter.dupNamespace false

namespace Verif.PolyCurve

open Verif.Spline Verif.Container Verif.Manager
open Hermite.E3 (way way_sub speed)

variable {K V : Type} [Field K] [LinearOrder K] [IsStrictOrderedRing K] [AddCommGroup V] [Module K V]

/-- What `fitCurveWithDerivatives` makes: the slopes at the knots, and the values between them. -/
theorem e3_fit (debug : Bool) {ts : List K} {vs : List V} (h2 : 2 ≤ ts.length) (hl : ts.length = vs.length)
    (hinc : ts.Pairwise (· < ·)) (d0 dT : V) (w : World) :
    ∃ (c : Hermite.E3 K V) (ks : List Key) (m : ℕ → V),
      Hermite.E3.fitCurveWithDerivatives debug ts vs d0 dT (Hermite.E3.fresh w) = .ok (c, ks) ∧ m 0 = d0 ∧
      m (ts.length - 1) = dT ∧
      (∀ i (h : i + 2 < ts.length), m (i + 1) = (1 / (ts[i + 2] - ts[i])) • (vs[i + 2] - vs[i])) ∧
      ∀ i (hi : i + 1 < ts.length) t, ts[i] ≤ t → t ≤ ts[i + 1] → ∃ r, Hermite.E3.evaluate t c = .ok (some r) ∧
        ∀ f : V →ₗ[K] K, f r = f vs[i] + way (f vs[i + 1] - f vs[i]) ((ts[i + 1] - ts[i]) * f (m i))
          ((ts[i + 1] - ts[i]) * f (m (i + 1))) ((t - ts[i]) / (ts[i + 1] - ts[i])) := by
  obtain ⟨c, ks, cs, e, f1, l, s, n⟩ := Hermite.E3.fit_fresh debug hl hinc d0 dT w
  obtain ⟨x, ex, hx, h⟩ := Hermite.E3.fitLoop_ok ts vs d0 dT hl.le ts.length 0 (by omega)
  obtain rfl : x = cs := by rw [ex] at f1; exact Outcome.ok.inj f1
  obtain ⟨m, hm⟩ : ∃ m : ℕ → V, ∀ j (hj : j < x.length), m j = x[j].velocity :=
    ⟨fun i => (x[i]?.map Hermite.Knot.velocity).getD 0, fun j hj => by simp [hj]⟩
  refine ⟨c, ks, m, e, ?_, ?_, ?_, ?_⟩
  · obtain ⟨k, k1, -, k3, -⟩ := h 0 (by omega)
    rw [hm 0 (by omega), k1]
    exact k3 rfl
  · obtain ⟨k, k1, -, -, k4, -⟩ := h (ts.length - 1) (by omega)
    rw [hm _ (by omega), k1]
    exact k4 (by omega) (by omega)
  · intro i hi
    obtain ⟨k, k1, -, -, -, k5⟩ := h (i + 1) (by omega)
    simp only [Nat.zero_add] at k5
    rw [hm _ (by omega), k1]
    exact k5 (by omega) (by omega)
  · intro i hi t h0 h1
    obtain ⟨pre, a, b, post, hn, ta, tb, ca, cb⟩ := Hermite.E3.fit_segment n l hi
    refine ⟨_, Hermite.E3.evaluate_between s hn (by rw [ta]; exact h0) (by rw [tb]; exact h1), fun f => ?_⟩
    obtain ⟨k, k1, k2, -⟩ := h i (by omega)
    obtain ⟨k', k1', k2', -⟩ := h (i + 1) hi
    simp only [Nat.zero_add] at k2 k2'
    rw [Hermite.E3.interpolate_way, ta, tb]
    rw [List.getElem?_eq_getElem (by omega), k1] at ca
    rw [List.getElem?_eq_getElem (by omega), k1'] at cb
    simp only [Option.some.injEq] at ca cb
    rw [← ca, ← cb, k2, k2', hm i (by omega), hm (i + 1) (by omega), k1, k1']

/-- The slopes of a Hermite fit are at most the largest mean slope. -/
theorem e3_slopes {ts : List K} {vs : List V} (hl : ts.length = vs.length)
    (hinc : ts.Pairwise (· < ·)) {d0 dT : V} {m : ℕ → V} (m0 : m 0 = d0) (mT : m (ts.length - 1) = dT)
    (hin : ∀ i (h : i + 2 < ts.length), m (i + 1) = (1 / (ts[i + 2] - ts[i])) • (vs[i + 2] - vs[i])) (f : V →ₗ[K] K) {R : K}
    (hR : ∀ i (hi : i + 1 < ts.length), |f vs[i + 1] - f vs[i]| ≤ R * (ts[i + 1] - ts[i])) (h0 : |f d0| ≤ R)
    (hT : |f dT| ≤ R) : ∀ i < ts.length, |f (m i)| ≤ R := by
  intro i hi
  rcases i with _ | i
  · rw [m0]; exact h0
  by_cases hlast : i + 1 = ts.length - 1
  · rw [hlast, mT]; exact hT
  have hd : 0 < ts[i + 2] - ts[i] :=
    sub_pos.2 (List.pairwise_iff_getElem.1 hinc i (i + 2) (by omega) (by omega) (by omega))
  have r1 := abs_le.1 (hR i (by omega))
  have r2 : -(R * (ts[i + 2] - ts[i + 1])) ≤ f vs[i + 2] - f vs[i + 1] ∧ f vs[i + 2] - f vs[i + 1] ≤ R * (ts[i + 2] - ts[i + 1]) :=
    abs_le.1 (hR (i + 1) (by omega))
  rw [hin i (by omega), map_smul, map_sub, smul_eq_mul, abs_mul, abs_of_pos (one_div_pos.2 hd), one_div_mul_eq_div,
    div_le_iff₀ hd, abs_le]
  constructor <;> linarith [r1.1, r1.2, r2.1, r2.2]

/-- The velocity on a segment whose slopes and mean slope are at most `B`. -/
theorem speed_le_two {D u v x B : K} (x0 : 0 ≤ x) (x1 : x ≤ 1) (hD : |D| ≤ B) (hu : |u| ≤ B) (hv : |v| ≤ B) :
    |speed D u v x| ≤ 2 * B := by
  have hB : 0 ≤ B := (abs_nonneg D).trans hD
  have w0 : 0 ≤ 6 * (x - x ^ 2) := by nlinarith
  have s0 : |6 * (x - x ^ 2) * D| ≤ 6 * (x - x ^ 2) * B := by
    rw [abs_mul, abs_of_nonneg w0]; exact mul_le_mul_of_nonneg_left hD w0
  have s1 : |(3 * x ^ 2 - 4 * x + 1) * u| ≤ |3 * x ^ 2 - 4 * x + 1| * B := by
    rw [abs_mul]; exact mul_le_mul_of_nonneg_left hu (abs_nonneg _)
  have s2 : |(3 * x ^ 2 - 2 * x) * v| ≤ |3 * x ^ 2 - 2 * x| * B := by
    rw [abs_mul]; exact mul_le_mul_of_nonneg_left hv (abs_nonneg _)
  have tri : |speed D u v x| ≤ 6 * (x - x ^ 2) * B + (|3 * x ^ 2 - 4 * x + 1| + |3 * x ^ 2 - 2 * x|) * B := by
    simp only [speed]
    calc _ ≤ |6 * (x - x ^ 2) * D + (3 * x ^ 2 - 4 * x + 1) * u| + |(3 * x ^ 2 - 2 * x) * v| := abs_add_le _ _
      _ ≤ |6 * (x - x ^ 2) * D| + |(3 * x ^ 2 - 4 * x + 1) * u| + |(3 * x ^ 2 - 2 * x) * v| := by
        linarith [abs_add_le (6 * (x - x ^ 2) * D) ((3 * x ^ 2 - 4 * x + 1) * u)]
      _ ≤ _ := by linarith
  suffices hw : 6 * (x - x ^ 2) + (|3 * x ^ 2 - 4 * x + 1| + |3 * x ^ 2 - 2 * x|) ≤ 2 by
    nlinarith [mul_le_mul_of_nonneg_right hw hB]
  rcases abs_cases (3 * x ^ 2 - 4 * x + 1) with ⟨a, -⟩ | ⟨a, -⟩ <;> rcases abs_cases (3 * x ^ 2 - 2 * x) with ⟨b, -⟩ | ⟨b, -⟩ <;>
    rw [a, b] <;> nlinarith [sq_nonneg (2 * x - 1), sq_nonneg (3 * x - 1), sq_nonneg (3 * x - 2), sq_nonneg x, sq_nonneg (1 - x)]

theorem way_lip_two {D u v x y B : K} (x0 : 0 ≤ x) (xy : x ≤ y) (y1 : y ≤ 1) (hD : |D| ≤ B) (hu : |u| ≤ B) (hv : |v| ≤ B) :
    |way D u v y - way D u v x| ≤ 2 * B * (y - x) := by
  have q1 := abs_le.1 (speed_le_two x0 (xy.trans y1) hD hu hv)
  have q2 := abs_le.1 (speed_le_two (x := (x + y) / 2) (by linarith) (by linarith) hD hu hv)
  have q3 := abs_le.1 (speed_le_two (x0.trans xy) y1 hD hu hv)
  rw [way_sub, abs_mul, abs_of_nonneg (show 0 ≤ (y - x) / 6 by linarith)]
  have : |speed D u v x + 4 * speed D u v ((x + y) / 2) + speed D u v y| ≤ 6 * (2 * B) := by
    rw [abs_le]
    constructor <;> linarith [q1.1, q1.2, q2.1, q2.2, q3.1, q3.2]
  calc _ ≤ (y - x) / 6 * (6 * (2 * B)) := mul_le_mul_of_nonneg_left this (by linarith)
    _ = _ := by ring

/-- **C169**, `CubicHermiteE3Curve`, in any coordinate `f`: if no two neighbouring points differ by more than `R` times the time
between them and the end derivatives are at most `R`, the curve is nowhere faster than `2 R`, and on each segment it stays
within half of `R` times the duration from the straight line. -/
theorem C169_rate (debug : Bool) {ts : List K} {vs : List V} (h2 : 2 ≤ ts.length) (hl : ts.length = vs.length)
    (hinc : ts.Pairwise (· < ·)) (d0 dT : V) (w : World) :
    ∃ (c : Hermite.E3 K V) (ks : List Key),
      Hermite.E3.fitCurveWithDerivatives debug ts vs d0 dT (Hermite.E3.fresh w) = .ok (c, ks) ∧
      ∀ (f : V →ₗ[K] K) (R : K), (∀ i (hi : i + 1 < ts.length), |f vs[i + 1] - f vs[i]| ≤ R * (ts[i + 1] - ts[i])) →
        |f d0| ≤ R → |f dT| ≤ R →
        (∀ s t r q, ts[0] ≤ s → s ≤ t → t ≤ ts[ts.length - 1] → Hermite.E3.evaluate s c = .ok (some r) →
          Hermite.E3.evaluate t c = .ok (some q) → |f q - f r| ≤ 2 * R * (t - s)) ∧
        ∀ i (hi : i + 1 < ts.length) t r, ts[i] ≤ t → t ≤ ts[i + 1] → Hermite.E3.evaluate t c = .ok (some r) →
          |f r - (f vs[i] + (t - ts[i]) / (ts[i + 1] - ts[i]) * (f vs[i + 1] - f vs[i]))| ≤ R * (ts[i + 1] - ts[i]) / 2 := by
  obtain ⟨c, ks, m, e, m0, mT, hin, hev⟩ := e3_fit debug h2 hl hinc d0 dT w
  refine ⟨c, ks, e, fun f R hR h0 hT => ?_⟩
  have hB := e3_slopes hl hinc m0 mT hin f hR h0 hT
  have hpos : ∀ i (hi : i + 1 < ts.length), 0 < ts[i + 1] - ts[i] := fun i hi =>
    sub_pos.2 (List.pairwise_iff_getElem.1 hinc i (i + 1) (by omega) hi (by omega))
  have hsl : ∀ i (hi : i + 1 < ts.length), |(ts[i + 1] - ts[i]) * f (m i)| ≤ R * (ts[i + 1] - ts[i]) ∧
      |(ts[i + 1] - ts[i]) * f (m (i + 1))| ≤ R * (ts[i + 1] - ts[i]) := by
    intro i hi
    rw [abs_mul, abs_mul, abs_of_pos (hpos i hi)]
    have a := mul_le_mul_of_nonneg_left (hB i (by omega)) (hpos i hi).le
    have b := mul_le_mul_of_nonneg_left (hB (i + 1) hi) (hpos i hi).le
    exact ⟨by linarith, by linarith⟩
  have hval : ∀ i (hi : i + 1 < ts.length) t r, ts[i] ≤ t → t ≤ ts[i + 1] → Hermite.E3.evaluate t c = .ok (some r) →
      f r = f vs[i] + way (f vs[i + 1] - f vs[i]) ((ts[i + 1] - ts[i]) * f (m i))
          ((ts[i + 1] - ts[i]) * f (m (i + 1))) ((t - ts[i]) / (ts[i + 1] - ts[i])) := by
    intro i hi t r h0 h1 er
    obtain ⟨r', e', h⟩ := hev i hi t h0 h1
    rw [er] at e'
    cases e'
    exact h f
  constructor
  · intro s t r q hs hst ht er eq
    obtain ⟨F, hF⟩ : ∃ F : K → K, ∀ t r, Hermite.E3.evaluate t c = .ok (some r) → F t = f r :=
      ⟨fun t => match Hermite.E3.evaluate t c with
        | .ok (some r) => f r
        | _ => 0, fun t r e => by simp only [e]⟩
    rw [← hF s r er, ← hF t q eq]
    refine chain (Q := fun s t => |F t - F s| ≤ 2 * R * (t - s)) (ts := ts) (fun x => by simp) ?_ ?_ (ts.length - 1) (by omega)
      s t hs hst ht
    · intro x y z _ _ i1 i2
      calc |F z - F x| = |(F z - F y) + (F y - F x)| := by ring_nf
        _ ≤ |F z - F y| + |F y - F x| := abs_add_le _ _
        _ ≤ _ := by linarith
    · intro i hi x y hx hxy hy
      obtain ⟨rx, ex, vx⟩ := hev i hi x hx (hxy.trans hy)
      obtain ⟨ry, ey, vy⟩ := hev i hi y (hx.trans hxy) hy
      have hd := hpos i hi
      obtain ⟨b1, b2⟩ := hsl i hi
      have X0 : 0 ≤ (x - ts[i]) / (ts[i + 1] - ts[i]) := div_nonneg (sub_nonneg.2 hx) hd.le
      have Y1 : (y - ts[i]) / (ts[i + 1] - ts[i]) ≤ 1 := (div_le_one hd).2 (by linarith)
      have XY : (x - ts[i]) / (ts[i + 1] - ts[i]) ≤ (y - ts[i]) / (ts[i + 1] - ts[i]) :=
        div_le_div_of_nonneg_right (by linarith) hd.le
      have hyx : y - x = ((y - ts[i]) / (ts[i + 1] - ts[i]) - (x - ts[i]) / (ts[i + 1] - ts[i])) * (ts[i + 1] - ts[i]) := by
        field_simp; ring
      rw [hF x rx ex, hF y ry ey, vx f, vy f, hyx, add_sub_add_left_eq_sub]
      refine (way_lip_two X0 XY Y1 (hR i hi) b1 b2).trans_eq ?_
      ring
  · intro i hi t r h0 h1 er
    rw [hval i hi t r h0 h1 er]
    have hd := hpos i hi
    obtain ⟨b1, b2⟩ := hsl i hi
    have b0 := hR i hi
    have X0 : 0 ≤ (t - ts[i]) / (ts[i + 1] - ts[i]) := div_nonneg (sub_nonneg.2 h0) hd.le
    have X1 : (t - ts[i]) / (ts[i + 1] - ts[i]) ≤ 1 := (div_le_one hd).2 (by linarith)
    have hc : ∀ D x : K, way D D D x = x * D := fun D x => by simp only [way]; ring
    rw [add_sub_add_left_eq_sub, ← hc (f vs[i + 1] - f vs[i])]
    refine (way_diff (B := 2 * (R * (ts[i + 1] - ts[i]))) X0 X1 ?_ ?_).trans ?_
    · exact (abs_sub _ _).trans (by linarith)
    · exact (abs_sub _ _).trans (by linarith)
    · linarith

/-- **C169**, in space: with distances instead of coordinates. -/
theorem C169_space (debug : Bool) {E : Type} [NormedAddCommGroup E] [InnerProductSpace ℝ E] {ts : List ℝ} {vs : List E}
    (h2 : 2 ≤ ts.length) (hl : ts.length = vs.length) (hinc : ts.Pairwise (· < ·)) (d0 dT : E) (w : World) {R : ℝ}
    (hR : ∀ i (hi : i + 1 < ts.length), ‖vs[i + 1] - vs[i]‖ ≤ R * (ts[i + 1] - ts[i])) (h0 : ‖d0‖ ≤ R) (hT : ‖dT‖ ≤ R) :
    ∃ (c : Hermite.E3 ℝ E) (ks : List Key),
      Hermite.E3.fitCurveWithDerivatives debug ts vs d0 dT (Hermite.E3.fresh w) = .ok (c, ks) ∧
      (∀ s t r q, ts[0] ≤ s → s ≤ t → t ≤ ts[ts.length - 1] → Hermite.E3.evaluate s c = .ok (some r) →
        Hermite.E3.evaluate t c = .ok (some q) → ‖q - r‖ ≤ 2 * R * (t - s)) ∧
      ∀ i (hi : i + 1 < ts.length) t r, ts[i] ≤ t → t ≤ ts[i + 1] → Hermite.E3.evaluate t c = .ok (some r) →
        ‖r - (vs[i] + ((t - ts[i]) / (ts[i + 1] - ts[i])) • (vs[i + 1] - vs[i]))‖ ≤ R * (ts[i + 1] - ts[i]) / 2 := by
  obtain ⟨c, ks, e, h⟩ := C169_rate debug h2 hl hinc d0 dT w
  have hR0 : 0 ≤ R := (norm_nonneg _).trans h0
  -- in the direction of `u` everything is at most `‖u‖` times as much
  have key : ∀ u : E, ∃ f : E →ₗ[ℝ] ℝ, (∀ v, |f v| ≤ ‖u‖ * ‖v‖) ∧ f u = ‖u‖ * ‖u‖ := fun u =>
    ⟨(innerSL ℝ u).toLinearMap, fun v => by simpa using abs_real_inner_le_norm u v,
      by simp [pow_two]⟩
  have hdir : ∀ (u : E) (f : E →ₗ[ℝ] ℝ), (∀ v, |f v| ≤ ‖u‖ * ‖v‖) →
      (∀ i (hi : i + 1 < ts.length), |f vs[i + 1] - f vs[i]| ≤ (‖u‖ * R) * (ts[i + 1] - ts[i])) ∧ |f d0| ≤ ‖u‖ * R ∧
        |f dT| ≤ ‖u‖ * R := by
    intro u f hf
    refine ⟨fun i hi => ?_, (hf d0).trans (mul_le_mul_of_nonneg_left h0 (norm_nonneg u)),
      (hf dT).trans (mul_le_mul_of_nonneg_left hT (norm_nonneg u))⟩
    rw [← map_sub]
    refine (hf _).trans ?_
    rw [mul_assoc]
    exact mul_le_mul_of_nonneg_left (hR i hi) (norm_nonneg u)
  have fin : ∀ (u : E) (b : ℝ), ‖u‖ * ‖u‖ ≤ ‖u‖ * b → 0 ≤ b → ‖u‖ ≤ b := by
    intro u b hu hb
    rcases (norm_nonneg u).lt_or_eq with hp | hp
    · exact le_of_mul_le_mul_left hu hp
    · rw [← hp]; exact hb
  refine ⟨c, ks, e, fun s t r q hs hst ht er eq => ?_, fun i hi t r h0' h1' er => ?_⟩
  · obtain ⟨f, hf, hu⟩ := key (q - r)
    obtain ⟨a, b, g⟩ := hdir _ f hf
    have := (h f _ a b g).1 s t r q hs hst ht er eq
    refine fin _ _ ?_ (mul_nonneg (by linarith) (by linarith))
    rw [← hu]
    rw [← map_sub] at this
    have h3 := (le_abs_self (f (q - r))).trans this
    linarith
  · set p := vs[i] + ((t - ts[i]) / (ts[i + 1] - ts[i])) • (vs[i + 1] - vs[i]) with hp
    obtain ⟨f, hf, hu⟩ := key (r - p)
    obtain ⟨a, b, g⟩ := hdir _ f hf
    have := (h f _ a b g).2 i hi t r h0' h1' er
    have hlt := List.pairwise_iff_getElem.1 hinc i (i + 1) (by omega) hi (by omega)
    refine fin _ _ ?_ (by have := mul_nonneg hR0 (sub_pos.2 hlt).le; linarith)
    rw [← hu]
    have e1 : f (r - p) = f r - (f vs[i] + (t - ts[i]) / (ts[i + 1] - ts[i]) * (f vs[i + 1] - f vs[i])) := by
      rw [hp, map_sub, map_add, map_smul, map_sub, smul_eq_mul]
    rw [← e1] at this
    have h3 := (le_abs_self (f (r - p))).trans this
    linarith

/-- **C169**, the two cubic curves: `CubicHermiteE3Curve` and `PolynomialSplineScalarCurve` of order 3 fitted to the same numbers
with the same end velocities. If no two neighbouring numbers differ by more than `R` times the time between them and the end
velocities are at most `R`, the two are nowhere further apart than `R` times the duration of the segment, and agree at all knots. -/
theorem C169_near (debug : Bool) (S : Solver K) {ts vs : List K} (h2 : 2 ≤ ts.length) (hb : ts.length ≤ 2 ^ 28)
    (hl : ts.length = vs.length) (hinc : ts.Pairwise (· < ·)) (v0 a0 vT aT : K) (w : World) (c0 : ScalarCurve .o3 K) {R : K}
    (hR : ∀ i (hi : i + 1 < ts.length), |vs[i + 1] - vs[i]| ≤ R * (ts[i + 1] - ts[i])) (h0 : |v0| ≤ R) (hT : |vT| ≤ R) :
    ∃ (c : Hermite.E3 K K) (ks : List Key) (c' : ScalarCurve .o3 K),
      Hermite.E3.fitCurveWithDerivatives debug ts vs v0 vT (Hermite.E3.fresh w) = .ok (c, ks) ∧
      c0.fitCurveWith S ts vs v0 a0 vT aT = .ok c' ∧
      (∀ i (hi : i < ts.length), Hermite.E3.evaluate ts[i] c = .ok (some vs[i]) ∧ c'.evaluate ts[i] = .ok vs[i]) ∧
      ∀ i (hi : i + 1 < ts.length) t, ts[i] ≤ t → t ≤ ts[i + 1] →
        ∃ a b, Hermite.E3.evaluate t c = .ok (some a) ∧ c'.evaluate t = .ok b ∧ |a - b| ≤ R * (ts[i + 1] - ts[i]) := by
  obtain ⟨c, ks, m, e, m0, mT, hin, hev⟩ := e3_fit debug h2 hl hinc v0 vT w
  obtain ⟨c', m', e', -, m0', mT', hE, -, hev'⟩ := C167_hermite S ts vs h2 hb hl.symm hinc v0 a0 vT aT c0
  have hR0 : 0 ≤ R := (abs_nonneg _).trans h0
  have hB := e3_slopes hl hinc m0 mT hin LinearMap.id hR h0 hT
  have hB' := hE.bound h2 hl.symm hinc hR (by rw [m0']; linarith) (by rw [mT']; linarith)
  have hpos : ∀ i (hi : i + 1 < ts.length), 0 < ts[i + 1] - ts[i] := fun i hi =>
    sub_pos.2 (List.pairwise_iff_getElem.1 hinc i (i + 1) (by omega) hi (by omega))
  have val : ∀ i (hi : i + 1 < ts.length) t, ts[i] ≤ t → t ≤ ts[i + 1] →
      Hermite.E3.evaluate t c = .ok (some (vs[i] + way (vs[i + 1] - vs[i]) ((ts[i + 1] - ts[i]) * m i)
        ((ts[i + 1] - ts[i]) * m (i + 1)) ((t - ts[i]) / (ts[i + 1] - ts[i])))) := by
    intro i hi t h0 h1
    obtain ⟨r, er, vr⟩ := hev i hi t h0 h1
    have := vr LinearMap.id
    simp only [LinearMap.id_apply] at this
    rw [er, this]
  have w0 : ∀ D u v : K, way D u v 0 = 0 := fun D u v => by simp [way]
  have w1 : ∀ D u v : K, way D u v 1 = D := fun D u v => by simp only [way]; ring
  refine ⟨c, ks, c', e, e', ?_, ?_⟩
  · intro i hi
    rcases Nat.lt_or_ge (i + 1) ts.length with h | h
    · have hle := (sub_pos.1 (hpos i h)).le
      rw [val i h _ le_rfl hle, hermite_at hl.symm hev' i h le_rfl hle, sub_self, zero_div, w0, w0, add_zero]
      exact ⟨rfl, rfl⟩
    · obtain ⟨j, rfl⟩ : ∃ j, i = j + 1 := ⟨i - 1, by omega⟩
      have hle := (sub_pos.1 (hpos j hi)).le
      rw [val j hi _ hle le_rfl, hermite_at hl.symm hev' j hi hle le_rfl, div_self (hpos j hi).ne', w1, w1, add_sub_cancel]
      exact ⟨rfl, rfl⟩
  · intro i hi t h0 h1
    refine ⟨_, _, val i hi t h0 h1, hermite_at hl.symm hev' i hi h0 h1, ?_⟩
    have hd := hpos i hi
    have hB1 : ∀ j < ts.length, |(ts[i + 1] - ts[i]) * m j - (ts[i + 1] - ts[i]) * m' j| ≤ 4 * (R * (ts[i + 1] - ts[i])) := by
      intro j hj
      have a := hB j hj
      rw [LinearMap.id_apply] at a
      rw [← mul_sub, abs_mul, abs_of_pos hd]
      have : |m j - m' j| ≤ 4 * R := (abs_sub _ _).trans (by linarith [hB' j hj])
      calc _ ≤ (ts[i + 1] - ts[i]) * (4 * R) := mul_le_mul_of_nonneg_left this hd.le
        _ = _ := by ring
    rw [add_sub_add_left_eq_sub]
    refine (way_diff (div_nonneg (sub_nonneg.2 h0) hd.le) ((div_le_one hd).2 (by linarith)) (hB1 i (by omega))
      (hB1 (i + 1) hi)).trans ?_
    linarith

/-- Heights that change by at most 2 per second. -/
example (S : Solver ℚ) (w : World) : ∃ (c : Hermite.E3 ℚ ℚ) (ks : List Key) (c' : ScalarCurve .o3 ℚ),
    Hermite.E3.fitCurve true [0, 1, 3] [0, 2, -2] (Hermite.E3.fresh w) = .ok (c, ks) ∧
    ScalarCurve.fresh.fitCurve S [0, 1, 3] [0, 2, -2] = .ok c' ∧
    ∀ t, 1 ≤ t → t ≤ 3 → ∃ a b, Hermite.E3.evaluate t c = .ok (some a) ∧ c'.evaluate t = .ok b ∧ |a - b| ≤ 4 := by
  obtain ⟨c, ks, c', e, e', -, h⟩ := C169_near true S (ts := [(0 : ℚ), 1, 3]) (vs := [0, 2, -2]) (by simp) (by norm_num) rfl
    (by norm_num) 0 0 0 0 w ScalarCurve.fresh (R := 2)
    (by intro i hi
        simp only [List.length_cons, List.length_nil, zero_add, Nat.reduceAdd] at hi
        obtain rfl | rfl : i = 0 ∨ i = 1 := by omega
        all_goals norm_num [abs_le]) (by norm_num [abs_le]) (by norm_num [abs_le])
  refine ⟨c, ks, c', e, e', fun t h0 h1 => ?_⟩
  obtain ⟨a, b, x, y, z⟩ := h 1 (by simp) t h0 h1
  refine ⟨a, b, x, y, ?_⟩
  norm_num at z
  exact z

end Verif.PolyCurve

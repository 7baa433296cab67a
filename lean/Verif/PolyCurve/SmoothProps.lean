import Verif.PolyCurve.LimitProps
import Mathlib.Analysis.Calculus.Deriv.MeanValue
import Mathlib.Analysis.Calculus.Deriv.Pow
import Mathlib.Analysis.SpecialFunctions.Trigonometric.Bounds

/-!
# Property C171: Hermite curves fitted to samples of a smooth motion

C112 says how near to a motion with bounded acceleration a `CubicHermiteE3Curve` stays that was fitted to samples of it. Here the same
for each coordinate by itself and for the translation of a `CubicHermiteSE3Curve`; and what is gained by sampling at equal steps: if
the acceleration changes at a bounded rate, the error goes down with the third power of the step instead of the second.
-/

set_option linter.unusedSectionVars false
set_option linter.dupNamespace false

namespace Verif.PolyCurve

open Verif.Spline Verif.Container Verif.Manager
open Hermite.E3 (way way_sub speed)

variable {K V : Type} [Field K] [LinearOrder K] [IsStrictOrderedRing K] [AddCommGroup V] [Module K V]

/-- A motion `q` along a line with velocity `v` between the times `a` and `b` whose acceleration is at most `M`, said without
derivatives: what it does beyond moving on steadily is at most `M / 2` times the square of the time. -/
def Smooth (M a b : K) (q v : K → K) : Prop :=
  ∀ s t, a ≤ s → s ≤ b → a ≤ t → t ≤ b → |q t - q s - (t - s) * v s| ≤ M / 2 * (t - s) ^ 2

theorem Smooth.mono {M a b a' b' : K} {q v : K → K} (h : Smooth M a b q v) (ha : a ≤ a') (hb : b' ≤ b) : Smooth M a' b' q v :=
  fun s t h1 h2 h3 h4 => h s t (ha.trans h1) (h2.trans hb) (ha.trans h3) (h4.trans hb)

theorem Smooth.nonneg {M a b : K} {q v : K → K} (h : Smooth M a b q v) (hab : a < b) : 0 ≤ M := by
  have := (abs_nonneg _).trans (h a b le_rfl hab.le hab.le le_rfl)
  have hp : 0 < (b - a) ^ 2 := pow_pos (sub_pos.2 hab) 2
  nlinarith

/-- The mean slope is near the velocity. -/
theorem Smooth.slope {M a b : K} {q v : K → K} (h : Smooth M a b q v) (hab : a < b) {t : K} (h0 : a ≤ t) (h1 : t ≤ b) :
    |q b - q a - (b - a) * v t| ≤ M / 2 * (b - a) ^ 2 := by
  have hM := h.nonneg hab
  obtain ⟨x1, x2⟩ := abs_le.1 (h t a h0 h1 le_rfl hab.le)
  obtain ⟨y1, y2⟩ := abs_le.1 (h t b h0 h1 hab.le le_rfl)
  have hm : 0 ≤ M * ((t - a) * (b - t)) := mul_nonneg hM (mul_nonneg (by linarith) (by linarith))
  rw [abs_le]
  constructor <;> nlinarith

/-- The straight line is near the motion. -/
theorem Smooth.chord {M a b : K} {q v : K → K} (h : Smooth M a b q v) (hab : a < b) {t : K} (h0 : a ≤ t) (h1 : t ≤ b) :
    |q a + (t - a) / (b - a) * (q b - q a) - q t| ≤ M / 8 * (b - a) ^ 2 := by
  have hM := h.nonneg hab
  have hd : 0 < b - a := sub_pos.2 hab
  have x := h t a h0 h1 le_rfl hab.le
  have y := h t b h0 h1 hab.le le_rfl
  have u0 : 0 ≤ b - t := by linarith
  have w0 : 0 ≤ t - a := by linarith
  have e : q a + (t - a) / (b - a) * (q b - q a) - q t =
      ((b - t) * (q a - q t - (a - t) * v t) + (t - a) * (q b - q t - (b - t) * v t)) / (b - a) := by
    field_simp
    ring
  rw [e, abs_div, abs_of_pos hd, div_le_iff₀ hd]
  calc _ ≤ |(b - t) * (q a - q t - (a - t) * v t)| + |(t - a) * (q b - q t - (b - t) * v t)| := abs_add_le _ _
    _ = (b - t) * |q a - q t - (a - t) * v t| + (t - a) * |q b - q t - (b - t) * v t| := by
      rw [abs_mul, abs_mul, abs_of_nonneg u0, abs_of_nonneg w0]
    _ ≤ (b - t) * (M / 2 * (a - t) ^ 2) + (t - a) * (M / 2 * (b - t) ^ 2) :=
      add_le_add (mul_le_mul_of_nonneg_left x u0) (mul_le_mul_of_nonneg_left y w0)
    _ = M / 2 * (b - a) * ((b - t) * (t - a)) := by ring
    _ ≤ M / 2 * (b - a) * ((b - a) ^ 2 / 4) := by
      refine mul_le_mul_of_nonneg_left ?_ (by positivity)
      nlinarith [sq_nonneg ((b - t) - (t - a))]
    _ = _ := by ring

/-- The slope from the two neighbours differs from the mean slope of the later segment by at most half of `M` times the duration
of the earlier one, and the other way round. -/
theorem Smooth.central {M a b c : K} {q v : K → K} (h : Smooth M a c q v) (hab : a < b) (hbc : b < c) :
    |(c - b) * (1 / (c - a) * (q c - q a)) - (q c - q b)| ≤ M / 2 * (b - a) * (c - b) ∧
    |(b - a) * (1 / (c - a) * (q c - q a)) - (q b - q a)| ≤ M / 2 * (c - b) * (b - a) := by
  have hd : 0 < c - a := by linarith
  have x := abs_le.1 (h b a hab.le hbc.le le_rfl (hab.trans hbc).le)
  have y := abs_le.1 (h b c hab.le hbc.le (hab.trans hbc).le le_rfl)
  have l0 : 0 < b - a := by linarith
  have r0 : 0 < c - b := by linarith
  have key : |(c - b) * (q b - q a) - (b - a) * (q c - q b)| ≤ M / 2 * ((b - a) * (c - b) * (c - a)) := by
    rw [abs_le]
    have x1 := mul_le_mul_of_nonneg_left x.1 r0.le
    have x2 := mul_le_mul_of_nonneg_left x.2 r0.le
    have y1 := mul_le_mul_of_nonneg_left y.1 l0.le
    have y2 := mul_le_mul_of_nonneg_left y.2 l0.le
    constructor <;> linarith
  have e1 : (c - b) * (1 / (c - a) * (q c - q a)) - (q c - q b) =
      ((c - b) * (q b - q a) - (b - a) * (q c - q b)) / (c - a) := by
    field_simp
    ring
  have e2 : (b - a) * (1 / (c - a) * (q c - q a)) - (q b - q a) =
      -(((c - b) * (q b - q a) - (b - a) * (q c - q b)) / (c - a)) := by
    field_simp
    ring
  rw [e1, e2, abs_neg, abs_div, abs_of_pos hd, div_le_iff₀ hd, div_le_iff₀ hd]
  constructor <;> refine key.trans (le_of_eq ?_) <;> ring

/-- How near the Hermite interpolation and the straight line are, in position and velocity. -/
theorem way_near {D u v x B : K} (x0 : 0 ≤ x) (x1 : x ≤ 1) (hu : |u - D| ≤ B) (hv : |v - D| ≤ B) :
    |way D u v x - x * D| ≤ B / 4 ∧ |speed D u v x - D| ≤ B := by
  have hB : 0 ≤ B := (abs_nonneg _).trans hu
  have y0 : 0 ≤ 1 - x := by linarith
  obtain ⟨u1, u2⟩ := abs_le.1 hu
  obtain ⟨v1, v2⟩ := abs_le.1 hv
  constructor
  · have p0 : 0 ≤ x * (1 - x) ^ 2 := mul_nonneg x0 (sq_nonneg _)
    have q0 : 0 ≤ x ^ 2 * (1 - x) := mul_nonneg (sq_nonneg _) y0
    have e : way D u v x - x * D = x * (1 - x) ^ 2 * (u - D) - x ^ 2 * (1 - x) * (v - D) := by simp only [way]; ring
    have s : x * (1 - x) ^ 2 * B + x ^ 2 * (1 - x) * B ≤ B / 4 := by
      nlinarith [mul_nonneg hB (sq_nonneg (2 * x - 1))]
    have i1 := mul_le_mul_of_nonneg_left u1 p0
    have i2 := mul_le_mul_of_nonneg_left u2 p0
    have i3 := mul_le_mul_of_nonneg_left v1 q0
    have i4 := mul_le_mul_of_nonneg_left v2 q0
    rw [e, abs_le]
    constructor <;> linarith
  · have e : speed D u v x - D = (3 * x ^ 2 - 4 * x + 1) * (u - D) + (3 * x ^ 2 - 2 * x) * (v - D) := by
      simp only [speed]; ring
    have s1 : |(3 * x ^ 2 - 4 * x + 1) * (u - D)| ≤ |3 * x ^ 2 - 4 * x + 1| * B := by
      rw [abs_mul]; exact mul_le_mul_of_nonneg_left hu (abs_nonneg _)
    have s2 : |(3 * x ^ 2 - 2 * x) * (v - D)| ≤ |3 * x ^ 2 - 2 * x| * B := by
      rw [abs_mul]; exact mul_le_mul_of_nonneg_left hv (abs_nonneg _)
    have hw : |3 * x ^ 2 - 4 * x + 1| + |3 * x ^ 2 - 2 * x| ≤ 1 := by
      rcases abs_cases (3 * x ^ 2 - 4 * x + 1) with ⟨a, -⟩ | ⟨a, -⟩ <;>
        rcases abs_cases (3 * x ^ 2 - 2 * x) with ⟨b, -⟩ | ⟨b, -⟩ <;>
        rw [a, b] <;> nlinarith [mul_nonneg x0 y0]
    rw [e]
    refine (abs_add_le _ _).trans ?_
    nlinarith [mul_le_mul_of_nonneg_right hw hB]

theorem near_position {M h d A B q z : K} (hd : 0 ≤ d) (hh : d ≤ h) (hM : 0 ≤ M) (h1 : |A - B| ≤ M / 2 * h * d / 4)
    (h2 : |q + B - z| ≤ M / 8 * d ^ 2) : |q + A - z| ≤ M * h ^ 2 / 4 := by
  have sq : M * d ^ 2 ≤ M * h ^ 2 := mul_le_mul_of_nonneg_left (pow_le_pow_left₀ hd hh 2) hM
  have sq' : M * h * d ≤ M * h * h := mul_le_mul_of_nonneg_left hh (mul_nonneg hM (hd.trans hh))
  have e : q + A - z = (A - B) + (q + B - z) := by ring
  rw [e]
  refine (abs_add_le _ _).trans ?_
  linarith

theorem near_velocity {M h d D x y : K} (hd : 0 < d) (hh : d ≤ h) (hM : 0 ≤ M) (h1 : |d * x - D| ≤ M / 2 * h * d)
    (h2 : |D - d * y| ≤ M / 2 * d ^ 2) : |x - y| ≤ M * h := by
  have sq : M / 2 * d * d ≤ M / 2 * d * h := mul_le_mul_of_nonneg_left hh (mul_nonneg (by linarith) hd.le)
  have e : d * (x - y) = (d * x - D) + (D - d * y) := by ring
  refine le_of_mul_le_mul_left (?_ : d * _ ≤ d * _) hd
  rw [← abs_of_pos hd, ← abs_mul, abs_of_pos hd, e]
  refine (abs_add_le _ _).trans ?_
  linarith

/-- The fit, for all coordinates at once. -/
theorem e3_smooth (debug : Bool) {ts : List K} (h2 : 2 ≤ ts.length) (hinc : ts.Pairwise (· < ·)) (p : K → V) (d0 dT : V)
    (w : World) :
    ∃ (c : Hermite.E3 K V) (ks : List Key),
      Hermite.E3.fitCurveWithDerivatives debug ts (ts.map p) d0 dT (Hermite.E3.fresh w) = .ok (c, ks) ∧
      ∀ i (hi : i + 1 < ts.length) t, ts[i] ≤ t → t ≤ ts[i + 1] →
        ∃ r r', Hermite.E3.evaluate t c = .ok (some r) ∧ Hermite.E3.evaluateDerivative t 1 c = .ok (some r') ∧
          ∀ (f : V →ₗ[K] K) (v : K → K) (M h : K), Smooth M ts[0] ts[ts.length - 1] (fun t => f (p t)) v →
            (i = 0 → f d0 = v ts[0]) → (i + 2 = ts.length → f dT = v ts[ts.length - 1]) →
            (∀ i (hi : i + 1 < ts.length), ts[i + 1] - ts[i] ≤ h) → |f r - f (p t)| ≤ M * h ^ 2 / 4 ∧ |f r' - v t| ≤ M * h := by
  obtain ⟨c, ks, m, e, hs, -, m0, mT, hin, hn⟩ := e3_nodes debug (vs := ts.map p) h2 (by simp) hinc d0 dT w
  refine ⟨c, ks, e, fun i hi t h0 h1 => ?_⟩
  obtain ⟨pre, a, b, post, hm, ta, tb, ca, cb⟩ := hn i hi
  refine ⟨_, _, Hermite.E3.evaluate_between hs hm (by rw [ta]; exact h0) (by rw [tb]; exact h1),
    Hermite.E3.velocity_between hs hm (by rw [ta]; exact h0) (by rw [tb]; exact h1), ?_⟩
  intro f v M h hS g0 gT hh
  have mono : ∀ i j (hj : j < ts.length) (hij : i ≤ j), ts[i] ≤ ts[j] := by
    intro i j hj hij
    rcases hij.lt_or_eq with h | rfl
    · exact (List.pairwise_iff_getElem.1 hinc i j (by omega) hj h).le
    · exact le_rfl
  have lt : ∀ i (hi : i + 1 < ts.length), ts[i] < ts[i + 1] := fun i hi =>
    List.pairwise_iff_getElem.1 hinc i (i + 1) (by omega) hi (by omega)
  have hd : 0 < ts[i + 1] - ts[i] := sub_pos.2 (lt i hi)
  have hab : a.time < b.time := by rw [ta, tb]; exact lt i hi
  have hM : 0 ≤ M := hS.nonneg ((lt 0 (by omega)).trans_le (mono 1 _ (by omega) (by omega)))
  have hi1 : Smooth M ts[i] ts[i + 1] (fun t => f (p t)) v :=
    hS.mono (mono 0 i (by omega) (by omega)) (mono (i + 1) _ (by omega) (by omega))
  have X0 : 0 ≤ (t - ts[i]) / (ts[i + 1] - ts[i]) := div_nonneg (sub_nonneg.2 h0) hd.le
  have X1 : (t - ts[i]) / (ts[i + 1] - ts[i]) ≤ 1 := (div_le_one hd).2 (by linarith)
  have hhi := hh i hi
  have grow : ∀ x : K, x ≤ h → M / 2 * x * (ts[i + 1] - ts[i]) ≤ M / 2 * h * (ts[i + 1] - ts[i]) := fun x hx =>
    mul_le_mul_of_nonneg_right (mul_le_mul_of_nonneg_left hx (by linarith)) hd.le
  -- both slopes are near the mean slope
  have hl : |(ts[i + 1] - ts[i]) * f (m i) - (f (p ts[i + 1]) - f (p ts[i]))| ≤ M / 2 * h * (ts[i + 1] - ts[i]) := by
    rcases i with _ | i
    · rw [m0, g0 rfl, abs_sub_comm]
      refine (hi1.slope (lt 0 hi) le_rfl (lt 0 hi).le).trans ?_
      refine le_trans (le_of_eq ?_) (grow _ hhi)
      ring
    · have hc := (Smooth.central (hS.mono (mono 0 i (by omega) (by omega)) (mono (i + 2) _ (by omega) (by omega)))
        (lt i (by omega)) (lt (i + 1) hi)).1
      rw [hin i (by omega), map_smul, map_sub, smul_eq_mul]
      simp only [List.getElem_map]
      exact hc.trans (grow _ (hh i (by omega)))
  have hr : |(ts[i + 1] - ts[i]) * f (m (i + 1)) - (f (p ts[i + 1]) - f (p ts[i]))| ≤ M / 2 * h * (ts[i + 1] - ts[i]) := by
    by_cases hlast : i + 1 = ts.length - 1
    · have e1 : f (m (i + 1)) = v ts[i + 1] := by
        simp only [hlast, mT, gT (by omega)]
      rw [e1, abs_sub_comm]
      refine (hi1.slope (lt i hi) (lt i hi).le le_rfl).trans ?_
      refine le_trans (le_of_eq ?_) (grow _ hhi)
      ring
    · have hc := (Smooth.central (hS.mono (mono 0 i (by omega) (by omega)) (mono (i + 2) _ (by omega) (by omega)))
        (lt i (by omega)) (lt (i + 1) (by omega))).2
      rw [hin i (by omega), map_smul, map_sub, smul_eq_mul]
      simp only [List.getElem_map]
      exact hc.trans (grow _ (hh (i + 1) (by omega)))
  obtain ⟨n1, n2⟩ := way_near X0 X1 hl hr
  constructor
  · rw [Hermite.E3.interpolate_way, ta, tb, ca, cb]
    simp only [List.getElem_map]
    exact near_position hd.le hhi hM n1 (hi1.chord (lt i hi) h0 h1)
  · have hv := velocity_speed f hab t
    rw [ta, tb, ca, cb] at hv
    simp only [List.getElem_map] at hv
    rw [← hv] at n2
    exact near_velocity hd hhi hM n2 (hi1.slope (lt i hi) h0 h1)

/-- **C171**, `CubicHermiteE3Curve`, in any coordinate `f`: fitted to samples of a motion `p` at most `h` apart, with the
velocities of the motion at the ends (they matter for the first and the last segment only), the curve is within `M h² / 4` of the motion and its velocity within `M h` of that of the
motion, where `M` is a bound of the acceleration of the motion in this coordinate. -/
theorem C171_motion (debug : Bool) {ts : List K} (h2 : 2 ≤ ts.length) (hinc : ts.Pairwise (· < ·)) (p : K → V) (d0 dT : V)
    (w : World) :
    ∃ (c : Hermite.E3 K V) (ks : List Key),
      Hermite.E3.fitCurveWithDerivatives debug ts (ts.map p) d0 dT (Hermite.E3.fresh w) = .ok (c, ks) ∧
      ∀ (f : V →ₗ[K] K) (v : K → K) (M h : K), Smooth M ts[0] ts[ts.length - 1] (fun t => f (p t)) v →
        (∀ i (hi : i + 1 < ts.length), ts[i + 1] - ts[i] ≤ h) → ∀ i (hi : i + 1 < ts.length), (i = 0 → f d0 = v ts[0]) →
        (i + 2 = ts.length → f dT = v ts[ts.length - 1]) → ∀ t, ts[i] ≤ t → t ≤ ts[i + 1] →
        ∃ r r', Hermite.E3.evaluate t c = .ok (some r) ∧ Hermite.E3.evaluateDerivative t 1 c = .ok (some r') ∧
          |f r - f (p t)| ≤ M * h ^ 2 / 4 ∧ |f r' - v t| ≤ M * h := by
  obtain ⟨c, ks, e, g⟩ := e3_smooth debug h2 hinc p d0 dT w
  refine ⟨c, ks, e, fun f v M h hS hh i hi g0 gT t h0 h1 => ?_⟩
  obtain ⟨r, r', er, er', x⟩ := g i hi t h0 h1
  exact ⟨r, r', er, er', x f v M h hS g0 gT hh⟩

/-- A falling stone, sampled at the times 0, 1 and 3. -/
example (w : World) : ∃ (c : Hermite.E3 ℚ ℚ) (ks : List Key),
    Hermite.E3.fitCurveWithDerivatives true [0, 1, 3] [0, 1, 9] 0 6 (Hermite.E3.fresh w) = .ok (c, ks) ∧
    ∀ t, 1 ≤ t → t ≤ 3 → ∃ r r', Hermite.E3.evaluate t c = .ok (some r) ∧
      Hermite.E3.evaluateDerivative t 1 c = .ok (some r') ∧ |r - t ^ 2| ≤ 2 ∧ |r' - 2 * t| ≤ 4 := by
  obtain ⟨c, ks, e, h⟩ := C171_motion true (ts := [(0 : ℚ), 1, 3]) (by simp) (by norm_num) (fun t => t ^ 2) 0 6 w
  refine ⟨c, ks, by norm_num at e; exact e, fun t h0 h1 => ?_⟩
  obtain ⟨r, r', er, er', x, y⟩ := h LinearMap.id (fun t => 2 * t) 2 2 (by
    intro s t _ _ _ _
    rw [abs_le]
    simp only [LinearMap.id_apply]
    constructor <;> nlinarith [sq_nonneg (t - s)]) (by
    intro i hi
    simp only [List.length_cons, List.length_nil, zero_add, Nat.reduceAdd] at hi
    obtain rfl | rfl : i = 0 ∨ i = 1 := by omega
    all_goals norm_num) 1 (by simp) (by simp) (by norm_num) t h0 h1
  simp only [LinearMap.id_apply] at x y
  norm_num at x y
  exact ⟨r, r', er, er', x, y⟩

/-- A function with nonnegative slopes rises. -/
theorem up (g g' : ℝ → ℝ) (x y : ℝ) (hxy : x ≤ y) (hg : ∀ z, x ≤ z → z ≤ y → HasDerivAt g (g' z) z)
    (hp : ∀ z, x ≤ z → z ≤ y → 0 ≤ g' z) : g x ≤ g y := by
  refine monotoneOn_of_deriv_nonneg (convex_Icc x y) (fun z hz => (hg z hz.1 hz.2).continuousAt.continuousWithinAt)
    (fun z hz => ?_) (fun z hz => ?_) (Set.left_mem_Icc.2 hxy) (Set.right_mem_Icc.2 hxy) hxy
  · rw [interior_Icc] at hz
    exact (hg z hz.1.le hz.2.le).differentiableAt.differentiableWithinAt
  · rw [interior_Icc] at hz
    rw [(hg z hz.1.le hz.2.le).deriv]
    exact hp z hz.1.le hz.2.le

/-- A motion with derivative `v` that does not change faster than `M` has its acceleration bounded in the sense above. -/
theorem smooth_of_deriv {M a b : ℝ} {q v : ℝ → ℝ} (hq : ∀ t, a ≤ t → t ≤ b → HasDerivAt q (v t) t)
    (hv : ∀ s t, a ≤ s → s ≤ t → t ≤ b → |v t - v s| ≤ M * (t - s)) : Smooth M a b q v := by
  have der : ∀ (s σ z : ℝ), a ≤ z → z ≤ b →
      HasDerivAt (fun t => M / 2 * (t - s) ^ 2 + σ * (q t - q s - (t - s) * v s)) (M * (z - s) + σ * (v z - v s)) z := by
    intro s σ z ha hb
    have h1 := (((hasDerivAt_id z).sub_const s).pow 2).const_mul (M / 2)
    have h2 := (((hq z ha hb).sub_const (q s)).sub (((hasDerivAt_id z).sub_const s).mul_const (v s))).const_mul σ
    refine (h1.add h2).congr_deriv ?_
    simp
    ring
  intro s t hs hs' ht ht'
  rcases le_total s t with hst | hst
  · have k : ∀ σ : ℝ, (σ = 1 ∨ σ = -1) → 0 ≤ M / 2 * (t - s) ^ 2 + σ * (q t - q s - (t - s) * v s) := by
      intro σ hσ
      have := up _ _ s t hst (fun z h1 h2 => der s σ z (hs.trans h1) (h2.trans ht')) (fun z h1 h2 => by
        have := abs_le.1 (hv s z hs h1 (h2.trans ht'))
        rcases hσ with rfl | rfl <;> linarith [this.1, this.2])
      simpa using this
    have k1 := k 1 (Or.inl rfl)
    have k2 := k (-1) (Or.inr rfl)
    rw [abs_le]
    constructor <;> linarith
  · have k : ∀ σ : ℝ, (σ = 1 ∨ σ = -1) → 0 ≤ M / 2 * (t - s) ^ 2 + σ * (q t - q s - (t - s) * v s) := by
      intro σ hσ
      have := up (fun t => -(M / 2 * (t - s) ^ 2 + σ * (q t - q s - (t - s) * v s))) _ t s hst
        (fun z h1 h2 => (der s σ z (ht.trans h1) (h2.trans hs')).neg) (fun z h1 h2 => by
        have := abs_le.1 (hv z s (ht.trans h1) h2 hs')
        rcases hσ with rfl | rfl <;> linarith [this.1, this.2])
      simp only [sub_self, zero_mul, mul_zero, add_zero, ne_eq, OfNat.ofNat_ne_zero, not_false_eq_true, zero_pow, neg_zero] at this
      linarith
    have k1 := k 1 (Or.inl rfl)
    have k2 := k (-1) (Or.inr rfl)
    rw [abs_le]
    constructor <;> linarith

/-- **C171**, `CubicHermiteSE3Curve`: the same for the translation of a curve fitted to poses sampled from a motion, in any
coordinate, whatever the curve contained before and whatever the attitudes are. -/
theorem C171_poses (L : Kindr.LogMap) {ts : List ℝ} (h2 : 2 ≤ ts.length) (hinc : ts.Pairwise (· < ·)) (p : ℝ → Kindr.Pose)
    (d0 dT : Kindr.Twist) (c : Hermite.SE3) :
    ∃ (c' : Hermite.SE3) (ks : List Key), Hermite.SE3.fitCurveWithDerivatives L ts (ts.map p) d0 dT c = .ok (c', ks) ∧
      ∀ (f : Kindr.Vec3 →ₗ[ℝ] ℝ) (v : ℝ → ℝ) (M h : ℝ),
        (∀ t, ts[0] ≤ t → t ≤ ts[ts.length - 1] → HasDerivAt (fun t => f (p t).position) (v t) t) →
        (∀ s t, ts[0] ≤ s → s ≤ t → t ≤ ts[ts.length - 1] → |v t - v s| ≤ M * (t - s)) →
        (∀ i (hi : i + 1 < ts.length), ts[i + 1] - ts[i] ≤ h) → ∀ i (hi : i + 1 < ts.length),
        (i = 0 → f d0.translationalVelocity = v ts[0]) →
        (i + 2 = ts.length → f dT.translationalVelocity = v ts[ts.length - 1]) → ∀ t, ts[i] ≤ t → t ≤ ts[i + 1] →
        ∃ r r', Hermite.SE3.evaluate L t c' = .ok (some r) ∧ Hermite.SE3.evaluateDerivative L t 1 c' = .ok (some r') ∧
          |f r.position - f (p t).position| ≤ M * h ^ 2 / 4 ∧ |f r'.translationalVelocity - v t| ≤ M * h := by
  obtain ⟨c', ks, cs, e, -, -, hs, -⟩ := Hermite.SE3.fit_ok L ts (ts.map p) (by simp) (hinc.imp fun h => h.ne) d0 dT c
  refine ⟨c', ks, e, fun f v M h hp hv hh i hi g0 gT t h0 h1 => ?_⟩
  have hsh := Hermite.SE3.C123_fit L f ts (ts.map p) d0 dT c
  rw [e, Outcome.ok_bind, List.map_map] at hsh
  obtain ⟨c2, ks2, e2, g⟩ := C171_motion true h2 hinc (fun t => f (p t).position) (f d0.translationalVelocity)
    (f dT.translationalVelocity) c.w
  rw [show (Hermite.SE3.shadow f c).clear = Hermite.E3.fresh c.w from rfl] at hsh
  have hc2 := hsh.symm.trans e2
  obtain rfl : Hermite.SE3.shadow f c' = c2 := (Prod.mk.inj (Outcome.ok.inj hc2)).1
  obtain ⟨r, r', er, er', x1, x2⟩ := g LinearMap.id v M h (smooth_of_deriv hp hv) hh i hi g0 gT t h0 h1
  simp only [LinearMap.id_apply] at x1 x2
  obtain ⟨s1, s2, -⟩ := Hermite.SE3.evaluate_shadow (e := Hermite.SE3.shadow f c') f hs (conv_knots _ _) (L := L) t
  rw [er] at s1
  rw [er'] at s2
  obtain ⟨x, ex, y⟩ := Outcome.bind_eq_ok.1 s1.symm
  obtain ⟨x', ex', y'⟩ := Outcome.bind_eq_ok.1 s2.symm
  cases x with
  | none => simp at y
  | some x =>
    cases x' with
    | none => simp at y'
    | some x' =>
      simp only [Option.map_some, Outcome.ok.injEq, Option.some.injEq] at y y'
      exact ⟨x, x', ex, ex', by rw [y]; exact x1, by rw [y']; exact x2⟩

/-- Poses along the same swing; the curve had other knots before. -/
example (L : Kindr.LogMap) : ∃ (c' : Hermite.SE3) (ks : List Key),
    Hermite.SE3.fitCurveWithDerivatives L [0, 1 / 10] ([0, 1 / 10].map fun t => ⟨![Real.sin t, 0, 0], 1⟩)
      ⟨![1, 0, 0], 0⟩ ⟨![Real.cos (1 / 10), 0, 0], 0⟩ Hermite.SE3.demo = .ok (c', ks) ∧
    ∀ t, 0 ≤ t → t ≤ 1 / 10 → ∃ r, Hermite.SE3.evaluate L t c' = .ok (some r) ∧ |r.position 0 - Real.sin t| ≤ 25 / 10000 := by
  obtain ⟨c', ks, e, h⟩ := C171_poses L (ts := [0, 1 / 10]) (by simp) (by norm_num) (fun t => ⟨![Real.sin t, 0, 0], 1⟩)
    ⟨![1, 0, 0], 0⟩ ⟨![Real.cos (1 / 10), 0, 0], 0⟩ Hermite.SE3.demo
  refine ⟨c', ks, e, fun t h0 h1 => ?_⟩
  obtain ⟨r, -, er, -, x, -⟩ := h (LinearMap.proj 0) Real.cos 1 (1 / 10) (fun t _ _ => by simpa using Real.hasDerivAt_sin t)
    (fun s t _ h _ => by
      have := Real.abs_cos_sub_cos_le t s
      rwa [abs_of_nonneg (sub_nonneg.2 h), ← one_mul (t - s)] at this) (by
      intro i hi
      simp only [List.length_cons, List.length_nil, zero_add, Nat.reduceAdd] at hi
      obtain rfl : i = 0 := by omega
      norm_num) 0 (by simp) (by simp) (by simp) t h0 h1
  refine ⟨r, er, ?_⟩
  norm_num at x
  norm_num
  exact x

/-- A motion `q` along a line with velocity `v` and acceleration `a` that changes at most at the rate `J`, said without
derivatives. -/
def Smoother (J a b : K) (q v g : K → K) : Prop :=
  Smooth J a b v g ∧
    ∀ s t, a ≤ s → s ≤ b → a ≤ t → t ≤ b → |q t - q s - (t - s) * v s - (t - s) ^ 2 / 2 * g s| ≤ J / 6 * |t - s| ^ 3

/-- The Hermite interpolation of numbers that are small. -/
theorem small_way {D u v x J : K} (x0 : 0 ≤ x) (x1 : x ≤ 1) (hJ : 0 ≤ J) (hD : |D| ≤ J / 6) (hu : |u| ≤ J / 6)
    (hv : |v| ≤ 2 * J / 3) : |way D u v x| ≤ J / 3 ∧ |speed D u v x| ≤ 13 / 12 * J := by
  have y0 : 0 ≤ 1 - x := by linarith
  constructor
  · have r0 : 0 ≤ -2 * x ^ 3 + 3 * x ^ 2 := by nlinarith [mul_nonneg (sq_nonneg x) y0, sq_nonneg x]
    have r1 : -2 * x ^ 3 + 3 * x ^ 2 ≤ 1 := by nlinarith [mul_nonneg (sq_nonneg (1 - x)) x0, sq_nonneg (1 - x)]
    have p0 : 0 ≤ x * (1 - x) ^ 2 := mul_nonneg x0 (sq_nonneg _)
    have q0 : 0 ≤ x ^ 2 * (1 - x) := mul_nonneg (sq_nonneg _) y0
    have p1 : x * (1 - x) ^ 2 ≤ 4 / 27 := by
      have := mul_nonneg (show (0 : K) ≤ 4 / 3 - x by linarith) (sq_nonneg (x - 1 / 3))
      nlinarith
    have q1 : x ^ 2 * (1 - x) ≤ 4 / 27 := by
      have := mul_nonneg (show (0 : K) ≤ x + 1 / 3 by linarith) (sq_nonneg (x - 2 / 3))
      nlinarith
    have s0 : |(-2 * x ^ 3 + 3 * x ^ 2) * D| ≤ 1 * (J / 6) := by
      rw [abs_mul, abs_of_nonneg r0]; exact mul_le_mul r1 hD (abs_nonneg _) zero_le_one
    have s1 : |x * (1 - x) ^ 2 * u| ≤ 4 / 27 * (J / 6) := by
      rw [abs_mul, abs_of_nonneg p0]; exact mul_le_mul p1 hu (abs_nonneg _) (by norm_num)
    have s2 : |x ^ 2 * (1 - x) * v| ≤ 4 / 27 * (2 * J / 3) := by
      rw [abs_mul, abs_of_nonneg q0]; exact mul_le_mul q1 hv (abs_nonneg _) (by norm_num)
    have e : way D u v x = (-2 * x ^ 3 + 3 * x ^ 2) * D + x * (1 - x) ^ 2 * u - x ^ 2 * (1 - x) * v := by
      simp only [way]; ring
    rw [abs_le] at s0 s1 s2
    rw [e, abs_le]
    constructor <;> linarith [s0.1, s0.2, s1.1, s1.2, s2.1, s2.2]
  · have r0 : 0 ≤ 6 * (x - x ^ 2) := by nlinarith
    have r1 : 6 * (x - x ^ 2) ≤ 3 / 2 := by nlinarith [sq_nonneg (2 * x - 1)]
    have p1 : |3 * x ^ 2 - 4 * x + 1| ≤ 1 := by
      rw [abs_le]; constructor <;> nlinarith [sq_nonneg (3 * x - 2)]
    have q1 : |3 * x ^ 2 - 2 * x| ≤ 1 := by
      rw [abs_le]; constructor <;> nlinarith [sq_nonneg (3 * x - 1)]
    have s0 : |6 * (x - x ^ 2) * D| ≤ 3 / 2 * (J / 6) := by
      rw [abs_mul, abs_of_nonneg r0]; exact mul_le_mul r1 hD (abs_nonneg _) (by norm_num)
    have s1 : |(3 * x ^ 2 - 4 * x + 1) * u| ≤ 1 * (J / 6) := by
      rw [abs_mul]; exact mul_le_mul p1 hu (abs_nonneg _) zero_le_one
    have s2 : |(3 * x ^ 2 - 2 * x) * v| ≤ 1 * (2 * J / 3) := by
      rw [abs_mul]; exact mul_le_mul q1 hv (abs_nonneg _) zero_le_one
    rw [abs_le] at s0 s1 s2
    simp only [speed]
    rw [abs_le]
    constructor <;> linarith [s0.1, s0.2, s1.1, s1.2, s2.1, s2.2]

/-- One segment between `a` and `a + h`: the interpolation is the parabola that touches the motion at `a`, plus that of what is
left over. -/
theorem segment_cubic {J h a t A q0 q1 qt v0 vt g0 u v : K} (hh : 0 < h) (hJ : 0 ≤ J) (h0 : a ≤ t) (h1 : t ≤ a + h)
    (r1 : |q1 - q0 - h * v0 - h ^ 2 / 2 * g0| ≤ J / 6 * h ^ 3) (ru : |h * u - h * v0| ≤ J / 6 * h ^ 3)
    (rv : |h * v - (h * v0 + h ^ 2 * g0)| ≤ 2 * (J * h ^ 3) / 3)
    (rt : |qt - q0 - (t - a) * v0 - (t - a) ^ 2 / 2 * g0| ≤ J / 6 * h ^ 3) (rvt : |vt - v0 - (t - a) * g0| ≤ J / 2 * h ^ 2)
    (hA : h * A = speed (q1 - q0) (h * u) (h * v) ((t - a) / h)) :
    |q0 + way (q1 - q0) (h * u) (h * v) ((t - a) / h) - qt| ≤ J * h ^ 3 / 2 ∧ |A - vt| ≤ 19 / 12 * J * h ^ 2 := by
  have X0 : 0 ≤ (t - a) / h := div_nonneg (sub_nonneg.2 h0) hh.le
  have X1 : (t - a) / h ≤ 1 := (div_le_one hh).2 (by linarith)
  obtain ⟨x, hx⟩ : ∃ x, x = (t - a) / h := ⟨_, rfl⟩
  have ta : t - a = h * x := by rw [hx]; field_simp
  rw [← hx] at X0 X1 hA ⊢
  rw [ta] at rt rvt
  have hJ3 : 0 ≤ J * h ^ 3 := mul_nonneg hJ (pow_pos hh 3).le
  obtain ⟨w1, w2⟩ := small_way (D := q1 - q0 - h * v0 - h ^ 2 / 2 * g0) (u := h * u - h * v0)
    (v := h * v - (h * v0 + h ^ 2 * g0)) X0 X1 hJ3 (by linarith) (by linarith) rv
  have e1 : q0 + way (q1 - q0) (h * u) (h * v) x - qt =
      way (q1 - q0 - h * v0 - h ^ 2 / 2 * g0) (h * u - h * v0) (h * v - (h * v0 + h ^ 2 * g0)) x -
        (qt - q0 - h * x * v0 - (h * x) ^ 2 / 2 * g0) := by
    simp only [way]; ring
  have e2 : h * (A - vt) =
      speed (q1 - q0 - h * v0 - h ^ 2 / 2 * g0) (h * u - h * v0) (h * v - (h * v0 + h ^ 2 * g0)) x -
        h * (vt - v0 - h * x * g0) := by
    rw [mul_sub, hA]
    simp only [speed]; ring
  constructor
  · rw [e1]
    refine (abs_sub _ _).trans ?_
    linarith
  · refine le_of_mul_le_mul_left (?_ : h * _ ≤ h * _) hh
    rw [← abs_of_pos hh, ← abs_mul, abs_of_pos hh, e2]
    refine (abs_sub _ _).trans ?_
    rw [abs_mul, abs_of_pos hh]
    have := mul_le_mul_of_nonneg_left rvt hh.le
    linarith

theorem slope_middle {h qm q0 qp v g J : K} (hh : 0 < h) (l : |qm - q0 - -h * v - (-h) ^ 2 / 2 * g| ≤ J / 6 * h ^ 3)
    (r : |qp - q0 - h * v - h ^ 2 / 2 * g| ≤ J / 6 * h ^ 3) : |h * (1 / (2 * h) * (qp - qm)) - h * v| ≤ J / 6 * h ^ 3 := by
  have e1 : h * (1 / (2 * h) * (qp - qm)) = (qp - qm) / 2 := by field_simp
  rw [abs_le] at l r
  rw [e1, abs_le]
  constructor <;> linarith [l.1, l.2, r.1, r.2]

theorem slope_next {h q0 q2 v g J : K} (hh : 0 < h) (r : |q2 - q0 - 2 * h * v - (2 * h) ^ 2 / 2 * g| ≤ J / 6 * (2 * h) ^ 3) :
    |h * (1 / (2 * h) * (q2 - q0)) - (h * v + h ^ 2 * g)| ≤ 2 * (J * h ^ 3) / 3 := by
  have e1 : h * (1 / (2 * h) * (q2 - q0)) = (q2 - q0) / 2 := by field_simp
  rw [abs_le] at r
  rw [e1, abs_le]
  constructor <;> linarith [r.1, r.2]

theorem slope_end {h v0 v1 g J : K} (hh : 0 < h) (hJ : 0 ≤ J) (x : |v1 - v0 - h * g| ≤ J / 2 * h ^ 2) :
    |h * v1 - (h * v0 + h ^ 2 * g)| ≤ 2 * (J * h ^ 3) / 3 := by
  have h3 : 0 ≤ J * h ^ 3 := mul_nonneg hJ (pow_pos hh 3).le
  have y := mul_le_mul_of_nonneg_left x hh.le
  rw [← abs_of_pos hh, ← abs_mul, abs_of_pos hh] at y
  rw [show h * v1 - (h * v0 + h ^ 2 * g) = h * (v1 - v0 - h * g) by ring]
  refine y.trans ?_
  linarith

/-- **C171**, equal steps. If the acceleration of the motion changes at most at the rate `J` and the samples are `h` apart, the
error is at most `J h³ / 2` and that of the velocity at most `19/12 J h²`. -/
theorem C171_equal (debug : Bool) {ts : List K} (h2 : 2 ≤ ts.length) {h : K} (hh : 0 < h)
    (hstep : ∀ i (hi : i + 1 < ts.length), ts[i + 1] = ts[i] + h) (p : K → V) (d0 dT : V) (w : World) :
    ∃ (c : Hermite.E3 K V) (ks : List Key),
      Hermite.E3.fitCurveWithDerivatives debug ts (ts.map p) d0 dT (Hermite.E3.fresh w) = .ok (c, ks) ∧
      ∀ (f : V →ₗ[K] K) (v g : K → K) (J : K), 0 ≤ J → Smoother J ts[0] ts[ts.length - 1] (fun t => f (p t)) v g →
        ∀ i (hi : i + 1 < ts.length), (i = 0 → f d0 = v ts[0]) →
        (i + 2 = ts.length → f dT = v ts[ts.length - 1]) → ∀ t, ts[i] ≤ t → t ≤ ts[i + 1] →
        ∃ r r', Hermite.E3.evaluate t c = .ok (some r) ∧ Hermite.E3.evaluateDerivative t 1 c = .ok (some r') ∧
          |f r - f (p t)| ≤ J * h ^ 3 / 2 ∧ |f r' - v t| ≤ 19 / 12 * J * h ^ 2 := by
  have lt : ∀ i (hi : i + 1 < ts.length), ts[i] < ts[i + 1] := fun i hi => by rw [hstep i hi]; linarith
  have hinc : ts.Pairwise (· < ·) := (List.isChain_iff_pairwise (R := (· < ·))).1 (List.isChain_iff_getElem.2 fun i hi => lt i hi)
  obtain ⟨c, ks, m, e, hs, -, m0, mT, hin, hn⟩ := e3_nodes debug (vs := ts.map p) h2 (by simp) hinc d0 dT w
  refine ⟨c, ks, e, fun f v g J hJ hS i hi g0 gT t h0 h1 => ?_⟩
  obtain ⟨pre, a, b, post, hm, ta, tb, ca, cb⟩ := hn i hi
  refine ⟨_, _, Hermite.E3.evaluate_between hs hm (by rw [ta]; exact h0) (by rw [tb]; exact h1),
    Hermite.E3.velocity_between hs hm (by rw [ta]; exact h0) (by rw [tb]; exact h1), ?_⟩
  have mono : ∀ i j (hj : j < ts.length) (hij : i ≤ j), ts[i] ≤ ts[j] := by
    intro i j hj hij
    rcases hij.lt_or_eq with h | rfl
    · exact (List.pairwise_iff_getElem.1 hinc i j (by omega) hj h).le
    · exact le_rfl
  have hab : a.time < b.time := by rw [ta, tb]; exact lt i hi
  have hd : ts[i + 1] - ts[i] = h := by rw [hstep i hi]; ring
  have hv := velocity_speed f hab t
  rw [Hermite.E3.interpolate_way]
  rw [ta, tb, ca, cb, hd] at hv ⊢
  simp only [List.getElem_map] at hv ⊢
  -- what is known about other samples
  have inside : ∀ j (hj : j < ts.length), ts[0] ≤ ts[j] ∧ ts[j] ≤ ts[ts.length - 1] := fun j hj =>
    ⟨mono 0 j hj (by omega), mono j _ (by omega) (by omega)⟩
  have hi0 := inside i (by omega)
  have at_ : ∀ j (hj : j < ts.length) z, ts[j] = ts[i] + z →
      |f (p ts[j]) - f (p ts[i]) - z * v ts[i] - z ^ 2 / 2 * g ts[i]| ≤ J / 6 * |z| ^ 3 := by
    intro j hj z hz
    have := hS.2 ts[i] ts[j] hi0.1 hi0.2 (inside j hj).1 (inside j hj).2
    rwa [show ts[j] - ts[i] = z by rw [hz]; ring] at this
  have r1 := at_ (i + 1) hi h (hstep i hi)
  rw [abs_of_pos hh] at r1
  have tin : ts[0] ≤ t ∧ t ≤ ts[ts.length - 1] := ⟨hi0.1.trans h0, h1.trans (inside (i + 1) hi).2⟩
  have th : t - ts[i] ≤ h := by linarith
  have rt : |f (p t) - f (p ts[i]) - (t - ts[i]) * v ts[i] - (t - ts[i]) ^ 2 / 2 * g ts[i]| ≤ J / 6 * h ^ 3 := by
    refine (hS.2 ts[i] t hi0.1 hi0.2 tin.1 tin.2).trans ?_
    rw [abs_of_nonneg (sub_nonneg.2 h0)]
    exact mul_le_mul_of_nonneg_left (pow_le_pow_left₀ (sub_nonneg.2 h0) th 3) (by linarith)
  have rvt : |v t - v ts[i] - (t - ts[i]) * g ts[i]| ≤ J / 2 * h ^ 2 := by
    refine (hS.1 ts[i] t hi0.1 hi0.2 tin.1 tin.2).trans ?_
    exact mul_le_mul_of_nonneg_left (pow_le_pow_left₀ (sub_nonneg.2 h0) th 2) (by linarith)
  have h3 : 0 ≤ J * h ^ 3 := mul_nonneg hJ (pow_pos hh 3).le
  have ru : |h * f (m i) - h * v ts[i]| ≤ J / 6 * h ^ 3 := by
    rcases i with _ | i
    · rw [m0, g0 rfl, sub_self, abs_zero]
      linarith
    · have l := at_ i (by omega) (-h) (by rw [hstep i (by omega)]; ring)
      rw [abs_neg, abs_of_pos hh] at l
      have hs2 : ts[i + 2] - ts[i] = 2 * h := by rw [hstep (i + 1) (by omega), hstep i (by omega)]; ring
      rw [hin i (by omega), hs2, map_smul, map_sub, smul_eq_mul]
      simp only [List.getElem_map]
      exact slope_middle hh l r1
  have rv : |h * f (m (i + 1)) - (h * v ts[i] + h ^ 2 * g ts[i])| ≤ 2 * (J * h ^ 3) / 3 := by
    by_cases hlast : i + 2 = ts.length
    · have e1 : f (m (i + 1)) = v ts[i + 1] := by
        have : i + 1 = ts.length - 1 := by omega
        simp only [this, mT, gT hlast]
      have x := hS.1 ts[i] ts[i + 1] hi0.1 hi0.2 (inside (i + 1) hi).1 (inside (i + 1) hi).2
      rw [hd] at x
      rw [e1]
      exact slope_end hh hJ x
    · have r := at_ (i + 2) (by omega) (2 * h) (by rw [hstep (i + 1) (by omega), hstep i (by omega)]; ring)
      rw [abs_of_pos (show 0 < 2 * h by linarith)] at r
      have hs2 : ts[i + 2] - ts[i] = 2 * h := by rw [hstep (i + 1) (by omega), hstep i (by omega)]; ring
      rw [hin i (by omega), hs2, map_smul, map_sub, smul_eq_mul]
      simp only [List.getElem_map]
      exact slope_next hh r
  exact segment_cubic hh hJ h0 (by rw [← hstep i hi]; exact h1) r1 ru rv rt rvt hv

/-- A motion with velocity `v` and acceleration `g` that does not change faster than `J`. -/
theorem smoother_of_deriv {J a b : ℝ} {q v g : ℝ → ℝ} (hq : ∀ t, a ≤ t → t ≤ b → HasDerivAt q (v t) t)
    (hv : ∀ t, a ≤ t → t ≤ b → HasDerivAt v (g t) t)
    (hg : ∀ s t, a ≤ s → s ≤ t → t ≤ b → |g t - g s| ≤ J * (t - s)) : Smoother J a b q v g := by
  have h1 := smooth_of_deriv hv hg
  refine ⟨h1, fun s t hs hs' ht ht' => ?_⟩
  have der : ∀ (ε σ z : ℝ), a ≤ z → z ≤ b →
      HasDerivAt (fun t => ε * (J / 6 * (t - s) ^ 3) + σ * (q t - q s - (t - s) * v s - (t - s) ^ 2 / 2 * g s))
        (ε * (J / 2 * (z - s) ^ 2) + σ * (v z - v s - (z - s) * g s)) z := by
    intro ε σ z ha hb
    have d := (hasDerivAt_id z).sub_const s
    have e1 := ((d.pow 3).const_mul (J / 6)).const_mul ε
    have e2 := ((((hq z ha hb).sub_const (q s)).sub (d.mul_const (v s))).sub (((d.pow 2).div_const 2).mul_const (g s))).const_mul σ
    refine (e1.add e2).congr_deriv ?_
    simp only [id, Nat.cast_ofNat, Nat.reduceSub]
    ring
  rcases le_total s t with hst | hst
  · have k : ∀ σ : ℝ, (σ = 1 ∨ σ = -1) →
        0 ≤ J / 6 * (t - s) ^ 3 + σ * (q t - q s - (t - s) * v s - (t - s) ^ 2 / 2 * g s) := by
      intro σ hσ
      have := up _ _ s t hst (fun z z1 z2 => der 1 σ z (hs.trans z1) (z2.trans ht')) (fun z z1 z2 => by
        have := abs_le.1 (h1 s z hs hs' (hs.trans z1) (z2.trans ht'))
        rcases hσ with rfl | rfl <;> linarith [this.1, this.2])
      simpa using this
    have k1 := k 1 (Or.inl rfl)
    have k2 := k (-1) (Or.inr rfl)
    rw [abs_of_nonneg (sub_nonneg.2 hst), abs_le]
    constructor <;> linarith
  · have k : ∀ σ : ℝ, (σ = 1 ∨ σ = -1) →
        0 ≤ -(J / 6 * (t - s) ^ 3) + σ * (q t - q s - (t - s) * v s - (t - s) ^ 2 / 2 * g s) := by
      intro σ hσ
      have := up (fun t => 1 * (J / 6 * (t - s) ^ 3) + -σ * (q t - q s - (t - s) * v s - (t - s) ^ 2 / 2 * g s)) _ t s hst
        (fun z z1 z2 => der 1 (-σ) z (ht.trans z1) (z2.trans hs')) (fun z z1 z2 => by
        have := abs_le.1 (h1 s z hs hs' (ht.trans z1) (z2.trans hs'))
        rcases hσ with rfl | rfl <;> linarith [this.1, this.2])
      simp only [sub_self, zero_mul, mul_zero, zero_div, add_zero, ne_eq, OfNat.ofNat_ne_zero, not_false_eq_true, zero_pow] at this
      linarith
    have k1 := k 1 (Or.inl rfl)
    have k2 := k (-1) (Or.inr rfl)
    have e3 : |t - s| ^ 3 = -(t - s) ^ 3 := by
      rw [abs_of_nonpos (sub_nonpos.2 hst)]; ring
    rw [e3, abs_le]
    constructor <;> linarith

/-- A swing, sampled ten times a second, in metres: never off by more than 0.5 mm, and 16 mm/s. -/
example (w : World) : ∃ (c : Hermite.E3 ℝ ℝ) (ks : List Key),
    Hermite.E3.fitCurveWithDerivatives true [0, 1 / 10, 2 / 10] ([0, 1 / 10, 2 / 10].map Real.sin) (Real.cos 0) (Real.cos (2 / 10))
      (Hermite.E3.fresh w) = .ok (c, ks) ∧
    ∀ t, 1 / 10 ≤ t → t ≤ 2 / 10 → ∃ r r', Hermite.E3.evaluate t c = .ok (some r) ∧
      Hermite.E3.evaluateDerivative t 1 c = .ok (some r') ∧ |r - Real.sin t| ≤ 5 / 10000 ∧ |r' - Real.cos t| ≤ 16 / 1000 := by
  obtain ⟨c, ks, e, h⟩ := C171_equal true (ts := [(0 : ℝ), 1 / 10, 2 / 10]) (by simp) (h := 1 / 10) (by norm_num) (by
      intro i hi
      simp only [List.length_cons, List.length_nil, zero_add, Nat.reduceAdd] at hi
      obtain rfl | rfl : i = 0 ∨ i = 1 := by omega
      all_goals norm_num) Real.sin (Real.cos 0) (Real.cos (2 / 10)) w
  refine ⟨c, ks, e, fun t h0 h1 => ?_⟩
  obtain ⟨r, r', er, er', x, y⟩ := h LinearMap.id Real.cos (fun t => -Real.sin t) 1 zero_le_one
    (smoother_of_deriv (fun t _ _ => Real.hasDerivAt_sin t) (fun t _ _ => Real.hasDerivAt_cos t) (fun s t _ h _ => by
      have := Real.abs_sin_sub_sin_le t s
      rw [abs_of_nonneg (sub_nonneg.2 h)] at this
      rw [neg_sub_neg, abs_sub_comm, one_mul]
      exact this)) 1 (by simp) (by simp) (fun _ => rfl) t h0 h1
  simp only [LinearMap.id_apply] at x y
  exact ⟨r, r', er, er', x.trans (by norm_num), y.trans (by norm_num)⟩

end Verif.PolyCurve

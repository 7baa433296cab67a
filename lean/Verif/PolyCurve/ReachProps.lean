import Verif.PolyCurve.RiseProps

/-!
# Property C168: how far a point reaches in a cubic curve

The slopes of a cubic scalar curve solve one linear system over all points (C167), so every point has an influence
everywhere. The theorems bound it: the slopes are at most three times the largest mean slope, and what
changes on one side of a knot halves with every knot on the other side.
-/

set_option linter.unusedSectionVars false
set_option linter.dupNamespace false

namespace Verif.PolyCurve

open Verif.Spline Verif.Container Verif.Manager
open Hermite.E3 (way way_sub speed)

variable {K : Type} [Field K] [LinearOrder K] [IsStrictOrderedRing K]

/-- The slopes at the knots are at most three times the largest mean slope. -/
theorem SlopeEq.bound {ts vs : List K} (h2 : 2 ≤ ts.length) (hl : vs.length = ts.length) (hinc : ts.Pairwise (· < ·))
    {m : ℕ → K} (h : SlopeEq ts vs m) {R : K}
    (hR : ∀ i (hi : i + 1 < ts.length), |vs[i + 1] - vs[i]| ≤ R * (ts[i + 1] - ts[i])) (h0 : |m 0| ≤ 3 * R)
    (hT : |m (ts.length - 1)| ≤ 3 * R) : ∀ i < ts.length, |m i| ≤ 3 * R := by
  obtain ⟨k, hk, hmax⟩ := Finset.exists_max_image (Finset.range ts.length) (fun i => |m i|) ⟨0, Finset.mem_range.2 (by omega)⟩
  rw [Finset.mem_range] at hk
  suffices hz : |m k| ≤ 3 * R from fun i hi => (hmax i (Finset.mem_range.2 hi)).trans hz
  rcases Nat.eq_zero_or_pos k with rfl | hpos
  · exact h0
  rcases Nat.lt_or_ge (k + 1) ts.length with hlt | hge
  · obtain ⟨i, rfl⟩ : ∃ i, k = i + 1 := ⟨k - 1, by omega⟩
    have e := h i (by omega) (by omega)
    have r1 := hR i (by omega)
    have r2 : |vs[i + 2] - vs[i + 1]| ≤ R * (ts[i + 2] - ts[i + 1]) := hR (i + 1) (by omega)
    rw [List.pairwise_iff_getElem] at hinc
    have x1 : 0 < ts[i + 1] - ts[i] := sub_pos.2 (hinc i (i + 1) (by omega) (by omega) (by omega))
    have x2 : 0 < ts[i + 2] - ts[i + 1] := sub_pos.2 (hinc (i + 1) (i + 2) (by omega) (by omega) (by omega))
    have m0 := hmax i (Finset.mem_range.2 (by omega))
    have m2 := hmax (i + 2) (Finset.mem_range.2 (by omega))
    generalize ts[i + 1] - ts[i] = x at *
    generalize ts[i + 2] - ts[i + 1] = y at *
    generalize vs[i + 1] - vs[i] = p at *
    generalize vs[i + 2] - vs[i + 1] = q at *
    have key : 2 * (1 / x + 1 / y) * m (i + 1) = 3 * (p / x ^ 2 + q / y ^ 2) - m i / x - m (i + 2) / y := by
      linear_combination e
    have hp : |p / x ^ 2| ≤ R / x := by
      rw [abs_div, abs_of_pos (pow_pos x1 2), div_le_div_iff₀ (pow_pos x1 2) x1]; nlinarith
    have hq : |q / y ^ 2| ≤ R / y := by
      rw [abs_div, abs_of_pos (pow_pos x2 2), div_le_div_iff₀ (pow_pos x2 2) x2]; nlinarith
    have ha : |m i / x| ≤ |m (i + 1)| / x := by
      rw [abs_div, abs_of_pos x1]; exact div_le_div_of_nonneg_right m0 x1.le
    have hb : |m (i + 2) / y| ≤ |m (i + 1)| / y := by
      rw [abs_div, abs_of_pos x2]; exact div_le_div_of_nonneg_right m2 x2.le
    have hs : 0 < 1 / x + 1 / y := add_pos (one_div_pos.2 x1) (one_div_pos.2 x2)
    have : 2 * (1 / x + 1 / y) * |m (i + 1)| ≤ 3 * (R / x + R / y) + |m (i + 1)| / x + |m (i + 1)| / y := by
      rw [← abs_of_pos (show 0 < 2 * (1 / x + 1 / y) by linarith), ← abs_mul, key]
      rw [abs_le] at hp hq ha hb ⊢
      constructor <;> linarith [hp.1, hp.2, hq.1, hq.2, ha.1, ha.2, hb.1, hb.2]
    refine le_of_mul_le_mul_left ?_ hs
    have e1 : |m (i + 1)| / x = 1 / x * |m (i + 1)| := by ring
    have e2 : |m (i + 1)| / y = 1 / y * |m (i + 1)| := by ring
    have e3 : R / x = 1 / x * R := by ring
    have e4 : R / y = 1 / y * R := by ring
    rw [e1, e2, e3, e4] at this
    linarith
  · obtain rfl : k = ts.length - 1 := by omega
    exact hT

/-- What a row of the equations says of a difference. -/
theorem row_decay {a b x y z : K} (ha : 0 < a) (hb : 0 < b) (h : a * x + 2 * (a + b) * y + b * z = 0) (hz : 2 * |z| ≤ |y|) :
    2 * |y| ≤ |x| := by
  have key : 2 * (a + b) * y = -(a * x) - b * z := by linear_combination h
  have h1 : 2 * (a + b) * |y| ≤ a * |x| + b * |z| := by
    rw [← abs_of_pos (show 0 < 2 * (a + b) by linarith), ← abs_mul, key]
    refine (abs_sub _ _).trans ?_
    rw [abs_neg, abs_mul, abs_mul, abs_of_pos ha, abs_of_pos hb]
  have h2 : b * (2 * |z|) ≤ b * |y| := mul_le_mul_of_nonneg_left hz hb.le
  have h3 := mul_nonneg hb.le (abs_nonneg y)
  refine le_of_mul_le_mul_left ?_ ha
  nlinarith

/-- Differences of slopes halve towards the end. -/
theorem decay_right {a d : ℕ → K} {k n : ℕ} (ha : ∀ i < n, 0 < a i) (hn : d n = 0)
    (h : ∀ i, k ≤ i → i + 2 ≤ n → a i * d i + 2 * (a i + a (i + 1)) * d (i + 1) + a (i + 1) * d (i + 2) = 0) :
    ∀ i, k ≤ i → i < n → 2 * |d (i + 1)| ≤ |d i| := by
  intro i
  induction hj : n - i generalizing i with
  | zero => omega
  | succ j ih =>
    intro hk hi
    rcases Nat.lt_or_ge (i + 1) n with hlt | hge
    · exact row_decay (ha i hi) (ha (i + 1) hlt) (h i hk (by omega)) (ih (i + 1) (by omega) (by omega) hlt)
    · rw [show i + 1 = n by omega, hn]; simp

/-- Differences of slopes halve towards the beginning. -/
theorem decay_left {a d : ℕ → K} {k : ℕ} (ha : ∀ i < k, 0 < a i) (h0 : d 0 = 0)
    (h : ∀ i, i + 2 ≤ k → a i * d i + 2 * (a i + a (i + 1)) * d (i + 1) + a (i + 1) * d (i + 2) = 0) :
    ∀ i, i < k → 2 * |d i| ≤ |d (i + 1)| := by
  intro i
  induction i with
  | zero => intro _; rw [h0]; simp
  | succ i ih =>
    intro hi
    refine row_decay (a := a (i + 1)) (b := a i) (z := d i) (ha _ hi) (ha _ (by omega)) ?_ (ih (by omega))
    linear_combination h i (by omega)

theorem halves {d : ℕ → K} {k : ℕ} : ∀ j, (∀ i, k ≤ i → i < k + j → 2 * |d (i + 1)| ≤ |d i|) →
    2 ^ j * |d (k + j)| ≤ |d k| := by
  intro j
  induction j with
  | zero => intro _; simp
  | succ j ih =>
    intro h
    have a := ih fun i h1 h2 => h i h1 (by omega)
    have b := h (k + j) (by omega) (by omega)
    calc (2 : K) ^ (j + 1) * |d (k + (j + 1))| = 2 ^ j * (2 * |d (k + j + 1)|) := by rw [pow_succ, ← add_assoc]; ring
      _ ≤ 2 ^ j * |d (k + j)| := mul_le_mul_of_nonneg_left b (by positivity)
      _ ≤ _ := a

theorem halves_left {d : ℕ → K} {k : ℕ} : ∀ j, j ≤ k → (∀ i, i < k → 2 * |d i| ≤ |d (i + 1)|) →
    2 ^ j * |d (k - j)| ≤ |d k| := by
  intro j
  induction j with
  | zero => intro _ _; simp
  | succ j ih =>
    intro hj h
    have a := ih (by omega) h
    have b := h (k - (j + 1)) (by omega)
    rw [show k - (j + 1) + 1 = k - j by omega] at b
    calc (2 : K) ^ (j + 1) * |d (k - (j + 1))| = 2 ^ j * (2 * |d (k - (j + 1))|) := by rw [pow_succ]; ring
      _ ≤ 2 ^ j * |d (k - j)| := mul_le_mul_of_nonneg_left b (by positivity)
      _ ≤ _ := a

/-- The velocity on a segment whose slopes are at most three times `D`. -/
theorem speed_le {D u v x B : K} (x0 : 0 ≤ x) (x1 : x ≤ 1) (hD : |D| ≤ B) (hu : |u| ≤ 3 * B) (hv : |v| ≤ 3 * B) :
    |speed D u v x| ≤ 3 * B := by
  have hB : 0 ≤ B := (abs_nonneg D).trans hD
  have w0 : 0 ≤ 6 * (x - x ^ 2) := by nlinarith
  have s0 : |6 * (x - x ^ 2) * D| ≤ 6 * (x - x ^ 2) * B := by
    rw [abs_mul, abs_of_nonneg w0]; exact mul_le_mul_of_nonneg_left hD w0
  have s1 : |(3 * x ^ 2 - 4 * x + 1) * u| ≤ |3 * x ^ 2 - 4 * x + 1| * (3 * B) := by
    rw [abs_mul]; exact mul_le_mul_of_nonneg_left hu (abs_nonneg _)
  have s2 : |(3 * x ^ 2 - 2 * x) * v| ≤ |3 * x ^ 2 - 2 * x| * (3 * B) := by
    rw [abs_mul]; exact mul_le_mul_of_nonneg_left hv (abs_nonneg _)
  have tri : |speed D u v x| ≤ 6 * (x - x ^ 2) * B + (|3 * x ^ 2 - 4 * x + 1| + |3 * x ^ 2 - 2 * x|) * (3 * B) := by
    simp only [speed]
    calc _ ≤ |6 * (x - x ^ 2) * D + (3 * x ^ 2 - 4 * x + 1) * u| + |(3 * x ^ 2 - 2 * x) * v| := abs_add_le _ _
      _ ≤ |6 * (x - x ^ 2) * D| + |(3 * x ^ 2 - 4 * x + 1) * u| + |(3 * x ^ 2 - 2 * x) * v| := by
        linarith [abs_add_le (6 * (x - x ^ 2) * D) ((3 * x ^ 2 - 4 * x + 1) * u)]
      _ ≤ _ := by linarith
  suffices hw : 6 * (x - x ^ 2) + (|3 * x ^ 2 - 4 * x + 1| + |3 * x ^ 2 - 2 * x|) * 3 ≤ 3 by
    nlinarith [mul_le_mul_of_nonneg_right hw hB]
  rcases abs_cases (3 * x ^ 2 - 4 * x + 1) with ⟨a, -⟩ | ⟨a, -⟩ <;> rcases abs_cases (3 * x ^ 2 - 2 * x) with ⟨b, -⟩ | ⟨b, -⟩ <;>
    rw [a, b] <;> nlinarith [sq_nonneg (2 * x - 1), sq_nonneg x, sq_nonneg (1 - x)]

/-- How far a segment goes whose slopes are at most three times `B`. -/
theorem way_lip {D u v x y B : K} (x0 : 0 ≤ x) (xy : x ≤ y) (y1 : y ≤ 1) (hD : |D| ≤ B) (hu : |u| ≤ 3 * B) (hv : |v| ≤ 3 * B) :
    |way D u v y - way D u v x| ≤ 3 * B * (y - x) := by
  have q1 := abs_le.1 (speed_le x0 (xy.trans y1) hD hu hv)
  have q2 := abs_le.1 (speed_le (x := (x + y) / 2) (by linarith) (by linarith) hD hu hv)
  have q3 := abs_le.1 (speed_le (x0.trans xy) y1 hD hu hv)
  rw [way_sub, abs_mul, abs_of_nonneg (show 0 ≤ (y - x) / 6 by linarith)]
  have : |speed D u v x + 4 * speed D u v ((x + y) / 2) + speed D u v y| ≤ 6 * (3 * B) := by
    rw [abs_le]
    constructor <;> linarith [q1.1, q1.2, q2.1, q2.2, q3.1, q3.2]
  calc _ ≤ (y - x) / 6 * (6 * (3 * B)) := mul_le_mul_of_nonneg_left this (by linarith)
    _ = _ := by ring

/-- The difference of two Hermite segments over the same points. -/
theorem way_diff {D u v u' v' x B : K} (x0 : 0 ≤ x) (x1 : x ≤ 1) (hu : |u - u'| ≤ B) (hv : |v - v'| ≤ B) :
    |way D u v x - way D u' v' x| ≤ B / 4 := by
  have hB : 0 ≤ B := (abs_nonneg _).trans hu
  have key : way D u v x - way D u' v' x = x * (1 - x) * ((1 - x) * (u - u') - x * (v - v')) := by simp only [way]; ring
  have y1 : 0 ≤ 1 - x := by linarith
  have c1 : |(1 - x) * (u - u') - x * (v - v')| ≤ B := by
    rw [abs_le] at hu hv ⊢
    have l1 := mul_le_mul_of_nonneg_left hu.2 y1
    have l2 := mul_le_mul_of_nonneg_left hu.1 y1
    have l3 := mul_le_mul_of_nonneg_left hv.2 x0
    have l4 := mul_le_mul_of_nonneg_left hv.1 x0
    constructor <;> linarith
  have c2 : x * (1 - x) ≤ 1 / 4 := by nlinarith [sq_nonneg (2 * x - 1)]
  rw [key, abs_mul, abs_of_nonneg (mul_nonneg x0 y1)]
  calc _ ≤ 1 / 4 * B := mul_le_mul c2 c1 (abs_nonneg _) (by norm_num)
    _ = _ := by ring

/-- What holds within the segments, and can be put together, holds for all times of the curve. -/
theorem chain {ts : List K} {Q : K → K → Prop} (hr : ∀ x, Q x x)
    (ht : ∀ x y z, x ≤ y → y ≤ z → Q x y → Q y z → Q x z)
    (hs : ∀ i (hi : i + 1 < ts.length) x y, ts[i] ≤ x → x ≤ y → y ≤ ts[i + 1] → Q x y) :
    ∀ i (hi : i < ts.length) x y, ts[0] ≤ x → x ≤ y → y ≤ ts[i] → Q x y := by
  intro i
  induction i with
  | zero =>
    intro hi x y h0 hxy h1
    obtain rfl : x = y := le_antisymm hxy (h1.trans h0)
    exact hr x
  | succ i ih =>
    intro hi x y h0 hxy h1
    rcases le_total y ts[i] with hy | hy
    · exact ih (by omega) x y h0 hxy hy
    rcases le_total x ts[i] with hx | hx
    · exact ht x ts[i] y hx hy (ih (by omega) x _ h0 hx le_rfl) (hs i hi _ y le_rfl hy h1)
    · exact hs i hi x y hx hxy h1

theorem evaluate_some (c : ScalarCurve .o3 K) (t : K) : ∃ x, c.evaluate t = .ok x :=
  Container.atTime_isOk _ c.container _

/-- **C168**, the whole curve: if no two neighbouring points differ by more than `R` times the time between them and the
velocities given for the ends are at most `3 R`, then the cubic curve is nowhere faster than `3 R`, and on each segment it
stays within `R` times the duration of the segment from the straight line. -/
theorem C168_rate (S : Solver K) (ts vs : List K) (h2 : 2 ≤ ts.length) (hb : ts.length ≤ 2 ^ 28)
    (hl : vs.length = ts.length) (hinc : ts.Pairwise (· < ·)) (v0 a0 vT aT : K) (c : ScalarCurve .o3 K) {R : K}
    (hR : ∀ i (hi : i + 1 < ts.length), |vs[i + 1] - vs[i]| ≤ R * (ts[i + 1] - ts[i])) (h0 : |v0| ≤ 3 * R)
    (hT : |vT| ≤ 3 * R) :
    ∃ c', c.fitCurveWith S ts vs v0 a0 vT aT = .ok c' ∧
      (∀ i (hi : i < ts.length) v, c'.evaluateDerivative ts[i] 1 = .ok (some v) → |v| ≤ 3 * R) ∧
      (∀ s t a b, ts[0] ≤ s → s ≤ t → t ≤ ts[ts.length - 1] → c'.evaluate s = .ok a → c'.evaluate t = .ok b →
        |b - a| ≤ 3 * R * (t - s)) ∧
      ∀ i (hi : i + 1 < ts.length) t a, ts[i] ≤ t → t ≤ ts[i + 1] → c'.evaluate t = .ok a →
        |a - (vs[i] + (t - ts[i]) / (ts[i + 1] - ts[i]) * (vs[i + 1] - vs[i]))| ≤ R * (ts[i + 1] - ts[i]) := by
  obtain ⟨c', m, e, hm, m0, mT, hE, -, hev⟩ := C167_hermite S ts vs h2 hb hl hinc v0 a0 vT aT c
  have hB := hE.bound h2 hl hinc hR (by rw [m0]; exact h0) (by rw [mT]; exact hT)
  have hpos : ∀ i (hi : i + 1 < ts.length), 0 < ts[i + 1] - ts[i] := fun i hi =>
    sub_pos.2 (List.pairwise_iff_getElem.1 hinc i (i + 1) (by omega) hi (by omega))
  have hsl : ∀ i (hi : i + 1 < ts.length), |(ts[i + 1] - ts[i]) * m i| ≤ 3 * (R * (ts[i + 1] - ts[i])) ∧
      |(ts[i + 1] - ts[i]) * m (i + 1)| ≤ 3 * (R * (ts[i + 1] - ts[i])) := by
    intro i hi
    rw [abs_mul, abs_mul, abs_of_pos (hpos i hi)]
    have a := mul_le_mul_of_nonneg_left (hB i (by omega)) (hpos i hi).le
    have b := mul_le_mul_of_nonneg_left (hB (i + 1) hi) (hpos i hi).le
    exact ⟨by linarith, by linarith⟩
  refine ⟨c', e, ?_, ?_, ?_⟩
  · intro i hi v hv
    rw [hm i hi] at hv
    cases hv
    exact hB i hi
  · intro s t a b hs hst ht ea eb
    refine chain (Q := fun s t => ∀ a b, c'.evaluate s = .ok a → c'.evaluate t = .ok b → |b - a| ≤ 3 * R * (t - s))
      ?_ ?_ ?_ (ts.length - 1) (by omega) s t hs hst ht a b ea eb
    · intro x a b ea eb
      rw [ea] at eb
      cases eb
      simp
    · intro x y z _ _ h1 h2 a b ea eb
      obtain ⟨w, ew⟩ := evaluate_some c' y
      have i1 := h1 a w ea ew
      have i2 := h2 w b ew eb
      calc |b - a| = |(b - w) + (w - a)| := by ring_nf
        _ ≤ |b - w| + |w - a| := abs_add_le _ _
        _ ≤ _ := by linarith
    · intro i hi x y hx hxy hy a b ea eb
      rw [hermite_at hl hev i hi hx (hxy.trans hy)] at ea
      rw [hermite_at hl hev i hi (hx.trans hxy) hy] at eb
      cases ea
      cases eb
      have hd := hpos i hi
      obtain ⟨b1, b2⟩ := hsl i hi
      have b0 := hR i hi
      have X0 : 0 ≤ (x - ts[i]) / (ts[i + 1] - ts[i]) := div_nonneg (sub_nonneg.2 hx) hd.le
      have Y1 : (y - ts[i]) / (ts[i + 1] - ts[i]) ≤ 1 := (div_le_one hd).2 (by linarith)
      have XY : (x - ts[i]) / (ts[i + 1] - ts[i]) ≤ (y - ts[i]) / (ts[i + 1] - ts[i]) :=
        div_le_div_of_nonneg_right (by linarith) hd.le
      have hyx : y - x = ((y - ts[i]) / (ts[i + 1] - ts[i]) - (x - ts[i]) / (ts[i + 1] - ts[i])) * (ts[i + 1] - ts[i]) := by
        field_simp; ring
      rw [hyx, add_sub_add_left_eq_sub]
      refine (way_lip X0 XY Y1 b0 b1 b2).trans_eq ?_
      ring
  · intro i hi t a h1 h2 ea
    rw [hermite_at hl hev i hi h1 h2] at ea
    cases ea
    have hd := hpos i hi
    obtain ⟨b1, b2⟩ := hsl i hi
    have b0 := hR i hi
    have X0 : 0 ≤ (t - ts[i]) / (ts[i + 1] - ts[i]) := div_nonneg (sub_nonneg.2 h1) hd.le
    have X1 : (t - ts[i]) / (ts[i + 1] - ts[i]) ≤ 1 := (div_le_one hd).2 (by linarith)
    -- the straight line has the slopes of its ends
    have hc : ∀ D x : K, way D D D x = x * D := fun D x => by simp only [way]; ring
    rw [add_sub_add_left_eq_sub, ← hc (vs[i + 1] - vs[i])]
    refine (way_diff (B := 4 * (R * (ts[i + 1] - ts[i]))) X0 X1 ?_ ?_).trans ?_
    · exact (abs_sub _ _).trans (by linarith)
    · exact (abs_sub _ _).trans (by linarith)
    · linarith


/-- The equations for the difference of two fits, where the points agree. -/
theorem SlopeEq.row {ts vs vs' : List K} (hl : vs.length = ts.length) (hl' : vs'.length = ts.length) {m m' : ℕ → K}
    (h : SlopeEq ts vs m) (h' : SlopeEq ts vs' m') {i : ℕ} (hi : i + 2 < ts.length)
    (he : ∀ j, i ≤ j → j ≤ i + 2 → vs[j]? = vs'[j]?) :
    (1 / dur ts i) * (m i - m' i) + 2 * (1 / dur ts i + 1 / dur ts (i + 1)) * (m (i + 1) - m' (i + 1)) +
      (1 / dur ts (i + 1)) * (m (i + 2) - m' (i + 2)) = 0 := by
  have e := h i hi (by omega)
  have e' := h' i hi (by omega)
  have g : ∀ j (hj : j < ts.length), i ≤ j → j ≤ i + 2 → vs[j] = vs'[j] := by
    intro j hj a b
    have := he j a b
    rw [List.getElem?_eq_getElem (by omega), List.getElem?_eq_getElem (by omega)] at this
    exact Option.some.inj this
  rw [g i (by omega) (by omega) (by omega), g (i + 1) (by omega) (by omega) (by omega), g (i + 2) hi (by omega) (by omega)] at e
  rw [dur, dur, if_pos (by omega), if_pos (by omega), knot_eq (by omega), knot_eq (by omega), knot_eq (by omega)]
  show 1 / (ts[i + 1] - ts[i]) * (m i - m' i) + 2 * (1 / (ts[i + 1] - ts[i]) + 1 / (ts[i + 2] - ts[i + 1])) *
    (m (i + 1) - m' (i + 1)) + 1 / (ts[i + 2] - ts[i + 1]) * (m (i + 2) - m' (i + 2)) = 0
  rw [← e'] at e
  linear_combination e

/-- The slopes of two fits differ by at most six times the largest difference of the points, by the shortest duration. -/
theorem SlopeEq.diff {ts vs vs' : List K} (h2 : 2 ≤ ts.length) (hl : vs.length = ts.length) (hl' : vs'.length = ts.length)
    (hinc : ts.Pairwise (· < ·)) {m m' : ℕ → K} (h : SlopeEq ts vs m) (h' : SlopeEq ts vs' m') {δ τ : K} (hτ : 0 < τ)
    (hstep : ∀ i (hi : i + 1 < ts.length), τ ≤ ts[i + 1] - ts[i])
    (hδ : ∀ i (hi : i < ts.length), |vs[i] - vs'[i]| ≤ δ) (h0 : |m 0 - m' 0| ≤ 6 * δ / τ)
    (hT : |m (ts.length - 1) - m' (ts.length - 1)| ≤ 6 * δ / τ) : ∀ i < ts.length, |m i - m' i| ≤ 6 * δ / τ := by
  have hd0 : 0 ≤ δ := (abs_nonneg _).trans (hδ 0 (by omega))
  have hlz : (List.zipWith (· - ·) vs vs').length = ts.length := by simp [hl, hl']
  have e6 : 3 * (2 * δ / τ) = 6 * δ / τ := by ring
  have hS : SlopeEq ts (List.zipWith (· - ·) vs vs') fun i => m i - m' i := by
    intro i hi hv
    have e := h i hi (by omega)
    have e' := h' i hi (by omega)
    simp only [List.getElem_zipWith]
    linear_combination e - e'
  have := hS.bound h2 hlz hinc (R := 2 * δ / τ) ?_ (by rw [e6]; exact h0) (by rw [e6]; exact hT)
  · intro i hi
    rw [← e6]
    exact this i hi
  · intro i hi
    simp only [List.getElem_zipWith]
    have a := abs_le.1 (hδ i (by omega))
    have b := abs_le.1 (hδ (i + 1) hi)
    have : 2 * δ ≤ 2 * δ / τ * (ts[i + 1] - ts[i]) := by
      rw [div_mul_eq_mul_div, le_div_iff₀ hτ]
      exact mul_le_mul_of_nonneg_left (hstep i hi) (by linarith)
    refine le_trans ?_ this
    rw [abs_le]
    constructor <;> linarith [a.1, a.2, b.1, b.2]

/-- **C168**, how far a change reaches: two fits over the same times whose points agree from the knot `k` on. However much
the earlier points and the first velocity differ: the velocities at the knots from `k` on differ by half as much at each next
knot; so do the values. -/
theorem C168_halves (S : Solver K) (ts vs vs' : List K) (h2 : 2 ≤ ts.length) (hb : ts.length ≤ 2 ^ 28)
    (hl : vs.length = ts.length) (hl' : vs'.length = ts.length) (hinc : ts.Pairwise (· < ·)) (v0 v0' a0 vT aT : K)
    (c : ScalarCurve .o3 K) {k : ℕ} (he : ∀ j, k ≤ j → vs[j]? = vs'[j]?) :
    ∃ (c1 c2 : ScalarCurve .o3 K) (m m' : ℕ → K), c.fitCurveWith S ts vs v0 a0 vT aT = .ok c1 ∧
      c.fitCurveWith S ts vs' v0' a0 vT aT = .ok c2 ∧
      (∀ i (hi : i < ts.length), c1.evaluateDerivative ts[i] 1 = .ok (some (m i)) ∧
        c2.evaluateDerivative ts[i] 1 = .ok (some (m' i))) ∧
      (∀ j, k + j < ts.length → 2 ^ j * |m (k + j) - m' (k + j)| ≤ |m k - m' k|) ∧
      (∀ j (hj : k + j + 1 < ts.length) t a b, ts[k + j] ≤ t → t ≤ ts[k + j + 1] → c1.evaluate t = .ok a → c2.evaluate t = .ok b →
        2 ^ j * |a - b| ≤ (ts[k + j + 1] - ts[k + j]) / 4 * |m k - m' k|) ∧
      -- but it is never nothing
      (m k ≠ m' k → ∀ j, k + j + 1 < ts.length → m (k + j) ≠ m' (k + j)) := by
  obtain ⟨c1, m, e1, hm1, -, mT1, hE1, -, hv1⟩ := C167_hermite S ts vs h2 hb hl hinc v0 a0 vT aT c
  obtain ⟨c2, m', e2, hm2, -, mT2, hE2, -, hv2⟩ := C167_hermite S ts vs' h2 hb hl' hinc v0' a0 vT aT c
  have hrow : ∀ i, k ≤ i → i + 2 ≤ ts.length - 1 → 1 / dur ts i * (m i - m' i) +
      2 * (1 / dur ts i + 1 / dur ts (i + 1)) * (m (i + 1) - m' (i + 1)) + 1 / dur ts (i + 1) * (m (i + 2) - m' (i + 2)) = 0 :=
    fun i h1 h2 => hE1.row hl hl' hE2 (by omega) fun j a _ => he j (by omega)
  have hdec := decay_right (a := fun i => 1 / dur ts i) (d := fun i => m i - m' i) (k := k) (n := ts.length - 1)
    (fun i _ => one_div_pos.2 (dur_pos hinc i)) (by simp only [mT1, mT2, sub_self]) hrow
  have hhalf : ∀ j, k + j < ts.length → 2 ^ j * |m (k + j) - m' (k + j)| ≤ |m k - m' k| := fun j hj =>
    halves (d := fun i => m i - m' i) j fun i a b => hdec i a (by omega)
  refine ⟨c1, c2, m, m', e1, e2, fun i hi => ⟨hm1 i hi, hm2 i hi⟩, hhalf, ?_, ?_⟩
  · intro j hj t a b h0 h1 ea eb
    rw [hermite_at hl hv1 (k + j) hj h0 h1] at ea
    rw [hermite_at hl' hv2 (k + j) hj h0 h1] at eb
    cases ea
    cases eb
    have g : ∀ i (hi : i < ts.length), k ≤ i → vs[i] = vs'[i] := by
      intro i hi a
      have := he i a
      rw [List.getElem?_eq_getElem (by omega), List.getElem?_eq_getElem (by omega)] at this
      exact Option.some.inj this
    have hd : 0 < ts[k + j + 1] - ts[k + j] :=
      sub_pos.2 (List.pairwise_iff_getElem.1 hinc (k + j) (k + j + 1) (by omega) hj (by omega))
    rw [g (k + j) (by omega) (by omega), g (k + j + 1) hj (by omega), add_sub_add_left_eq_sub]
    have d1 := hdec (k + j) (by omega) (by omega)
    have d2 := hhalf j (by omega)
    have w := way_diff (D := vs'[k + j + 1] - vs'[k + j]) (u := (ts[k + j + 1] - ts[k + j]) * m (k + j))
      (u' := (ts[k + j + 1] - ts[k + j]) * m' (k + j)) (v := (ts[k + j + 1] - ts[k + j]) * m (k + j + 1))
      (v' := (ts[k + j + 1] - ts[k + j]) * m' (k + j + 1)) (x := (t - ts[k + j]) / (ts[k + j + 1] - ts[k + j]))
      (B := (ts[k + j + 1] - ts[k + j]) * |m (k + j) - m' (k + j)|) (div_nonneg (sub_nonneg.2 h0) hd.le)
      ((div_le_one hd).2 (by linarith)) (by rw [← mul_sub, abs_mul, abs_of_pos hd])
      (by rw [← mul_sub, abs_mul, abs_of_pos hd]
          exact mul_le_mul_of_nonneg_left (by linarith [abs_nonneg (m (k + j + 1) - m' (k + j + 1))]) hd.le)
    calc _ ≤ 2 ^ j * ((ts[k + j + 1] - ts[k + j]) * |m (k + j) - m' (k + j)| / 4) :=
          mul_le_mul_of_nonneg_left w (by positivity)
      _ = (ts[k + j + 1] - ts[k + j]) / 4 * (2 ^ j * |m (k + j) - m' (k + j)|) := by ring
      _ ≤ _ := mul_le_mul_of_nonneg_left d2 (by linarith)
  · intro hne j
    induction j with
    | zero => intro _; exact hne
    | succ j ih =>
      intro hj heq
      have d := hdec (k + j + 1) (by omega) (by omega)
      have z1 : m (k + j + 1) - m' (k + j + 1) = 0 := sub_eq_zero.2 heq
      have z2 : m (k + j + 2) - m' (k + j + 2) = 0 := by
        rw [z1, abs_zero] at d
        exact abs_eq_zero.1 (le_antisymm (by linarith) (abs_nonneg _))
      have r := hrow (k + j) (by omega) (by omega)
      rw [z1, z2, mul_zero, mul_zero, add_zero, add_zero] at r
      rcases mul_eq_zero.1 r with r | r
      · exact (one_div_pos.2 (dur_pos hinc (k + j))).ne' r
      · exact ih (by omega) (sub_eq_zero.1 r)

/-- **C168**, in numbers: two fits over the same times, at least `τ` apart, with the same end velocities, to points that differ
by at most `δ`. Where the points agree from the knot `k` on, the curves on the segment `j` knots further differ by at most
`3 / 2 δ / 2 ^ j` times the duration of the segment by `τ`; and likewise before `k` where they agree up to the knot `k`. -/
theorem C168_reach (S : Solver K) (ts vs vs' : List K) (h2 : 2 ≤ ts.length) (hb : ts.length ≤ 2 ^ 28)
    (hl : vs.length = ts.length) (hl' : vs'.length = ts.length) (hinc : ts.Pairwise (· < ·)) (v0 a0 vT aT : K)
    (c : ScalarCurve .o3 K) {δ τ : K} (hτ : 0 < τ) (hstep : ∀ i (hi : i + 1 < ts.length), τ ≤ ts[i + 1] - ts[i])
    (hδ : ∀ i (hi : i < ts.length), |vs[i] - vs'[i]| ≤ δ) :
    ∃ c1 c2, c.fitCurveWith S ts vs v0 a0 vT aT = .ok c1 ∧ c.fitCurveWith S ts vs' v0 a0 vT aT = .ok c2 ∧
      ∀ k i j (hi : i + 1 < ts.length), (i = k + j ∧ (∀ l, k ≤ l → vs[l]? = vs'[l]?)) ∨
          (k = i + 1 + j ∧ k < ts.length ∧ (∀ l, l ≤ k → vs[l]? = vs'[l]?)) →
        ∀ t a b, ts[i] ≤ t → t ≤ ts[i + 1] → c1.evaluate t = .ok a → c2.evaluate t = .ok b →
          |a - b| ≤ 3 / 2 * δ / 2 ^ j * ((ts[i + 1] - ts[i]) / τ) := by
  obtain ⟨c1, m, e1, -, mz1, mT1, hE1, -, hv1⟩ := C167_hermite S ts vs h2 hb hl hinc v0 a0 vT aT c
  obtain ⟨c2, m', e2, -, mz2, mT2, hE2, -, hv2⟩ := C167_hermite S ts vs' h2 hb hl' hinc v0 a0 vT aT c
  have hd0 : 0 ≤ δ := (abs_nonneg _).trans (hδ 0 (by omega))
  have hq : 0 ≤ 6 * δ / τ := div_nonneg (by linarith) hτ.le
  have hall := hE1.diff h2 hl hl' hinc hE2 hτ hstep hδ (by rw [mz1, mz2, sub_self, abs_zero]; exact hq)
    (by rw [mT1, mT2, sub_self, abs_zero]; exact hq)
  refine ⟨c1, c2, e1, e2, fun k i j hi hcase t a b h0 h1 ea eb => ?_⟩
  have hp : (0 : K) < 2 ^ j := by positivity
  -- the points of the segment agree, and the slopes differ by what is left
  obtain ⟨g0, g1, s0, s1⟩ : vs[i]? = vs'[i]? ∧ vs[i + 1]? = vs'[i + 1]? ∧ |m i - m' i| ≤ 6 * δ / τ / 2 ^ j ∧
      |m (i + 1) - m' (i + 1)| ≤ 6 * δ / τ / 2 ^ j := by
    rcases hcase with ⟨rfl, he⟩ | ⟨rfl, hk, he⟩
    · have hdec := decay_right (a := fun i => 1 / dur ts i) (d := fun i => m i - m' i) (k := k) (n := ts.length - 1)
        (fun i _ => one_div_pos.2 (dur_pos hinc i)) (by simp only [mT1, mT2, sub_self])
        fun i h1 h2 => hE1.row hl hl' hE2 (by omega) fun l a _ => he l (by omega)
      have hh := halves (d := fun i => m i - m' i) (k := k) j fun i a b => hdec i a (by omega)
      have h3 := hdec (k + j) (by omega) (by omega)
      have hb1 : |m (k + j) - m' (k + j)| ≤ 6 * δ / τ / 2 ^ j := by
        rw [le_div_iff₀ hp, mul_comm]
        exact hh.trans (hall k (by omega))
      refine ⟨he _ (by omega), he _ (by omega), hb1, ?_⟩
      linarith [abs_nonneg (m (k + j + 1) - m' (k + j + 1))]
    · have hdec := decay_left (a := fun i => 1 / dur ts i) (d := fun i => m i - m' i) (k := i + 1 + j)
        (fun i _ => one_div_pos.2 (dur_pos hinc i)) (by simp only [mz1, mz2, sub_self])
        fun l h1 => hE1.row hl hl' hE2 (by omega) fun l' _ b => he l' (by omega)
      have hh := halves_left (d := fun i => m i - m' i) (k := i + 1 + j) j (by omega) hdec
      rw [show i + 1 + j - j = i + 1 by omega] at hh
      have h3 := hdec i (by omega)
      have hb1 : |m (i + 1) - m' (i + 1)| ≤ 6 * δ / τ / 2 ^ j := by
        rw [le_div_iff₀ hp, mul_comm]
        exact hh.trans (hall (i + 1 + j) hk)
      refine ⟨he _ (by omega), he _ (by omega), ?_, hb1⟩
      linarith [abs_nonneg (m i - m' i)]
  rw [hermite_at hl hv1 i hi h0 h1] at ea
  rw [hermite_at hl' hv2 i hi h0 h1] at eb
  cases ea
  cases eb
  rw [List.getElem?_eq_getElem (by omega), List.getElem?_eq_getElem (by omega), Option.some_inj] at g0 g1
  have hd : 0 < ts[i + 1] - ts[i] := sub_pos.2 (List.pairwise_iff_getElem.1 hinc i (i + 1) (by omega) hi (by omega))
  rw [g0, g1, add_sub_add_left_eq_sub]
  have w := way_diff (D := vs'[i + 1] - vs'[i]) (u := (ts[i + 1] - ts[i]) * m i) (u' := (ts[i + 1] - ts[i]) * m' i)
    (v := (ts[i + 1] - ts[i]) * m (i + 1)) (v' := (ts[i + 1] - ts[i]) * m' (i + 1)) (x := (t - ts[i]) / (ts[i + 1] - ts[i]))
    (B := (ts[i + 1] - ts[i]) * (6 * δ / τ / 2 ^ j)) (div_nonneg (sub_nonneg.2 h0) hd.le)
    ((div_le_one hd).2 (by linarith)) (by rw [← mul_sub, abs_mul, abs_of_pos hd]; exact mul_le_mul_of_nonneg_left s0 hd.le)
    (by rw [← mul_sub, abs_mul, abs_of_pos hd]; exact mul_le_mul_of_nonneg_left s1 hd.le)
  refine w.trans_eq ?_
  field_simp
  ring

/-- Five points a second apart, the first moved by 1: on the last second the curve moves by at most 3/8. -/
example (S : Solver ℚ) : ∃ c1 c2 : ScalarCurve .o3 ℚ,
    ScalarCurve.fresh.fitCurveWith S [0, 1, 2, 3, 4] [7, 2, 5, 2, 9] 1 0 0 0 = .ok c1 ∧
    ScalarCurve.fresh.fitCurveWith S [0, 1, 2, 3, 4] [8, 2, 5, 2, 9] 1 0 0 0 = .ok c2 ∧
    ∀ t a b, 3 ≤ t → t ≤ 4 → c1.evaluate t = .ok a → c2.evaluate t = .ok b → |a - b| ≤ 3 / 8 := by
  obtain ⟨c1, c2, e1, e2, h⟩ := C168_reach S [(0 : ℚ), 1, 2, 3, 4] [7, 2, 5, 2, 9] [8, 2, 5, 2, 9] (by simp) (by norm_num) rfl rfl
    (by norm_num) 1 0 0 0 ScalarCurve.fresh (δ := 1) (τ := 1) one_pos
    (by intro i hi
        simp only [List.length_cons, List.length_nil, zero_add, Nat.reduceAdd] at hi
        obtain rfl | rfl | rfl | rfl : i = 0 ∨ i = 1 ∨ i = 2 ∨ i = 3 := by omega
        all_goals norm_num)
    (by intro i hi
        simp only [List.length_cons, List.length_nil, zero_add, Nat.reduceAdd] at hi
        obtain rfl | rfl | rfl | rfl | rfl : i = 0 ∨ i = 1 ∨ i = 2 ∨ i = 3 ∨ i = 4 := by omega
        all_goals norm_num)
  refine ⟨c1, c2, e1, e2, fun t a b h0 h1 ea eb => ?_⟩
  have := h 1 3 2 (by simp) (Or.inl ⟨rfl, fun l hl => by
    obtain ⟨l, rfl⟩ : ∃ i, l = i + 1 := ⟨l - 1, by omega⟩
    rfl⟩) t a b h0 h1 ea eb
  norm_num at this
  exact this

/-- Points at most 2 per second apart: nowhere faster than 6. -/
example (S : Solver ℚ) : ∃ c' : ScalarCurve .o3 ℚ, ScalarCurve.fresh.fitCurveWith S [0, 1, 3] [0, 2, -2] 6 0 (-1) 0 = .ok c' ∧
    ∀ s t a b, 0 ≤ s → s ≤ t → t ≤ 3 → c'.evaluate s = .ok a → c'.evaluate t = .ok b → |b - a| ≤ 6 * (t - s) := by
  obtain ⟨c', e, -, h, -⟩ := C168_rate S [(0 : ℚ), 1, 3] [0, 2, -2] (by simp) (by norm_num) rfl (by norm_num) 6 0 (-1) 0
    ScalarCurve.fresh (R := 2)
    (by intro i hi
        simp only [List.length_cons, List.length_nil, zero_add, Nat.reduceAdd] at hi
        obtain rfl | rfl : i = 0 ∨ i = 1 := by omega
        all_goals norm_num [abs_le]) (by norm_num [abs_le]) (by norm_num [abs_le])
  refine ⟨c', e, fun s t a b h0 h1 h2 ea eb => ?_⟩
  have := h s t a b h0 h1 h2 ea eb
  norm_num at this
  exact this

/-- Another first point changes the velocity at the second knot, and so at the third. -/
example (S : Solver ℚ) : ∃ c1 c2 : ScalarCurve .o3 ℚ, ScalarCurve.fresh.fitCurve S [0, 1, 2, 3] [0, 0, 0, 0] = .ok c1 ∧
    ScalarCurve.fresh.fitCurve S [0, 1, 2, 3] [15, 0, 0, 0] = .ok c2 ∧
    c1.evaluateDerivative 2 1 = .ok (some 0) ∧ c2.evaluateDerivative 2 1 = .ok (some 3) := by
  have key : ∀ (vs : List ℚ) (hl : vs.length = 4) (l : List ℚ), l.getD 0 0 = 0 → l.getD 3 0 = 0 →
      SlopeEq [0, 1, 2, 3] vs (fun i => l.getD i 0) → ∃ c1 : ScalarCurve .o3 ℚ,
        ScalarCurve.fresh.fitCurve S [0, 1, 2, 3] vs = .ok c1 ∧ c1.evaluateDerivative 2 1 = .ok (some (l.getD 2 0)) := by
    intro vs hl l l0 l3 hs
    obtain ⟨c', m, e, hm, -, -, -, hu, -⟩ := C167_hermite S [(0 : ℚ), 1, 2, 3] vs (by simp) (by norm_num) hl (by norm_num) 0 0 0 0
      ScalarCurve.fresh
    have h := hu (fun i => l.getD i 0) l0 l3 hs 2 (by simp)
    have k := hm 2 (by simp)
    rw [← h] at k
    exact ⟨c', e, k⟩
  have hs : ∀ (x : ℚ), SlopeEq [0, 1, 2, 3] [x, 0, 0, 0] fun i => [0, -4 * x / 5, x / 5, 0].getD i 0 := by
    intro x i hi hv
    simp only [List.length_cons, List.length_nil, zero_add, Nat.reduceAdd] at hi
    obtain rfl | rfl : i = 0 ∨ i = 1 := by omega
    · norm_num; ring
    · norm_num; ring
  obtain ⟨c1, e1, h1⟩ := key [0, 0, 0, 0] rfl _ rfl rfl (hs 0)
  obtain ⟨c2, e2, h2⟩ := key [15, 0, 0, 0] rfl _ rfl rfl (hs 15)
  norm_num at h1 h2
  exact ⟨c1, c2, e1, e2, h1, h2⟩

end Verif.PolyCurve

import Verif.PolyCurve.ConvexProps

/-!
# Property C179: when a Hermite curve bends to one side only

The counterpart of C178 for the `CubicHermiteE3Curve`, and a comparison of the two cubic curves of the project: for equal steps the
cubic scalar curve bends to one side whenever the Hermite curve does.
-/

set_option linter.unusedSectionVars false
set_option linter.dupNamespace false

namespace Verif.PolyCurve

open Verif.Spline Verif.Container Verif.Manager

variable {K V : Type} [Field K] [LinearOrder K] [IsStrictOrderedRing K] [AddCommGroup V] [Module K V]

/-- A linear function on a segment without its end. -/
theorem line_nonneg (p q : K) : (∀ x, 0 ≤ x → x < 1 → 0 ≤ (1 - x) * p + x * q) ↔ 0 ≤ p ∧ 0 ≤ q := by
  refine ⟨fun h => ?_, fun h x x0 x1 => add_nonneg (mul_nonneg (sub_nonneg.2 x1.le) h.1) (mul_nonneg x0 h.2)⟩
  have hp : 0 ≤ p := by simpa using h 0 le_rfl one_pos
  refine ⟨hp, ?_⟩
  by_contra hq
  have hq : q < 0 := not_le.1 hq
  -- a place near the end
  have hs : 0 < 2 * p - 3 * q := by linarith
  have hx : (2 * p - 2 * q) / (2 * p - 3 * q) * (2 * p - 3 * q) = 2 * p - 2 * q := div_mul_cancel₀ _ hs.ne'
  have g := mul_nonneg hs.le (h ((2 * p - 2 * q) / (2 * p - 3 * q)) (by apply div_nonneg <;> linarith)
    ((div_lt_one hs).2 (by linarith)))
  have e : (2 * p - 3 * q) * ((1 - (2 * p - 2 * q) / (2 * p - 3 * q)) * p + (2 * p - 2 * q) / (2 * p - 3 * q) * q) =
      p * q - 2 * q ^ 2 := by linear_combination (q - p) * hx
  rw [e] at g
  nlinarith [mul_nonneg hp (neg_nonneg.2 hq.le), mul_pos (neg_pos.2 hq) (neg_pos.2 hq)]

/-- **C179**: let `m` be the velocities at the knots that a `CubicHermiteE3Curve` chooses: those given at the ends, and the slope of the
chord between the two neighbours elsewhere. In a coordinate `f`, the acceleration that the curve reports is not negative on a segment if
and only if the velocity before the mean slope and the one after differ from it, in the right direction, and one at most twice as much
as the other. -/
theorem C179_hermite (debug : Bool) {ts : List K} {vs : List V} (h2 : 2 ≤ ts.length) (hl : ts.length = vs.length)
    (hinc : ts.Pairwise (· < ·)) (d0 dT : V) (w : World) :
    ∃ (c : Hermite.E3 K V) (ks : List Key) (m : ℕ → V),
      Hermite.E3.fitCurveWithDerivatives debug ts vs d0 dT (Hermite.E3.fresh w) = .ok (c, ks) ∧
      m 0 = d0 ∧ m (ts.length - 1) = dT ∧
      (∀ i (h : i + 2 < ts.length), m (i + 1) = (1 / (ts[i + 2] - ts[i])) • (vs[i + 2] - vs[i])) ∧
      ∀ (f : V →ₗ[K] K) i (hi : i + 1 < ts.length),
        (∀ t, ts[i] ≤ t → t < ts[i + 1] → ∃ r, Hermite.E3.evaluateDerivative t 2 c = .ok (some r) ∧ 0 ≤ f r) ↔
          f (m (i + 1)) - (f vs[i + 1] - f vs[i]) / (ts[i + 1] - ts[i]) ≤
            2 * ((f vs[i + 1] - f vs[i]) / (ts[i + 1] - ts[i]) - f (m i)) ∧
          (f vs[i + 1] - f vs[i]) / (ts[i + 1] - ts[i]) - f (m i) ≤
            2 * (f (m (i + 1)) - (f vs[i + 1] - f vs[i]) / (ts[i + 1] - ts[i])) := by
  obtain ⟨c, ks, m, e, hs, -, m0, mT, hin, hn⟩ := e3_nodes debug h2 hl hinc d0 dT w
  refine ⟨c, ks, m, e, m0, mT, hin, fun f i hi => ?_⟩
  obtain ⟨pre, a, b, post, hm, ta, tb, ca, cb⟩ := hn i hi
  have hd : 0 < ts[i + 1] - ts[i] := sub_pos.2 (List.pairwise_iff_getElem.1 hinc i (i + 1) (by omega) hi (by omega))
  have ev : ∀ t, ts[i] ≤ t → t < ts[i + 1] →
      Hermite.E3.evaluateDerivative t 2 c = .ok (some (Hermite.E3.interpolateAcceleration a b t)) := fun t t0 t1 => by
    rw [Hermite.E3.evaluateDerivative, if_neg (by norm_num), if_pos rfl,
      Hermite.E3.acceleration_between hs hm (by rw [ta]; exact t0) (by rw [tb]; exact t1)]
  obtain ⟨D, hD⟩ : ∃ D, D = (f vs[i + 1] - f vs[i]) / (ts[i + 1] - ts[i]) := ⟨_, rfl⟩
  have hD' : f vs[i + 1] - f vs[i] = (ts[i + 1] - ts[i]) * D := by rw [hD]; field_simp
  rw [← hD]
  -- the acceleration by the share of the segment
  have val : ∀ t, (ts[i + 1] - ts[i]) * f (Hermite.E3.interpolateAcceleration a b t) =
      (1 - (t - ts[i]) / (ts[i + 1] - ts[i])) * (4 * (D - f (m i)) - 2 * (f (m (i + 1)) - D)) +
      (t - ts[i]) / (ts[i + 1] - ts[i]) * (4 * (f (m (i + 1)) - D) - 2 * (D - f (m i))) := by
    intro t
    have x := acceleration_bend f (a := a) (b := b) (by rw [ta, tb]; linarith) t
    rw [ta, tb, ca, cb] at x
    simp only [hD'] at x
    refine mul_left_cancel₀ hd.ne' ?_
    linear_combination x
  have step : (∀ t, ts[i] ≤ t → t < ts[i + 1] → ∃ r, Hermite.E3.evaluateDerivative t 2 c = .ok (some r) ∧ 0 ≤ f r) ↔
      ∀ x, 0 ≤ x → x < 1 → 0 ≤ (1 - x) * (4 * (D - f (m i)) - 2 * (f (m (i + 1)) - D)) +
        x * (4 * (f (m (i + 1)) - D) - 2 * (D - f (m i))) := by
    constructor
    · intro h x x0 x1
      have t1 := mul_lt_mul_of_pos_left x1 hd
      obtain ⟨r, e1, e2⟩ := h (ts[i] + (ts[i + 1] - ts[i]) * x) (by linarith [mul_nonneg hd.le x0]) (by linarith)
      rw [ev _ (by linarith [mul_nonneg hd.le x0]) (by linarith)] at e1
      rw [← Option.some.inj (Outcome.ok.inj e1)] at e2
      have y := val (ts[i] + (ts[i + 1] - ts[i]) * x)
      rw [add_sub_cancel_left, mul_div_cancel_left₀ _ hd.ne'] at y
      rw [← y]
      exact mul_nonneg hd.le e2
    · intro h t t0 t1
      refine ⟨_, ev t t0 t1, ?_⟩
      refine nonneg_of_mul_nonneg_right (a := ts[i + 1] - ts[i]) ?_ hd
      rw [val]
      exact h _ (div_nonneg (sub_nonneg.2 t0) hd.le) ((div_lt_one hd).2 (by linarith))
  rw [step, line_nonneg]
  constructor <;> rintro ⟨x, y⟩ <;> constructor <;> linarith

/-- What never decreases on any segment never decreases. -/
theorem chain_rising {ts : List K} (h2 : 2 ≤ ts.length) (hinc : ts.Pairwise (· < ·)) {W : K → K}
    (grow : ∀ i (hi : i + 1 < ts.length) s t, ts[i] ≤ s → s ≤ t → t ≤ ts[i + 1] → W s ≤ W t) :
    ∀ s t, ts[0] ≤ s → s ≤ t → t ≤ ts[ts.length - 1] → W s ≤ W t := by
  have knots : ∀ j (hj : j < ts.length) i (hij : i ≤ j), W ts[i] ≤ W ts[j] := by
    intro j
    induction j with
    | zero => intro hj i hij; obtain rfl : i = 0 := by omega
              exact le_rfl
    | succ j ih =>
      intro hj i hij
      rcases Nat.lt_or_ge i (j + 1) with g | g
      · exact (ih (by omega) i (by omega)).trans (grow j hj _ _ le_rfl (getElem_mono hinc hj (by omega)) le_rfl)
      · obtain rfl : i = j + 1 := by omega
        exact le_rfl
  intro s t s0 hst t1
  obtain ⟨i, hi, g0, g1⟩ := segment_of h2 s0 (hst.trans t1)
  obtain ⟨j, hj, f0, f1⟩ := segment_of h2 (s0.trans hst) t1
  rcases Nat.lt_trichotomy i j with hij | rfl | hij
  · exact ((grow i hi s _ g0 g1 le_rfl).trans (knots j (by omega) (i + 1) hij)).trans (grow j hj _ t le_rfl f0 f1)
  · exact grow i hi s t g0 hst f1
  · -- both are the knot between
    have x := getElem_mono hinc (i := j + 1) (j := i) (by omega) hij
    have : s = t := le_antisymm hst (f1.trans (x.trans g0))
    rw [this]

/-- Between two times on a segment the velocity grows by the acceleration half way. -/
theorem velocity_gain (f : V →ₗ[K] K) {a b : Node K (Hermite.Knot V)} (h : a.time < b.time) (s t : K) :
    f (Hermite.E3.interpolateVelocity a b t) - f (Hermite.E3.interpolateVelocity a b s) =
      (t - s) * f (Hermite.E3.interpolateAcceleration a b ((s + t) / 2)) := by
  have hd : b.time - a.time ≠ 0 := (sub_pos.2 h).ne'
  simp only [Hermite.E3.interpolateVelocity, Hermite.E3.interpolateAcceleration, map_add, map_smul, smul_eq_mul]
  field_simp
  ring

/-- **C179**, the velocity: if a `CubicHermiteE3Curve` fitted to any data never reports a negative acceleration in a coordinate, the
velocity that it reports there never decreases, although the acceleration jumps at the knots. -/
theorem C179_velocity (debug : Bool) {ts : List K} {vs : List V} (h2 : 2 ≤ ts.length) (hl : ts.length = vs.length)
    (hinc : ts.Pairwise (· < ·)) (d0 dT : V) (w : World) {c : Hermite.E3 K V} {ks : List Key}
    (hc : Hermite.E3.fitCurveWithDerivatives debug ts vs d0 dT (Hermite.E3.fresh w) = .ok (c, ks)) (f : V →ₗ[K] K)
    (hconv : ∀ t r, ts[0] ≤ t → t < ts[ts.length - 1] → Hermite.E3.evaluateDerivative t 2 c = .ok (some r) → 0 ≤ f r) :
    ∀ s t, ts[0] ≤ s → s ≤ t → t ≤ ts[ts.length - 1] → ∃ u v, Hermite.E3.evaluateDerivative s 1 c = .ok (some u) ∧
      Hermite.E3.evaluateDerivative t 1 c = .ok (some v) ∧ f u ≤ f v := by
  obtain ⟨c', ks', m, e, hs, -, -, -, -, hn⟩ := e3_nodes debug h2 hl hinc d0 dT w
  obtain ⟨rfl, -⟩ : c = c' ∧ ks = ks' := by
    rw [hc] at e
    exact Prod.mk.inj (Outcome.ok.inj e)
  have ex : ∀ t, ts[0] ≤ t → t ≤ ts[ts.length - 1] → ∃ r, Hermite.E3.evaluateDerivative t 1 c = .ok (some r) := fun t t0 t1 => by
    obtain ⟨i, hi, g0, g1⟩ := segment_of h2 t0 t1
    obtain ⟨pre, a, b, post, hm, ta, tb, -⟩ := hn i hi
    exact ⟨_, Hermite.E3.velocity_between hs hm (by rw [ta]; exact g0) (by rw [tb]; exact g1)⟩
  let W : K → K := fun t => match Hermite.E3.evaluateDerivative t 1 c with
    | .ok (some r) => f r
    | _ => 0
  have hW : ∀ t r, Hermite.E3.evaluateDerivative t 1 c = .ok (some r) → W t = f r := fun t r h => by simp only [W, h]
  have main := chain_rising h2 hinc (W := W) (fun i hi s t s0 st t1 => by
    obtain ⟨pre, a, b, post, hm, ta, tb, -⟩ := hn i hi
    rw [hW s _ (Hermite.E3.velocity_between hs hm (by rw [ta]; exact s0) (by rw [tb]; exact st.trans t1)),
      hW t _ (Hermite.E3.velocity_between hs hm (by rw [ta]; exact s0.trans st) (by rw [tb]; exact t1))]
    rcases st.lt_or_eq with st | rfl
    · have g := velocity_gain f (a := a) (b := b) (by rw [ta, tb]; linarith) s t
      have q0 : ts[i] ≤ (s + t) / 2 := by linarith
      have q1 : (s + t) / 2 < ts[i + 1] := by linarith
      have x := hconv _ _ ((getElem_mono hinc (by omega) (Nat.zero_le i)).trans q0)
        (q1.trans_le (getElem_mono hinc (by omega) (by omega))) (by
          rw [Hermite.E3.evaluateDerivative, if_neg (by norm_num), if_pos rfl,
            Hermite.E3.acceleration_between hs hm (by rw [ta]; exact q0) (by rw [tb]; exact q1)])
      have := mul_nonneg (sub_nonneg.2 st.le) x
      linarith
    · exact le_rfl)
  intro s t s0 st t1
  obtain ⟨u, hu⟩ := ex s s0 (st.trans t1)
  obtain ⟨v, hv⟩ := ex t (s0.trans st) t1
  refine ⟨u, v, hu, hv, ?_⟩
  have := main s t s0 st t1
  rwa [hW s u hu, hW t v hv] at this

/-- **C179**, both curves: values at equal steps. If the `CubicHermiteE3Curve` fitted to them never reports a negative acceleration,
nor does the `PolynomialSplineScalarCurve` of order 3 fitted to the same values and end velocities, and its velocity never decreases. -/
theorem C179_both (S : Solver K) (debug : Bool) {ts vs : List K} {h : K} (h2 : 2 ≤ ts.length) (hb : ts.length ≤ 2 ^ 28)
    (hl : vs.length = ts.length) (hh : 0 < h) (hinc : ts.Pairwise (· < ·)) (heq : ∀ i (hi : i + 1 < ts.length), ts[i + 1] - ts[i] = h)
    (v0 a0 vT aT : K) (c : ScalarCurve .o3 K) (w : World) {d : Hermite.E3 K K} {ks : List Key}
    (hd : Hermite.E3.fitCurveWithDerivatives debug ts vs v0 vT (Hermite.E3.fresh w) = .ok (d, ks))
    (hconv : ∀ t r, ts[0] ≤ t → t < ts[ts.length - 1] → Hermite.E3.evaluateDerivative t 2 d = .ok (some r) → 0 ≤ r) :
    ∃ c', c.fitCurveWith S ts vs v0 a0 vT aT = .ok c' ∧
      (∀ t, ts[0] ≤ t → t ≤ ts[ts.length - 1] → ∃ a, c'.evaluateDerivative t 2 = .ok (some a) ∧ 0 ≤ a) ∧
      ∀ s t, ts[0] ≤ s → s ≤ t → t ≤ ts[ts.length - 1] → ∃ u v, c'.evaluateDerivative s 1 = .ok (some u) ∧
        c'.evaluateDerivative t 1 = .ok (some v) ∧ u ≤ v := by
  obtain ⟨d', ks', m, e, m0, mT, hin, hiff⟩ := C179_hermite debug (vs := vs) h2 hl.symm hinc v0 vT w
  obtain ⟨rfl, -⟩ : d = d' ∧ ks = ks' := by
    rw [hd] at e
    exact Prod.mk.inj (Outcome.ok.inj e)
  -- on every segment
  have cond : ∀ i (hi : i + 1 < ts.length), m (i + 1) - (vs[i + 1] - vs[i]) / h ≤ 2 * ((vs[i + 1] - vs[i]) / h - m i) ∧
      (vs[i + 1] - vs[i]) / h - m i ≤ 2 * (m (i + 1) - (vs[i + 1] - vs[i]) / h) := by
    intro i hi
    have x := (hiff LinearMap.id i hi).1 (fun t t0 t1 => by
      have hr : ∃ r, Hermite.E3.evaluateDerivative t 2 d = .ok (some r) := by
        obtain ⟨d'', ks'', m', e', hs, -, -, -, -, hn⟩ := e3_nodes debug (vs := vs) h2 hl.symm hinc v0 vT w
        obtain ⟨rfl, -⟩ : d = d'' ∧ ks = ks'' := by
          rw [hd] at e'
          exact Prod.mk.inj (Outcome.ok.inj e')
        obtain ⟨pre, a, b, post, hm, ta, tb, -⟩ := hn i hi
        exact ⟨_, by
          rw [Hermite.E3.evaluateDerivative, if_neg (by norm_num), if_pos rfl,
            Hermite.E3.acceleration_between hs hm (by rw [ta]; exact t0) (by rw [tb]; exact t1)]⟩
      obtain ⟨r, hr⟩ := hr
      exact ⟨r, hr, hconv t r ((getElem_mono hinc (by omega) (Nat.zero_le i)).trans t0)
        (t1.trans_le (getElem_mono hinc (by omega) (by omega))) hr⟩)
    simpa only [LinearMap.id_apply, heq i hi] using x
  have two : ∀ i (hi : i + 2 < ts.length), ts[i + 2] - ts[i] = 2 * h := fun i hi => by
    have a := heq i (by omega)
    have b := heq (i + 1) hi
    linear_combination a + b
  have hin' : ∀ i (hi : i + 2 < ts.length), m (i + 1) = (vs[i + 2] - vs[i]) / (2 * h) := fun i hi => by
    rw [hin i hi, two i hi, smul_eq_mul]; ring
  obtain ⟨σ, hσ⟩ : ∃ σ : ℕ → K, ∀ i (hi : i < vs.length), vs[i] = σ i :=
    ⟨fun i => vs[i]?.getD 0, fun i hi => by simp [hi]⟩
  have h' := hh.ne'
  let γ : ℕ → K := fun i => if i + 1 < ts.length then ((σ (i + 1) - σ i) / h - m i) / h else (m i - (σ i - σ (i - 1)) / h) / h
  have F1 : ∀ i (hi : i + 1 < ts.length), h * γ i = (vs[i + 1] - vs[i]) / h - m i := by
    intro i hi
    simp only [γ, if_pos hi, hσ]
    field_simp
  have F2 : ∀ i (hi : i + 1 < ts.length), h * γ (i + 1) = m (i + 1) - (vs[i + 1] - vs[i]) / h := by
    intro i hi
    rcases Nat.lt_or_ge (i + 2) ts.length with g | g
    · rw [F1 (i + 1) g, hin' i g]
      field_simp
      ring
    · simp only [γ, if_neg (show ¬ i + 1 + 1 < ts.length by omega), hσ, Nat.add_sub_cancel]
      field_simp
  have up : ∀ i, i + 1 < ts.length → γ (i + 1) ≤ 2 * γ i := fun i hi => by
    refine le_of_mul_le_mul_left (?_ : h * _ ≤ h * _) hh
    have := (cond i hi).1
    rw [← F1 i hi, ← F2 i hi] at this
    linarith
  have down : ∀ i, i + 1 < ts.length → γ i ≤ 2 * γ (i + 1) := fun i hi => by
    refine le_of_mul_le_mul_left (?_ : h * _ ≤ h * _) hh
    have := (cond i hi).2
    rw [← F1 i hi, ← F2 i hi] at this
    linarith
  refine C178_convex S h2 hb hl hinc v0 a0 vT aT c (γ := γ) ?_ ?_ ?_ (up 0 (by omega)) ?_ ?_
  · have a := F1 0 (by omega)
    have b := heq 0 (by omega)
    simp only [zero_add] at a b
    rw [b, mul_comm, a, m0]
  · obtain ⟨n, hn⟩ : ∃ n, ts.length = n + 2 := ⟨ts.length - 2, by omega⟩
    have a := F2 n (by omega)
    have b := heq n (by omega)
    simp only [hn, Nat.add_sub_cancel, show n + 2 - 1 = n + 1 by omega] at mT ⊢
    rw [b, mul_comm, a, mT]
  · intro i hi
    have a := F1 (i + 1) hi
    have b := F2 i (by omega)
    have e1 : ts[i + 2] - ts[i + 1] = h := heq (i + 1) hi
    rw [two i hi, heq i (by omega), e1]
    have a' : h * γ (i + 1) = (vs[i + 2] - vs[i + 1]) / h - m (i + 1) := a
    linear_combination a' + b
  · have := down (ts.length - 2) (by omega)
    rw [show ts.length - 2 + 1 = ts.length - 1 by omega] at this
    exact this
  · intro i hi
    have e1 : ts[i + 2] - ts[i + 1] = h := heq (i + 1) hi
    rw [two i hi, heq i (by omega), e1]
    have a := mul_le_mul_of_nonneg_left (down i (by omega)) hh.le
    have b := mul_le_mul_of_nonneg_left (up (i + 1) hi) hh.le
    have b' : h * γ (i + 2) ≤ h * (2 * γ (i + 1)) := b
    linarith

/-- **C179**, not the other way round: fitted to the values 0, 0, 2 at the times 0, 1, 2 with the velocities -5/2 and 3, the cubic
scalar curve never reports a negative acceleration, the Hermite curve does between the times 0 and 1. -/
theorem C179_converse_refuted (S : Solver K) (debug : Bool) (a0 aT : K) (c : ScalarCurve .o3 K) (w : World) :
    (∃ c', c.fitCurveWith S [0, 1, 2] [0, 0, 2] (-5 / 2) a0 3 aT = .ok c' ∧
      ∀ t, 0 ≤ t → t ≤ 2 → ∃ a, c'.evaluateDerivative t 2 = .ok (some a) ∧ 0 ≤ a) ∧
    ∃ (d : Hermite.E3 K K) (ks : List Key),
      Hermite.E3.fitCurveWithDerivatives debug [0, 1, 2] [0, 0, 2] (-5 / 2) 3 (Hermite.E3.fresh w) = .ok (d, ks) ∧
      ¬ ∀ t, 0 ≤ t → t < 1 → ∃ r, Hermite.E3.evaluateDerivative t 2 d = .ok (some r) ∧ 0 ≤ r := by
  have one : ∀ i, i + 2 < ([0, 1, 2] : List K).length → i = 0 := fun i hi => by simp at hi; omega
  constructor
  · obtain ⟨c', e, h, -⟩ := C178_convex S (ts := [(0 : K), 1, 2]) (vs := [0, 0, 2]) (by simp) (by norm_num) rfl (by norm_num) (-5 / 2)
      a0 3 aT c (γ := fun i => if i = 0 then 5 / 2 else 1) (by norm_num) (by norm_num) (by
        intro i hi
        obtain rfl := one i hi
        norm_num) (by norm_num) (by norm_num) (by
        intro i hi
        obtain rfl := one i hi
        norm_num)
    exact ⟨c', e, h⟩
  · obtain ⟨d, ks, m, e, m0, mT, hin, h⟩ := C179_hermite debug (ts := [(0 : K), 1, 2]) (vs := [(0 : K), 0, 2]) (by simp) rfl
      (by norm_num) (-5 / 2) 3 w
    have m1 := hin 0 (by simp)
    simp only [zero_add, List.getElem_cons_zero, List.getElem_cons_succ, smul_eq_mul] at m1
    refine ⟨d, ks, e, fun hall => ?_⟩
    have x := ((h LinearMap.id 0 (by simp)).1 hall).2
    simp only [LinearMap.id_apply, zero_add, m0, m1, List.getElem_cons_zero, List.getElem_cons_succ] at x
    norm_num at x

/-- The squares of 0, 1 and 3: on the second segment the velocities are 3 and 6, the mean slope is 4. -/
example (w : World) : ∃ (c : Hermite.E3 ℚ ℚ) (ks : List Key),
    Hermite.E3.fitCurveWithDerivatives true [0, 1, 3] [0, 1, 9] 0 6 (Hermite.E3.fresh w) = .ok (c, ks) ∧
    ∀ t, 1 ≤ t → t < 3 → ∃ r, Hermite.E3.evaluateDerivative t 2 c = .ok (some r) ∧ 0 ≤ r := by
  obtain ⟨c, ks, m, e, m0, mT, hin, h⟩ := C179_hermite true (ts := [(0 : ℚ), 1, 3]) (vs := [(0 : ℚ), 1, 9]) (by simp) rfl
    (by norm_num) 0 6 w
  have m1 := hin 0 (by simp)
  simp only [List.length_cons, List.length_nil, zero_add, Nat.reduceAdd, Nat.add_one_sub_one, List.getElem_cons_zero,
    List.getElem_cons_succ, smul_eq_mul] at m1 mT
  refine ⟨c, ks, e, (h LinearMap.id 1 (by simp)).2 ?_⟩
  simp only [LinearMap.id_apply, Nat.reduceAdd, m1, mT, List.getElem_cons_zero, List.getElem_cons_succ]
  norm_num

/-- The squares of 0, 1 and 2: both curves bend upwards. -/
example (S : Solver ℚ) (w : World) : ∃ c' : ScalarCurve .o3 ℚ,
    ScalarCurve.fresh.fitCurveWith S [0, 1, 2] [0, 1, 4] 0 5 4 7 = .ok c' ∧
    ∀ t, 0 ≤ t → t ≤ 2 → ∃ a, c'.evaluateDerivative t 2 = .ok (some a) ∧ 0 ≤ a := by
  obtain ⟨c, ks, m, e, m0, mT, hin, h⟩ := C179_hermite true (ts := [(0 : ℚ), 1, 2]) (vs := [(0 : ℚ), 1, 4]) (by simp) rfl
    (by norm_num) 0 4 w
  have m1 := hin 0 (by simp)
  simp only [List.length_cons, List.length_nil, zero_add, Nat.reduceAdd, Nat.add_one_sub_one, List.getElem_cons_zero,
    List.getElem_cons_succ, smul_eq_mul] at m1 mT
  have s0 := (h LinearMap.id 0 (by simp)).2 (by
    simp only [LinearMap.id_apply, zero_add, m0, m1, List.getElem_cons_zero, List.getElem_cons_succ]
    norm_num)
  have s1 := (h LinearMap.id 1 (by simp)).2 (by
    simp only [LinearMap.id_apply, Nat.reduceAdd, m1, mT, List.getElem_cons_zero, List.getElem_cons_succ]
    norm_num)
  obtain ⟨c', e', x, -⟩ := C179_both S true (ts := [(0 : ℚ), 1, 2]) (vs := [0, 1, 4]) (h := 1) (by simp) (by norm_num) rfl
    one_pos (by norm_num) (by
      intro i hi
      simp only [List.length_cons, List.length_nil, zero_add, Nat.reduceAdd] at hi
      obtain rfl | rfl : i = 0 ∨ i = 1 := by omega
      all_goals norm_num) 0 5 4 7 ScalarCurve.fresh w e (by
      intro t r t0 t1 hr
      obtain ⟨r', e1, e2⟩ : ∃ r', Hermite.E3.evaluateDerivative t 2 c = .ok (some r') ∧ (0 : ℚ) ≤ r' := by
        rcases lt_or_ge t 1 with g | g
        · exact s0 t t0 g
        · exact s1 t g t1
      rw [hr] at e1
      rw [Option.some.inj (Outcome.ok.inj e1)]
      exact e2)
  exact ⟨c', e', x⟩

/-- The squares of 0 and 1: the velocity rises. -/
example (w : World) : ∃ (c : Hermite.E3 ℚ ℚ) (ks : List Key),
    Hermite.E3.fitCurveWithDerivatives true [0, 1] [0, 1] 0 2 (Hermite.E3.fresh w) = .ok (c, ks) ∧
    ∀ s t, 0 ≤ s → s ≤ t → t ≤ 1 → ∃ u v, Hermite.E3.evaluateDerivative s 1 c = .ok (some u) ∧
      Hermite.E3.evaluateDerivative t 1 c = .ok (some v) ∧ u ≤ v := by
  obtain ⟨c, ks, m, e, m0, mT, -, h⟩ := C179_hermite true (ts := [(0 : ℚ), 1]) (vs := [(0 : ℚ), 1]) (by simp) rfl
    (by norm_num) 0 2 w
  simp only [List.length_cons, List.length_nil, zero_add, Nat.reduceAdd, Nat.add_one_sub_one] at mT
  have s0 := (h LinearMap.id 0 (by simp)).2 (by
    simp only [LinearMap.id_apply, zero_add, m0, mT, List.getElem_cons_zero, List.getElem_cons_succ]
    norm_num)
  exact ⟨c, ks, e, C179_velocity true (by simp) rfl (by norm_num) 0 2 w e LinearMap.id (fun t r t0 t1 hr => by
    obtain ⟨r', e1, e2⟩ := s0 t t0 t1
    rw [hr] at e1
    rw [Option.some.inj (Outcome.ok.inj e1)]
    exact e2)⟩

end Verif.PolyCurve

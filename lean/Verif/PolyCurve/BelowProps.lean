import Verif.PolyCurve.BothConvexProps

/-!
# Property C180: curves that bend to one side stay below their chords

What C178 and C179 say about velocities and accelerations, said about the values of the two cubic curves.
-/

set_option linter.unusedSectionVars false
set_option linter.dupNamespace false

namespace Verif.PolyCurve

open Verif.Spline Verif.Container Verif.Manager

variable {K V : Type} [Field K] [LinearOrder K] [IsStrictOrderedRing K] [AddCommGroup V] [Module K V]

/-- If on every segment the tangents are below, and the velocity never decreases, all tangents are below. -/
theorem tangent_below {ts : List K} (h2 : 2 ≤ ts.length) (hinc : ts.Pairwise (· < ·)) {P W : K → K}
    (seg : ∀ i (hi : i + 1 < ts.length) s t, ts[i] ≤ s → s ≤ ts[i + 1] → ts[i] ≤ t → t ≤ ts[i + 1] → P s + (t - s) * W s ≤ P t)
    (mono : ∀ s t, ts[0] ≤ s → s ≤ t → t ≤ ts[ts.length - 1] → W s ≤ W t) {s t : K} (s0 : ts[0] ≤ s) (s1 : s ≤ ts[ts.length - 1])
    (t0 : ts[0] ≤ t) (t1 : t ≤ ts[ts.length - 1]) : P s + (t - s) * W s ≤ P t := by
  rcases le_total s t with st | ts'
  · have := chain_rising h2 hinc (W := fun x => P (max s x) - max s x * W s) (fun i hi a b a0 ab b1 => by
      rcases le_total b s with h | h
      · simp only [max_eq_left h, max_eq_left (ab.trans h), le_refl]
      · have x0 : ts[i] ≤ max s a := a0.trans (le_max_right _ _)
        have x1 : max s a ≤ b := max_le h ab
        have x := seg i hi (max s a) b x0 (x1.trans b1) (a0.trans ab) b1
        have y := mono s (max s a) s0 (le_max_left _ _) (x1.trans (b1.trans (getElem_mono hinc (by omega) (by omega))))
        have z := mul_nonneg (sub_nonneg.2 x1) (sub_nonneg.2 y)
        simp only [max_eq_right h]
        linarith) s t s0 st t1
    simp only [max_self, max_eq_right st] at this
    linarith
  · have := chain_rising h2 hinc (W := fun x => min s x * W s - P (min s x)) (fun i hi a b a0 ab b1 => by
      rcases le_total s a with h | h
      · simp only [min_eq_left h, min_eq_left (h.trans ab), le_refl]
      · have x1 : min s b ≤ ts[i + 1] := (min_le_right _ _).trans b1
        have x0 : a ≤ min s b := le_min h ab
        have x := seg i hi (min s b) a (a0.trans x0) x1 a0 (ab.trans b1)
        have y := mono (min s b) s ((getElem_mono hinc (by omega) (Nat.zero_le i)).trans (a0.trans x0)) (min_le_left _ _) s1
        have z := mul_nonneg (sub_nonneg.2 x0) (sub_nonneg.2 y)
        simp only [min_eq_right h]
        linarith) t s t0 ts' s1
    simp only [min_self, min_eq_right ts'] at this
    linarith

/-- What is above its tangents is below its chords. -/
theorem below_chord {P W : K → K} {s q t : K} (sq : s ≤ q) (qt : q ≤ t) (h1 : P q + (s - q) * W q ≤ P s)
    (h2 : P q + (t - q) * W q ≤ P t) : (t - s) * P q ≤ (t - q) * P s + (q - s) * P t := by
  have a := mul_le_mul_of_nonneg_left h1 (sub_nonneg.2 qt)
  have b := mul_le_mul_of_nonneg_left h2 (sub_nonneg.2 sq)
  linarith

/-- **C180**, cubic scalar curve: if a fitted `PolynomialSplineScalarCurve` of order 3 never reports a negative acceleration, then the
value at any time is not above the straight line between the values at any two times around it, and not below the tangent at any other
time. -/
theorem C180_scalar (S : Solver K) {ts vs : List K} (h2 : 2 ≤ ts.length) (hb : ts.length ≤ 2 ^ 28)
    (hl : vs.length = ts.length) (hinc : ts.Pairwise (· < ·)) (v0 a0 vT aT : K) (c : ScalarCurve .o3 K) {c' : ScalarCurve .o3 K}
    (hc : c.fitCurveWith S ts vs v0 a0 vT aT = .ok c')
    (hconv : ∀ t a, ts[0] ≤ t → t ≤ ts[ts.length - 1] → c'.evaluateDerivative t 2 = .ok (some a) → 0 ≤ a) :
    (∀ s t, ts[0] ≤ s → s ≤ ts[ts.length - 1] → ts[0] ≤ t → t ≤ ts[ts.length - 1] → ∃ x u y, c'.evaluate s = .ok x ∧
      c'.evaluateDerivative s 1 = .ok (some u) ∧ c'.evaluate t = .ok y ∧ x + (t - s) * u ≤ y) ∧
    ∀ s q t, ts[0] ≤ s → s ≤ q → q ≤ t → t ≤ ts[ts.length - 1] → ∃ x y z, c'.evaluate s = .ok x ∧ c'.evaluate q = .ok y ∧
      c'.evaluate t = .ok z ∧ (t - s) * y ≤ (t - q) * x + (q - s) * z := by
  obtain ⟨c'', P, V, A, e, hp, -, -, -, hev⟩ := fit_pieces_values S ts vs h2 hb hl hinc v0 a0 vT aT c
  obtain rfl : c' = c'' := by
    rw [hc] at e
    exact Outcome.ok.inj e
  have hA : ∀ t, ts[0] ≤ t → t ≤ ts[ts.length - 1] → 0 ≤ A t := fun t t0 t1 => hconv t _ t0 t1 (hev t t0 t1).2.2
  have first : ∀ i (hi : i < ts.length), ts[0] ≤ ts[i] := fun i hi => getElem_mono hinc hi (Nat.zero_le i)
  have last : ∀ i (hi : i < ts.length), ts[i] ≤ ts[ts.length - 1] := fun i hi => getElem_mono hinc (by omega) (by omega)
  have mono := (hp.rising h2 hinc fun i hi => hA _ (first i hi) (last i hi)).2
  have tan : ∀ s t, ts[0] ≤ s → s ≤ ts[ts.length - 1] → ts[0] ≤ t → t ≤ ts[ts.length - 1] → P s + (t - s) * V s ≤ P t :=
    fun s t s0 s1 t0 t1 => tangent_below h2 hinc (fun i hi s t s0 s1 t0 t1 => by
      obtain ⟨k0, k1, k2, k3, hk⟩ := hp i hi
      have e : P t - (P s + (t - s) * V s) = (t - s) ^ 2 * ((2 * A s + A t) / 6) := by
        rw [(hk s s0 s1).1, (hk s s0 s1).2.1, (hk s s0 s1).2.2, (hk t t0 t1).1, (hk t t0 t1).2.2]
        ring
      have x := hA s ((first i (by omega)).trans s0) (s1.trans (last _ hi))
      have y := hA t ((first i (by omega)).trans t0) (t1.trans (last _ hi))
      have := mul_nonneg (sq_nonneg (t - s)) (show 0 ≤ (2 * A s + A t) / 6 by linarith)
      linarith) mono s0 s1 t0 t1
  refine ⟨fun s t s0 s1 t0 t1 => ⟨_, _, _, (hev s s0 s1).1, (hev s s0 s1).2.1, (hev t t0 t1).1, tan s t s0 s1 t0 t1⟩,
    fun s q t s0 sq qt t1 => ?_⟩
  have q0 := s0.trans sq
  have q1 := qt.trans t1
  exact ⟨_, _, _, (hev s s0 (sq.trans q1)).1, (hev q q0 q1).1, (hev t (q0.trans qt) t1).1,
    below_chord sq qt (tan q s q0 q1 s0 (sq.trans q1)) (tan q t q0 q1 (q0.trans qt) t1)⟩

/-- The way to another time on a segment, by the acceleration at one third of it. -/
theorem position_gain (f : V →ₗ[K] K) {a b : Node K (Hermite.Knot V)} (h : a.time < b.time) (s t : K) :
    f (Hermite.E3.interpolate a b t) - (f (Hermite.E3.interpolate a b s) + (t - s) * f (Hermite.E3.interpolateVelocity a b s)) =
      (t - s) ^ 2 * (f (Hermite.E3.interpolateAcceleration a b ((2 * s + t) / 3)) / 2) := by
  have hd : b.time - a.time ≠ 0 := (sub_pos.2 h).ne'
  simp only [Hermite.E3.interpolate, Hermite.E3.interpolateVelocity, Hermite.E3.interpolateAcceleration, map_add, map_smul,
    smul_eq_mul]
  field_simp
  ring

/-- **C180**, Hermite curve: the same for a `CubicHermiteE3Curve` in a coordinate `f`. -/
theorem C180_hermite (debug : Bool) {ts : List K} {vs : List V} (h2 : 2 ≤ ts.length) (hl : ts.length = vs.length)
    (hinc : ts.Pairwise (· < ·)) (d0 dT : V) (w : World) {c : Hermite.E3 K V} {ks : List Key}
    (hc : Hermite.E3.fitCurveWithDerivatives debug ts vs d0 dT (Hermite.E3.fresh w) = .ok (c, ks)) (f : V →ₗ[K] K)
    (hconv : ∀ t r, ts[0] ≤ t → t < ts[ts.length - 1] → Hermite.E3.evaluateDerivative t 2 c = .ok (some r) → 0 ≤ f r) :
    (∀ s t, ts[0] ≤ s → s ≤ ts[ts.length - 1] → ts[0] ≤ t → t ≤ ts[ts.length - 1] → ∃ x u y,
      Hermite.E3.evaluate s c = .ok (some x) ∧ Hermite.E3.evaluateDerivative s 1 c = .ok (some u) ∧
      Hermite.E3.evaluate t c = .ok (some y) ∧ f x + (t - s) * f u ≤ f y) ∧
    ∀ s q t, ts[0] ≤ s → s ≤ q → q ≤ t → t ≤ ts[ts.length - 1] → ∃ x y z, Hermite.E3.evaluate s c = .ok (some x) ∧
      Hermite.E3.evaluate q c = .ok (some y) ∧ Hermite.E3.evaluate t c = .ok (some z) ∧
      (t - s) * f y ≤ (t - q) * f x + (q - s) * f z := by
  have vel := C179_velocity debug h2 hl hinc d0 dT w hc f hconv
  obtain ⟨c', ks', m, e, hs, -, -, -, -, hn⟩ := e3_nodes debug h2 hl hinc d0 dT w
  obtain ⟨rfl, -⟩ : c = c' ∧ ks = ks' := by
    rw [hc] at e
    exact Prod.mk.inj (Outcome.ok.inj e)
  let P : K → K := fun t => match Hermite.E3.evaluate t c with
    | .ok (some r) => f r
    | _ => 0
  let W : K → K := fun t => match Hermite.E3.evaluateDerivative t 1 c with
    | .ok (some r) => f r
    | _ => 0
  have hP : ∀ t r, Hermite.E3.evaluate t c = .ok (some r) → P t = f r := fun t r h => by simp only [P, h]
  have hW : ∀ t r, Hermite.E3.evaluateDerivative t 1 c = .ok (some r) → W t = f r := fun t r h => by simp only [W, h]
  have ex : ∀ t, ts[0] ≤ t → t ≤ ts[ts.length - 1] → ∃ r, Hermite.E3.evaluate t c = .ok (some r) := fun t t0 t1 => by
    obtain ⟨i, hi, g0, g1⟩ := segment_of h2 t0 t1
    obtain ⟨pre, a, b, post, hm, ta, tb, -⟩ := hn i hi
    exact ⟨_, Hermite.E3.evaluate_between hs hm (by rw [ta]; exact g0) (by rw [tb]; exact g1)⟩
  have mono : ∀ s t, ts[0] ≤ s → s ≤ t → t ≤ ts[ts.length - 1] → W s ≤ W t := fun s t s0 st t1 => by
    obtain ⟨u, v, hu, hv, h⟩ := vel s t s0 st t1
    rw [hW s u hu, hW t v hv]
    exact h
  have tan : ∀ s t, ts[0] ≤ s → s ≤ ts[ts.length - 1] → ts[0] ≤ t → t ≤ ts[ts.length - 1] → P s + (t - s) * W s ≤ P t :=
    fun s t s0 s1 t0 t1 => tangent_below h2 hinc (fun i hi s t s0 s1 t0 t1 => by
      obtain ⟨pre, a, b, post, hm, ta, tb, -⟩ := hn i hi
      rcases eq_or_ne s t with rfl | hne
      · rw [sub_self, zero_mul, add_zero]
      have lt : ts[i] < ts[i + 1] := List.pairwise_iff_getElem.1 hinc i (i + 1) (by omega) hi (by omega)
      have q0 : ts[i] ≤ (2 * s + t) / 3 := by linarith
      have q1 : (2 * s + t) / 3 < ts[i + 1] := by
        rcases lt_or_gt_of_ne hne with h | h <;> linarith
      have x := hconv _ _ ((getElem_mono hinc (by omega) (Nat.zero_le i)).trans q0)
        (q1.trans_le (getElem_mono hinc (by omega) (by omega))) (by
          rw [Hermite.E3.evaluateDerivative, if_neg (by norm_num), if_pos rfl,
            Hermite.E3.acceleration_between hs hm (by rw [ta]; exact q0) (by rw [tb]; exact q1)])
      rw [hP s _ (Hermite.E3.evaluate_between hs hm (by rw [ta]; exact s0) (by rw [tb]; exact s1)),
        hP t _ (Hermite.E3.evaluate_between hs hm (by rw [ta]; exact t0) (by rw [tb]; exact t1)),
        hW s _ (Hermite.E3.velocity_between hs hm (by rw [ta]; exact s0) (by rw [tb]; exact s1))]
      have g := position_gain f (a := a) (b := b) (by rw [ta, tb]; exact lt) s t
      have := mul_nonneg (sq_nonneg (t - s)) (div_nonneg x (zero_le_two (α := K)))
      linarith) mono s0 s1 t0 t1
  refine ⟨fun s t s0 s1 t0 t1 => ?_, fun s q t s0 sq qt t1 => ?_⟩
  · obtain ⟨x, hx⟩ := ex s s0 s1
    obtain ⟨y, hy⟩ := ex t t0 t1
    obtain ⟨u, -, hu, -⟩ := vel s s s0 le_rfl s1
    refine ⟨x, u, y, hx, hu, hy, ?_⟩
    rw [← hP s x hx, ← hW s u hu, ← hP t y hy]
    exact tan s t s0 s1 t0 t1
  · have q0 := s0.trans sq
    have q1 := qt.trans t1
    obtain ⟨x, hx⟩ := ex s s0 (sq.trans q1)
    obtain ⟨y, hy⟩ := ex q q0 q1
    obtain ⟨z, hz⟩ := ex t (q0.trans qt) t1
    refine ⟨x, y, z, hx, hy, hz, ?_⟩
    rw [← hP s x hx, ← hP q y hy, ← hP t z hz]
    exact below_chord sq qt (tan q s q0 q1 s0 (sq.trans q1)) (tan q t q0 q1 (q0.trans qt) t1)

/-- The squares of 0, 1 and 3: the cubic scalar curve is below its chords. -/
example (S : Solver ℚ) : ∃ c' : ScalarCurve .o3 ℚ,
    ScalarCurve.fresh.fitCurveWith S [0, 1, 3] [0, 1, 9] 0 5 6 7 = .ok c' ∧
    ∀ s q t, 0 ≤ s → s ≤ q → q ≤ t → t ≤ 3 → ∃ x y z, c'.evaluate s = .ok x ∧ c'.evaluate q = .ok y ∧
      c'.evaluate t = .ok z ∧ (t - s) * y ≤ (t - q) * x + (q - s) * z := by
  obtain ⟨c', e, h, -⟩ := C178_convex S (ts := [(0 : ℚ), 1, 3]) (vs := [0, 1, 9]) (by simp) (by norm_num) rfl (by norm_num) 0 5 6 7
    ScalarCurve.fresh (γ := fun _ => 1) (by norm_num) (by norm_num) (by
      intro i hi
      obtain rfl : i = 0 := by simp at hi; omega
      norm_num) (by norm_num) (by norm_num) (by
      intro i hi
      obtain rfl : i = 0 := by simp at hi; omega
      norm_num)
  have hx := C180_scalar S (ts := [(0 : ℚ), 1, 3]) (vs := [0, 1, 9]) (by simp) (by norm_num) rfl (by norm_num) 0 5 6 7
    ScalarCurve.fresh e (fun t a t0 t1 ha => by
      obtain ⟨a', e1, e2⟩ := h t t0 t1
      rw [ha] at e1
      rw [Option.some.inj (Outcome.ok.inj e1)]
      exact e2)
  exact ⟨c', e, hx.2⟩

/-- The squares of 0 and 1: the Hermite curve is below its chords. -/
example (w : World) : ∃ (c : Hermite.E3 ℚ ℚ) (ks : List Key),
    Hermite.E3.fitCurveWithDerivatives true [0, 1] [0, 1] 0 2 (Hermite.E3.fresh w) = .ok (c, ks) ∧
    ∀ s q t, 0 ≤ s → s ≤ q → q ≤ t → t ≤ 1 → ∃ x y z, Hermite.E3.evaluate s c = .ok (some x) ∧
      Hermite.E3.evaluate q c = .ok (some y) ∧ Hermite.E3.evaluate t c = .ok (some z) ∧
      (t - s) * y ≤ (t - q) * x + (q - s) * z := by
  obtain ⟨c, ks, m, e, m0, mT, -, h⟩ := C179_hermite true (ts := [(0 : ℚ), 1]) (vs := [(0 : ℚ), 1]) (by simp) rfl
    (by norm_num) 0 2 w
  simp only [List.length_cons, List.length_nil, zero_add, Nat.reduceAdd, Nat.add_one_sub_one] at mT
  have s0 := (h LinearMap.id 0 (by simp)).2 (by
    simp only [LinearMap.id_apply, zero_add, m0, mT, List.getElem_cons_zero, List.getElem_cons_succ]
    norm_num)
  exact ⟨c, ks, e, (C180_hermite true (by simp) rfl (by norm_num) 0 2 w e LinearMap.id (fun t r t0 t1 hr => by
    obtain ⟨r', e1, e2⟩ := s0 t t0 t1
    rw [hr] at e1
    rw [Option.some.inj (Outcome.ok.inj e1)]
    exact e2)).2⟩

end Verif.PolyCurve

import Verif.Hermite.EquivLemmas
import Verif.Hermite.E3Props

/-!
# Property C91: `CubicHermiteE3Curve` fits of transformed data
-/

set_option linter.unusedSectionVars false
set_option linter.dupNamespace false

namespace Verif.Hermite.E3

open Verif.Manager

variable {K V W : Type} [Field K] [LinearOrder K] [IsStrictOrderedRing K] [AddCommGroup V] [Module K V]
  [AddCommGroup W] [Module K W]

/-- `c'` is the curve `c` with the times changed to `a t + b` and the values to `A v + x`: evaluated at the
new time, the two succeed alike, with the changed value and the derivatives by the chain rule. -/
def Transformed (a b : K) (A : V →ₗ[K] W) (x : W) (c : E3 K V) (c' : E3 K W) : Prop :=
  ∀ t, evaluate (a * t + b) c' = (evaluate t c >>= fun r => .ok (r.map fun v => A v + x)) ∧
    evaluateDerivative (a * t + b) 1 c' =
      (evaluateDerivative t 1 c >>= fun r => .ok (r.map fun v => (1 / a) • A v)) ∧
    evaluateDerivative (a * t + b) 2 c' =
      (evaluateDerivative t 2 c >>= fun r => .ok (r.map fun v => (1 / a ^ 2) • A v))

/-- Curves with transformed knots. -/
theorem transformed_of_knots {a b : K} (ha : 0 < a) (A : V →ₗ[K] W) (x : W) {c : E3 K V} {c' : E3 K W}
    (hs : Sorted c.m.nodes) (hne : c.m.knots ≠ [])
    (h : c'.m.knots = c.m.knots.map fun p =>
      (a * p.1 + b, ⟨A p.2.position + x, (1 / a) • A p.2.velocity⟩)) :
    Transformed a b A x c c' := by
  have hφ : StrictMono fun t : K => a * t + b := fun s t h => by
    have := mul_lt_mul_of_pos_left h ha
    simpa using this
  intro t
  refine ⟨?_, ?_, ?_⟩
  · rw [evaluate_eq, evaluate_eq]
    exact evalWith_retimed (φ := fun t : K => a * t + b)
      (F := fun k : Knot V => (⟨A k.position + x, (1 / a) • A k.velocity⟩ : Knot W)) hφ hs hne (fun v => A v + x) h
      (fun n _ => rfl) t (fun p q p' q' _ _ hlt h1 h2 h3 h4 =>
        (interpolate_affine A x ha.ne' hlt t h1 h2 h3 h4).1)
  · rw [velocity_eq, velocity_eq]
    exact evalWith_retimed (φ := fun t : K => a * t + b)
      (F := fun k : Knot V => (⟨A k.position + x, (1 / a) • A k.velocity⟩ : Knot W)) hφ hs hne (fun v => (1 / a) • A v) h
      (fun n _ => rfl) t (fun p q p' q' _ _ hlt h1 h2 h3 h4 =>
        (interpolate_affine A x ha.ne' hlt t h1 h2 h3 h4).2.1)
  · rw [acceleration_eq, acceleration_eq, evaluateLinearAcceleration, evaluateLinearAcceleration]
    rcases retimed_getAt (φ := fun t : K => a * t + b)
      (F := fun k : Knot V => (⟨A k.position + x, (1 / a) • A k.velocity⟩ : Knot W)) hφ h hs t with ⟨e, e'⟩ | ⟨p, q, p', q', e, e', h1, h2, h3, h4⟩
    · rw [e, e']; rfl
    · rw [e, e']
      obtain ⟨pre, post, hm, -⟩ := getAt_some e
      simp only [Outcome.ok_bind, Option.map_some]
      rw [(interpolate_affine A x ha.ne' (neighbours_lt hs hm) t h1 h2 h3 h4).2.2]

/-- **C91**, affine changes. Fitting a new curve to the points `A v + x` at the times `a t + b`
(`a > 0`, `A` linear), with the end derivatives changed accordingly, gives the transformed curve. -/
theorem C91_affine (debug : Bool) {a : K} (ha : 0 < a) (b : K) (A : V →ₗ[K] W) (x : W) (ts : List K)
    (vs : List V) (hl : ts.length = vs.length) (hne : ts ≠ []) (hinc : ts.Pairwise (· < ·)) (d0 dT : V)
    (w w' : World) :
    ∃ c1 c2 k1 k2, fitCurveWithDerivatives debug ts vs d0 dT (fresh w) = .ok (c1, k1) ∧
      fitCurveWithDerivatives debug (ts.map fun t => a * t + b) (vs.map fun v => A v + x)
        ((1 / a) • A d0) ((1 / a) • A dT) (fresh w') = .ok (c2, k2) ∧
      Transformed a b A x c1 c2 := by
  obtain ⟨c1, k1, cs, e1, f1, l1, s1, n1⟩ := fit_fresh debug hl hinc d0 dT w
  obtain ⟨c2, k2, cs2, e2, f2, l2, s2, n2⟩ := fit_fresh debug (ts := ts.map fun t => a * t + b)
    (vs := vs.map fun v => A v + x) (by simp [hl])
    (List.pairwise_map.2 (hinc.imp fun h => by simpa using mul_lt_mul_of_pos_left h ha))
    ((1 / a) • A d0) ((1 / a) • A dT) w'
  refine ⟨c1, c2, k1, k2, e1, e2, ?_⟩
  rw [List.length_map, fitLoop_map (φ := fun t => a * t + b) (G := fun v => A v + x)
    (H := fun v => (1 / a) • A v) d0 dT (slope_affine a b A x), f1, Outcome.ok_bind] at f2
  cases f2
  refine transformed_of_knots ha A x s1 ?_ ?_
  · rw [n1]
    cases ts with
    | nil => exact absurd rfl hne
    | cons t ts =>
      cases cs with
      | nil => simp at l1
      | cons k cs => simp
  · rw [n2, n1, List.zip_map]
    rfl

/-- The same for `fitPeriodicCurve`. -/
theorem C91_periodic (debug : Bool) {a : K} (ha : 0 < a) (b : K) (A : V →ₗ[K] W) (x : W) (ts : List K)
    (vs : List V) (hl : ts.length = vs.length) (h2 : 2 ≤ ts.length) (hinc : ts.Pairwise (· < ·))
    (w w' : World) :
    ∃ c1 c2 k1 k2, fitPeriodicCurve debug ts vs (fresh w) = .ok (c1, k1) ∧
      fitPeriodicCurve debug (ts.map fun t => a * t + b) (vs.map fun v => A v + x) (fresh w') =
        .ok (c2, k2) ∧
      Transformed a b A x c1 c2 := by
  have hne : ts ≠ [] := by rintro rfl; simp at h2
  rw [periodic_eq debug ts vs h2 hl, periodic_eq debug (ts.map fun t => a * t + b)
    (vs.map fun v => A v + x) (by simpa using h2) (by simpa using hl)]
  simp only [List.getElem_map, List.length_map, slope_affine]
  exact C91_affine debug ha b A x ts vs hl hne hinc _ _ w w'

/-- An instance of C91: seconds to milliseconds and metres to millimetres, from another origin. -/
example : ∃ (c1 c2 : E3 ℚ ℚ) (k1 k2 : List Key),
    fitCurve false [1, 2, 4] [5, 7, 6] (fresh ⟨0, 0⟩) = .ok (c1, k1) ∧
    fitCurve false [1100, 2100, 4100] [5003, 7003, (6003 : ℚ)] (fresh ⟨0, 0⟩) = .ok (c2, k2) ∧
    evaluate 3100 c2 = (evaluate 3 c1 >>= fun r => .ok (r.map (1000 * · + 3))) := by
  obtain ⟨c1, c2, k1, k2, h1, h2, h3⟩ := C91_affine (V := ℚ) (W := ℚ) false (a := 1000) (by norm_num) 100
    ((1000 : ℚ) • LinearMap.id) 3 [1, 2, (4 : ℚ)] [5, 7, 6] rfl (by simp) (by simp; norm_num) 0 0 ⟨0, 0⟩
    ⟨0, 0⟩
  refine ⟨c1, c2, k1, k2, h1, ?_, ?_⟩
  · rw [← h2]
    norm_num [fitCurve]
  · have := (h3 3).1
    norm_num at this
    exact this

/-- `c'` is the curve `c` run backwards: position and velocity everywhere. -/
def Reversed (c c' : E3 K V) : Prop :=
  ∀ t, evaluate (-t) c' = evaluate t c ∧
    evaluateDerivative (-t) 1 c' = (evaluateDerivative t 1 c >>= fun r => .ok (r.map fun v => -v))

/-- **C91**, reversal. Fitting a new curve to the same points in reverse order at the negated times, with
the end derivatives exchanged and negated, gives the curve that runs backwards; the second derivative is
the same at every time that is not one of the inner knots. (A single point gets the initial derivative
only, so there both must be the same.) -/
theorem C91_reversal_partial (debug : Bool) (ts : List K) (vs : List V) (hl : ts.length = vs.length)
    (hne : ts ≠ []) (hinc : ts.Pairwise (· < ·)) (d0 dT : V) (h1 : ts.length = 1 → dT = d0)
    (w w' : World) :
    ∃ c1 c2 k1 k2, fitCurveWithDerivatives debug ts vs d0 dT (fresh w) = .ok (c1, k1) ∧
      fitCurveWithDerivatives debug (ts.map (-·)).reverse vs.reverse (-dT) (-d0) (fresh w') =
        .ok (c2, k2) ∧
      Reversed c1 c2 ∧
      ∀ t, (∀ i (hi : i < ts.length), ts[i] = t → i = 0 ∨ i = ts.length - 1) →
        evaluateDerivative (-t) 2 c2 = evaluateDerivative t 2 c1 := by
  obtain ⟨c1, k1, cs, e1, f1, l1, s1, n1⟩ := fit_fresh debug hl hinc d0 dT w
  obtain ⟨c2, k2, cs2, e2, f2, l2, s2, n2⟩ := fit_fresh debug (ts := (ts.map (-·)).reverse)
    (vs := vs.reverse) (by simp [hl])
    (by
      rw [List.pairwise_reverse, List.pairwise_map]
      exact hinc.imp fun h => neg_lt_neg h) (-dT) (-d0) w'
  have hcs : cs2 = (cs.map fun k => (⟨k.position, -k.velocity⟩ : Knot V)).reverse :=
    fitLoop_reversed hl h1 f1 (by simpa using f2)
  have hk : c2.m.knots = (c1.m.knots.map fun p => (-p.1, ⟨p.2.position, -p.2.velocity⟩)).reverse := by
    rw [n2, n1, hcs, List.zip, ← List.reverse_zipWith (by simp [l1]), ← List.zip, List.zip_map]
    rfl
  have hne1 : c1.m.knots ≠ [] := by
    rw [n1]
    cases ts with
    | nil => exact absurd rfl hne
    | cons t ts =>
      cases cs with
      | nil => simp at l1
      | cons k cs => simp
  have hφ : StrictAnti fun t : K => -t := fun s t h => neg_lt_neg h
  refine ⟨c1, c2, k1, k2, e1, e2, fun t => ⟨?_, ?_⟩, fun t ht => ?_⟩
  · have := evalWith_reversed (φ := fun t : K => -t)
      (F := fun k : Knot V => (⟨k.position, -k.velocity⟩ : Knot V)) (single := fun k : Knot V => k.position)
      (single' := fun k : Knot V => k.position) (f := interpolate) (f' := interpolate) hφ s1 hne1 id hk
      (fun _ _ => rfl) (fun a b _ => interpolate_left a b) (fun a b h => interpolate_right h)
      (fun a b _ => interpolate_left a b) (fun a b h => interpolate_right h) t
      (fun a b a' b' h h1 h2 h3 h4 => (interpolate_reversed h t h1 h2 h3 h4).1)
    rw [evaluate_eq, evaluate_eq, this]
    cases evalWith (fun k : Knot V => k.position) interpolate t c1.m <;> simp
  · have := evalWith_reversed (φ := fun t : K => -t)
      (F := fun k : Knot V => (⟨k.position, -k.velocity⟩ : Knot V)) (single := fun k : Knot V => k.velocity)
      (single' := fun k : Knot V => k.velocity) (f := interpolateVelocity) (f' := interpolateVelocity)
      hφ s1 hne1 (fun v => -v) hk
      (fun _ _ => rfl) (fun a b _ => velocity_left a b) (fun a b h => velocity_right h)
      (fun a b _ => velocity_left a b) (fun a b h => velocity_right h) t
      (fun a b a' b' h h1 h2 h3 h4 => (interpolate_reversed h t h1 h2 h3 h4).2.1)
    rw [velocity_eq, velocity_eq, this]
  · rw [acceleration_eq, acceleration_eq, evaluateLinearAcceleration, evaluateLinearAcceleration]
    have hsz := reversed_size (φ := fun t : K => -t) (F := fun k : Knot V => (⟨k.position, -k.velocity⟩ : Knot V)) hk
    have hmin := reversed_min (φ := fun t : K => -t) (F := fun k : Knot V => (⟨k.position, -k.velocity⟩ : Knot V)) hk hne1
    have hmax := reversed_max (φ := fun t : K => -t) (F := fun k : Knot V => (⟨k.position, -k.velocity⟩ : Knot V)) hk hne1
    cases e : c1.m.getCoefficientsAt t with
    | none =>
      have q1 := mt (getAt_isSome_iff s1 t).2 (by simp [e])
      have q2 := mt (getAt_isSome_iff s2 (-t)).1 (by
        rw [hsz, hmin, hmax, neg_le_neg_iff, neg_le_neg_iff]
        exact fun h => q1 ⟨h.1, h.2.2, h.2.1⟩)
      rw [Option.not_isSome_iff_eq_none.1 q2]
    | some p =>
      obtain ⟨a, b⟩ := p
      obtain ⟨pre, post, hm, hc⟩ := getAt_some e
      have hlt := neighbours_lt s1 hm
      obtain ⟨pre', a', b', post', hm', ta, tb, ca, cb, hpost⟩ :=
        reversed_split (φ := fun t : K => -t) (F := fun k : Knot V => (⟨k.position, -k.velocity⟩ : Knot V)) hk hm
      have key : c2.m.getCoefficientsAt (-t) = some (b', a') := by
        rcases hc with ⟨rfl, rfl⟩ | ⟨h0, h1⟩
        · exact getAt_interior s2 hm' (by rw [tb]) (by rw [ta]; exact neg_lt_neg hlt)
        · rcases h0.lt_or_eq with h0 | h0
          · exact getAt_interior s2 hm' (by rw [tb]; exact (neg_lt_neg h1).le)
              (by rw [ta]; exact neg_lt_neg h0)
          · have hts : ts = c1.m.nodes.map (·.time) := by
              have := congrArg (List.map Prod.fst) n1
              rw [List.map_fst_zip l1.ge] at this
              rw [← this]
              simp [Mgr.knots]
            have hlen : pre.length + 2 ≤ ts.length := by rw [hts, hm]; simp
            have := ht pre.length (by omega) (by simp [hts, hm, h0])
            have hpre : pre.length = 0 := by omega
            obtain rfl : post' = [] := List.length_eq_zero_iff.1 (hpost.trans hpre)
            rw [← h0, ← ta]
            exact getAt_max hm'
      rw [key]
      simp only
      rw [(interpolate_reversed hlt t ta tb ca cb).2.2]

/-- An instance of the reversal: the demo data backwards. -/
example : ∃ (c1 c2 : E3 ℚ ℚ) (k1 k2 : List Key),
    fitCurve false [1, 2, 4] [5, 7, 6] (fresh ⟨0, 0⟩) = .ok (c1, k1) ∧
    fitCurve false [-4, -2, -1] [6, 7, (5 : ℚ)] (fresh ⟨0, 0⟩) = .ok (c2, k2) ∧
    evaluate (-3) c2 = evaluate 3 c1 ∧ evaluateDerivative (-3) 2 c2 = evaluateDerivative 3 2 c1 := by
  obtain ⟨c1, c2, k1, k2, h1, h2, h3, h4⟩ := C91_reversal_partial (V := ℚ) false
    [1, 2, (4 : ℚ)] [5, 7, 6] rfl (by simp) (by simp; norm_num) 0 0 (fun _ => rfl) ⟨0, 0⟩ ⟨0, 0⟩
  refine ⟨c1, c2, k1, k2, h1, ?_, (h3 3).1, h4 3 fun i hi he => ?_⟩
  · rw [← h2]
    simp [fitCurve]
  · have : i = 0 ∨ i = 1 ∨ i = 2 := by simp at hi; omega
    rcases this with rfl | rfl | rfl <;> simp at he ⊢

/-- **The second derivative does not reverse at an inner knot**: there it is that of the segment that
begins at the knot, in either direction. -/
theorem C91_reversal_refuted : ∃ (ts vs : List ℚ) (t : ℚ) (c1 c2 : E3 ℚ ℚ) (k1 k2 : List Key),
    fitCurve false ts vs (fresh ⟨0, 0⟩) = .ok (c1, k1) ∧
    fitCurve false (ts.map (-·)).reverse vs.reverse (fresh ⟨0, 0⟩) = .ok (c2, k2) ∧
    evaluateDerivative t 2 c1 = .ok (some (-13 / 6)) ∧
    evaluateDerivative (-t) 2 c2 = .ok (some (-32 / 3)) := by
  have e1 : (fitCurve false [1, 2, 4] [5, 7, (6 : ℚ)] (fresh ⟨0, 0⟩ : E3 ℚ ℚ) >>= fun r =>
      evaluateDerivative 2 2 r.1) = .ok (some (-13 / 6)) := by decide +kernel
  have e2 : (fitCurve false ([1, 2, (4 : ℚ)].map (-·)).reverse [5, 7, (6 : ℚ)].reverse
      (fresh ⟨0, 0⟩ : E3 ℚ ℚ) >>= fun r => evaluateDerivative (-2) 2 r.1) = .ok (some (-32 / 3)) := by
    decide +kernel
  obtain ⟨⟨c1, k1⟩, h1, h2⟩ := Outcome.bind_eq_ok.1 e1
  obtain ⟨⟨c2, k2⟩, h3, h4⟩ := Outcome.bind_eq_ok.1 e2
  exact ⟨_, _, 2, c1, c2, k1, k2, h1, h3, h2, h4⟩

/-- **Without points the fits do not agree**: an empty curve must not be evaluated at time 0, but may be
at any other time. -/
theorem C91_empty_refuted (debug : Bool) (w : World) {b : K} (hb : b ≠ 0) (A : V →ₗ[K] W) (x : W) :
    ∃ c1 c2, fitCurve debug [] [] (fresh w : E3 K V) = .ok (c1, []) ∧
      fitCurve debug ([].map fun t => 1 * t + b) ([].map fun v => A v + x) (fresh w : E3 K W) =
        .ok (c2, []) ∧ ¬Transformed 1 b A x c1 c2 := by
  refine ⟨fresh w, fresh w, (C48_hermite_e3 debug _ 0 0 0 0).1, (C48_hermite_e3 debug _ 0 0 0 0).1,
    fun h => ?_⟩
  have := (h 0).1
  rw [(C34_refuted (fresh w : E3 K V) rfl).1, mul_zero, zero_add] at this
  simp [evaluate, fresh, Mgr.empty, Mgr.getMaxTime, Mgr.getMinTime, Mgr.getCoefficientsAt, hb.symm] at this

end Verif.Hermite.E3

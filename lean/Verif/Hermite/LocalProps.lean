import Verif.Hermite.EquivProps

/-!
# Properties C92 and C93: what a cubic Hermite fit depends on, and how far it strays from the data
-/

set_option linter.unusedSectionVars false
set_option linter.dupNamespace false

namespace Verif.Hermite.E3

open Verif.Manager

variable {K V : Type} [Field K] [LinearOrder K] [IsStrictOrderedRing K] [AddCommGroup V] [Module K V]

/-! ## C92 -/

/-- Two lists of data agree on the points from `i - 1` to `i + 2` (as far as they exist). -/
def AgreeAround {X : Type} (i : ℕ) (l l' : List X) : Prop := ∀ j, i ≤ j + 1 → j ≤ i + 2 → l[j]? = l'[j]?

theorem split_at {X : Type} (l : List X) (i : ℕ) (h : i + 1 < l.length) :
    l = l.take i ++ l[i] :: l[i + 1] :: l.drop (i + 2) := by
  rw [List.getElem_cons_drop, List.getElem_cons_drop, List.take_append_drop]

theorem knot_local {ts ts' : List K} {vs vs' : List V} {d0 dT d0' dT' : V} {cs cs' : List (Knot V)}
    (hl : ts.length = vs.length) (hl' : ts'.length = vs'.length)
    (e : fitLoop ts vs d0 dT ts.length 0 = .ok cs) (e' : fitLoop ts' vs' d0' dT' ts'.length 0 = .ok cs')
    {j : ℕ} (hj : j < ts.length)
    (ht : ∀ k, j ≤ k + 1 → k ≤ j + 1 → ts[k]? = ts'[k]?)
    (hv : ∀ k, j ≤ k + 1 → k ≤ j + 1 → vs[k]? = vs'[k]?)
    (h0 : j = 0 → d0' = d0) (hT : j + 1 = ts.length → dT' = dT) : cs[j]? = cs'[j]? := by
  have hj' : j < ts'.length := by
    have := ht j (by omega) (by omega)
    rw [List.getElem?_eq_getElem hj] at this
    exact (List.getElem?_eq_some_iff.1 this.symm).1
  obtain ⟨x, ex, hx, h⟩ := fitLoop_ok ts vs d0 dT hl.le ts.length 0 (by omega)
  obtain ⟨y, ey, hy, h'⟩ := fitLoop_ok ts' vs' d0' dT' hl'.le ts'.length 0 (by omega)
  rw [ex] at e; cases e
  rw [ey] at e'; cases e'
  obtain ⟨k, k1, k2, k3, k4, k5⟩ := h j hj
  obtain ⟨k', q1, q2, q3, q4, q5⟩ := h' j hj'
  simp only [Nat.zero_add] at k2 k3 k4 k5 q2 q3 q4 q5
  rw [List.getElem?_eq_getElem (by omega), List.getElem?_eq_getElem (by omega), k1, q1]
  have hend : j = ts.length - 1 ↔ j = ts'.length - 1 := by
    have := ht (j + 1) (by omega) (by omega)
    have e1 : ts[j + 1]? = none ↔ ts'[j + 1]? = none := by rw [this]
    simp only [List.getElem?_eq_none_iff] at e1
    omega
  obtain ⟨p, v⟩ := k
  obtain ⟨p', v'⟩ := k'
  simp only at k2 k3 k4 k5 q2 q3 q4 q5
  have hp : p = p' := by
    have := hv j (by omega) (by omega)
    rw [List.getElem?_eq_getElem (by omega), List.getElem?_eq_getElem (by omega)] at this
    rw [k2, q2]
    exact Option.some.inj this
  have hvv : v = v' := by
    by_cases hj0 : j = 0
    · rw [k3 hj0, q3 hj0, h0 hj0]
    · by_cases hj1 : j = ts.length - 1
      · rw [k4 hj0 hj1, q4 hj0 (hend.1 hj1), hT (by omega)]
      · have hj2 : ¬ j = ts'.length - 1 := fun h => hj1 (hend.2 h)
        rw [k5 hj0 hj1, q5 hj0 hj2]
        have a1 := ht (j - 1) (by omega) (by omega)
        have a2 := ht (j + 1) (by omega) (by omega)
        have a3 := hv (j - 1) (by omega) (by omega)
        have a4 := hv (j + 1) (by omega) (by omega)
        rw [List.getElem?_eq_getElem (by omega), List.getElem?_eq_getElem (by omega)] at a1 a2 a3 a4
        rw [Option.some.inj a1, Option.some.inj a2, Option.some.inj a3, Option.some.inj a4]
  rw [hp, hvv]

/-- The nodes of a fitted curve at the ends of the segment `i`. -/
theorem fit_segment {ts : List K} {cs : List (Knot V)} {c : E3 K V} (hk : c.m.knots = ts.zip cs)
    (hcs : cs.length = ts.length) {i : ℕ} (hi : i + 1 < ts.length) :
    ∃ pre a b post, c.m.nodes = pre ++ a :: b :: post ∧ a.time = ts[i] ∧ b.time = ts[i + 1] ∧
      cs[i]? = some a.coef ∧ cs[i + 1]? = some b.coef := by
  have hlen : c.m.nodes.length = ts.length := by
    have := congrArg List.length hk
    simpa [Mgr.knots, hcs] using this
  have key : ∀ j (hj : j < ts.length), (c.m.nodes[j]).time = ts[j] ∧ cs[j]? = some (c.m.nodes[j]).coef := by
    intro j hj
    have := congrArg (fun l => l[j]?) hk
    simp only [Mgr.knots, List.getElem?_map] at this
    rw [List.getElem?_eq_getElem (by omega), List.getElem?_eq_getElem (by simp [hcs]; omega),
      List.getElem_zip] at this
    simp only [Option.map_some, Option.some.injEq, Prod.mk.injEq] at this
    refine ⟨this.1, ?_⟩
    rw [List.getElem?_eq_getElem (by omega), this.2]
  refine ⟨_, _, _, _, split_at c.m.nodes i (by omega), ?_⟩
  exact ⟨(key i (by omega)).1, (key (i + 1) hi).1, (key i (by omega)).2, (key (i + 1) hi).2⟩

/-- **C92.** On the segment from point `i` to point `i + 1` the fitted curve depends only on the points
`i - 1` to `i + 2` (and, on the first and the last segment, on the derivative at that end): two fits whose
data agree there have the same position and velocity on the whole segment and the same second derivative
before its end, whatever the other points are and however many there are. -/
theorem C92_local (debug : Bool) {ts ts' : List K} {vs vs' : List V} (hl : ts.length = vs.length)
    (hl' : ts'.length = vs'.length) (hinc : ts.Pairwise (· < ·)) (hinc' : ts'.Pairwise (· < ·))
    {d0 dT d0' dT' : V} {w w' : World} {c c' : E3 K V} {ks ks' : List Key}
    (e : fitCurveWithDerivatives debug ts vs d0 dT (fresh w) = .ok (c, ks))
    (e' : fitCurveWithDerivatives debug ts' vs' d0' dT' (fresh w') = .ok (c', ks'))
    {i : ℕ} (hi : i + 1 < ts.length) (ht : AgreeAround i ts ts') (hv : AgreeAround i vs vs')
    (h0 : i = 0 → d0' = d0) (hT : i + 2 = ts.length → dT' = dT) (t : K) (h1 : ts[i] ≤ t)
    (h2 : t ≤ ts[i + 1]) :
    evaluate t c' = evaluate t c ∧ evaluateDerivative t 1 c' = evaluateDerivative t 1 c ∧
      (t < ts[i + 1] → evaluateDerivative t 2 c' = evaluateDerivative t 2 c) := by
  obtain ⟨c1, k1, cs, e1, f1, l1, s1, n1⟩ := fit_fresh debug hl hinc d0 dT w
  obtain ⟨c2, k2, cs', e2, f2, l2, s2, n2⟩ := fit_fresh debug hl' hinc' d0' dT' w'
  rw [e1] at e; cases e
  rw [e2] at e'; cases e'
  have hi' : i + 1 < ts'.length := by
    have := ht (i + 1) (by omega) (by omega)
    rw [List.getElem?_eq_getElem hi] at this
    exact (List.getElem?_eq_some_iff.1 this.symm).1
  obtain ⟨pre, a, b, post, hm, ta, tb, ca, cb⟩ := fit_segment n1 l1 hi
  obtain ⟨pre', a', b', post', hm', ta', tb', ca', cb'⟩ := fit_segment n2 l2 hi'
  have hti : ∀ j (hj : j < ts.length) (hj' : j < ts'.length), i ≤ j + 1 → j ≤ i + 2 → ts'[j] = ts[j] := by
    intro j hj hj' h1 h2
    have := ht j h1 h2
    rw [List.getElem?_eq_getElem hj, List.getElem?_eq_getElem hj'] at this
    exact (Option.some.inj this).symm
  have ea : a'.time = a.time ∧ a'.coef = a.coef := by
    refine ⟨by rw [ta, ta', hti i (by omega) (by omega) (by omega) (by omega)], ?_⟩
    have := knot_local hl hl' f1 f2 (j := i) (by omega) (fun k h1 h2 => ht k h1 (by omega))
      (fun k h1 h2 => hv k h1 (by omega)) h0 (fun h => by omega)
    rw [ca, ca'] at this
    exact (Option.some.inj this).symm
  have eb : b'.time = b.time ∧ b'.coef = b.coef := by
    refine ⟨by rw [tb, tb', hti (i + 1) (by omega) (by omega) (by omega) (by omega)], ?_⟩
    have := knot_local hl hl' f1 f2 (j := i + 1) (by omega) (fun k h1 h2 => ht k (by omega) (by omega))
      (fun k h1 h2 => hv k (by omega) (by omega)) (fun h => by omega) (fun h => hT (by omega))
    rw [cb, cb'] at this
    exact (Option.some.inj this).symm
  have hf : interpolate a' b' t = interpolate a b t ∧
      interpolateVelocity a' b' t = interpolateVelocity a b t ∧
      interpolateAcceleration a' b' t = interpolateAcceleration a b t := by
    refine ⟨?_, ?_, ?_⟩ <;>
      simp only [interpolate, interpolateVelocity, interpolateAcceleration, ea.1, ea.2, eb.1, eb.2]
  rw [← ta] at h1
  rw [← tb] at h2 ⊢
  refine ⟨?_, ?_, fun h3 => ?_⟩
  · rw [evaluate_between s1 hm h1 h2, evaluate_between s2 hm' (by rw [ea.1]; exact h1)
      (by rw [eb.1]; exact h2), hf.1]
  · rw [velocity_between s1 hm h1 h2, velocity_between s2 hm' (by rw [ea.1]; exact h1)
      (by rw [eb.1]; exact h2), hf.2.1]
  · rw [acceleration_eq, acceleration_eq, acceleration_between s1 hm h1 h3,
      acceleration_between s2 hm' (by rw [ea.1]; exact h1) (by rw [eb.1]; exact h3), hf.2.2]

/-- An instance of C92: points appended, and the first one moved, leave the segment from 4 to 5 alone. -/
example {ts ts' : List ℚ} {vs vs' : List ℚ} (h1 : ts = [1, 2, 4, 5, 7]) (h2 : vs = [5, 7, 6, 3, 3])
    (h3 : ts' = [0, 2, 4, 5, 7, 8]) (h4 : vs' = [9, 7, 6, 3, 3, 1]) :
    ∃ c c' : E3 ℚ ℚ, (∃ ks, fitCurve false ts vs (fresh ⟨0, 0⟩) = .ok (c, ks)) ∧
      (∃ ks, fitCurve false ts' vs' (fresh ⟨0, 0⟩) = .ok (c', ks)) ∧
      evaluate (9 / 2) c' = evaluate (9 / 2) c := by
  have around : ∀ {X : Type} (a b c d x y z : X), ∀ j, 2 ≤ j + 1 → j ≤ 2 + 2 →
      [x, a, b, c, d][j]? = [y, a, b, c, d, z][j]? := by
    intro X a b c d x y z j h1 h2
    have : j = 1 ∨ j = 2 ∨ j = 3 ∨ j = 4 := by omega
    rcases this with rfl | rfl | rfl | rfl <;> rfl
  have hl : ts.length = vs.length := by rw [h1, h2]; rfl
  have hl' : ts'.length = vs'.length := by rw [h3, h4]; rfl
  have hs : ts.Pairwise (· < ·) := by rw [h1]; norm_num
  have hs' : ts'.Pairwise (· < ·) := by rw [h3]; norm_num
  obtain ⟨c, ks, -, e, -⟩ := fit_fresh false hl hs 0 0 ⟨0, 0⟩
  obtain ⟨c', ks', -, e', -⟩ := fit_fresh false hl' hs' 0 0 ⟨0, 0⟩
  exact ⟨c, c', ⟨ks, e⟩, ⟨ks', e'⟩, (C92_local false hl hl' hs hs' e e' (i := 2) (by simp [h1])
    (by rw [h1, h3]; exact around _ _ _ _ _ _ _) (by rw [h2, h4]; exact around _ _ _ _ _ _ _) (fun _ => rfl) (fun _ => rfl) (9 / 2)
    (by simp [h1]; norm_num) (by simp [h1]; norm_num)).1⟩

/-- The window of C92 cannot be smaller: on the same segment the curve does depend on the points at either
side of it. -/
theorem C92_window_needed :
    (fitCurve false [1, 2, 4, 5, 7] [5, 7, 6, 3, 3] (fresh ⟨0, 0⟩ : E3 ℚ ℚ) >>= fun r => evaluate (9 / 2) r.1) =
      .ok (some (107 / 24)) ∧
    (fitCurve false [1, 2, 4, 5, 7] [5, 8, 6, 3, 3] (fresh ⟨0, 0⟩ : E3 ℚ ℚ) >>= fun r => evaluate (9 / 2) r.1) =
      .ok (some (53 / 12)) ∧
    (fitCurve false [1, 2, 4, 5, 7] [5, 7, 6, 3, 4] (fresh ⟨0, 0⟩ : E3 ℚ ℚ) >>= fun r => evaluate (9 / 2) r.1) =
      .ok (some (53 / 12)) := by
  decide +kernel

/-! ## C93 -/

/-- The value on a segment, by how far the products of slope and duration go. -/
theorem segment_bound {p q u v m M α : K} (h0 : 0 ≤ α) (h1 : α ≤ 1) (hp : m ≤ p ∧ p ≤ M) (hq : m ≤ q ∧ q ≤ M)
    (hu : |u| ≤ M - m) (hv : |v| ≤ M - m) :
    let r := (2 * (α * α * α) - 3 * (α * α) + 1) * p + (-2 * (α * α * α) + 3 * (α * α)) * q +
      (α * α * α - 2 * (α * α) + α) * u + (α * α * α - α * α) * v
    m - (M - m) / 4 ≤ r ∧ r ≤ M + (M - m) / 4 := by
  intro r
  have g0 : 0 ≤ 2 * (α * α * α) - 3 * (α * α) + 1 := by
    have : 2 * (α * α * α) - 3 * (α * α) + 1 = (1 - α) ^ 2 * (1 + 2 * α) := by ring
    rw [this]
    exact mul_nonneg (sq_nonneg _) (by linarith)
  have g1 : 0 ≤ -2 * (α * α * α) + 3 * (α * α) := by
    have : -2 * (α * α * α) + 3 * (α * α) = α ^ 2 * (3 - 2 * α) := by ring
    rw [this]
    exact mul_nonneg (sq_nonneg _) (by linarith)
  have g2 : 0 ≤ α * α * α - 2 * (α * α) + α := by
    have : α * α * α - 2 * (α * α) + α = α * (1 - α) ^ 2 := by ring
    rw [this]
    exact mul_nonneg h0 (sq_nonneg _)
  have g3 : 0 ≤ α * α - α * α * α := by
    have : α * α - α * α * α = α ^ 2 * (1 - α) := by ring
    rw [this]
    exact mul_nonneg (sq_nonneg _) (by linarith)
  have hD : 0 ≤ M - m := (abs_nonneg u).trans hu
  have hq4 : α - α * α ≤ 1 / 4 := by nlinarith [sq_nonneg (α - 1 / 2)]
  have hw := mul_le_mul_of_nonneg_right hq4 hD
  obtain ⟨u1, u2⟩ := abs_le.1 hu
  obtain ⟨v1, v2⟩ := abs_le.1 hv
  have a1 := mul_le_mul_of_nonneg_left hp.1 g0
  have a2 := mul_le_mul_of_nonneg_left hp.2 g0
  have b1 := mul_le_mul_of_nonneg_left hq.1 g1
  have b2 := mul_le_mul_of_nonneg_left hq.2 g1
  have c1 := mul_le_mul_of_nonneg_left u1 g2
  have c2 := mul_le_mul_of_nonneg_left u2 g2
  have d1 := mul_le_mul_of_nonneg_left v1 g3
  have d2 := mul_le_mul_of_nonneg_left v2 g3
  constructor <;> simp only [r] <;> nlinarith

/-- The slope at a knot times the duration of a segment that ends there. -/
theorem slope_bound {t0 t1 h a b m M : K} (ht : t0 < t1) (hh : 0 ≤ h) (hle : h ≤ t1 - t0)
    (ha : m ≤ a ∧ a ≤ M) (hb : m ≤ b ∧ b ≤ M) : |h * (1 / (t1 - t0) * (b - a))| ≤ M - m := by
  have hd : 0 < t1 - t0 := sub_pos.2 ht
  have h1 : h * (1 / (t1 - t0) * (b - a)) = h / (t1 - t0) * (b - a) := by ring
  rw [h1, abs_mul, abs_of_nonneg (div_nonneg hh hd.le)]
  have h2 : h / (t1 - t0) ≤ 1 := (div_le_one hd).2 hle
  have h3 : |b - a| ≤ M - m := abs_le.2 ⟨by linarith, by linarith⟩
  exact (mul_le_mul h2 h3 (abs_nonneg _) zero_le_one).trans (one_mul _).le

/-- **C93 (partial).** Whatever coordinate `f` is looked at: the curve that `fitCurve` makes of the points
stays within the range of their coordinates, widened at either side by a quarter of its width. Missing: the
range itself, see `C93_refuted`. -/
theorem C93_range_partial (debug : Bool) {ts : List K} {vs : List V} (hl : ts.length = vs.length)
    (hinc : ts.Pairwise (· < ·)) {w : World} {c : E3 K V} {ks : List Key}
    (e : fitCurve debug ts vs (fresh w) = .ok (c, ks)) (f : V →ₗ[K] K) {m M : K}
    (hr : ∀ v ∈ vs, m ≤ f v ∧ f v ≤ M) {t : K} {r : V} (et : evaluate t c = .ok (some r)) :
    m - (M - m) / 4 ≤ f r ∧ f r ≤ M + (M - m) / 4 := by
  obtain ⟨c1, k1, cs, e1, f1, l1, s1, n1⟩ := fit_fresh debug hl hinc 0 0 w
  rw [fitCurve, e1] at e; cases e
  have hlen : c.m.nodes.length = ts.length := by
    have := congrArg List.length n1
    simpa [Mgr.knots, l1] using this
  have hlt : ∀ i j (hi : i < ts.length) (hj : j < ts.length), i < j → ts[i] < ts[j] :=
    List.pairwise_iff_getElem.1 hinc
  have hrv : ∀ i (hi : i < vs.length), m ≤ f vs[i] ∧ f vs[i] ≤ M := fun i hi => hr _ (List.getElem_mem hi)
  obtain ⟨x, ex, hx, h⟩ := fitLoop_ok ts vs (0 : V) 0 hl.le ts.length 0 (by omega)
  obtain rfl : x = cs := by rw [ex] at f1; exact Outcome.ok.inj f1
  -- the knot `j`, with a bound for slope times duration
  have hknot : ∀ j (hj : j < ts.length) (k : Knot V), x[j]? = some k → (m ≤ f k.position ∧ f k.position ≤ M) ∧
      ∀ d, 0 ≤ d → (∀ (h1 : j ≠ 0) (h2 : j ≠ ts.length - 1), d ≤ ts[j + 1] - ts[j - 1]) →
        |d * f k.velocity| ≤ M - m := by
    intro j hj k hk
    obtain ⟨k', k1, k2, k3, k4, k5⟩ := h j hj
    rw [List.getElem?_eq_getElem (by omega), k1] at hk
    cases hk
    simp only [Nat.zero_add] at k2 k3 k4 k5
    have hp := hrv j (by omega)
    refine ⟨by rw [k2]; exact hp, fun d hd0 hd => ?_⟩
    by_cases hj0 : j = 0
    · rw [k3 hj0]; simp; linarith
    · by_cases hj1 : j = ts.length - 1
      · rw [k4 hj0 hj1]; simp; linarith
      · rw [k5 hj0 hj1, calculateSlope, map_smul, map_sub, smul_eq_mul]
        have g1 := hlt (j - 1) j (by omega) hj (by omega)
        have g2 := hlt j (j + 1) hj (by omega) (by omega)
        exact slope_bound (g1.trans g2) hd0 (hd hj0 hj1) (hrv _ _) (hrv _ _)
  have ktimes : ∀ j (hj : j < ts.length), (c.m.nodes[j]'(by omega)).time = ts[j] ∧
      x[j]? = some (c.m.nodes[j]'(by omega)).coef := by
    intro j hj
    have := congrArg (fun l => l[j]?) n1
    simp only [Mgr.knots, List.getElem?_map] at this
    rw [List.getElem?_eq_getElem (by omega), List.getElem?_eq_getElem (by simp [l1]; omega),
      List.getElem_zip] at this
    simp only [Option.map_some, Option.some.injEq, Prod.mk.injEq] at this
    refine ⟨this.1, ?_⟩
    rw [List.getElem?_eq_getElem (by omega), this.2]
  rw [evaluate_eq] at et
  rcases evalWith_some s1 et with ⟨n, hn, rfl⟩ | ⟨pre, a, b, post, hm, h0, h1, rfl⟩
  · obtain ⟨j, hj, rfl⟩ := List.getElem_of_mem hn
    obtain ⟨⟨h1, h2⟩, -⟩ := hknot j (by omega) _ (ktimes j (by omega)).2
    constructor <;> linarith
  · have hi : pre.length + 1 < ts.length := by rw [← hlen, hm]; simp
    have hab := neighbours_lt s1 hm
    have hpos : 0 < b.time - a.time := sub_pos.2 hab
    have na : c.m.nodes[pre.length]'(by omega) = a := by simp [hm]
    have nb : c.m.nodes[pre.length + 1]'(by omega) = b := by simp [hm]
    obtain ⟨ta, ca⟩ := ktimes pre.length (by omega)
    obtain ⟨tb, cb⟩ := ktimes (pre.length + 1) hi
    rw [na] at ta ca
    rw [nb] at tb cb
    obtain ⟨pa, va⟩ := hknot pre.length (by omega) _ ca
    obtain ⟨pb, vb⟩ := hknot (pre.length + 1) hi _ cb
    have va := va (b.time - a.time) hpos.le fun h1 h2 => by
      rw [ta, tb]
      have := hlt (pre.length - 1) pre.length (by omega) (by omega) (by omega)
      linarith
    have vb := vb (b.time - a.time) hpos.le fun h1 h2 => by
      rw [ta, tb]
      have := hlt (pre.length + 1) (pre.length + 1 + 1) (by omega) (by omega) (by omega)
      simp only [Nat.add_sub_cancel]
      linarith
    have hα0 : 0 ≤ (t - a.time) / (b.time - a.time) := div_nonneg (sub_nonneg.2 h0) hpos.le
    have hα1 : (t - a.time) / (b.time - a.time) ≤ 1 := (div_le_one hpos).2 (by linarith)
    have key := segment_bound hα0 hα1 pa pb va vb
    simp only [interpolate, map_add, map_smul, smul_eq_mul, mul_assoc] at key ⊢
    exact key

example : (fitCurve false [0, 1, 2] [0, 1, 1] (fresh ⟨0, 0⟩ : E3 ℚ ℚ) >>= fun r => evaluate (3 / 2) r.1) =
      .ok (some (17 / 16)) ∧ ∀ v ∈ [0, 1, (1 : ℚ)], 0 ≤ (LinearMap.id : ℚ →ₗ[ℚ] ℚ) v ∧
        (LinearMap.id : ℚ →ₗ[ℚ] ℚ) v ≤ 1 :=
  ⟨by decide +kernel, by simp⟩

/-- The midpoint of a segment. -/
theorem interpolate_mid {a b : Node K (Knot V)} (h : a.time < b.time) :
    interpolate a b ((a.time + b.time) / 2) = (1 / 2 : K) • (a.coef.position + b.coef.position) +
      ((b.time - a.time) / 8) • (a.coef.velocity - b.coef.velocity) := by
  have h0 : b.time - a.time ≠ 0 := (sub_pos.2 h).ne'
  have hα : ((a.time + b.time) / 2 - a.time) / (b.time - a.time) = 1 / 2 := by
    field_simp
    ring
  simp only [interpolate, hα]
  module

/-- **C93 is false as stated**: whenever two equal points follow a lower one the curve overshoots them,
between the two, whatever the times. -/
theorem C93_refuted (debug : Bool) {t0 t1 t2 p q : K} (h0 : t0 < t1) (h1 : t1 < t2) (hpq : p < q) (w : World) :
    ∃ (c : E3 K K) (ks : List Key) (r : K), fitCurve debug [t0, t1, t2] [p, q, q] (fresh w) = .ok (c, ks) ∧
      evaluate ((t1 + t2) / 2) c = .ok (some r) ∧ q < r := by
  obtain ⟨c, ks, cs, e, f, l, s, n⟩ := fit_fresh debug (ts := [t0, t1, t2]) (vs := [p, q, q]) rfl
    (by simp [h0, h1, h0.trans h1]) 0 0 w
  obtain ⟨pre, a, b, post, hm, ta, tb, ca, cb⟩ := fit_segment n l (i := 1) (by simp)
  obtain rfl : [⟨p, 0⟩, ⟨q, calculateSlope t0 t2 p q⟩, ⟨q, 0⟩] = cs := by
    simpa [fitLoop, knotDerivative] using f
  simp only [List.getElem?_cons_zero, List.getElem?_cons_succ, List.getElem_cons_succ, List.getElem_cons_zero,
    Option.some.injEq] at ca cb ta tb
  refine ⟨c, ks, q + (t2 - t1) / 8 * ((q - p) / (t2 - t0)), e, ?_, ?_⟩
  · have hmid : (t1 + t2) / 2 = (a.time + b.time) / 2 := by rw [ta, tb]
    rw [evaluate_between s hm (by rw [ta]; linarith) (by rw [tb]; linarith), hmid,
      interpolate_mid (by rw [ta, tb]; exact h1), ← ca, ← cb, calculateSlope, ta, tb]
    simp only [smul_eq_mul]
    congr 2
    ring
  · have : 0 < (t2 - t1) / 8 * ((q - p) / (t2 - t0)) :=
      mul_pos (by linarith) (div_pos (by linarith) (by linarith))
    linarith

example : (0 : ℚ) < 1 ∧ (1 : ℚ) < 2 ∧ (0 : ℚ) < 1 := by norm_num

/-- The quarter in `C93_range_partial` cannot be improved: with data in `[0, 1]` the curve goes as close to
`1 + 1 / 4` as one likes. -/
theorem C93_sharp (debug : Bool) {ε : K} (h0 : 0 < ε) (h1 : ε < 1) (w : World) :
    ∃ (c : E3 K K) (ks : List Key), fitCurve debug [0, ε, 1, 1 + ε] [0, 1, 1, 0] (fresh w) = .ok (c, ks) ∧
      evaluate ((ε + 1) / 2) c = .ok (some (1 + (1 - ε) / 4)) := by
  obtain ⟨c, ks, cs, e, f, l, s, n⟩ := fit_fresh debug (ts := [0, ε, 1, 1 + ε]) (vs := [0, 1, 1, 0]) rfl
    (by simp [h0, h1]; linarith) (0 : K) 0 w
  obtain ⟨pre, a, b, post, hm, ta, tb, ca, cb⟩ := fit_segment n l (i := 1) (by simp)
  obtain rfl : [⟨0, 0⟩, ⟨1, calculateSlope (0 : K) 1 0 1⟩, ⟨1, calculateSlope ε (1 + ε) 1 0⟩, ⟨0, 0⟩] = cs := by
    simpa [fitLoop, knotDerivative] using f
  simp only [List.getElem?_cons_zero, List.getElem?_cons_succ, List.getElem_cons_succ, List.getElem_cons_zero,
    Option.some.injEq] at ca cb ta tb
  refine ⟨c, ks, e, ?_⟩
  rw [evaluate_between s hm (by rw [ta]; linarith) (by rw [tb]; linarith)]
  have hmid : (ε + 1) / 2 = (a.time + b.time) / 2 := by rw [ta, tb]
  rw [hmid, interpolate_mid (by rw [ta, tb]; exact h1), ← ca, ← cb, calculateSlope, calculateSlope, ta, tb]
  simp only [smul_eq_mul]
  congr 2
  have : (1 + ε - ε : K) = 1 := by ring
  rw [this]
  ring

example : (0 : ℚ) < 1 / 1000 ∧ (1 / 1000 : ℚ) < 1 := by norm_num

end Verif.Hermite.E3

import Verif.PolyCurve.AccelProps

/-!
# Property C177: the acceleration of a Hermite curve fitted to samples of a smooth motion

The counterpart of C176 for the `CubicHermiteE3Curve`: the acceleration it reports is at most three times that of the motion, times
the ratio of neighbouring distances of the samples. That ratio cannot be left out.
-/

set_option linter.unusedSectionVars false
set_option linter.dupNamespace false

namespace Verif.PolyCurve

open Verif.Spline Verif.Container Verif.Manager

variable {K V : Type} [Field K] [LinearOrder K] [IsStrictOrderedRing K] [AddCommGroup V] [Module K V]

theorem bend_near {D u v x B : K} (x0 : 0 ≤ x) (x1 : x ≤ 1) (hu : |u - D| ≤ B) (hv : |v - D| ≤ B) :
    |6 * (1 - 2 * x) * D + (6 * x - 4) * u + (6 * x - 2) * v| ≤ 6 * B := by
  have hB : 0 ≤ B := (abs_nonneg _).trans hu
  have e : 6 * (1 - 2 * x) * D + (6 * x - 4) * u + (6 * x - 2) * v =
      (1 - x) * (-4 * (u - D) - 2 * (v - D)) + x * (2 * (u - D) + 4 * (v - D)) := by ring
  obtain ⟨u1, u2⟩ := abs_le.1 hu
  obtain ⟨v1, v2⟩ := abs_le.1 hv
  have a : |-4 * (u - D) - 2 * (v - D)| ≤ 6 * B := by rw [abs_le]; constructor <;> linarith
  have b : |2 * (u - D) + 4 * (v - D)| ≤ 6 * B := by rw [abs_le]; constructor <;> linarith
  rw [e]
  refine (abs_add_le _ _).trans ?_
  rw [abs_mul, abs_mul, abs_of_nonneg (sub_nonneg.2 x1), abs_of_nonneg x0]
  nlinarith [mul_le_mul_of_nonneg_left a (sub_nonneg.2 x1), mul_le_mul_of_nonneg_left b x0]

/-- **C177**: a `CubicHermiteE3Curve` fitted to samples of a motion whose acceleration in the coordinate `f` is at most `M`, with the
velocities of the motion at the ends. Between two samples whose distance is at least the `ρ`-th part of the distances before and after,
the acceleration that the curve reports is at most `3 ρ M` in that coordinate. (At a sample the curve reports that of the segment
which begins there.) -/
theorem C177_acceleration (debug : Bool) {ts : List K} (h2 : 2 ≤ ts.length) (hinc : ts.Pairwise (· < ·)) (p : K → V) (d0 dT : V)
    (w : World) :
    ∃ (c : Hermite.E3 K V) (ks : List Key),
      Hermite.E3.fitCurveWithDerivatives debug ts (ts.map p) d0 dT (Hermite.E3.fresh w) = .ok (c, ks) ∧
      ∀ i (hi : i + 1 < ts.length) t, ts[i] ≤ t → t ≤ ts[i + 1] → (t < ts[i + 1] ∨ i + 2 = ts.length) →
        ∃ r, Hermite.E3.evaluateDerivative t 2 c = .ok (some r) ∧
          ∀ (f : V →ₗ[K] K) (v : K → K) (M ρ : K), Smooth M ts[0] ts[ts.length - 1] (fun t => f (p t)) v →
            (i = 0 → f d0 = v ts[0]) → (i + 2 = ts.length → f dT = v ts[ts.length - 1]) → 1 ≤ ρ →
            (∀ j (hj : j + 1 < ts.length), j + 1 = i ∨ j = i + 1 → ts[j + 1] - ts[j] ≤ ρ * (ts[i + 1] - ts[i])) →
            |f r| ≤ 3 * ρ * M := by
  obtain ⟨c, ks, m, e, hs, hmem, m0, mT, hin, hn⟩ := e3_nodes debug (vs := ts.map p) h2 (by simp) hinc d0 dT w
  refine ⟨c, ks, e, fun i hi t h0 h1 hlast => ?_⟩
  obtain ⟨pre, a, b, post, hm, ta, tb, ca, cb⟩ := hn i hi
  have eg : c.m.getCoefficientsAt t = some (a, b) := by
    rcases getAt_between hs hm (t := t) (by rw [ta]; exact h0) (by rw [tb]; exact h1) with h | ⟨x, hx, rfl, hlt, -⟩
    · exact h
    · exfalso
      rcases hlast with h | h
      · rw [tb] at h; exact lt_irrefl _ h
      · obtain ⟨j, hj, ej⟩ := List.getElem_of_mem (hmem x (by rw [hm]; simp [List.mem_of_mem_head? hx]))
        rw [tb, ← ej] at hlt
        rcases Nat.lt_or_ge j (i + 1) with hj' | hj'
        · exact absurd (List.pairwise_iff_getElem.1 hinc j (i + 1) hj hi hj') (not_lt.2 hlt.le)
        · obtain rfl : j = i + 1 := by omega
          exact lt_irrefl _ hlt
  refine ⟨Hermite.E3.interpolateAcceleration a b t, by
    rw [Hermite.E3.evaluateDerivative, if_neg (by norm_num), if_pos rfl, Hermite.E3.evaluateLinearAcceleration, eg], ?_⟩
  intro f v M ρ hS g0 gT hρ hh
  have lt : ∀ i (hi : i + 1 < ts.length), ts[i] < ts[i + 1] := fun i hi =>
    List.pairwise_iff_getElem.1 hinc i (i + 1) (by omega) hi (by omega)
  have mono : ∀ i j (hj : j < ts.length) (hij : i ≤ j), ts[i] ≤ ts[j] := fun i j hj hij => getElem_mono hinc hj hij
  have hd : 0 < ts[i + 1] - ts[i] := sub_pos.2 (lt i hi)
  have hab : a.time < b.time := by rw [ta, tb]; exact lt i hi
  have hM : 0 ≤ M := hS.nonneg ((lt 0 (by omega)).trans_le (mono 1 _ (by omega) (by omega)))
  have hi1 : Smooth M ts[i] ts[i + 1] (fun t => f (p t)) v :=
    hS.mono (mono 0 i (by omega) (by omega)) (mono (i + 1) _ (by omega) (by omega))
  have X0 : 0 ≤ (t - ts[i]) / (ts[i + 1] - ts[i]) := div_nonneg (sub_nonneg.2 h0) hd.le
  have X1 : (t - ts[i]) / (ts[i + 1] - ts[i]) ≤ 1 := (div_le_one hd).2 (by linarith)
  have own : ts[i + 1] - ts[i] ≤ ρ * (ts[i + 1] - ts[i]) := le_mul_of_one_le_left hd.le hρ
  have grow : ∀ x : K, x ≤ ρ * (ts[i + 1] - ts[i]) →
      M / 2 * x * (ts[i + 1] - ts[i]) ≤ M / 2 * (ρ * (ts[i + 1] - ts[i])) * (ts[i + 1] - ts[i]) := fun x hx =>
    mul_le_mul_of_nonneg_right (mul_le_mul_of_nonneg_left hx (by linarith)) hd.le
  -- both slopes are near the mean slope
  have hl : |(ts[i + 1] - ts[i]) * f (m i) - (f (p ts[i + 1]) - f (p ts[i]))| ≤
      M / 2 * (ρ * (ts[i + 1] - ts[i])) * (ts[i + 1] - ts[i]) := by
    rcases i with _ | i
    · rw [m0, g0 rfl, abs_sub_comm]
      refine (hi1.slope (lt 0 hi) le_rfl (lt 0 hi).le).trans ?_
      refine le_trans (le_of_eq ?_) (grow _ own)
      ring
    · have hc := (Smooth.central (hS.mono (mono 0 i (by omega) (by omega)) (mono (i + 2) _ (by omega) (by omega)))
        (lt i (by omega)) (lt (i + 1) hi)).1
      rw [hin i (by omega), map_smul, map_sub, smul_eq_mul]
      simp only [List.getElem_map]
      exact hc.trans (grow _ (hh i (by omega) (Or.inl rfl)))
  have hr : |(ts[i + 1] - ts[i]) * f (m (i + 1)) - (f (p ts[i + 1]) - f (p ts[i]))| ≤
      M / 2 * (ρ * (ts[i + 1] - ts[i])) * (ts[i + 1] - ts[i]) := by
    by_cases hl : i + 1 = ts.length - 1
    · have e1 : f (m (i + 1)) = v ts[i + 1] := by
        simp only [hl, mT, gT (by omega)]
      rw [e1, abs_sub_comm]
      refine (hi1.slope (lt i hi) (lt i hi).le le_rfl).trans ?_
      refine le_trans (le_of_eq ?_) (grow _ own)
      ring
    · have hc := (Smooth.central (hS.mono (mono 0 i (by omega) (by omega)) (mono (i + 2) _ (by omega) (by omega)))
        (lt i (by omega)) (lt (i + 1) (by omega))).2
      rw [hin i (by omega), map_smul, map_sub, smul_eq_mul]
      simp only [List.getElem_map]
      exact hc.trans (grow _ (hh (i + 1) (by omega) (Or.inr rfl)))
  have hv := acceleration_bend f hab t
  rw [ta, tb, ca, cb] at hv
  simp only [List.getElem_map] at hv
  have := bend_near X0 X1 hl hr
  rw [← hv, abs_mul, abs_of_pos (pow_pos hd 2)] at this
  refine le_of_mul_le_mul_left (this.trans (le_of_eq ?_)) (pow_pos hd 2)
  ring

/-- **C177**, the ratio cannot be left out: a stone falls with the acceleration 1 (it has fallen `t²/2` at time `t`). Sampled at the
times 0, N, N + 1 and N + 2, the curve reports the acceleration `2 N - 1` at time `N`. -/
theorem C177_uneven_refuted (debug : Bool) (w : World) {N : K} (hN : 0 < N) :
    ∃ (c : Hermite.E3 K K) (ks : List Key),
      Hermite.E3.fitCurveWithDerivatives debug [0, N, N + 1, N + 2] ([0, N, N + 1, N + 2].map fun t => t ^ 2 / 2) 0 (N + 2)
        (Hermite.E3.fresh w) = .ok (c, ks) ∧
      Hermite.E3.evaluateDerivative N 2 c = .ok (some (2 * N - 1)) := by
  obtain ⟨c, ks, m, e, hs, -, -, -, hin, hn⟩ := e3_nodes debug (ts := [0, N, N + 1, N + 2])
    (vs := [0, N, N + 1, N + 2].map fun t => t ^ 2 / 2) (by simp) (by simp) (by
      simp only [List.pairwise_cons, List.mem_cons, List.not_mem_nil, or_false, forall_eq_or_imp, forall_eq, false_imp_iff,
        implies_true, List.Pairwise.nil, and_true]
      refine ⟨⟨?_, ?_, ?_⟩, ⟨?_, ?_⟩, ?_⟩ <;> linarith) 0 (N + 2) w
  obtain ⟨pre, x, y, post, hm, tx, ty, cx, cy⟩ := hn 1 (by simp)
  have m1 := hin 0 (by simp)
  have m2 := hin 1 (by simp)
  simp only [zero_add, Nat.reduceAdd, List.map_cons, List.map_nil, List.getElem_cons_zero, List.getElem_cons_succ, smul_eq_mul]
    at tx ty cx cy m1 m2
  rw [m1] at cx
  rw [m2] at cy
  refine ⟨c, ks, e, ?_⟩
  rw [Hermite.E3.evaluateDerivative, if_neg (by norm_num), if_pos rfl,
    Hermite.E3.acceleration_between hs hm (by rw [tx]) (by rw [ty]; linarith)]
  simp only [Hermite.E3.interpolateAcceleration, tx, ty, cx, cy, smul_eq_mul, Outcome.ok.injEq, Option.some.injEq]
  have e1 : N + 1 - N = 1 := by ring
  have e2 : N + 2 - N = 2 := by ring
  have e3 : N + 1 - 0 ≠ 0 := by rw [sub_zero]; positivity
  rw [e1, e2, sub_self]
  rw [sub_zero] at *
  field_simp
  ring

/-- A falling stone, sampled at the times 0, 1 and 3: between 1 and 3 the acceleration is at most 6. -/
example (w : World) : ∃ (c : Hermite.E3 ℚ ℚ) (ks : List Key),
    Hermite.E3.fitCurveWithDerivatives true [0, 1, 3] [0, 1, 9] 0 6 (Hermite.E3.fresh w) = .ok (c, ks) ∧
    ∀ t, 1 ≤ t → t ≤ 3 → ∃ r, Hermite.E3.evaluateDerivative t 2 c = .ok (some r) ∧ |r| ≤ 6 := by
  obtain ⟨c, ks, e, h⟩ := C177_acceleration true (ts := [(0 : ℚ), 1, 3]) (by simp) (by norm_num) (fun t => t ^ 2) 0 6 w
  refine ⟨c, ks, by norm_num at e; exact e, fun t h0 h1 => ?_⟩
  obtain ⟨r, er, x⟩ := h 1 (by simp) t h0 h1 (Or.inr rfl)
  have := x LinearMap.id (fun t => 2 * t) 2 1 (by
    intro s t _ _ _ _
    rw [abs_le]
    simp only [LinearMap.id_apply]
    constructor <;> nlinarith [sq_nonneg (t - s)]) (by simp) (by norm_num) le_rfl (by
    intro j hj hji
    simp only [List.length_cons, List.length_nil, zero_add, Nat.reduceAdd] at hj
    obtain rfl : j = 0 := by omega
    norm_num)
  simp only [LinearMap.id_apply] at this
  exact ⟨r, er, this.trans (by norm_num)⟩

end Verif.PolyCurve

import Verif.Hermite.RestProps
import Verif.PolyCurve.MotionProps
import Verif.Rounding.Props

/-!
# Property C165: from one point to another, the polynomial curves, and what double makes of it
-/

set_option linter.unusedSectionVars false
set_option linter.dupNamespace false

namespace Verif.PolyCurve

open Verif.Spline Verif.Container Polynomial

variable {K : Type} [Field K] [LinearOrder K] [IsStrictOrderedRing K]

/-- Specification: the part of the way covered after the part `x` of the time, quintic. -/
def ease5 {K : Type} [Field K] (x : K) : K := 10 * x ^ 3 - 15 * x ^ 4 + 6 * x ^ 5

/-- **C165**, the quintic way: it starts at 0, ends at 1, is half done at half time, and always moves forward. -/
theorem C165_ease5 : ease5 (0 : K) = 0 ∧ ease5 (1 : K) = 1 ∧ (∀ x : K, ease5 (1 - x) = 1 - ease5 x) ∧
    (∀ x y : K, 0 ≤ x → x < y → y ≤ 1 → ease5 x < ease5 y) ∧ ∀ x : K, 0 ≤ x → x ≤ 1 → 0 ≤ ease5 x ∧ ease5 x ≤ 1 := by
  have hm : ∀ x y : K, 0 ≤ x → x < y → y ≤ 1 → ease5 x < ease5 y := by
    intro x y h0 h h1
    have a : 0 < y - x := by linarith
    have b : 0 ≤ x * (1 - x) := mul_nonneg h0 (by linarith)
    have c : 0 ≤ y * (1 - y) := mul_nonneg (by linarith) (by linarith)
    have : ease5 y - ease5 x = (y - x) * ((y - x) ^ 4 + 5 * (y - x) ^ 2 * (x * (1 - x) + y * (1 - y)) +
        10 * ((x * (1 - x)) ^ 2 + x * (1 - x) * (y * (1 - y)) + (y * (1 - y)) ^ 2)) := by
      simp only [ease5]; ring
    have h2 : 0 < (y - x) ^ 4 := by positivity
    have h3 : 0 ≤ 5 * (y - x) ^ 2 * (x * (1 - x) + y * (1 - y)) := by positivity
    have h4 : 0 ≤ 10 * ((x * (1 - x)) ^ 2 + x * (1 - x) * (y * (1 - y)) + (y * (1 - y)) ^ 2) := by positivity
    have := mul_pos a (show 0 < (y - x) ^ 4 + 5 * (y - x) ^ 2 * (x * (1 - x) + y * (1 - y)) +
        10 * ((x * (1 - x)) ^ 2 + x * (1 - x) * (y * (1 - y)) + (y * (1 - y)) ^ 2) by linarith)
    linarith
  have e0 : ease5 (0 : K) = 0 := by simp [ease5]
  have e1 : ease5 (1 : K) = 1 := by norm_num [ease5]
  refine ⟨e0, e1, fun x => by simp only [ease5]; ring, hm, fun x h0 h1 => ⟨?_, ?_⟩⟩
  · rcases h0.lt_or_eq with h | rfl
    · rw [← e0]; exact (hm 0 x le_rfl h h1).le
    · rw [e0]
  · rcases h1.lt_or_eq with h | rfl
    · rw [← e1]; exact (hm x 1 h0 h le_rfl).le
    · rw [e1]

/-- A motion from rest to rest along `h` satisfies what the fit determines. -/
theorem rest_poly (S : Solver K) {o : Order} (ho : o = .o3 ∨ o = .o5) (h : K[X]) (hd : h.natDegree ≤ o.deg)
    (h0 : h.eval 0 = 0) (h1 : h.eval 1 = 1) (d0 : h.derivative.eval 0 = 0) (d1 : h.derivative.eval 1 = 0)
    (e0 : o = .o5 → h.derivative.derivative.eval 0 = 0) (e1 : o = .o5 → h.derivative.derivative.eval 1 = 0)
    {t0 t1 : K} (ht : t0 < t1) (p q : K) (c : ScalarCurve o K) :
    ∃ c', c.fitCurve S [t0, t1] [p, q] = .ok c' ∧ c'.getMinTime = t0 ∧ c'.getMaxTime = t1 ∧
      ∀ t x, t0 ≤ t → t ≤ t1 → x = (t - t0) / (t1 - t0) →
        c'.evaluate t = .ok (p + (q - p) * h.eval x) ∧
        c'.evaluateDerivative t 1 = .ok (some ((q - p) / (t1 - t0) * h.derivative.eval x)) ∧
        c'.evaluateDerivative t 2 = .ok (some ((q - p) / (t1 - t0) ^ 2 * h.derivative.derivative.eval x)) := by
  have hinc : [t0, t1].Pairwise (· < ·) := by simpa using ht
  have hne : t1 - t0 ≠ 0 := (sub_pos.2 ht).ne'
  obtain ⟨c', e, m1, m2, -⟩ := C30_domain_and_interpolation S [t0, t1] [p, q] (by simp) (by norm_num) rfl hinc
    0 0 0 0 c _ (Or.inr rfl)
  obtain ⟨d, f1, f2, -⟩ := fitCurveWith_through S [t0, t1] [p, q] (by simp) (by norm_num) rfl hinc 0 0 0 0 c
  rw [ScalarCurve.fitCurve, f1] at e
  cases e
  let l : K[X] := C (t1 - t0)⁻¹ * (X - C t0)
  let P : K[X] := C p + C (q - p) * h.comp l
  have hl : ∀ t, l.eval t = (t - t0) / (t1 - t0) := by
    intro t; simp only [l, eval_mul, eval_C, eval_sub, eval_X]; field_simp
  have hl' : l.derivative = C (t1 - t0)⁻¹ := by
    simp [l]
  have hP : ∀ t, P.eval t = p + (q - p) * h.eval ((t - t0) / (t1 - t0)) := by
    intro t; simp only [P, eval_add, eval_mul, eval_C, eval_comp, hl]
  have hP1 : ∀ t, P.derivative.eval t = (q - p) / (t1 - t0) * h.derivative.eval ((t - t0) / (t1 - t0)) := by
    intro t
    simp only [P, derivative_add, derivative_C, derivative_mul, derivative_comp, hl', eval_mul, eval_C, eval_comp,
      hl, zero_mul, zero_add]
    field_simp
  have hP2 : ∀ t, P.derivative.derivative.eval t =
      (q - p) / (t1 - t0) ^ 2 * h.derivative.derivative.eval ((t - t0) / (t1 - t0)) := by
    intro t
    simp only [P, derivative_add, derivative_C, derivative_mul, derivative_comp, hl', eval_mul, eval_C, eval_comp,
      hl, zero_mul, zero_add]
    field_simp
  have hdeg : P.natDegree ≤ o.deg := by
    have hl1 : l.natDegree ≤ 1 := by
      refine (natDegree_C_mul_le _ _).trans ?_
      rw [natDegree_X_sub_C]
    refine natDegree_add_le_of_degree_le (by simp) ((natDegree_C_mul_le _ _).trans ?_)
    rw [natDegree_comp]
    calc _ ≤ h.natDegree * 1 := Nat.mul_le_mul_left _ hl1
      _ ≤ _ := by omega
  have z0 : (t0 - t0) / (t1 - t0) = 0 := by simp
  have z1 : (t1 - t0) / (t1 - t0) = 1 := div_self hne
  have v1 : [t0, t1].map P.eval = [p, q] := by
    simp only [List.map_cons, List.map_nil, hP, z0, z1, h0, h1]
    simp
  have key : Container.setDataAcc S [t0, t1] [p, q] 0 0 0 0 c.container = .ok (true, d) ∧
      ∃ d', Container.setDataAcc S [t0, t1] [p, q] 0 0 0 0 c.container = .ok (true, d') ∧ ∀ t, t0 ≤ t → t ≤ t1 →
      d'.getPositionAtTime (t - t0) = .ok (P.eval t) ∧
      d'.getVelocityAtTime (t - t0) = .ok (P.derivative.eval t) ∧
      d'.getAccelerationAtTime (t - t0) = .ok (P.derivative.derivative.eval t) := by
    refine ⟨f2, ?_⟩
    have := Container.C135_reproduces_partial S P hdeg [t0, t1] (by simp) (by norm_num) hinc
      (by rcases ho with r | r
          · exact Or.inl r
          · exact Or.inr (Or.inr ⟨r, rfl⟩)) c.container (Container.setDataAcc S [t0, t1] [p, q] 0 0 0 0 c.container) ?_
    · simpa using this
    · simp only [v1, List.getElem_cons_zero, List.length_cons, List.length_nil, List.getElem_cons_succ, hP1, hP2, z0, z1,
        d0, d1, mul_zero, Nat.reduceAdd, Nat.add_one_sub_one]
      rcases ho with r | r
      · exact Or.inr ⟨r, ((Container.C23_choice S [t0, t1] [p, q] (by simp) (by norm_num) 0 0 0 0 c.container).2.1 (.inl r)).2⟩
      · rw [e0 r, e1 r, mul_zero]
        exact Or.inl rfl
  obtain ⟨-, d', g1, g⟩ := key
  rw [f2] at g1
  cases g1
  refine ⟨_, f1, m1, by simpa using m2, fun t x a b hx => ?_⟩
  obtain ⟨r1, r2, r3⟩ := g t a b
  rw [hP] at r1
  rw [hP1] at r2
  rw [hP2] at r3
  rw [hx]
  refine ⟨r1, ?_, ?_⟩
  · simp only [List.getElem_cons_zero, ScalarCurve.evaluateDerivative, r2]
    simp
  · simp only [List.getElem_cons_zero, ScalarCurve.evaluateDerivative, r3]
    simp

/-- **C165**, `PolynomialSplineScalarCurve` of order 3: `fitCurve` of two values goes from one to the other along the
cubic way of the Hermite curves. -/
theorem C165_cubic (S : Solver K) {t0 t1 : K} (ht : t0 < t1) (p q : K) (c : ScalarCurve .o3 K) :
    ∃ c', c.fitCurve S [t0, t1] [p, q] = .ok c' ∧ ∀ t x, t0 ≤ t → t ≤ t1 → x = (t - t0) / (t1 - t0) →
      c'.evaluate t = .ok (p + (q - p) * Hermite.ease x) ∧
      c'.evaluateDerivative t 1 = .ok (some ((q - p) / (t1 - t0) * (6 * x * (1 - x)))) ∧
      c'.evaluateDerivative t 2 = .ok (some ((q - p) / (t1 - t0) ^ 2 * (6 * (1 - 2 * x)))) := by
  have h0 : ∀ x, (C 3 * X ^ 2 - C 2 * X ^ 3 : K[X]).eval x = Hermite.ease x := by
    intro x; simp [Hermite.ease]
  have h1 : ∀ x, (C 3 * X ^ 2 - C 2 * X ^ 3 : K[X]).derivative.eval x = 6 * x * (1 - x) := by
    intro x; simp; ring
  have h2 : ∀ x, (C 3 * X ^ 2 - C 2 * X ^ 3 : K[X]).derivative.derivative.eval x = 6 * (1 - 2 * x) := by
    intro x; simp; ring
  obtain ⟨c', e, -, -, g⟩ := rest_poly S (Or.inl rfl) (C 3 * X ^ 2 - C 2 * X ^ 3) (by simp only [Order.deg]; compute_degree)
    (by rw [h0]; simp [Hermite.ease]) (by rw [h0]; norm_num [Hermite.ease]) (by rw [h1]; simp) (by rw [h1]; simp)
    (by simp) (by simp) ht p q c
  refine ⟨c', e, fun t x a b hx => ?_⟩
  have := g t x a b hx
  rwa [h0, h1, h2] at this

/-- **C165**, `PolynomialSplineScalarCurve` of order 5: `fitCurve` of two values goes from one to the other along the
quintic way, which also has no acceleration at either end. -/
theorem C165_quintic (S : Solver K) {t0 t1 : K} (ht : t0 < t1) (p q : K) (c : ScalarCurve .o5 K) :
    ∃ c', c.fitCurve S [t0, t1] [p, q] = .ok c' ∧ ∀ t x, t0 ≤ t → t ≤ t1 → x = (t - t0) / (t1 - t0) →
      c'.evaluate t = .ok (p + (q - p) * ease5 x) ∧
      c'.evaluateDerivative t 1 = .ok (some ((q - p) / (t1 - t0) * (30 * x ^ 2 * (1 - x) ^ 2))) ∧
      c'.evaluateDerivative t 2 = .ok (some ((q - p) / (t1 - t0) ^ 2 * (60 * x * (1 - x) * (1 - 2 * x)))) := by
  have h0 : ∀ x, (C 10 * X ^ 3 - C 15 * X ^ 4 + C 6 * X ^ 5 : K[X]).eval x = ease5 x := by
    intro x; simp [ease5]
  have h1 : ∀ x, (C 10 * X ^ 3 - C 15 * X ^ 4 + C 6 * X ^ 5 : K[X]).derivative.eval x = 30 * x ^ 2 * (1 - x) ^ 2 := by
    intro x; simp; ring
  have h2 : ∀ x, (C 10 * X ^ 3 - C 15 * X ^ 4 + C 6 * X ^ 5 : K[X]).derivative.derivative.eval x =
      60 * x * (1 - x) * (1 - 2 * x) := by
    intro x; simp; ring
  obtain ⟨c', e, -, -, g⟩ := rest_poly S (Or.inr rfl) (C 10 * X ^ 3 - C 15 * X ^ 4 + C 6 * X ^ 5)
    (by simp only [Order.deg]; compute_degree)
    (by rw [h0]; simp [ease5]) (by rw [h0]; norm_num [ease5]) (by rw [h1]; simp) (by rw [h1]; simp)
    (by intro; rw [h2]; simp) (by intro; rw [h2]; simp) ht p q c
  refine ⟨c', e, fun t x a b hx => ?_⟩
  have := g t x a b hx
  rwa [h0, h1, h2] at this

/-- **C165**, `PolynomialSplineVectorSpaceCurve`: straight from one point to the other along the quintic way; its times
are counted from the first one (C33). -/
theorem C165_vector {N : ℕ} (S : Solver K) {t0 t1 : K} (ht : t0 < t1) (p q : Fin N → K) (c : VectorCurve N K) :
    ∃ c', c.fitCurve S [t0, t1] [p, q] = .ok c' ∧ ∀ t x, t0 ≤ t → t ≤ t1 → x = (t - t0) / (t1 - t0) → ∀ i,
      c'.evaluate (t - t0) i = .ok ((p + ease5 x • (q - p)) i) ∧
      c'.evaluateDerivative (t - t0) 1 i = .ok (some (((30 * x ^ 2 * (1 - x) ^ 2 / (t1 - t0)) • (q - p)) i)) ∧
      c'.evaluateDerivative (t - t0) 2 i =
        .ok (some (((60 * x * (1 - x) * (1 - 2 * x) / (t1 - t0) ^ 2) • (q - p)) i)) := by
  obtain ⟨c', e, h⟩ := C71_vector_is_scalar S [t0, t1] [p, q] (by simp) (by norm_num) rfl (by simpa using ht)
    (fun _ => 0) (fun _ => 0) (fun _ => 0) (fun _ => 0) c
  refine ⟨c', e, fun t x a b hx i => ?_⟩
  obtain ⟨s, e1, h1⟩ := h i
  obtain ⟨s', e2, h2⟩ := C165_quintic S ht (p i) (q i) ScalarCurve.fresh
  rw [ScalarCurve.fitCurve] at e2
  simp only [List.map_cons, List.map_nil] at e1
  rw [e1] at e2
  cases e2
  obtain ⟨g1, g2⟩ := h1 (t - t0)
  simp only [List.getElem_cons_zero, sub_add_cancel] at g1 g2
  obtain ⟨k0, k1, k2⟩ := h2 t x a b hx
  rw [g1, g2, g2, k0, k1, k2]
  simp only [Pi.add_apply, Pi.smul_apply, Pi.sub_apply, smul_eq_mul]
  refine ⟨?_, ?_, ?_⟩ <;> congr 1
  · ring
  · congr 1; ring
  · congr 1; ring

/-- **C165**, both orders: from a smaller value to a larger one the curve grows all the time, so it stays between the two. -/
theorem C165_monotone (S : Solver K) {o : Order} (ho : o = .o3 ∨ o = .o5) {t0 t1 : K} (ht : t0 < t1) {p q : K} (hpq : p < q)
    (c : ScalarCurve o K) :
    ∃ (c' : ScalarCurve o K) (f : K → K), c.fitCurve S [t0, t1] [p, q] = .ok c' ∧ f t0 = p ∧ f t1 = q ∧
      (∀ t, t0 ≤ t → t ≤ t1 → c'.evaluate t = .ok (f t)) ∧ ∀ s t, t0 ≤ s → s < t → t ≤ t1 → f s < f t := by
  have hT : 0 < t1 - t0 := sub_pos.2 ht
  have z1 : (t1 - t0) / (t1 - t0) = 1 := div_self hT.ne'
  have hx : ∀ s t, t0 ≤ s → s < t → t ≤ t1 → 0 ≤ (s - t0) / (t1 - t0) ∧
      (s - t0) / (t1 - t0) < (t - t0) / (t1 - t0) ∧ (t - t0) / (t1 - t0) ≤ 1 := fun s t a b e =>
    ⟨div_nonneg (by linarith) hT.le, div_lt_div_of_pos_right (by linarith) hT, (div_le_one hT).2 (by linarith)⟩
  have hf : ∀ g : K → K, (g 0 = 0 ∧ g 1 = 1 ∧ ∀ x y : K, 0 ≤ x → x < y → y ≤ 1 → g x < g y) →
      (p + (q - p) * g ((t0 - t0) / (t1 - t0)) = p ∧ p + (q - p) * g ((t1 - t0) / (t1 - t0)) = q) ∧
      ∀ s t, t0 ≤ s → s < t → t ≤ t1 →
        p + (q - p) * g ((s - t0) / (t1 - t0)) < p + (q - p) * g ((t - t0) / (t1 - t0)) := by
    rintro g ⟨g0, g1, gm⟩
    refine ⟨⟨by simp [g0], by rw [z1, g1]; ring⟩, fun s t a b e => ?_⟩
    obtain ⟨i, j, k⟩ := hx s t a b e
    have := mul_lt_mul_of_pos_left (gm _ _ i j k) (sub_pos.2 hpq)
    linarith
  rcases ho with rfl | rfl
  · obtain ⟨c', e, g⟩ := C165_cubic S ht p q c
    obtain ⟨a0, a1, -, am, -⟩ := Hermite.C165_ease (K := K)
    obtain ⟨⟨b0, b1⟩, b2⟩ := hf Hermite.ease ⟨a0, a1, am⟩
    exact ⟨c', fun t => p + (q - p) * Hermite.ease ((t - t0) / (t1 - t0)), e, b0, b1, fun t a b => (g t _ a b rfl).1, b2⟩
  · obtain ⟨c', e, g⟩ := C165_quintic S ht p q c
    obtain ⟨a0, a1, -, am, -⟩ := C165_ease5 (K := K)
    obtain ⟨⟨b0, b1⟩, b2⟩ := hf ease5 ⟨a0, a1, am⟩
    exact ⟨c', fun t => p + (q - p) * ease5 ((t - t0) / (t1 - t0)), e, b0, b1, fun t a b => (g t _ a b rfl).1, b2⟩

/-- An instance: from 2 to 10 in four seconds with the quintic curve. -/
example (S : Solver ℚ) : ∃ c' : ScalarCurve .o5 ℚ, ScalarCurve.fresh.fitCurve S [1, 5] [2, 10] = .ok c' ∧
    c'.evaluate 2 = .ok (181 / 64) := by
  obtain ⟨c', e, g⟩ := C165_quintic S (show (1 : ℚ) < 5 by norm_num) 2 10 ScalarCurve.fresh
  refine ⟨c', e, ?_⟩
  rw [(g 2 _ (by norm_num) (by norm_num) rfl).1]
  norm_num [ease5]

/-- **C165 does not hold in double**: the Hermite curve from 5 to 6 over `[0, 1]` first goes below 5, already at
`5 / 2 ^ 30`. -/
theorem C165_refuted : (Rounding.interpolate (Rounding.double ℚ) ⟨0, 0, 0, ⟨fun _ => 5, fun _ => 0⟩⟩
    ⟨1, 1, 1, ⟨fun _ => 6, fun _ => 0⟩⟩ (5 / 2 ^ 30)) 0 < 5 := by
  decide +kernel

end Verif.PolyCurve

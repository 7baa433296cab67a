import Verif.PolyCurve.MoreProps
import Verif.Container.ReproduceProps
import Verif.Accuracy.ContainerProps

/-!
# C140: the curve classes fitted to samples of a motion

What C113 and C135 say of containers, for the classes a program uses, at the times of the motion; and what
the overload `fitCurve(times, values)`, which has no derivatives to pass on, makes of the same samples.
-/

set_option linter.unusedSectionVars false
set_option linter.dupNamespace false

namespace Verif.PolyCurve

open Verif.Spline Verif.Container Polynomial Set

variable {K : Type} [Field K] [LinearOrder K] [IsStrictOrderedRing K] {o : Order} {N : ℕ}

/-- **C140 (partial).** A polynomial motion `p` of at most the degree of the splines, sampled at the times
`ts` and fitted together with its derivatives at both ends, is reproduced by the scalar curve: value and
both derivatives at every time of the domain. For order 3 with any number of samples, order 4 with three,
order 5 with two. Missing: the other cases, where it is false (C135), and the overload without derivatives,
see `C140_refuted`. -/
theorem C140_reproduces_partial (S : Solver K) (p : K[X]) (hp : p.natDegree ≤ o.deg) (ts : List K)
    (h2 : 2 ≤ ts.length) (hb : ts.length ≤ 2 ^ 28) (hinc : ts.Pairwise (· < ·))
    (ho : o = .o3 ∨ o = .o4 ∧ ts.length = 3 ∨ o = .o5 ∧ ts.length = 2) (c : ScalarCurve o K) :
    ∃ c', c.fitCurveWith S ts (ts.map p.eval) (p.derivative.eval ts[0]) (p.derivative.derivative.eval ts[0])
        (p.derivative.eval ts[ts.length - 1]) (p.derivative.derivative.eval ts[ts.length - 1]) = .ok c' ∧
      ∀ t, c'.getMinTime ≤ t → t ≤ c'.getMaxTime → c'.evaluate t = .ok (p.eval t) ∧
        c'.evaluateDerivative t 1 = .ok (some (p.derivative.eval t)) ∧
        c'.evaluateDerivative t 2 = .ok (some (p.derivative.derivative.eval t)) := by
  obtain ⟨c', e, m1, m2, -⟩ := C30_domain_and_interpolation S ts (ts.map p.eval) h2 hb (by simp) hinc
    (p.derivative.eval ts[0]) (p.derivative.derivative.eval ts[0]) (p.derivative.eval ts[ts.length - 1])
    (p.derivative.derivative.eval ts[ts.length - 1]) c _ (Or.inl rfl)
  obtain ⟨d, e1, e2, -⟩ := fitCurveWith_through S ts (ts.map p.eval) h2 hb (by simp) hinc
    (p.derivative.eval ts[0]) (p.derivative.derivative.eval ts[0]) (p.derivative.eval ts[ts.length - 1])
    (p.derivative.derivative.eval ts[ts.length - 1]) c
  obtain ⟨d', e3, h⟩ := C135_reproduces_partial S p hp ts h2 hb hinc ho c.container _ (Or.inl rfl)
  rw [e1] at e
  cases e
  rw [e2] at e3
  cases e3
  refine ⟨_, e1, fun t h0 hT => ?_⟩
  rw [m1] at h0
  rw [m2] at hT
  obtain ⟨a, b, g⟩ := h t h0 hT
  refine ⟨a, ?_, ?_⟩
  · simp [ScalarCurve.evaluateDerivative, b]
  · simp [ScalarCurve.evaluateDerivative, g]

/-- **C140 (partial)**, any motion: the scalar curve of order 3, fitted to samples of a motion `g 0` with
velocity `g 1` and square-integrable acceleration `g 2` and to its velocities at both ends, is close to the
motion at every time, by bounds that go to zero with the distance of the samples. -/
theorem C140_near_partial (S : Solver ℝ) (ts : List ℝ) (h2 : 2 ≤ ts.length) (hb : ts.length ≤ 2 ^ 28)
    (hinc : ts.Pairwise (· < ·)) (a0 aT : ℝ) (c : ScalarCurve .o3 ℝ) (g : ℕ → ℝ → ℝ)
    (hg : Energy.Motion 2 ts[0] ts[ts.length - 1] g) :
    ∃ c', c.fitCurveWith S ts (ts.map (g 0)) (g 1 ts[0]) a0 (g 1 ts[ts.length - 1]) aT = .ok c' ∧
      ∀ (i : ℕ) (hi : i + 1 < ts.length), ∀ t ∈ Icc ts[i] ts[i + 1],
        ∃ p q, c'.evaluate t = .ok p ∧ c'.evaluateDerivative t 1 = .ok (some q) ∧
          (p - g 0 t) ^ 2 ≤ (ts[i + 1] - ts[i]) ^ 3 / 4 * ∫ u in ts[0]..ts[ts.length - 1], g 2 u ^ 2 ∧
          (q - g 1 t) ^ 2 ≤ (ts[i + 1] - ts[i]) * ∫ u in ts[0]..ts[ts.length - 1], g 2 u ^ 2 := by
  obtain ⟨d, e1, e2, -⟩ := fitCurveWith_through S ts (ts.map (g 0)) h2 hb (by simp) hinc
    (g 1 ts[0]) a0 (g 1 ts[ts.length - 1]) aT c
  obtain ⟨d', e3, h⟩ := Accuracy.C113_cubic S ts h2 hb hinc a0 aT c.container _ g hg (Or.inr rfl)
  rw [e2] at e3
  cases e3
  refine ⟨_, e1, fun i hi t ht => ?_⟩
  obtain ⟨p, q, a, b, g1, g2⟩ := h i hi t ht
  exact ⟨p, q, a, by simp [ScalarCurve.evaluateDerivative, b], g1, g2⟩

/-- **C140 is false** of `fitCurve(times, values)` for the orders 3, 4 and 5: whatever the motion, the
curve stands still at both ends. So every motion that does not (with derivative `v` different from zero at the
first or the last time) is missed at times arbitrarily close to that end. -/
theorem C140_refuted (S : Solver ℝ) (f : ℝ → ℝ) (ts : List ℝ) (h2 : 2 ≤ ts.length) (hb : ts.length ≤ 2 ^ 28)
    (hinc : ts.Pairwise (· < ·)) (ho : o = .o3 ∨ o = .o4 ∨ o = .o5) (c : ScalarCurve o ℝ) (v : ℝ)
    (hv : v ≠ 0) (hf : HasDerivWithinAt f v (Ici ts[0]) ts[0]) :
    ∃ c', c.fitCurve S ts (ts.map f) = .ok c' ∧ c'.evaluateDerivative ts[0] 1 = .ok (some 0) ∧
      c'.evaluateDerivative ts[ts.length - 1] 1 = .ok (some 0) ∧
      ∀ ε > 0, ∃ t, ts[0] < t ∧ t < ts[0] + ε ∧ c'.evaluate t ≠ .ok (f t) := by
  have hd : ∃ c', c.fitCurve S ts (ts.map f) = .ok c' ∧ c'.evaluateDerivative ts[0] 1 = .ok (some 0) ∧
      c'.evaluateDerivative ts[ts.length - 1] 1 = .ok (some 0) := by
    by_cases h5 : o = .o5 ∨ o = .o4 ∧ 3 ≤ ts.length
    · obtain ⟨-, c', e, h⟩ := C71_scalar_ends S ts (ts.map f) h2 hb (by simp) hinc h5 0 0 0 0 c
      exact ⟨c', e, h 1 (Or.inl rfl)⟩
    · obtain ⟨c', e, a, b, -⟩ := C71_scalar_velocity S ts (ts.map f) h2 hb (by simp) hinc (by
        rcases ho with rfl | rfl | rfl
        · exact Or.inl rfl
        · exact Or.inr ⟨rfl, by simp at h5; omega⟩
        · simp at h5) 0 0 0 0 c
      exact ⟨c', e, a, b⟩
  obtain ⟨c', e, v0, vT⟩ := hd
  refine ⟨c', e, v0, vT, fun ε hε => ?_⟩
  obtain ⟨d, e1, -, ht⟩ := fitCurveWith_through S ts (ts.map f) h2 hb (by simp) hinc 0 0 0 0 c
  have : c' = ⟨d, ts[0]⟩ := by
    have := e.symm.trans e1
    cases this
    rfl
  subst this
  obtain ⟨s, hs⟩ : ∃ s, d.splines[0]? = some s :=
    ⟨_, List.getElem?_eq_getElem (by have := ht.len; omega)⟩
  obtain ⟨hdur, hp0, -⟩ := ht.seg 0 s hs
  have hpos : 0 < s.duration := by
    rw [hdur]; exact Container.dur_pos hinc 0
  have hall : ∀ s ∈ d.splines, 0 ≤ s.duration := by
    intro u hu
    obtain ⟨j, hj⟩ := List.getElem?_of_mem hu
    rw [(ht.seg j u hj).1]
    exact (Container.dur_pos hinc j).le
  have hat : ∀ (g : Spline o ℝ → ℝ → ℝ) (t : ℝ), 0 ≤ t → t < s.duration → d.atTime g t = .ok (g s t) := by
    intro g t h0 h1
    have := Container.atTime_half_open g d hall 0 s hs t (by simpa [Container.start] using h0)
      (by simpa [Container.start] using h1)
    simpa [Container.start] using this
  have hvel : s.getVelocityAtTime 0 = 0 := by
    have := hat Spline.getVelocityAtTime 0 le_rfl hpos
    simp only [ScalarCurve.evaluateDerivative, if_true, sub_self, Container.getVelocityAtTime] at v0
    rw [this] at v0
    simpa using v0
  by_contra hno
  push Not at hno
  have heq : ∀ t, ts[0] ≤ t → t < ts[0] + min ε s.duration →
      f t = (toPoly s.coeffs).eval (t - ts[0]) := by
    intro t h0 h1
    have h1' : t - ts[0] < s.duration := by have := min_le_right ε s.duration; linarith
    rw [← getPosition_eq s (t - ts[0]) (by linarith) h1'.le]
    rcases h0.lt_or_eq with h0 | h0
    · have := hno t h0 (by have := min_le_left ε s.duration; linarith)
      simp only [ScalarCurve.evaluate, Container.getPositionAtTime] at this
      rw [hat Spline.getPositionAtTime _ (by linarith) h1'] at this
      simpa using this.symm
    · rw [← h0, sub_self, hp0, Container.knot]
      simp [show 0 < ts.length by omega]
  have hder : HasDerivWithinAt f 0 (Ici ts[0]) ts[0] := by
    have h1 : HasDerivAt (fun t => (toPoly s.coeffs).eval (t - ts[0])) 0 ts[0] := by
      have := ((toPoly s.coeffs).hasDerivAt (ts[0] - ts[0])).comp_sub_const ts[0] ts[0]
      rw [sub_self] at this
      rw [← getVelocity_eq s 0 le_rfl hpos.le, hvel] at this
      exact this
    refine h1.hasDerivWithinAt.congr_of_eventuallyEq ?_ (heq _ le_rfl (by have := lt_min hε hpos; linarith))
    filter_upwards [self_mem_nhdsWithin,
      mem_nhdsWithin_of_mem_nhds (Iio_mem_nhds (show ts[0] < ts[0] + min ε s.duration by
        have := lt_min hε hpos; linarith))] with t h0 h1 using heq t h0 h1
  exact hv ((uniqueDiffWithinAt_Ici ts[0]).eq_deriv _ hf hder)

/-- **C140 (partial)**, vector curve: a motion whose components are polynomials of degree at most five, given
by its positions, velocities and accelerations at two times, is reproduced in every component, at times
counted from the first one (see C33). Missing: three or more samples, where the equations leave the answer
open (C135). -/
theorem C140_vector_partial (S : Solver K) (p : Fin N → K[X]) (hp : ∀ i, (p i).natDegree ≤ 5) (a b : K)
    (hab : a < b) (c : VectorCurve N K) :
    ∃ c', c.fitCurveWith S [a, b] [fun i => (p i).eval a, fun i => (p i).eval b]
        (fun i => (p i).derivative.eval a) (fun i => (p i).derivative.derivative.eval a)
        (fun i => (p i).derivative.eval b) (fun i => (p i).derivative.derivative.eval b) = .ok c' ∧
      ∀ t, a ≤ t → t ≤ b → ∀ i, c'.evaluate (t - a) i = .ok ((p i).eval t) ∧
        c'.evaluateDerivative (t - a) 1 i = .ok (some ((p i).derivative.eval t)) ∧
        c'.evaluateDerivative (t - a) 2 i = .ok (some ((p i).derivative.derivative.eval t)) := by
  have hinc : [a, b].Pairwise (· < ·) := by simpa using hab
  obtain ⟨c', e, h⟩ := C71_vector_is_scalar S [a, b] [fun i => (p i).eval a, fun i => (p i).eval b] (by simp)
    (by norm_num) rfl hinc (fun i => (p i).derivative.eval a) (fun i => (p i).derivative.derivative.eval a)
    (fun i => (p i).derivative.eval b) (fun i => (p i).derivative.derivative.eval b) c
  refine ⟨c', e, fun t h0 hT i => ?_⟩
  obtain ⟨s, e1, h1⟩ := h i
  obtain ⟨s', e2, h2⟩ := C140_reproduces_partial (o := .o5) S (p i) (hp i) [a, b] (by simp) (by norm_num) hinc
    (Or.inr (Or.inr ⟨rfl, rfl⟩)) ScalarCurve.fresh
  obtain ⟨s'', e3, m1, m2, -⟩ := C30_domain_and_interpolation (o := .o5) S [a, b] ([a, b].map (p i).eval)
    (by simp) (by norm_num) rfl hinc ((p i).derivative.eval a) ((p i).derivative.derivative.eval a)
    ((p i).derivative.eval b) ((p i).derivative.derivative.eval b) ScalarCurve.fresh _ (Or.inl rfl)
  simp only [List.map_cons, List.map_nil, List.getElem_cons_zero, List.length_cons, List.length_nil,
    List.getElem_cons_succ, Nat.reduceAdd, Nat.add_one_sub_one] at e1 e2 e3 m1 m2 h1 h2
  rw [e1] at e2 e3
  cases e2
  cases e3
  obtain ⟨g1, g2⟩ := h1 (t - a)
  obtain ⟨k0, k1, k2⟩ := h2 t (by rw [m1]; exact h0) (by rw [m2]; exact hT)
  rw [sub_add_cancel] at g1 g2
  rw [g1, g2, g2]
  exact ⟨k0, k1, k2⟩

/-- An instance of C140: the cubic motion `t^3` sampled at three uneven times. -/
example : ∃ (S : Solver ℚ) (c' : ScalarCurve .o3 ℚ),
    ScalarCurve.fresh.fitCurveWith S [1, 2, 4] [1, 8, 64] 3 6 48 24 = .ok c' ∧ c'.evaluate 3 = .ok 27 := by
  obtain ⟨S⟩ := solver_exists (K := ℚ)
  obtain ⟨c', e, h⟩ := C140_reproduces_partial (o := .o3) S (X ^ 3 : ℚ[X]) (by simp [Order.deg]) [1, 2, 4] (by simp)
    (by norm_num) (by norm_num) (Or.inl rfl) ScalarCurve.fresh
  obtain ⟨c'', e'', m1, m2, -⟩ := C30_domain_and_interpolation (o := .o3) S [1, 2, 4] [1, 8, 64] (by simp)
    (by norm_num) rfl (by norm_num) 3 6 48 24 ScalarCurve.fresh _ (Or.inl rfl)
  have h3 : ScalarCurve.fresh.fitCurveWith S [1, 2, 4] [1, 8, 64] 3 6 48 24 = .ok c' := by
    rw [← e]; norm_num
  rw [h3] at e''
  cases e''
  have := (h 3 (by rw [m1]; norm_num) (by rw [m2]; norm_num)).1
  refine ⟨S, c', h3, ?_⟩
  rw [this]
  norm_num

/-- An instance of the refutation: the straight motion `t` is not reproduced. -/
example (S : Solver ℝ) : ∃ c' : ScalarCurve .o5 ℝ,
    ScalarCurve.fresh.fitCurve S [1, 2] ([1, 2].map id) = .ok c' ∧ ∃ t, 1 < t ∧ c'.evaluate t ≠ .ok t := by
  obtain ⟨c', e, -, -, h⟩ := C140_refuted (o := .o5) S id [1, 2] (by simp) (by norm_num) (by norm_num)
    (Or.inr (Or.inr rfl)) ScalarCurve.fresh 1 one_ne_zero (hasDerivWithinAt_id _ _)
  obtain ⟨t, h1, -, h2⟩ := h 1 one_pos
  exact ⟨c', e, t, h1, h2⟩

end Verif.PolyCurve

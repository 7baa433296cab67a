import Verif.PolyCurve.UnevenProps

/-!
# Property C178: data bent to one side give a cubic scalar curve bent to that side

When the velocity of a fitted `PolynomialSplineScalarCurve` of order 3 never decreases.
-/

set_option linter.unusedSectionVars false
set_option linter.dupNamespace false

namespace Verif.PolyCurve

open Verif.Spline Verif.Container Verif.Manager

variable {K : Type} [Field K] [LinearOrder K] [IsStrictOrderedRing K]

/-- The equations for the accelerations: if no right hand side is too small against its neighbours, no solution is negative. -/
theorem rows_nonneg (n : ℕ) {A g μ l : ℕ → K} (hμ : ∀ i ≤ n, 0 ≤ μ i) (hl : ∀ i ≤ n, 0 ≤ l i) (h1 : ∀ i ≤ n, μ i + l i = 1)
    (hln : l n = 0) (row : ∀ i ≤ n, μ i * A (i - 1) + 2 * A i + l i * A (i + 1) = g i)
    (hg : ∀ i ≤ n, μ i * g (i - 1) + l i * g (i + 1) ≤ 2 * g i) : ∀ i ≤ n, 0 ≤ A i := by
  obtain ⟨k, hk, hmin⟩ := Finset.exists_min_image (Finset.range (n + 1)) A ⟨0, Finset.mem_range.2 (by omega)⟩
  have hk : k ≤ n := by simpa [Nat.lt_succ_iff] using hk
  have hmin : ∀ i ≤ n, A k ≤ A i := fun i hi => hmin i (Finset.mem_range.2 (by omega))
  suffices h : 0 ≤ A k from fun i hi => h.trans (hmin i hi)
  -- the neighbours together are not below the least
  have mean : ∀ (B : ℕ → K) (c : K), (∀ i ≤ n, c ≤ B i) → ∀ i ≤ n, c ≤ μ i * B (i - 1) + l i * B (i + 1) := by
    intro B c hB i hi
    have a := mul_le_mul_of_nonneg_left (hB (i - 1) (by omega)) (hμ i hi)
    have b : l i * c ≤ l i * B (i + 1) := by
      rcases hi.lt_or_eq with h | rfl
      · exact mul_le_mul_of_nonneg_left (hB (i + 1) h) (hl i hi)
      · rw [hln, zero_mul, zero_mul]
    have : c = μ i * c + l i * c := by rw [← add_mul, h1 i hi, one_mul]
    linarith
  have m1 := mean A (A k) hmin
  have m2 := mean (fun i => μ i * A (i - 1) + l i * A (i + 1)) (A k) m1 k hk
  have r := row k hk
  have hgk := hg k hk
  -- the right hand sides of the neighbours
  have ga : μ k * g (k - 1) = μ k * (2 * A (k - 1) + (μ (k - 1) * A (k - 1 - 1) + l (k - 1) * A (k - 1 + 1))) := by
    rw [← row (k - 1) (by omega)]; ring
  have gb : l k * g (k + 1) = l k * (2 * A (k + 1) + (μ (k + 1) * A (k + 1 - 1) + l (k + 1) * A (k + 1 + 1))) := by
    rcases hk.lt_or_eq with h | rfl
    · rw [← row (k + 1) h]; ring
    · rw [hln, zero_mul, zero_mul]
  rw [ga, gb, ← r] at hgk
  linarith

/-- Between two neighbouring knots the velocity grows by the mean of the accelerations. -/
theorem cubic_gain {a b : K} (k0 k1 k2 k3 : K) {P V A : K → K}
    (hk : ∀ t, a ≤ t → t ≤ b →
      P t = k0 + k1 * t + k2 * t ^ 2 + k3 * t ^ 3 ∧ V t = k1 + 2 * k2 * t + 3 * k3 * t ^ 2 ∧ A t = 2 * k2 + 6 * k3 * t)
    {s t : K} (s0 : a ≤ s) (st : s ≤ t) (t1 : t ≤ b) : V t - V s = (t - s) * ((A s + A t) / 2) := by
  rw [(hk s s0 (st.trans t1)).2.1, (hk s s0 (st.trans t1)).2.2, (hk t (s0.trans st) t1).2.1, (hk t (s0.trans st) t1).2.2]
  ring

/-- If the accelerations at the knots are not negative, none is, and the velocity never decreases. -/
theorem Pieces.rising {ts : List K} {P V A : K → K} (h : Pieces ts P V A) (h2 : 2 ≤ ts.length) (hinc : ts.Pairwise (· < ·))
    (hA : ∀ i (hi : i < ts.length), 0 ≤ A ts[i]) :
    (∀ t, ts[0] ≤ t → t ≤ ts[ts.length - 1] → 0 ≤ A t) ∧
    ∀ s t, ts[0] ≤ s → s ≤ t → t ≤ ts[ts.length - 1] → V s ≤ V t := by
  have lt : ∀ i (hi : i + 1 < ts.length), ts[i] < ts[i + 1] := fun i hi =>
    List.pairwise_iff_getElem.1 hinc i (i + 1) (by omega) hi (by omega)
  have seg : ∀ i (hi : i + 1 < ts.length) t, ts[i] ≤ t → t ≤ ts[i + 1] → 0 ≤ A t := by
    intro i hi t h0 h1
    obtain ⟨k0, k1, k2, k3, hk⟩ := h i hi
    have e : (ts[i + 1] - ts[i]) * A t = (ts[i + 1] - t) * A ts[i] + (t - ts[i]) * A ts[i + 1] := by
      rw [(hk _ le_rfl (lt i hi).le).2.2, (hk _ (lt i hi).le le_rfl).2.2, (hk t h0 h1).2.2]
      ring
    refine nonneg_of_mul_nonneg_right (a := ts[i + 1] - ts[i]) ?_ (sub_pos.2 (lt i hi))
    rw [e]
    exact add_nonneg (mul_nonneg (sub_nonneg.2 h1) (hA _ _)) (mul_nonneg (sub_nonneg.2 h0) (hA _ _))
  have grow : ∀ i (hi : i + 1 < ts.length) s t, ts[i] ≤ s → s ≤ t → t ≤ ts[i + 1] → V s ≤ V t := by
    intro i hi s t h0 hst h1
    obtain ⟨k0, k1, k2, k3, hk⟩ := h i hi
    have e := cubic_gain k0 k1 k2 k3 hk h0 hst h1
    have a := seg i hi s h0 (hst.trans h1)
    have b := seg i hi t (h0.trans hst) h1
    have := mul_nonneg (sub_nonneg.2 hst) (show 0 ≤ (A s + A t) / 2 by linarith)
    linarith
  have knots : ∀ j (hj : j < ts.length) i (hij : i ≤ j), V ts[i] ≤ V ts[j] := by
    intro j
    induction j with
    | zero => intro hj i hij; obtain rfl : i = 0 := by omega
              exact le_rfl
    | succ j ih =>
      intro hj i hij
      rcases Nat.lt_or_ge i (j + 1) with g | g
      · exact (ih (by omega) i (by omega)).trans (grow j hj _ _ le_rfl (lt j hj).le le_rfl)
      · obtain rfl : i = j + 1 := by omega
        exact le_rfl
  refine ⟨fun t t0 t1 => ?_, fun s t s0 hst t1 => ?_⟩
  · obtain ⟨i, hi, g0, g1⟩ := segment_of h2 t0 t1
    exact seg i hi t g0 g1
  · obtain ⟨i, hi, g0, g1⟩ := segment_of h2 s0 (hst.trans t1)
    obtain ⟨j, hj, f0, f1⟩ := segment_of h2 (s0.trans hst) t1
    rcases Nat.lt_trichotomy i j with hij | rfl | hij
    · exact ((grow i hi s _ g0 g1 le_rfl).trans (knots j (by omega) (i + 1) hij)).trans (grow j hj _ t le_rfl f0 f1)
    · exact grow i hi s t g0 hst f1
    · -- both are the knot between
      have x := getElem_mono hinc (i := j + 1) (j := i) (by omega) hij
      have : s = t := le_antisymm hst (f1.trans (x.trans g0))
      rw [this]

/-- The accelerations at the knots are not negative. -/
theorem Pieces.accel_nonneg {ts : List K} {P V A : K → K} (h : Pieces ts P V A) (h2 : 2 ≤ ts.length) (hinc : ts.Pairwise (· < ·))
    {γ : ℕ → K} (h0 : γ 0 * (ts[1] - ts[0]) = (P ts[1] - P ts[0]) / (ts[1] - ts[0]) - V ts[0])
    (hT : γ (ts.length - 1) * (ts[ts.length - 1] - ts[ts.length - 2]) = V ts[ts.length - 1] -
      (P ts[ts.length - 1] - P ts[ts.length - 2]) / (ts[ts.length - 1] - ts[ts.length - 2]))
    (hγ : ∀ i (hi : i + 2 < ts.length), γ (i + 1) * (ts[i + 2] - ts[i]) =
      (P ts[i + 2] - P ts[i + 1]) / (ts[i + 2] - ts[i + 1]) - (P ts[i + 1] - P ts[i]) / (ts[i + 1] - ts[i]))
    (c0 : γ 1 ≤ 2 * γ 0) (cT : γ (ts.length - 2) ≤ 2 * γ (ts.length - 1))
    (hc : ∀ i (hi : i + 2 < ts.length), (ts[i + 1] - ts[i]) * γ i + (ts[i + 2] - ts[i + 1]) * γ (i + 2) ≤
      2 * (ts[i + 2] - ts[i]) * γ (i + 1)) :
    ∀ i (hi : i < ts.length), 0 ≤ A ts[i] := by
  have lt : ∀ i (hi : i + 1 < ts.length), ts[i] < ts[i + 1] := fun i hi =>
    List.pairwise_iff_getElem.1 hinc i (i + 1) (by omega) hi (by omega)
  obtain ⟨B, hB⟩ : ∃ B : ℕ → K, ∀ i (hi : i < ts.length), B i = A ts[i] :=
    ⟨fun i => (ts[i]?.map A).getD 0, fun i hi => by simp [hi]⟩
  obtain ⟨τ, hτ⟩ : ∃ τ : ℕ → K, ∀ i (hi : i < ts.length), ts[i] = τ i :=
    ⟨fun i => ts[i]?.getD 0, fun i hi => by simp [hi]⟩
  have seg : ∀ i (hi : i + 1 < ts.length),
      (ts[i + 1] - ts[i]) * (2 * B i + B (i + 1)) = 6 * ((P ts[i + 1] - P ts[i]) / (ts[i + 1] - ts[i]) - V ts[i]) ∧
      (ts[i + 1] - ts[i]) * (B i + 2 * B (i + 1)) = 6 * (V ts[i + 1] - (P ts[i + 1] - P ts[i]) / (ts[i + 1] - ts[i])) := by
    intro i hi
    obtain ⟨k0, k1, k2, k3, hk⟩ := h i hi
    rw [hB i (by omega), hB (i + 1) hi]
    exact cubic_velocities (lt i hi) k0 k1 k2 k3 hk
  obtain ⟨n, hn⟩ : ∃ n, ts.length = n + 2 := ⟨ts.length - 2, by omega⟩
  -- the weights of the neighbours
  let μ : ℕ → K := fun i => if i = 0 then 0 else if i = n + 1 then 1 else (τ i - τ (i - 1)) / (τ (i + 1) - τ (i - 1))
  have mid : ∀ i, i + 2 < ts.length → ∃ x y : K, 0 < x ∧ 0 < y ∧ μ (i + 1) = x / (x + y) ∧ 1 - μ (i + 1) = y / (x + y) ∧
      x * B i + 2 * (x + y) * B (i + 1) + y * B (i + 2) = 6 * (γ (i + 1) * (x + y)) ∧
      x * γ i + y * γ (i + 2) ≤ 2 * (x + y) * γ (i + 1) := by
    intro i hi
    have l1 := sub_pos.2 (lt i (by omega))
    have l2 := sub_pos.2 (lt (i + 1) (by omega))
    have e : μ (i + 1) = (ts[i + 1] - ts[i]) / (ts[i + 1] - ts[i] + (ts[i + 2] - ts[i + 1])) := by
      simp only [μ, if_neg (show ¬ i + 1 = 0 by omega), if_neg (show ¬ i + 1 = n + 1 by omega), Nat.add_sub_cancel, hτ]
      congr 1
      ring
    refine ⟨_, _, l1, l2, e, ?_, ?_, ?_⟩
    · have : ts[i + 1] - ts[i] + (ts[i + 1 + 1] - ts[i + 1]) ≠ 0 := by linarith
      rw [e]
      field_simp
      ring
    · linear_combination (seg i (by omega)).2 + (seg (i + 1) (by omega)).1 - 6 * hγ i hi
    · have := hc i hi
      have e : ts[i + 1] - ts[i] + (ts[i + 1 + 1] - ts[i + 1]) = ts[i + 2] - ts[i] := by ring
      rw [e]
      exact this
  have cases : ∀ i ≤ n + 1, i = 0 ∨ i = n + 1 ∨ ∃ j, i = j + 1 ∧ j + 2 < ts.length := fun i hi => by
    rcases Nat.eq_zero_or_pos i with h | h
    · exact .inl h
    rcases hi.lt_or_eq with h' | h'
    · exact .inr (.inr ⟨i - 1, by omega, by omega⟩)
    · exact .inr (.inl h')
  have μ0 : μ 0 = 0 := by simp [μ]
  have μT : μ (n + 1) = 1 := by simp [μ]
  have res := rows_nonneg (n + 1) (A := B) (g := fun i => 6 * γ i) (μ := μ) (l := fun i => 1 - μ i) ?_ ?_ ?_ ?_ ?_ ?_
  · intro i hi
    rw [← hB i hi]
    exact res i (by omega)
  · intro i hi
    rcases cases i hi with rfl | rfl | ⟨j, rfl, hj⟩
    · rw [μ0]
    · rw [μT]; exact zero_le_one
    · obtain ⟨x, y, hx, hy, e, -⟩ := mid j hj
      rw [e]; positivity
  · intro i hi
    show 0 ≤ 1 - μ i
    rcases cases i hi with rfl | rfl | ⟨j, rfl, hj⟩
    · rw [μ0, sub_zero]; exact zero_le_one
    · rw [μT, sub_self]
    · obtain ⟨x, y, hx, hy, -, e, -⟩ := mid j hj
      rw [e]; positivity
  · intro i _; ring
  · show 1 - μ (n + 1) = 0
    rw [μT, sub_self]
  · intro i hi
    show μ i * B (i - 1) + 2 * B i + (1 - μ i) * B (i + 1) = 6 * γ i
    rcases cases i hi with rfl | rfl | ⟨j, rfl, hj⟩
    · rw [μ0]
      refine mul_left_cancel₀ (sub_pos.2 (lt 0 (by omega))).ne' ?_
      linear_combination (seg 0 (by omega)).1 - 6 * h0
    · rw [μT]
      simp only [hn, Nat.add_sub_cancel, show n + 2 - 1 = n + 1 by omega] at hT
      refine mul_left_cancel₀ (sub_pos.2 (lt n (by omega))).ne' ?_
      rw [Nat.add_sub_cancel]
      linear_combination (seg n (by omega)).2 - 6 * hT
    · obtain ⟨x, y, hx, hy, e1, e2, e3, -⟩ := mid j hj
      have : x + y ≠ 0 := by linarith
      rw [e2, e1, Nat.add_sub_cancel]
      field_simp
      linear_combination e3
  · intro i hi
    show μ i * (6 * γ (i - 1)) + (1 - μ i) * (6 * γ (i + 1)) ≤ 2 * (6 * γ i)
    rcases cases i hi with rfl | rfl | ⟨j, rfl, hj⟩
    · rw [μ0, zero_add]; linarith
    · simp only [hn, Nat.add_sub_cancel, show n + 2 - 1 = n + 1 by omega] at cT
      rw [μT, Nat.add_sub_cancel]; linarith
    · obtain ⟨x, y, hx, hy, e1, e2, -, e3⟩ := mid j hj
      have hs : 0 < x + y := by linarith
      rw [e2, e1, Nat.add_sub_cancel]
      refine le_of_mul_le_mul_left (?_ : (x + y) * _ ≤ (x + y) * _) hs
      have : (x + y) * (x / (x + y) * (6 * γ j) + y / (x + y) * (6 * γ (j + 1 + 1))) = 6 * (x * γ j + y * γ (j + 2)) := by
        field_simp
      rw [this]
      linarith

/-- **C178**: let `γ` be the change of the mean slope at each knot per duration of the two segments there, and at both ends the
difference of the mean slope and the given velocity per duration. If nowhere twice this is less than the mean of its neighbours,
weighted by the durations, the acceleration that the curve reports is never negative and the velocity never decreases. -/
theorem C178_convex (S : Solver K) {ts vs : List K} (h2 : 2 ≤ ts.length) (hb : ts.length ≤ 2 ^ 28)
    (hl : vs.length = ts.length) (hinc : ts.Pairwise (· < ·)) (v0 a0 vT aT : K) (c : ScalarCurve .o3 K) {γ : ℕ → K}
    (h0 : γ 0 * (ts[1] - ts[0]) = (vs[1] - vs[0]) / (ts[1] - ts[0]) - v0)
    (hT : γ (ts.length - 1) * (ts[ts.length - 1] - ts[ts.length - 2]) = vT -
      (vs[ts.length - 1] - vs[ts.length - 2]) / (ts[ts.length - 1] - ts[ts.length - 2]))
    (hγ : ∀ i (hi : i + 2 < ts.length), γ (i + 1) * (ts[i + 2] - ts[i]) =
      (vs[i + 2] - vs[i + 1]) / (ts[i + 2] - ts[i + 1]) - (vs[i + 1] - vs[i]) / (ts[i + 1] - ts[i]))
    (c0 : γ 1 ≤ 2 * γ 0) (cT : γ (ts.length - 2) ≤ 2 * γ (ts.length - 1))
    (hc : ∀ i (hi : i + 2 < ts.length), (ts[i + 1] - ts[i]) * γ i + (ts[i + 2] - ts[i + 1]) * γ (i + 2) ≤
      2 * (ts[i + 2] - ts[i]) * γ (i + 1)) :
    ∃ c', c.fitCurveWith S ts vs v0 a0 vT aT = .ok c' ∧
      (∀ t, ts[0] ≤ t → t ≤ ts[ts.length - 1] → ∃ a, c'.evaluateDerivative t 2 = .ok (some a) ∧ 0 ≤ a) ∧
      ∀ s t, ts[0] ≤ s → s ≤ t → t ≤ ts[ts.length - 1] → ∃ u v, c'.evaluateDerivative s 1 = .ok (some u) ∧
        c'.evaluateDerivative t 1 = .ok (some v) ∧ u ≤ v := by
  obtain ⟨c', P, V, A, e, hp, hv, f0, fT, hev⟩ := fit_pieces_values S ts vs h2 hb hl hinc v0 a0 vT aT c
  subst hv
  simp only [List.getElem_map] at h0 hT hγ
  rw [← f0] at h0
  rw [← fT] at hT
  obtain ⟨x, y⟩ := hp.rising h2 hinc (hp.accel_nonneg h2 hinc h0 hT hγ c0 cT hc)
  exact ⟨c', e, fun t t0 t1 => ⟨_, (hev t t0 t1).2.2, x t t0 t1⟩, fun s t s0 st t1 =>
    ⟨_, _, (hev s s0 (st.trans t1)).2.1, (hev t (s0.trans st) t1).2.1, y s t s0 st t1⟩⟩

/-- **C178**, one segment: there the condition is exact. In particular mean slope and velocities that rise do not suffice. -/
theorem C178_exact (S : Solver K) {a b : K} (hab : a < b) (p q v0 a0 vT aT : K) (c : ScalarCurve .o3 K) {x y : K}
    (hx : x * (b - a) = (q - p) / (b - a) - v0) (hy : y * (b - a) = vT - (q - p) / (b - a)) :
    ∃ c', c.fitCurveWith S [a, b] [p, q] v0 a0 vT aT = .ok c' ∧
      c'.evaluateDerivative a 2 = .ok (some (2 * (2 * x - y))) ∧ c'.evaluateDerivative b 2 = .ok (some (2 * (2 * y - x))) ∧
      ((∀ t, a ≤ t → t ≤ b → ∃ r, c'.evaluateDerivative t 2 = .ok (some r) ∧ 0 ≤ r) ↔ y ≤ 2 * x ∧ x ≤ 2 * y) := by
  obtain ⟨c', P, V, A, e, hp, hv, f0, fT, hev⟩ := fit_pieces_values S [a, b] [p, q] (by simp) (by simp) rfl (by simp [hab])
    v0 a0 vT aT c
  have hri := fun h => (hp.rising (by simp) (by simp [hab]) h).1
  obtain ⟨k0, k1, k2, k3, hk⟩ := hp 0 (by simp)
  simp only [List.map_cons, List.map_nil, List.cons.injEq, and_true, List.getElem_cons_zero, List.length_cons, List.length_nil,
    zero_add, Nat.reduceAdd, Nat.add_one_sub_one, List.getElem_cons_succ] at hv f0 fT hev hk hri
  have u := (cubic_velocities hab k0 k1 k2 k3 hk).1
  have v := (cubic_velocities hab k0 k1 k2 k3 hk).2
  rw [hv.1, hv.2, f0, ← hx] at u
  rw [hv.1, hv.2, fT, ← hy] at v
  have hd := (sub_pos.2 hab).ne'
  have Aa : A a = 2 * (2 * x - y) := mul_left_cancel₀ hd (by linear_combination (2 * u - v) / 3)
  have Ab : A b = 2 * (2 * y - x) := mul_left_cancel₀ hd (by linear_combination (2 * v - u) / 3)
  have ea := (hev a le_rfl hab.le).2.2
  have eb := (hev b hab.le le_rfl).2.2
  refine ⟨c', e, by rw [ea, Aa], by rw [eb, Ab], fun h => ?_, fun h t t0 t1 => ⟨_, (hev t t0 t1).2.2, hri ?_ t t0 t1⟩⟩
  · obtain ⟨r, r1, r2⟩ := h a le_rfl hab.le
    obtain ⟨s, s1, s2⟩ := h b hab.le le_rfl
    rw [ea] at r1
    rw [eb] at s1
    rw [← Option.some.inj (Outcome.ok.inj r1), Aa] at r2
    rw [← Option.some.inj (Outcome.ok.inj s1), Ab] at s2
    constructor <;> linarith
  · intro i hi
    obtain rfl | rfl : i = 0 ∨ i = 1 := by omega
    · show 0 ≤ A a
      rw [Aa]; linarith [h.1]
    · show 0 ≤ A b
      rw [Ab]; linarith [h.2]

/-- The squares of 0, 1 and 3, with the velocities 0 and 6. -/
example (S : Solver ℚ) : ∃ c' : ScalarCurve .o3 ℚ,
    ScalarCurve.fresh.fitCurveWith S [0, 1, 3] [0, 1, 9] 0 5 6 7 = .ok c' ∧
    ∀ s t, 0 ≤ s → s ≤ t → t ≤ 3 → ∃ u v, c'.evaluateDerivative s 1 = .ok (some u) ∧
      c'.evaluateDerivative t 1 = .ok (some v) ∧ u ≤ v := by
  obtain ⟨c', e, -, h⟩ := C178_convex S (ts := [(0 : ℚ), 1, 3]) (vs := [0, 1, 9]) (by simp) (by norm_num) rfl (by norm_num) 0 5 6 7
    ScalarCurve.fresh (γ := fun _ => 1) (by norm_num) (by norm_num) (by
      intro i hi
      obtain rfl : i = 0 := by simp at hi; omega
      norm_num) (by norm_num) (by norm_num) (by
      intro i hi
      obtain rfl : i = 0 := by simp at hi; omega
      norm_num)
  exact ⟨c', e, h⟩

/-- Velocity 0, mean slope 1, velocity 6: the curve first turns down, with the acceleration -6. -/
example (S : Solver ℚ) : ∃ c' : ScalarCurve .o3 ℚ,
    ScalarCurve.fresh.fitCurveWith S [0, 1] [0, 1] 0 5 6 7 = .ok c' ∧ c'.evaluateDerivative 0 2 = .ok (some (-6)) := by
  obtain ⟨c', e, h, -⟩ := C178_exact S (a := (0 : ℚ)) (b := 1) (by norm_num) 0 1 0 5 6 7 ScalarCurve.fresh (x := 1) (y := 5)
    (by norm_num) (by norm_num)
  refine ⟨c', e, ?_⟩
  rw [h]
  norm_num

end Verif.PolyCurve

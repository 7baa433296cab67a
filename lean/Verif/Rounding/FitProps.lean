import Verif.Rounding.FitModel
import Verif.Rounding.ErrorProps

/-!
# Property C107: how exact fitting and evaluating are together in `double`
-/

set_option linter.unusedSectionVars false
set_option linter.dupNamespace false

namespace Verif.Rounding

section
variable {K : Type} [Field K] [LinearOrder K] [IsStrictOrderedRing K] {R : Rounding K} {u : K}

open Verif.Manager Verif.Hermite

/-! ## The same as the base model when nothing is rounded -/

theorem link_slope (ta tb : K) (pa pb : Vec3 K) :
    calculateSlope (exact K) ta tb pa pb = E3.calculateSlope ta tb pa pb := by
  funext x
  simp only [calculateSlope, E3.calculateSlope, exact, Pi.smul_apply, Pi.sub_apply, smul_eq_mul]
  ring

theorem link_knotDerivative (ts : List K) (vs : List (Vec3 K)) (d0 dT : Vec3 K) (i : ℕ) :
    knotDerivative (exact K) ts vs d0 dT i = E3.knotDerivative ts vs d0 dT i := by
  simp only [knotDerivative, E3.knotDerivative, link_slope]

theorem link_fitLoop (ts : List K) (vs : List (Vec3 K)) (d0 dT : Vec3 K) : ∀ n i,
    fitLoop (exact K) ts vs d0 dT n i = E3.fitLoop ts vs d0 dT n i
  | 0, _ => rfl
  | n + 1, i => by
    simp only [fitLoop, E3.fitLoop, link_knotDerivative, link_fitLoop ts vs d0 dT n (i + 1)]

theorem link_fit (debug : Bool) (ts : List K) (vs : List (Vec3 K)) (d0 dT : Vec3 K) (c : E3 K (Vec3 K)) :
    fitCurveWithDerivatives (exact K) debug ts vs d0 dT c = E3.fitCurveWithDerivatives debug ts vs d0 dT c := by
  simp only [fitCurveWithDerivatives, E3.fitCurveWithDerivatives, link_fitLoop]

theorem link_fitCurve (debug : Bool) (ts : List K) (vs : List (Vec3 K)) (c : E3 K (Vec3 K)) :
    fitCurve (exact K) debug ts vs c = E3.fitCurve debug ts vs c := link_fit debug ts vs 0 0 c

/-! ## What a fit stores -/

theorem fitLoop_ok (R : Rounding K) (ts : List K) (vs : List (Vec3 K)) (d0 dT : Vec3 K)
    (hl : ts.length ≤ vs.length) :
    ∀ n i, ∀ _ : i + n = ts.length, ∃ cs, fitLoop R ts vs d0 dT n i = .ok cs ∧ ∃ hc : cs.length = n,
      ∀ j (hj : j < n), ∃ k : Knot (Vec3 K), cs[j] = k ∧
        k.position = vs[i + j]'(by omega) ∧ (i + j = 0 → k.velocity = d0) ∧
        (i + j ≠ 0 → i + j = ts.length - 1 → k.velocity = dT) ∧
        ∀ (_ : i + j ≠ 0) (_ : i + j ≠ ts.length - 1), k.velocity =
          calculateSlope R (ts[i + j - 1]'(by omega)) (ts[i + j + 1]'(by omega))
            (vs[i + j - 1]'(by omega)) (vs[i + j + 1]'(by omega)) := by
  intro n
  induction n with
  | zero => intro i _; exact ⟨[], rfl, rfl, fun j hj => absurd hj (by omega)⟩
  | succ n ih =>
    intro i hi
    obtain ⟨cs, e, hc, h⟩ := ih (i + 1) (by omega)
    have hk : ∃ d, knotDerivative R ts vs d0 dT i = .ok d ∧ (i = 0 → d = d0) ∧
        (i ≠ 0 → i = ts.length - 1 → d = dT) ∧ ∀ (_ : i ≠ 0) (_ : i ≠ ts.length - 1), d =
          calculateSlope R (ts[i - 1]'(by omega)) (ts[i + 1]'(by omega))
            (vs[i - 1]'(by omega)) (vs[i + 1]'(by omega)) := by
      unfold knotDerivative
      by_cases h0 : i = 0
      · exact ⟨d0, by rw [if_pos h0], fun _ => rfl, fun h => absurd h0 h, fun h => absurd h0 h⟩
      · by_cases h1 : i = ts.length - 1
        · exact ⟨dT, by rw [if_neg h0, if_pos h1], fun h => absurd h h0, fun _ _ => rfl,
            fun _ h => absurd h1 h⟩
        · refine ⟨calculateSlope R (ts[i - 1]'(by omega)) (ts[i + 1]'(by omega))
            (vs[i - 1]'(by omega)) (vs[i + 1]'(by omega)), ?_, fun h => absurd h h0,
            fun _ h => absurd h h1, fun _ _ => rfl⟩
          rw [if_neg h0, if_neg h1, List.getElem?_eq_getElem (by omega),
            List.getElem?_eq_getElem (by omega), List.getElem?_eq_getElem (by omega),
            List.getElem?_eq_getElem (by omega)]
          rfl
    obtain ⟨d, ed, k1, k2, k3⟩ := hk
    refine ⟨⟨vs[i]'(by omega), d⟩ :: cs, ?_, by simp [hc], ?_⟩
    · rw [fitLoop, ed, List.getElem?_eq_getElem (by omega : i < vs.length), e]
      rfl
    · intro j hj
      cases j with
      | zero => exact ⟨_, rfl, rfl, k1, k2, k3⟩
      | succ j =>
        obtain ⟨k, q1, q2, q3, q4, q5⟩ := h j (by omega)
        have hij : i + (j + 1) = i + 1 + j := by omega
        refine ⟨k, q1, ?_, ?_, ?_, ?_⟩
        · simp only [hij]; exact q2
        · simp only [hij]; exact q3
        · simp only [hij]; exact q4
        · simp only [hij]; exact q5

/-- The knots after a fit. -/
theorem fit_knots (R : Rounding K) (debug : Bool) {ts : List K} {vs : List (Vec3 K)} (hl : ts.length = vs.length)
    (hinc : ts.Pairwise (· < ·)) (d0 dT : Vec3 K) (w : World) :
    ∃ c ks, fitCurveWithDerivatives R debug ts vs d0 dT (E3.fresh w) = .ok (c, ks) ∧ Sorted c.m.nodes ∧
      ks.length = ts.length ∧ c.m.knots.map Prod.fst = ts ∧
      ∀ i (hi : i < ts.length), ∃ v, (ts[i], (⟨vs[i], v⟩ : Knot (Vec3 K))) ∈ c.m.knots ∧
        (∀ k, (ts[i], k) ∈ c.m.knots → k = ⟨vs[i], v⟩) ∧
        (i = 0 → v = d0) ∧ (i ≠ 0 → i = ts.length - 1 → v = dT) ∧
        ∀ (_ : i ≠ 0) (_ : i ≠ ts.length - 1),
          v = calculateSlope R ts[i - 1] (ts[i + 1]'(by omega)) (vs[i - 1]'(by omega)) (vs[i + 1]'(by omega)) := by
  obtain ⟨cs, e, hcs, h⟩ := fitLoop_ok R ts vs d0 dT hl.le ts.length 0 (by omega)
  obtain ⟨w', m', ks, e', hs, hk, hks⟩ := fill_empty w (cs := cs) (by omega) hinc
  refine ⟨⟨w', m'⟩, ks, ?_, hs, hks, ?_, fun i hi => ?_⟩
  · rw [fitCurveWithDerivatives, if_neg (by simp [hl]), e, Outcome.ok_bind, E3.fresh, e']
    rfl
  · simp only [hk]
    exact List.map_fst_zip (by omega)
  · obtain ⟨k, r1, r2, r3, r4, r5⟩ := h i hi
    simp only [Nat.zero_add] at r2 r3 r4 r5
    refine ⟨k.velocity, ?_, ?_, r3, r4, r5⟩
    · simp only [hk]
      refine List.mem_iff_getElem.2 ⟨i, by simp; omega, ?_⟩
      rw [List.getElem_zip, r1, ← r2]
    · intro k' hk'
      simp only [hk] at hk'
      obtain ⟨j, hj, ej⟩ := List.mem_iff_getElem.1 hk'
      rw [List.getElem_zip] at ej
      have hj' : j < ts.length := by simp at hj; omega
      have hij : j = i := by
        have h1 := congrArg Prod.fst ej
        simp only at h1
        rcases lt_trichotomy j i with h | h | h
        · exact absurd h1 (ne_of_lt (List.pairwise_iff_getElem.1 hinc j i hj' hi h))
        · exact h
        · exact absurd h1 (ne_of_gt (List.pairwise_iff_getElem.1 hinc i j hi hj' h))
      subst hij
      have h2 : cs[j] = k' := congrArg Prod.snd ej
      rw [← h2, ← r2]
      exact r1

/-- The relative error of a slope. -/
theorem slope_near (hP : Precise R u) (hu : 0 ≤ u) (hu1 : u ≤ 1 / 2 ^ 20) {ta tb : K} (h : ta < tb) (pa pb : Vec3 K)
    (x : Fin 3) : |calculateSlope R ta tb pa pb x - E3.calculateSlope ta tb pa pb x| ≤
      6 * u * |E3.calculateSlope ta tb pa pb x| := by
  have hs := square_small hu hu1
  have hD : 0 < tb - ta := sub_pos.2 h
  have hI : 0 < 1 / (tb - ta) := one_div_pos.2 hD
  have e1 := hP (pb x - pa x)
  have e2 := recip_near hP hu hu1 hD
  rw [← link_slope]
  simp only [calculateSlope, exact]
  generalize 1 / (tb - ta) = I at *
  generalize pb x - pa x = d at *
  generalize R.rnd (1 / R.rnd (tb - ta)) = I' at *
  have e3 := rnd_near hP hu (mul_near e1 e2 le_rfl (abs_of_pos hI).le) (le_of_eq (abs_mul d I))
  refine e3.trans ?_
  rw [abs_mul, abs_of_pos hI]
  have h0 : 0 ≤ |d| * I := mul_nonneg (abs_nonneg _) hI.le
  generalize hq : |d| * I = q at *
  have k1 := mul_nonneg hu h0
  have k2 := mul_le_mul_of_nonneg_right hs h0
  have k3 := mul_le_mul_of_nonneg_left k2 hu
  rw [show u * |d| * I + |d| * (3 * u * I) + u * |d| * (3 * u * I) = 4 * (u * q) + 3 * (u * u * q) by rw [← hq]; ring]
  linarith

/-- A time between the first and the last one is between two neighbours. -/
theorem between_neighbours {ts : List K} (h2 : 1 < ts.length) {t : K} (h0 : ts[0] ≤ t) (h1 : t ≤ ts[ts.length - 1]) :
    ∃ (i : ℕ) (hi : i + 1 < ts.length), ts[i] ≤ t ∧ t ≤ ts[i + 1] := by
  by_contra hcon
  push Not at hcon
  have key : ∀ (i : ℕ) (hi : i + 1 < ts.length), ts[i + 1] < t := by
    intro i
    induction i with
    | zero => exact fun hi => hcon 0 hi h0
    | succ i ih => exact fun hi => hcon (i + 1) hi (ih (by omega)).le
  have := key (ts.length - 2) (by omega)
  simp only [show ts.length - 2 + 1 = ts.length - 1 by omega] at this
  exact absurd h1 (not_le.2 this)

/-- Positions on one segment, when the velocities at its ends have errors as well. -/
theorem segment_near (hP : Precise R u) (hu : 0 ≤ u) (hu1 : u ≤ 1 / 2 ^ 20) {a b a' b' : Node K (Knot (Vec3 K))} {t : K}
    (hab : a.time < b.time) (h0 : a.time ≤ t) (h1 : t ≤ b.time) (ea : a'.time = a.time) (eb : b'.time = b.time)
    (pa : a'.coef.position = a.coef.position) (pb : b'.coef.position = b.coef.position) {x : Fin 3} {M N : K}
    (hpa : |a.coef.position x| ≤ M) (hpb : |b.coef.position x| ≤ M) (hva : |a.coef.velocity x| ≤ N)
    (hvb : |b.coef.velocity x| ≤ N) (da : |a'.coef.velocity x - a.coef.velocity x| ≤ 6 * u * |a.coef.velocity x|)
    (db : |b'.coef.velocity x - b.coef.velocity x| ≤ 6 * u * |b.coef.velocity x|) :
    |interpolate R a' b' t x - E3.interpolate a b t x| ≤ 300 * u * (M + N * (b.time - a.time)) ∧
    |interpolateVelocity R a' b' t x - E3.interpolateVelocity a b t x| ≤ 300 * u * (M / (b.time - a.time) + N) := by
  have hs := square_small hu hu1
  have hD : 0 < b.time - a.time := sub_pos.2 hab
  have hM : 0 ≤ M := (abs_nonneg _).trans hpa
  have hN : 0 ≤ N := (abs_nonneg _).trans hva
  have u6 : 0 ≤ 6 * u := by linarith
  have da' := da.trans (mul_le_mul_of_nonneg_left hva u6)
  have db' := db.trans (mul_le_mul_of_nonneg_left hvb u6)
  have na : |a'.coef.velocity x| ≤ N + 6 * u * N := by
    have := abs_add_le (a.coef.velocity x) (a'.coef.velocity x - a.coef.velocity x)
    rw [add_sub_cancel] at this
    linarith
  have nb : |b'.coef.velocity x| ≤ N + 6 * u * N := by
    have := abs_add_le (b.coef.velocity x) (b'.coef.velocity x - b.coef.velocity x)
    rw [add_sub_cancel] at this
    linarith
  have n1 := interpolate_near hP hu hu1 (a := a') (b := b') (t := t) (x := x) (M := M) (N := N + 6 * u * N)
    (by rw [ea, eb]; exact hab) (by rw [ea]; exact h0) (by rw [eb]; exact h1) (by rw [pa]; exact hpa)
    (by rw [pb]; exact hpb) na nb
  have n2 := velocity_near hP hu hu1 (a := a') (b := b') (t := t) (x := x) (M := M) (N := N + 6 * u * N)
    (by rw [ea, eb]; exact hab) (by rw [ea]; exact h0) (by rw [eb]; exact h1) (by rw [pa]; exact hpa)
    (by rw [pb]; exact hpb) na nb
  rw [ea, eb] at n1 n2
  have a0 : 0 ≤ (t - a.time) / (b.time - a.time) := div_nonneg (by linarith) hD.le
  have a1 : (t - a.time) / (b.time - a.time) ≤ 1 := by rw [div_le_one hD]; linarith
  have k1 : E3.interpolate a' b' t x - E3.interpolate a b t x =
      (((t - a.time) / (b.time - a.time)) * ((t - a.time) / (b.time - a.time)) * ((t - a.time) / (b.time - a.time)) -
        2 * (((t - a.time) / (b.time - a.time)) * ((t - a.time) / (b.time - a.time))) +
        (t - a.time) / (b.time - a.time)) * ((b.time - a.time) * (a'.coef.velocity x - a.coef.velocity x)) +
      (((t - a.time) / (b.time - a.time)) * ((t - a.time) / (b.time - a.time)) * ((t - a.time) / (b.time - a.time)) -
        ((t - a.time) / (b.time - a.time)) * ((t - a.time) / (b.time - a.time))) *
        ((b.time - a.time) * (b'.coef.velocity x - b.coef.velocity x)) := by
    simp only [E3.interpolate, ea, eb, pa, pb, Pi.add_apply, Pi.smul_apply, smul_eq_mul]
    ring
  have k2 : E3.interpolateVelocity a' b' t x - E3.interpolateVelocity a b t x =
      (3 * (((t - a.time) / (b.time - a.time)) * ((t - a.time) / (b.time - a.time))) -
        4 * ((t - a.time) / (b.time - a.time)) + 1) * (a'.coef.velocity x - a.coef.velocity x) +
      (3 * (((t - a.time) / (b.time - a.time)) * ((t - a.time) / (b.time - a.time))) -
        2 * ((t - a.time) / (b.time - a.time))) * (b'.coef.velocity x - b.coef.velocity x) := by
    simp only [E3.interpolateVelocity, ea, eb, pa, pb, Pi.add_apply, Pi.smul_apply, smul_eq_mul]
    ring
  generalize (t - a.time) / (b.time - a.time) = α at *
  have hID : 0 ≤ M / (b.time - a.time) := div_nonneg hM hD.le
  generalize M / (b.time - a.time) = MI at *
  generalize b.time - a.time = D at *
  have b2'' : α * α ≤ α := mul_le_of_le_one_right a0 a1
  have b2' : 0 ≤ α * α := mul_nonneg a0 a0
  have b3 : α * α * α ≤ α * α := mul_le_of_le_one_right b2' a1
  have b3' : 0 ≤ α * α * α := mul_nonneg b2' a0
  have b4 : 0 ≤ (1 - α) * (1 - α) := mul_self_nonneg _
  rw [show (1 - α) * (1 - α) = 1 - 2 * α + α * α by ring] at b4
  have b5 : 0 ≤ (2 - 3 * α) * (2 - 3 * α) := mul_self_nonneg _
  rw [show (2 - 3 * α) * (2 - 3 * α) = 4 - 12 * α + 9 * (α * α) by ring] at b5
  have c2 : |α * α * α - 2 * (α * α) + α| ≤ 1 := abs_le_of (by linarith) (by linarith)
  have c3 : |α * α * α - α * α| ≤ 1 := abs_le_of (by linarith) (by linarith)
  have c4 : |3 * (α * α) - 4 * α + 1| ≤ 1 := abs_le_of (by linarith) (by linarith)
  have c5 : |3 * (α * α) - 2 * α| ≤ 1 := abs_le_of (by linarith) (by linarith)
  generalize α * α * α - 2 * (α * α) + α = q2 at *
  generalize α * α * α - α * α = q3 at *
  generalize 3 * (α * α) - 4 * α + 1 = q4 at *
  generalize 3 * (α * α) - 2 * α = q5 at *
  generalize a'.coef.velocity x - a.coef.velocity x = ea at *
  generalize b'.coef.velocity x - b.coef.velocity x = eb at *
  have one : ∀ {q e : K}, |q| ≤ 1 → |e| ≤ 6 * u * N → |q * e| ≤ 6 * u * N := by
    intro q e hq he
    rw [abs_mul]
    exact (mul_le_of_le_one_left (abs_nonneg _) hq).trans he
  have two : ∀ {q e : K}, |q| ≤ 1 → |e| ≤ 6 * u * N → |q * (D * e)| ≤ 6 * (u * (N * D)) := by
    intro q e hq he
    rw [mul_left_comm, abs_mul, abs_of_pos hD]
    exact (mul_le_mul_of_nonneg_left (one hq he) hD.le).trans (le_of_eq (by ring))
  have hND : 0 ≤ N * D := mul_nonneg hN hD.le
  have uM := mul_nonneg hu hM
  have uN := mul_nonneg hu hN
  have uMI := mul_nonneg hu hID
  have uND := mul_nonneg hu hND
  have sN := mul_le_mul_of_nonneg_right hs hN
  have sND := mul_le_mul_of_nonneg_right hs hND
  constructor
  · have h2 := abs_sub_le (interpolate R a' b' t x) (E3.interpolate a' b' t x) (E3.interpolate a b t x)
    rw [k1] at h2
    have h3 := abs_add_le (q2 * (D * ea)) (q3 * (D * eb))
    linarith [two c2 da', two c3 db']
  · have h2 := abs_sub_le (interpolateVelocity R a' b' t x) (E3.interpolateVelocity a' b' t x)
      (E3.interpolateVelocity a b t x)
    rw [k2] at h2
    have h3 := abs_add_le (q4 * ea) (q5 * eb)
    linarith [one c4 da', one c5 db']

/-- The slope of a chord that spans the segment from `s` to `t`. -/
theorem slope_bound {ta tb s t : K} (h1 : ta ≤ s) (h2 : s < t) (h3 : t ≤ tb) {pa pb : Vec3 K} {x : Fin 3} {M : K}
    (ha : |pa x| ≤ M) (hb : |pb x| ≤ M) : |E3.calculateSlope ta tb pa pb x| ≤ 2 * M / (t - s) := by
  have hD : 0 < t - s := sub_pos.2 h2
  have hT : t - s ≤ tb - ta := by linarith
  simp only [E3.calculateSlope, Pi.smul_apply, Pi.sub_apply, smul_eq_mul]
  rw [abs_mul, abs_of_pos (one_div_pos.2 (lt_of_lt_of_le hD hT)), div_mul_eq_mul_div, one_mul]
  have h4 : |pb x - pa x| ≤ 2 * M := by
    have := abs_sub (pb x) (pa x)
    linarith
  exact div_le_div₀ (le_trans (abs_nonneg _) h4) h4 hD hT

/-- **C107.** Fitting and evaluating together. Given strictly increasing times, values and end velocities that are
`double`s, fit a curve and evaluate it, once in `double` and once in exact arithmetic. In every coordinate the positions
differ by at most 2⁻⁴³ (M + N G) and the velocities by at most 2⁻⁴³ (M / g + N), where M bounds the values, N the two end
velocities, and the distances of neighbouring times are between g and G. -/
theorem C107_fit [FloorRing K] (debug : Bool) {ts : List K} {vs : List (Vec3 K)} (hl : ts.length = vs.length)
    (hinc : ts.Pairwise (· < ·)) (htd : ∀ t ∈ ts, (double K).rnd t = t)
    (hvd : ∀ v ∈ vs, ∀ x, (double K).rnd (v x) = v x) {d0 dT : Vec3 K} (h0d : ∀ x, (double K).rnd (d0 x) = d0 x)
    (hTd : ∀ x, (double K).rnd (dT x) = dT x) (w : World) :
    ∃ c' ks' c ks, fitCurveWithDerivatives (double K) debug ts vs d0 dT (E3.fresh w) = .ok (c', ks') ∧
      E3.fitCurveWithDerivatives debug ts vs d0 dT (E3.fresh w) = .ok (c, ks) ∧
      ∀ t lo hi, lo ∈ ts → hi ∈ ts → lo ≤ t → t ≤ hi →
        ∃ p q p' q', evaluate (double K) t c'.m = .ok (some p) ∧ E3.evaluate t c = .ok (some q) ∧
          evaluateVelocity (double K) t c'.m = .ok (some p') ∧ E3.evaluateDerivative t 1 c = .ok (some q') ∧
          ∀ x M N g G, (∀ v ∈ vs, |v x| ≤ M) → |d0 x| ≤ N → |dT x| ≤ N → 0 < g → g ≤ G →
            (∀ (i : ℕ) (hi : i + 1 < ts.length), g ≤ ts[i + 1] - ts[i] ∧ ts[i + 1] - ts[i] ≤ G) →
            |p x - q x| ≤ (M + N * G) / 2 ^ 43 ∧ |p' x - q' x| ≤ (M / g + N) / 2 ^ 43 := by
  obtain ⟨c', ks', e', hs', -, hk', H'⟩ := fit_knots (double K) debug hl hinc d0 dT w
  obtain ⟨c, ks, e, hs, -, hk, H⟩ := fit_knots (exact K) debug hl hinc d0 dT w
  rw [link_fit] at e
  refine ⟨c', ks', c, ks, e', e, ?_⟩
  have hst : ∀ n ∈ c'.m.knots, Stored (double K) n := by
    rintro ⟨t, k⟩ hn
    have ht : t ∈ ts := by rw [← hk']; exact List.mem_map.2 ⟨_, hn, rfl⟩
    obtain ⟨i, hi, rfl⟩ := List.mem_iff_getElem.1 ht
    obtain ⟨v, -, hu, v0, vT, vi⟩ := H' i hi
    rw [hu k hn]
    refine ⟨htd _ ht, hvd _ (List.getElem_mem _), fun x => ?_⟩
    by_cases hi0 : i = 0
    · rw [v0 hi0]; exact h0d x
    · by_cases hi1 : i = ts.length - 1
      · rw [vT hi0 hi1]; exact hTd x
      · rw [vi hi0 hi1]
        exact (double K).idem _
  intro t lo hi hlo hhi h0 h1
  have hpos : 0 < ts.length := List.length_pos_of_mem hlo
  have h0 : ts[0] ≤ t := by
    obtain ⟨j, hj, rfl⟩ := List.mem_iff_getElem.1 hlo
    rcases Nat.eq_zero_or_pos j with rfl | hj0
    · exact h0
    · exact (List.pairwise_iff_getElem.1 hinc 0 j hpos hj hj0).le.trans h0
  have h1 : t ≤ ts[ts.length - 1] := by
    obtain ⟨j, hj, rfl⟩ := List.mem_iff_getElem.1 hhi
    rcases (show j ≤ ts.length - 1 by omega).eq_or_lt with rfl | hj0
    · exact h1
    · exact h1.trans (List.pairwise_iff_getElem.1 hinc j _ hj (by omega) hj0).le
  by_cases h2 : 1 < ts.length
  · obtain ⟨i, hi, k0, k1⟩ := between_neighbours h2 h0 h1
    have hlt : ts[i] < ts[i + 1] := List.pairwise_iff_getElem.1 hinc i (i + 1) (by omega) hi (by omega)
    have hno : ∀ s ∈ ts, ¬(ts[i] < s ∧ s < ts[i + 1]) := by
      intro s hs hc
      obtain ⟨j, hj, rfl⟩ := List.mem_iff_getElem.1 hs
      rcases Nat.lt_or_ge i j with h | h
      · rcases (show i + 1 ≤ j by omega).eq_or_lt with rfl | h'
        · exact lt_irrefl _ hc.2
        · exact absurd hc.2 (not_lt.2 (List.pairwise_iff_getElem.1 hinc (i + 1) j hi hj h').le)
      · rcases h.eq_or_lt with rfl | h'
        · exact lt_irrefl _ hc.1
        · exact absurd hc.1 (not_lt.2 (List.pairwise_iff_getElem.1 hinc j i hj (by omega) h').le)
    obtain ⟨va', ma', -, a0', aT', ai'⟩ := H' i (by omega)
    obtain ⟨vb', mb', -, -, bT', bi'⟩ := H' (i + 1) hi
    obtain ⟨va, ma, -, a0, aT, ai⟩ := H i (by omega)
    obtain ⟨vb, mb, -, -, bT, bi⟩ := H (i + 1) hi
    obtain ⟨a', b', q1', q2', q3', q4', E1, -, E2, -⟩ := near_of_segments hs' hst ma' mb' hlt
      (fun s k hsk => hno s (by rw [← hk']; exact List.mem_map.2 ⟨_, hsk, rfl⟩)) k0 k1
    obtain ⟨a, b, q1, q2, q3, q4, -, E3', -, E4⟩ := near_of_segments (R := exact K) hs
      (fun n _ => ⟨rfl, fun _ => rfl, fun _ => rfl⟩) ma mb hlt
      (fun s k hsk => hno s (by rw [← hk]; exact List.mem_map.2 ⟨_, hsk, rfl⟩)) k0 k1
    refine ⟨_, _, _, _, E1, E3', E2, E4, fun x M N g G hM hN0 hNT hg hgG hgap => ?_⟩
    have hN : 0 ≤ N := (abs_nonneg _).trans hN0
    have hD : 0 < ts[i + 1] - ts[i] := sub_pos.2 hlt
    have hMv : ∀ j (hj : j < vs.length), |vs[j] x| ≤ M := fun j hj => hM _ (List.getElem_mem _)
    have hM0 : 0 ≤ M := (abs_nonneg _).trans (hMv i (by omega))
    have hMD : 0 ≤ 2 * M / (ts[i + 1] - ts[i]) := div_nonneg (by linarith) hD.le
    have hu : (0 : K) ≤ 1 / 2 ^ 53 := by positivity
    have da : |va x| ≤ 2 * M / (ts[i + 1] - ts[i]) + N ∧ |va' x - va x| ≤ 6 * (1 / 2 ^ 53) * |va x| := by
      by_cases hi0 : i = 0
      · rw [a0 hi0, a0' hi0, sub_self, abs_zero]
        exact ⟨by linarith, by positivity⟩
      · have hi1 : i ≠ ts.length - 1 := by omega
        rw [ai hi0 hi1, ai' hi0 hi1, link_slope]
        have hlt' : ts[i - 1] < ts[i] := List.pairwise_iff_getElem.1 hinc (i - 1) i (by omega) (by omega) (by omega)
        refine ⟨?_, slope_near precise_double hu (by norm_num) (hlt'.trans hlt) _ _ x⟩
        have := slope_bound hlt'.le hlt le_rfl (hMv (i - 1) (by omega)) (hMv (i + 1) (by omega))
        linarith
    have db : |vb x| ≤ 2 * M / (ts[i + 1] - ts[i]) + N ∧ |vb' x - vb x| ≤ 6 * (1 / 2 ^ 53) * |vb x| := by
      by_cases hi1 : i + 1 = ts.length - 1
      · rw [bT (by omega) hi1, bT' (by omega) hi1, sub_self, abs_zero]
        exact ⟨by linarith, by positivity⟩
      · rw [bi (by omega) hi1, bi' (by omega) hi1, link_slope]
        have hlt' : ts[i + 1] < ts[i + 1 + 1]'(by omega) :=
          List.pairwise_iff_getElem.1 hinc (i + 1) (i + 1 + 1) (by omega) (by omega) (by omega)
        refine ⟨?_, slope_near precise_double hu (by norm_num) (hlt.trans hlt') _ _ x⟩
        have := slope_bound le_rfl hlt hlt'.le (hMv (i + 1 - 1) (by omega)) (hMv (i + 1 + 1) (by omega))
        exact this.trans (le_add_of_nonneg_right hN)
    obtain ⟨n1, n2⟩ := segment_near precise_double hu (by norm_num) (a := a) (b := b) (a' := a') (b' := b') (t := t)
      (x := x) (M := M) (N := 2 * M / (ts[i + 1] - ts[i]) + N) (by rw [q1, q3]; exact hlt) (by rw [q1]; exact k0)
      (by rw [q3]; exact k1) (by rw [q1, q1']) (by rw [q3, q3']) (by rw [q2, q2']) (by rw [q4, q4'])
      (by rw [q2]; exact hMv i (by omega)) (by rw [q4]; exact hMv (i + 1) (by omega)) (by rw [q2]; exact da.1)
      (by rw [q4]; exact db.1) (by rw [q2, q2']; exact da.2) (by rw [q4, q4']; exact db.2)
    rw [q1, q3] at n1 n2
    obtain ⟨g1, g2⟩ := hgap i hi
    generalize hDD : ts[i + 1] - ts[i] = D at *
    constructor
    · refine n1.trans ?_
      rw [add_mul, div_mul_cancel₀ _ hD.ne']
      have h5 := mul_le_mul_of_nonneg_left g2 hN
      have h6 := mul_nonneg hN hD.le
      linarith
    · refine n2.trans ?_
      have h5 : M / D ≤ M / g := div_le_div_of_nonneg_left hM0 hg g1
      have h6 : 2 * M / D = 2 * (M / D) := by ring
      have h7 : 0 ≤ M / D := div_nonneg hM0 hD.le
      rw [h6]
      linarith
  · have hl1 : ts.length - 1 = 0 := by omega
    simp only [hl1] at h1
    obtain rfl : t = ts[0] := le_antisymm h1 h0
    obtain ⟨v', m1, -, v0', -⟩ := H' 0 hpos
    obtain ⟨v, m2, -, v0, -⟩ := H 0 hpos
    rw [v0' rfl] at m1
    rw [v0 rfl] at m2
    have hh : ∀ {m : Mgr K (Knot (Vec3 K))} {k : Knot (Vec3 K)}, m.knots.map Prod.fst = ts → (ts[0], k) ∈ m.knots →
        ∃ n, m.nodes = [n] ∧ n.time = ts[0] ∧ n.coef = k := by
      intro m k hmk hm
      have hlen : m.nodes.length = 1 := by
        have := congrArg List.length hmk
        simp [Mgr.knots] at this
        omega
      obtain ⟨n, hn⟩ := List.length_eq_one_iff.1 hlen
      rw [Mgr.knots, hn] at hm
      simp at hm
      exact ⟨n, hn, hm.1.symm, hm.2.symm⟩
    obtain ⟨n', en', tn', cn'⟩ := hh hk' m1
    obtain ⟨n, en, tn, cn⟩ := hh hk m2
    have ev : ∀ {m : Mgr K (Knot (Vec3 K))} {n : Node K (Knot (Vec3 K))}, m.nodes = [n] → n.time = ts[0] →
        ∀ R : Rounding K, evaluate R ts[0] m = .ok (some n.coef.position) ∧
          evaluateVelocity R ts[0] m = .ok (some n.coef.velocity) := by
      intro m n hn ht R
      have e1 : m.getMaxTime = ts[0] := by simp [Mgr.getMaxTime, hn, ht]
      have e2 : m.getMinTime = ts[0] := by simp [Mgr.getMinTime, hn, ht]
      rw [evaluate, evaluateVelocity, if_pos ⟨e1, e2⟩, if_pos ⟨e1, e2⟩, hn]
      exact ⟨rfl, rfl⟩
    refine ⟨_, _, _, _, (ev en' tn' _).1, by rw [← link_evaluate]; exact (ev en tn _).1, (ev en' tn' _).2,
      by rw [← link_evaluateVelocity]; exact (ev en tn _).2, fun x M N g G hM hN0 hNT hg hgG hgap => ?_⟩
    have hN : 0 ≤ N := (abs_nonneg _).trans hN0
    have hM0 : 0 ≤ M := (abs_nonneg _).trans (hM vs[0] (List.getElem_mem _))
    rw [cn, cn', sub_self, sub_self, abs_zero]
    have : 0 ≤ G := hg.le.trans hgG
    exact ⟨by positivity, by positivity⟩

/-- The shortest and the longest distance of neighbours. -/
theorem exists_gaps {ts : List K} (hinc : ts.Pairwise (· < ·)) : ∃ g G : K, 0 < g ∧ g ≤ G ∧
    ∀ (i : ℕ) (hi : i + 1 < ts.length), g ≤ ts[i + 1] - ts[i] ∧ ts[i + 1] - ts[i] ≤ G := by
  induction ts with
  | nil => exact ⟨1, 1, one_pos, le_rfl, fun i hi => absurd hi (by simp)⟩
  | cons a ts ih =>
    obtain ⟨g, G, hg, hgG, hgap⟩ := ih (List.pairwise_cons.1 hinc).2
    cases ts with
    | nil => exact ⟨1, 1, one_pos, le_rfl, fun i hi => absurd hi (by simp)⟩
    | cons b ts =>
      have hab : 0 < b - a := sub_pos.2 ((List.pairwise_cons.1 hinc).1 b (by simp))
      refine ⟨min g (b - a), max G (b - a), lt_min hg hab, (min_le_left _ _).trans (hgG.trans (le_max_left _ _)), ?_⟩
      intro i hi
      cases i with
      | zero => exact ⟨min_le_right _ _, le_max_right _ _⟩
      | succ i =>
        obtain ⟨r1, r2⟩ := hgap i (by simpa using hi)
        exact ⟨(min_le_left _ _).trans r1, r2.trans (le_max_left _ _)⟩

/-- **C107**, `fitCurve`: a curve fitted to `double`s and evaluated in `double` arithmetic is nowhere in its domain
further than 2⁻⁴³ times the largest coordinate away from the true Hermite curve, whatever the times are. -/
theorem C107_fitCurve [FloorRing K] (debug : Bool) {ts : List K} {vs : List (Vec3 K)} (hl : ts.length = vs.length)
    (hinc : ts.Pairwise (· < ·)) (htd : ∀ t ∈ ts, (double K).rnd t = t)
    (hvd : ∀ v ∈ vs, ∀ x, (double K).rnd (v x) = v x) (w : World) :
    ∃ c' ks' c ks, fitCurve (double K) debug ts vs (E3.fresh w) = .ok (c', ks') ∧
      E3.fitCurve debug ts vs (E3.fresh w) = .ok (c, ks) ∧
      ∀ t lo hi, lo ∈ ts → hi ∈ ts → lo ≤ t → t ≤ hi →
        ∃ p q, evaluate (double K) t c'.m = .ok (some p) ∧ E3.evaluate t c = .ok (some q) ∧
          ∀ x M, (∀ v ∈ vs, |v x| ≤ M) → |p x - q x| ≤ M / 2 ^ 43 := by
  obtain ⟨c', ks', c, ks, e', e, h⟩ := C107_fit debug hl hinc htd hvd (d0 := 0) (dT := 0)
    (fun _ => rnd_zero _) (fun _ => rnd_zero _) w
  refine ⟨c', ks', c, ks, e', e, fun t lo hi hlo hhi h0 h1 => ?_⟩
  obtain ⟨p, q, p', q', e1, e2, -, -, h2⟩ := h t lo hi hlo hhi h0 h1
  refine ⟨p, q, e1, e2, fun x M hM => ?_⟩
  obtain ⟨g, G, hg, hgG, hgap⟩ := exists_gaps hinc
  have := (h2 x M 0 g G hM (by simp) (by simp) hg hgG hgap).1
  simpa using this

end

/-- Hypotheses of `C107_fitCurve` met: three points, seconds since 1970. -/
example : ∃ c' ks', fitCurve (double ℚ) false [1700000000, 1700000001, 1700000003]
    [fun _ => 1, fun _ => 3, fun _ => 2] (Hermite.E3.fresh ⟨0, 0⟩) = .ok (c', ks') ∧
    ∃ p, evaluate (double ℚ) (1700000002 : ℚ) c'.m = .ok (some p) := by
  obtain ⟨c', ks', c, ks, e, -, h⟩ := C107_fitCurve (K := ℚ) false (ts := [1700000000, 1700000001, 1700000003])
    (vs := [fun _ => 1, fun _ => 3, fun _ => 2]) rfl (by simp; norm_num)
    (by
      intro t ht
      have : t = 1700000000 ∨ t = 1700000001 ∨ t = 1700000003 := by simpa using ht
      rcases this with rfl | rfl | rfl
      · exact_mod_cast (double ℚ).int 1700000000 (by norm_num)
      · exact_mod_cast (double ℚ).int 1700000001 (by norm_num)
      · exact_mod_cast (double ℚ).int 1700000003 (by norm_num))
    (by
      intro v hv x
      have : v = (fun _ => 1) ∨ v = (fun _ => 3) ∨ v = fun _ => 2 := by simpa using hv
      rcases this with rfl | rfl | rfl
      · exact rnd_one _
      · exact rnd_three _
      · exact rnd_two _) ⟨0, 0⟩
  obtain ⟨p, q, e1, -⟩ := h 1700000002 1700000001 1700000003 (by simp) (by simp) (by norm_num) (by norm_num)
  exact ⟨c', ks', e, p, e1⟩

end Verif.Rounding

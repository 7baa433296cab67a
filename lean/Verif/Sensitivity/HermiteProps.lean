import Verif.Accuracy.Props
import Verif.Sensitivity.Props
import Verif.Container.MoreProps

/-!
# Property C118: noise of the data does not grow in Hermite curves and straight fits
-/

set_option linter.unusedSectionVars false
set_option linter.dupNamespace false

namespace Verif.Sensitivity

section hermite

open Set Verif.Manager Verif.Hermite Verif.Hermite.E3

variable {V : Type} [NormedAddCommGroup V] [InnerProductSpace ℝ V]

/-- The knots between which a fitted curve is interpolated. -/
theorem fit_segments (debug : Bool) (ts : List ℝ) (vs : List V) (h2 : 2 ≤ ts.length)
    (hl : vs.length = ts.length) (hinc : ts.Pairwise (· < ·)) (d0 dT : V) (w : World) :
    ∃ c' ks, fitCurveWithDerivatives debug ts vs d0 dT (fresh w) = .ok (c', ks) ∧
      ∀ (i : ℕ) (hi : i + 1 < ts.length), ∃ a b : Node ℝ (Knot V), a.time = ts[i] ∧ b.time = ts[i + 1] ∧
        a.coef.position = vs[i] ∧ b.coef.position = vs[i + 1] ∧
        (i = 0 → a.coef.velocity = d0) ∧
        (i ≠ 0 → a.coef.velocity = calculateSlope ts[i - 1] ts[i + 1] vs[i - 1] vs[i + 1]) ∧
        (i + 2 = ts.length → b.coef.velocity = dT) ∧
        (∀ h : i + 2 < ts.length, b.coef.velocity = calculateSlope ts[i] ts[i + 2] vs[i] vs[i + 2]) ∧
        ∀ t ∈ Icc ts[i] ts[i + 1], evaluate t c' = .ok (some (interpolate a b t)) ∧
          evaluateDerivative t 1 c' = .ok (some (interpolateVelocity a b t)) := by
  obtain ⟨cs, e, hcs, hc⟩ := fitLoop_ok ts vs d0 dT (by omega) ts.length 0 (by omega)
  obtain ⟨w', m', ks, e', hs, hk, -⟩ := fill_empty w (cs := cs) (by omega) hinc
  refine ⟨⟨w', m'⟩, ks, ?_, fun i hi => ?_⟩
  · rw [fitCurveWithDerivatives, if_neg (by simp [hl]), e, Outcome.ok_bind, fresh, e']
    rfl
  have hlen : m'.nodes.length = ts.length := by
    have := congrArg List.length hk
    simpa [Mgr.knots, hcs] using this
  have hnode : ∀ j (hj : j < ts.length), m'.nodes[j].time = ts[j] ∧ m'.nodes[j].coef = cs[j] := by
    intro j hj
    have h1 := congrArg (fun l => l[j]?) hk
    simp only [Mgr.knots, List.getElem?_map, List.getElem?_eq_getElem (show j < m'.nodes.length by omega),
      List.getElem?_eq_getElem (show j < (ts.zip cs).length by simp; omega), List.getElem_zip, Option.map_some,
      Option.some.injEq, Prod.mk.injEq] at h1
    exact h1
  have hsplit := Accuracy.nodes_split m'.nodes i (by omega)
  obtain ⟨ta, ca⟩ := hnode i (by omega)
  obtain ⟨tb, cb⟩ := hnode (i + 1) (by omega)
  obtain ⟨ka, ea, pa, va0, vaT, va⟩ := hc i (by omega)
  obtain ⟨kb, eb, pb, vb0, vbT, vb⟩ := hc (i + 1) (by omega)
  simp only [Nat.zero_add] at pa va0 vaT va pb vb0 vbT vb
  refine ⟨m'.nodes[i], m'.nodes[i + 1], ta, tb, by rw [ca, ea, pa], by rw [cb, eb, pb],
    fun h => by rw [ca, ea, va0 h], fun h => by rw [ca, ea, va h (by omega)],
    fun h => by rw [cb, eb, vbT (by omega) (by omega)],
    fun h => by
      rw [cb, eb, vb (by omega) (by omega)]
      simp only [Nat.add_sub_cancel], fun t ht => ?_⟩
  rw [← ta, ← tb] at ht
  exact ⟨evaluate_between hs hsplit ht.1 ht.2, velocity_between hs hsplit ht.1 ht.2⟩

theorem norm_smul_le' {r : ℝ} {x : V} {M : ℝ} (hr : 0 ≤ r) (hx : ‖x‖ ≤ M) : ‖r • x‖ ≤ r * M := by
  rw [norm_smul, Real.norm_of_nonneg hr]
  exact mul_le_mul_of_nonneg_left hx hr

/-- Two segments between the same times. -/
theorem segment_near {a b a' b' : Node ℝ (Knot V)} {ε M : ℝ} (ha : a'.time = a.time)
    (hb : b'.time = b.time) (h : a.time < b.time)
    (hpa : ‖a.coef.position - a'.coef.position‖ ≤ ε) (hpb : ‖b.coef.position - b'.coef.position‖ ≤ ε)
    (hva : ‖a.coef.velocity - a'.coef.velocity‖ ≤ M) (hvb : ‖b.coef.velocity - b'.coef.velocity‖ ≤ M)
    {t : ℝ} (ht : t ∈ Icc a.time b.time) :
    ‖interpolate a b t - interpolate a' b' t‖ ≤ ε + (b.time - a.time) / 4 * M ∧
    ‖interpolateVelocity a b t - interpolateVelocity a' b' t‖ ≤ 3 * ε / (b.time - a.time) + M := by
  have hd : 0 < b.time - a.time := sub_pos.2 h
  have hM : 0 ≤ M := (norm_nonneg _).trans hva
  have hε : 0 ≤ ε := (norm_nonneg _).trans hpa
  set T := b.time - a.time with hT
  obtain ⟨s, hs⟩ : ∃ s, s = (t - a.time) / T := ⟨_, rfl⟩
  have hs0 : 0 ≤ s := hs ▸ div_nonneg (by linarith [ht.1]) hd.le
  have hs1 : s ≤ 1 := hs ▸ (div_le_one hd).2 (by linarith [ht.2])
  have hss : s * (1 - s) ≤ 1 / 4 := by nlinarith [sq_nonneg (2 * s - 1)]
  have hr : 0 ≤ 1 - s := by linarith
  have hq := mul_nonneg hs0 hr
  set p := a.coef.position - a'.coef.position with hp
  set q := b.coef.position - b'.coef.position with hq'
  set u := a.coef.velocity - a'.coef.velocity with hu
  set w := b.coef.velocity - b'.coef.velocity with hw
  have e1 : interpolate a b t - interpolate a' b' t =
      ((1 - s) ^ 2 * (1 + 2 * s)) • p + (s ^ 2 * (3 - 2 * s)) • q + (T * s * (1 - s) ^ 2) • u -
        (T * s ^ 2 * (1 - s)) • w := by
    simp only [interpolate, ha, hb, ← hT, ← hs, hp, hq', hu, hw]
    module
  have e2 : interpolateVelocity a b t - interpolateVelocity a' b' t =
      (6 * s * (1 - s) / T) • (q - p) +
        (((1 - s) * (1 - 3 * s)) • u + (s * (3 * s - 2)) • w) := by
    have hT0 := hd.ne'
    simp only [interpolateVelocity, ha, hb, ← hT, ← hs, hp, hq', hu, hw]
    match_scalars <;> field_simp <;> ring
  constructor
  · rw [e1]
    have k1 := norm_smul_le' (show 0 ≤ (1 - s) ^ 2 * (1 + 2 * s) by positivity) hpa
    have k2 := norm_smul_le' (show 0 ≤ s ^ 2 * (3 - 2 * s) from mul_nonneg (by positivity) (by linarith)) hpb
    have k3 := norm_smul_le' (show 0 ≤ T * s * (1 - s) ^ 2 by positivity) hva
    have k4 := norm_smul_le' (show 0 ≤ T * s ^ 2 * (1 - s) by positivity) hvb
    have t1 := norm_sub_le (((1 - s) ^ 2 * (1 + 2 * s)) • p + (s ^ 2 * (3 - 2 * s)) • q +
      (T * s * (1 - s) ^ 2) • u) ((T * s ^ 2 * (1 - s)) • w)
    have t2 := norm_add_le (((1 - s) ^ 2 * (1 + 2 * s)) • p + (s ^ 2 * (3 - 2 * s)) • q)
      ((T * s * (1 - s) ^ 2) • u)
    have t3 := norm_add_le (((1 - s) ^ 2 * (1 + 2 * s)) • p) ((s ^ 2 * (3 - 2 * s)) • q)
    have key : (1 - s) ^ 2 * (1 + 2 * s) * ε + s ^ 2 * (3 - 2 * s) * ε + T * s * (1 - s) ^ 2 * M +
        T * s ^ 2 * (1 - s) * M = ε + T * M * (s * (1 - s)) := by ring
    have : T * M * (s * (1 - s)) ≤ T * M * (1 / 4) := mul_le_mul_of_nonneg_left hss (by positivity)
    linarith
  · rw [e2]
    have hqp : ‖q - p‖ ≤ 2 * ε := (norm_sub_le _ _).trans (by linarith)
    have k1 := norm_smul_le' (show 0 ≤ 6 * s * (1 - s) / T by positivity) hqp
    have k2 : ‖((1 - s) * (1 - 3 * s)) • u‖ ≤ |(1 - s) * (1 - 3 * s)| * M := by
      rw [norm_smul, Real.norm_eq_abs]; exact mul_le_mul_of_nonneg_left hva (abs_nonneg _)
    have k3 : ‖(s * (3 * s - 2)) • w‖ ≤ |s * (3 * s - 2)| * M := by
      rw [norm_smul, Real.norm_eq_abs]; exact mul_le_mul_of_nonneg_left hvb (abs_nonneg _)
    have l3 : |(1 - s) * (1 - 3 * s)| + |s * (3 * s - 2)| ≤ 1 := by
      rcases abs_cases ((1 - s) * (1 - 3 * s)) with ⟨h, _⟩ | ⟨h, _⟩ <;>
      rcases abs_cases (s * (3 * s - 2)) with ⟨h', _⟩ | ⟨h', _⟩ <;>
      rw [h, h'] <;> linarith
    have l4 := mul_le_mul_of_nonneg_right l3 hM
    have t1 := norm_add_le ((6 * s * (1 - s) / T) • (q - p))
      (((1 - s) * (1 - 3 * s)) • u + (s * (3 * s - 2)) • w)
    have t2 := norm_add_le (((1 - s) * (1 - 3 * s)) • u) ((s * (3 * s - 2)) • w)
    have k5 : 6 * s * (1 - s) / T * (2 * ε) ≤ 3 * ε / T := by
      rw [show 6 * s * (1 - s) / T * (2 * ε) = 12 * ε / T * (s * (1 - s)) by ring,
        show 3 * ε / T = 12 * ε / T * (1 / 4) by ring]
      exact mul_le_mul_of_nonneg_left hss (by positivity)
    linarith

theorem slope_noise {x z m ε : ℝ} {p q p' q' : V} (hm : 0 < m) (hxz : 2 * m ≤ z - x) (hp : ‖p - p'‖ ≤ ε)
    (hq : ‖q - q'‖ ≤ ε) : ‖calculateSlope x z p q - calculateSlope x z p' q'‖ ≤ ε / m := by
  have hε : 0 ≤ ε := (norm_nonneg _).trans hp
  have e : calculateSlope x z p q - calculateSlope x z p' q' = (1 / (z - x)) • ((q - q') - (p - p')) := by
    simp only [calculateSlope]
    module
  have hd : 0 < z - x := by linarith
  rw [e]
  refine (norm_smul_le' (by positivity) ((norm_sub_le _ _).trans (add_le_add hq hp))).trans ?_
  rw [one_div_mul_eq_div, div_le_div_iff₀ hd hm]
  nlinarith

/-- **C118**, Hermite curves in any number of dimensions. Two sets of points at the same times, between
`m` and `H` apart, at no knot more than `ε` apart, with end velocities at most `δ` apart: the two fitted
curves are nowhere further apart than `ε + H/4 * max δ (ε / m)`, and their velocities nowhere further
than `3 ε / m + max δ (ε / m)`. -/
theorem C118_hermite (debug debug' : Bool) (ts : List ℝ) (ps qs : List V) (h2 : 2 ≤ ts.length)
    (hp : ps.length = ts.length) (hq : qs.length = ts.length) (hinc : ts.Pairwise (· < ·))
    (d0 dT e0 eT : V) (w w' : World) (ε δ m H : ℝ) (hm : 0 < m)
    (hgap : ∀ (i : ℕ) (hi : i + 1 < ts.length), m ≤ ts[i + 1] - ts[i] ∧ ts[i + 1] - ts[i] ≤ H)
    (hpq : ∀ (i : ℕ) (p q : V), ps[i]? = some p → qs[i]? = some q → ‖p - q‖ ≤ ε)
    (h0 : ‖d0 - e0‖ ≤ δ) (hT : ‖dT - eT‖ ≤ δ) :
    ∃ c ks c' ks', fitCurveWithDerivatives debug ts ps d0 dT (fresh w) = .ok (c, ks) ∧
      fitCurveWithDerivatives debug' ts qs e0 eT (fresh w') = .ok (c', ks') ∧
      ∀ t, ts[0] ≤ t → t ≤ ts[ts.length - 1] → ∃ p q u v,
        evaluate t c = .ok (some p) ∧ evaluate t c' = .ok (some q) ∧
        evaluateDerivative t 1 c = .ok (some u) ∧ evaluateDerivative t 1 c' = .ok (some v) ∧
        ‖p - q‖ ≤ ε + H / 4 * max δ (ε / m) ∧ ‖u - v‖ ≤ 3 * ε / m + max δ (ε / m) := by
  obtain ⟨c, ks, e, hc⟩ := fit_segments debug ts ps h2 hp hinc d0 dT w
  obtain ⟨c', ks', e', hc'⟩ := fit_segments debug' ts qs h2 hq hinc e0 eT w'
  refine ⟨c, ks, c', ks', e, e', fun t ht0 htT => ?_⟩
  obtain ⟨i, hi, ht⟩ : ∃ i, ∃ hi : i + 1 < ts.length, ts[i] ≤ t ∧ t ≤ ts[i + 1] := by
    have aux : ∀ m (hm : m + 1 < ts.length), t ≤ ts[m + 1] →
        ∃ i, ∃ hi : i + 1 < ts.length, ts[i] ≤ t ∧ t ≤ ts[i + 1] := by
      intro m
      induction m with
      | zero => intro hm hh; exact ⟨0, hm, ht0, hh⟩
      | succ m ih =>
        intro hm hh
        rcases le_total t ts[m + 1] with h1 | h1
        · exact ih (by omega) h1
        · exact ⟨m + 1, hm, h1, hh⟩
    refine aux (ts.length - 2) (by omega) ?_
    simpa only [show ts.length - 2 + 1 = ts.length - 1 by omega] using htT
  obtain ⟨a, b, ta, tb, pa, pb, va0, va, vbT, vb, hev⟩ := hc i hi
  obtain ⟨a', b', ta', tb', pa', pb', va0', va', vbT', vb', hev'⟩ := hc' i hi
  have near : ∀ j (hj : j < ts.length), ‖ps[j] - qs[j]‖ ≤ ε := fun j hj =>
    hpq j _ _ (List.getElem?_eq_getElem _) (List.getElem?_eq_getElem _)
  have hg := hgap i hi
  have hva : ‖a.coef.velocity - a'.coef.velocity‖ ≤ max δ (ε / m) := by
    by_cases h : i = 0
    · rw [va0 h, va0' h]; exact h0.trans (le_max_left _ _)
    · rw [va h, va' h]
      have hg' := hgap (i - 1) (by omega)
      simp only [show i - 1 + 1 = i by omega] at hg'
      exact (slope_noise hm (by linarith [hg.1, hg'.1]) (near _ (by omega)) (near _ (by omega))).trans (le_max_right _ _)
  have hvb : ‖b.coef.velocity - b'.coef.velocity‖ ≤ max δ (ε / m) := by
    by_cases h : i + 2 = ts.length
    · rw [vbT h, vbT' h]; exact hT.trans (le_max_left _ _)
    · rw [vb (by omega), vb' (by omega)]
      have hg' := hgap (i + 1) (by omega)
      exact (slope_noise hm (by linarith [hg.1, hg'.1]) (near _ (by omega)) (near _ (by omega))).trans (le_max_right _ _)
  have hM := (norm_nonneg _).trans hva
  have hε := (norm_nonneg _).trans (near 0 (by omega))
  obtain ⟨k1, k2⟩ := segment_near (a := a) (b := b) (a' := a') (b' := b') (t := t) (ε := ε)
    (by rw [ta, ta']) (by rw [tb, tb']) (by rw [ta, tb]; linarith [hg.1])
    (by rw [pa, pa']; exact near i (by omega)) (by rw [pb, pb']; exact near _ hi) hva hvb
    (by rw [ta, tb]; exact ht)
  rw [ta, tb] at k1 k2
  refine ⟨_, _, _, _, (hev t ht).1, (hev' t ht).1, (hev t ht).2, (hev' t ht).2, k1.trans ?_, k2.trans ?_⟩
  · have := mul_le_mul_of_nonneg_right (show (ts[i + 1] - ts[i]) / 4 ≤ H / 4 by linarith [hg.2]) hM
    linarith
  · have := div_le_div_of_nonneg_left (show 0 ≤ 3 * ε by linarith) hm hg.1
    linarith

/-- Three points in space a second apart, each off by a centimetre: the curve is off by no more than
one and a quarter centimetres. -/
example (w : World) (p1 p2 p3 q1 q2 q3 : EuclideanSpace ℝ (Fin 3)) (h1 : ‖p1 - q1‖ ≤ 1 / 100)
    (h2 : ‖p2 - q2‖ ≤ 1 / 100) (h3 : ‖p3 - q3‖ ≤ 1 / 100) :
    ∃ c ks c' ks', fitCurveWithDerivatives true ([0, 1, 2] : List ℝ) [p1, p2, p3] 0 0 (fresh w) = .ok (c, ks) ∧
      fitCurveWithDerivatives true ([0, 1, 2] : List ℝ) [q1, q2, q3] 0 0 (fresh w) = .ok (c', ks') ∧
      ∃ p q, evaluate (3 / 2 : ℝ) c = .ok (some p) ∧ evaluate (3 / 2 : ℝ) c' = .ok (some q) ∧
        ‖p - q‖ ≤ 1 / 80 := by
  obtain ⟨c, ks, c', ks', e, e', h⟩ := C118_hermite true true [0, 1, 2] [p1, p2, p3] [q1, q2, q3] (by simp)
    rfl rfl (by norm_num) 0 0 0 0 w w (1 / 100) 0 1 1 one_pos
    (fun i hi => by
      have : i = 0 ∨ i = 1 := by simp at hi; omega
      rcases this with rfl | rfl <;> norm_num)
    (fun i p q hp hq => by
      have hi : i < 3 := by simpa using (List.getElem?_eq_some_iff.mp hp).1
      have : i = 0 ∨ i = 1 ∨ i = 2 := by omega
      rcases this with rfl | rfl | rfl <;> simp at hp hq <;> subst hp <;> subst hq <;> assumption)
    (by simp) (by simp)
  obtain ⟨p, q, u, v, k1, k2, -, -, k3, -⟩ := h (3 / 2) (by norm_num) (by norm_num)
  refine ⟨c, ks, c', ks', e, e', p, q, k1, k2, k3.trans (by norm_num)⟩

end hermite

section straight

open Verif.Spline Verif.Container Verif.Container.Container

variable {K : Type} [Field K] [LinearOrder K] [IsStrictOrderedRing K] {o : Order}

/-- **C118**, straight fits (fits without end conditions, and all fits of orders 1 and 2): the two curves
are nowhere further apart than the points. -/
theorem C118_straight (S S' : Solver K) (ts ps qs : List K) (h2 : 2 ≤ ts.length)
    (hb : ts.length ≤ 2 ^ 28) (hp : ps.length = ts.length) (hq : qs.length = ts.length)
    (hinc : ts.Pairwise (· < ·)) (v0 a0 vT aT w0 b0 wT bT ε : K)
    (hpq : ∀ (i : ℕ) (p q : K), ps[i]? = some p → qs[i]? = some q → |p - q| ≤ ε)
    (c d : Container o K) (r r' : Outcome (Bool × Container o K))
    (hr : r = setDataLinear ts ps c ∨ (o = .o1 ∨ o = .o2) ∧
      (r = setDataVel S ts ps v0 vT c ∨ r = setDataAcc S ts ps v0 a0 vT aT c))
    (hr' : r' = setDataLinear ts qs d ∨ (o = .o1 ∨ o = .o2) ∧
      (r' = setDataVel S' ts qs w0 wT d ∨ r' = setDataAcc S' ts qs w0 b0 wT bT d)) :
    ∃ c' d', r = .ok (true, c') ∧ r' = .ok (true, d') ∧ ∀ t, ts[0] ≤ t → t ≤ ts[ts.length - 1] →
      ∃ p q, c'.getPositionAtTime (t - ts[0]) = .ok p ∧ d'.getPositionAtTime (t - ts[0]) = .ok q ∧
        |p - q| ≤ ε := by
  obtain ⟨c', e, hc⟩ := C65_straight S ts ps h2 hb hp hinc v0 a0 vT aT c r hr
  obtain ⟨d', e', hd⟩ := C65_straight S' ts qs h2 hb hq hinc w0 b0 wT bT d r' hr'
  refine ⟨c', d', e, e', fun t ht0 htT => ?_⟩
  obtain ⟨i, hi, ht⟩ : ∃ i, ∃ hi : i + 1 < ts.length, ts[i] ≤ t ∧ t ≤ ts[i + 1] := by
    have aux : ∀ m (hm : m + 1 < ts.length), t ≤ ts[m + 1] →
        ∃ i, ∃ hi : i + 1 < ts.length, ts[i] ≤ t ∧ t ≤ ts[i + 1] := by
      intro m
      induction m with
      | zero => intro hm hh; exact ⟨0, hm, ht0, hh⟩
      | succ m ih =>
        intro hm hh
        rcases le_total t ts[m + 1] with h1 | h1
        · exact ih (by omega) h1
        · exact ⟨m + 1, hm, h1, hh⟩
    refine aux (ts.length - 2) (by omega) ?_
    simpa only [show ts.length - 2 + 1 = ts.length - 1 by omega] using htT
  have near : ∀ j (hj : j < ts.length), |ps[j] - qs[j]| ≤ ε := fun j hj =>
    hpq j _ _ (List.getElem?_eq_getElem _) (List.getElem?_eq_getElem _)
  refine ⟨_, _, (hc i hi (by omega) t ht.1).1 ht.2, (hd i hi (by omega) t ht.1).1 ht.2, ?_⟩
  have hlt : ts[i] < ts[i + 1] := List.pairwise_iff_getElem.1 hinc i (i + 1) _ _ (by omega)
  have hd0 : 0 < ts[i + 1] - ts[i] := sub_pos.2 hlt
  have hs0 : 0 ≤ (t - ts[i]) / (ts[i + 1] - ts[i]) := div_nonneg (by linarith [ht.1]) hd0.le
  have hs1 : (t - ts[i]) / (ts[i + 1] - ts[i]) ≤ 1 := (div_le_one hd0).2 (by linarith [ht.2])
  generalize (t - ts[i]) / (ts[i + 1] - ts[i]) = s at hs0 hs1
  have k1 := abs_le.mp (abs_mul_le (near i (by omega)) (show 0 ≤ 1 - s by linarith))
  have k2 := abs_le.mp (abs_mul_le (near (i + 1) hi) hs0)
  have e : ps[i] + (ps[i + 1] - ps[i]) * s - (qs[i] + (qs[i + 1] - qs[i]) * s) =
      (ps[i] - qs[i]) * (1 - s) + (ps[i + 1] - qs[i + 1]) * s := by ring
  rw [e]
  exact abs_le.mpr ⟨by linarith [k1.1, k2.1], by linarith [k1.2, k2.2]⟩

/-- The hypotheses of `C118_straight` met. -/
example (S : Solver ℚ) (c d : Container .o1 ℚ) : ∃ c' d', setDataLinear [0, 1, 3] [0, 1, 0] c = .ok (true, c') ∧
    setDataVel S [0, 1, 3] [1 / 10, 1, -1 / 10] 0 0 d = .ok (true, d') ∧
    ∃ p q, c'.getPositionAtTime (2 - 0) = .ok p ∧ d'.getPositionAtTime (2 - 0) = .ok q ∧ |p - q| ≤ 1 / 10 := by
  obtain ⟨c', d', e, e', h⟩ := C118_straight S S [0, 1, 3] [0, 1, 0] [1 / 10, 1, -1 / 10] (by simp) (by simp) rfl rfl
    (by decide +kernel) 0 0 0 0 0 0 0 0 (1 / 10)
    (fun i p q hp hq => by
      have hi : i < 3 := by simpa using (List.getElem?_eq_some_iff.mp hp).1
      have : i = 0 ∨ i = 1 ∨ i = 2 := by omega
      rcases this with rfl | rfl | rfl <;> simp at hp hq <;> subst hp <;> subst hq <;> norm_num [abs_le])
    c d _ _ (Or.inl rfl) (Or.inr ⟨Or.inl rfl, Or.inl rfl⟩)
  exact ⟨c', d', e, e', h 2 (by norm_num) (by norm_num)⟩

end straight

end Verif.Sensitivity

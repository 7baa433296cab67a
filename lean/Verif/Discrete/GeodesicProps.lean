import Verif.Discrete.LocalProps
import Verif.Discrete.SE2
import Verif.Manager.RetimeLemmas
import Mathlib.Tactic.Module

/-!
# Slerp curves move steadily, and do not depend on clock, direction or extra knots

C121.
-/

set_option linter.unusedSectionVars false
set_option linter.dupNamespace false

namespace Verif.Discrete

open Verif.Manager Verif.Policy

variable {K G V : Type} [Field K] [LinearOrder K] [IsStrictOrderedRing K] [Group G] [AddCommGroup V] [Module K V]

/-- What else the exponential and the logarithm of a group of motions satisfy: the exponential turns sums along
a line into products, and a fraction of a logarithm is the logarithm of its exponential. Proved for the plane
below (`se2_geodesic`). -/
structure Geodesic (L : ExpLog K G V) : Prop where
  exp_add : ∀ (v : V) (x y : K), L.exp ((x + y) • v) = L.exp (x • v) * L.exp (y • v)
  log_exp : ∀ (g : G) (x : K), 0 ≤ x → x ≤ 1 → L.log (L.exp (x • L.log g)) = x • L.log g

theorem Geodesic.exp_neg {L : ExpLog K G V} (hL : Geodesic L) (v : V) (x : K) :
    L.exp ((-x) • v) = (L.exp (x • v))⁻¹ := by
  rw [eq_inv_iff_mul_eq_one, ← hL.exp_add]
  simp [L.exp_zero]

theorem Geodesic.end_eq {L : ExpLog K G V} (A B : G) : B = A * L.exp (L.log (A⁻¹ * B)) := by
  rw [L.exp_log, mul_inv_cancel_left]

/-- A weaker contract, which maps that take translation and rotation apart satisfy as well (`pose3_path`): a fraction of
a logarithm is the logarithm of its exponential, and the way from a point on the way to the end is the rest of the
way. -/
structure Path (L : ExpLog K G V) : Prop where
  log_exp : ∀ (g : G) (x : K), 0 ≤ x → x ≤ 1 → L.log (L.exp (x • L.log g)) = x • L.log g
  rest : ∀ (g : G) (y z : K), 0 ≤ y → y ≤ 1 → 0 ≤ z → z ≤ 1 →
    L.exp (y • L.log g) * L.exp (z • L.log ((L.exp (y • L.log g))⁻¹ * g)) = L.exp ((y + z * (1 - y)) • L.log g)

theorem Geodesic.path {L : ExpLog K G V} (hL : Geodesic L) : Path L where
  log_exp := hL.log_exp
  rest g y z h0 h1 h2 h3 := by
    have hB : (L.exp (y • L.log g))⁻¹ * g = L.exp ((1 - y) • L.log g) := by
      have := hL.exp_add (L.log g) (-y) 1
      rw [one_smul, L.exp_log, hL.exp_neg] at this
      rw [← this]
      congr 2
      ring
    rw [hB, hL.log_exp _ _ (by linarith) (by linarith), smul_smul, ← hL.exp_add]

/-- The way back along `g` is the way there. -/
def Reversible (L : ExpLog K G V) (g : G) : Prop :=
  ∀ x : K, 0 ≤ x → x ≤ 1 → g * L.exp (x • L.log g⁻¹) = L.exp ((1 - x) • L.log g)

/-- For geodesic maps this holds but for half turns. -/
theorem Geodesic.reversible {L : ExpLog K G V} (hL : Geodesic L) {g : G} (hg : L.log g⁻¹ = -L.log g) : Reversible L g := by
  intro x _ _
  rw [hg, smul_neg, ← neg_smul]
  have := hL.exp_add (L.log g) 1 (-x)
  rw [one_smul, L.exp_log] at this
  rw [← this, sub_eq_add_neg]

/-- C121, steady motion. Between two neighbouring knots a slerp curve moves on from any of its values by the same
motion in the same time. -/
theorem C121_steady {L : ExpLog K G V} (hL : Geodesic L) {s : St K G} (hr : Reachable L .slerp s)
    (hc : s.w.calls + 1 < 2 ^ 64) {ta tb : K} {A B : G} (ha : (ta, A) ∈ s.c.knots)
    (hb : (tb, B) ∈ s.c.knots) (hab : ta < tb)
    (hno : ∀ x v, (x, v) ∈ s.c.knots → ¬(ta < x ∧ x < tb)) {t u : K} (h0 : ta ≤ t) (h1 : t ≤ tb) (h0' : ta ≤ u)
    (h1' : u ≤ tb) :
    ∃ p, evaluate L .slerp t s.c.mgr = .ok p ∧
      evaluate L .slerp u s.c.mgr = .ok (p * L.exp (((u - t) / (tb - ta)) • L.log (A⁻¹ * B))) := by
  refine ⟨_, C43_between L hr hc ha hb hab hno h0 h1, ?_⟩
  rw [C43_between L hr hc ha hb hab hno h0' h1', mul_assoc, ← hL.exp_add, ← add_div]
  congr 5
  ring

/-- The bracket of a time in a curve with values: it is a knot, or lies between two neighbours. -/
theorem inside_cases {m : Mgr K G} (hs : Sorted m.nodes) (hne : m.knots ≠ []) {t : K} (h0 : m.getMinTime ≤ t)
    (h1 : t ≤ m.getMaxTime) :
    (∃ v, (t, v) ∈ m.knots) ∨
    ∃ pre a b post, m.nodes = pre ++ a :: b :: post ∧ a.time < t ∧ t < b.time := by
  by_cases h2 : 2 ≤ m.size
  · obtain ⟨pre, a, b, post, hm, ha, hb, -⟩ := exists_bracket hs h2 h0 h1
    rcases ha.eq_or_lt with rfl | ha
    · exact .inl ⟨a.coef, by simp [Mgr.knots, hm]⟩
    rcases hb.eq_or_lt with rfl | hb
    · exact .inl ⟨b.coef, by simp [Mgr.knots, hm]⟩
    · exact .inr ⟨pre, a, b, post, hm, ha, hb⟩
  · obtain ⟨n, l, hn⟩ := List.exists_cons_of_ne_nil (knots_ne_nil.1 hne)
    obtain rfl : l = [] := by
      rw [Mgr.size, hn] at h2
      cases l with
      | nil => rfl
      | cons x l => simp at h2
    left
    simp only [Mgr.getMinTime, Mgr.getMaxTime, hn, List.getLast?_singleton] at h0 h1
    exact ⟨n.coef, by simp [Mgr.knots, hn, le_antisymm h1 h0]⟩

/-- C121, clocks. Two curves with the same values at times read off two clocks, one running `al` times as fast as
the other and `be` ahead, have the same values at all corresponding times. -/
theorem C121_clock (L : ExpLog K G V) {kind : Kind} (hk : kind ≠ .slerpSE3) {s s' : St K G}
    (hr : Reachable L kind s) (hr' : Reachable L kind s') (hc : s.w.calls + 1 < 2 ^ 64)
    (hc' : s'.w.calls + 1 < 2 ^ 64) {al be : K} (hal : 0 < al) (hne : s.c.knots ≠ [])
    (hkn : s'.c.knots = s.c.knots.map fun p => (al * p.1 + be, p.2)) (t : K) :
    evaluate L kind (al * t + be) s'.c.mgr = evaluate L kind t s.c.mgr := by
  simp only [curve_knots] at *
  have hφ : StrictMono fun x : K => al * x + be := fun x y h => by
    have := mul_lt_mul_of_pos_left h hal
    simp only
    linarith
  rw [evaluate_eq L hk (hr.WF hc).sorted, evaluate_eq L hk (hr'.WF hc').sorted,
    evalWith_retimed (φ := fun x => al * x + be) (single := (id : G → G)) (f := between L kind) (single' := id)
      (f' := between L kind) (F := id) hφ (hr.WF hc).sorted hne id hkn (fun _ _ => rfl) t ?_]
  · cases evalWith id (between L kind) t s.c.mgr with
    | ok r => cases r <;> rfl
    | _ => rfl
  · intro a b a' b' _ _ hab e1 e2 e3 e4
    have h1 : b'.time - (al * t + be) = al * (b.time - t) := by rw [e2]; ring
    have h2 : al * t + be - a'.time = al * (t - a.time) := by rw [e1]; ring
    have h3 : b'.time - a'.time = al * (b.time - a.time) := by rw [e1, e2]; ring
    have hd : b.time - a.time ≠ 0 := sub_ne_zero.2 hab.ne'
    cases kind with
    | discrete =>
      simp only [between, nearer, h1, h2, e3, e4, id, ge_iff_le, mul_le_mul_iff_right₀ hal]
    | slerp => simp only [between, slerpAt, h2, h3, e3, e4, id, mul_div_mul_left _ _ hal.ne']
    | slerpSE3 => exact absurd rfl hk

/-- C121, direction. A slerp curve with the same values in the opposite order, at times read off a clock that runs
backwards, has the same values at all corresponding times (where the way back is the way there: everywhere but for
half turns). -/
theorem C121_reversed {L : ExpLog K G V} {s s' : St K G}
    (hr : Reachable L .slerp s) (hr' : Reachable L .slerp s') (hc : s.w.calls + 1 < 2 ^ 64)
    (hc' : s'.w.calls + 1 < 2 ^ 64) {al be : K} (hal : al < 0) (hne : s.c.knots ≠ [])
    (hkn : s'.c.knots = (s.c.knots.map fun p => (al * p.1 + be, p.2)).reverse)
    (hinv : ∀ ta tb A B, (ta, A) ∈ s.c.knots → (tb, B) ∈ s.c.knots → ta < tb → Reversible L (A⁻¹ * B)) (t : K) :
    evaluate L .slerp (al * t + be) s'.c.mgr = evaluate L .slerp t s.c.mgr := by
  simp only [curve_knots] at *
  have hs := (hr.WF hc).sorted
  have hs' := (hr'.WF hc').sorted
  have hφ : StrictAnti fun x : K => al * x + be := fun x y h => by
    have := mul_lt_mul_of_neg_left h hal
    simp only
    linarith
  have hne' : s'.c.mgr.knots ≠ [] := by rw [hkn]; simpa using hne
  have hmin := reversed_min (φ := fun x => al * x + be) (F := id) hkn hne
  have hmax := reversed_max (φ := fun x => al * x + be) (F := id) hkn hne
  by_cases hin : s.c.mgr.getMinTime ≤ t ∧ t ≤ s.c.mgr.getMaxTime
  · rcases inside_cases hs hne hin.1 hin.2 with ⟨v, hv⟩ | ⟨pre, a, b, post, hm, h0, h1⟩
    · rw [evaluate_knot L (by simp) hs hv]
      refine evaluate_knot L (by simp) hs' ?_
      rw [hkn, List.mem_reverse, List.mem_map]
      exact ⟨(t, v), hv, rfl⟩
    · obtain ⟨pre', a', b', post', hm', e1, e2, e3, e4, -⟩ :=
        reversed_split (φ := fun x => al * x + be) (F := id) hkn hm
      have hab := neighbours_lt hs hm
      rw [evaluate_segment L (by simp) hs hm h0.le h1.le,
        evaluate_segment L (by simp) hs' hm' (by rw [e2]; exact hφ.antitone h1.le)
          (by rw [e1]; exact hφ.antitone h0.le)]
      have hd : b.time - a.time ≠ 0 := sub_ne_zero.2 hab.ne'
      have hx : (al * t + be - b'.time) / (a'.time - b'.time) = 1 - (t - a.time) / (b.time - a.time) := by
        rw [e1, e2, show al * t + be - (al * b.time + be) = -al * (b.time - t) by ring,
          show al * a.time + be - (al * b.time + be) = -al * (b.time - a.time) by ring,
          mul_div_mul_left _ _ (neg_ne_zero.2 hal.ne)]
        field_simp
        ring
      have hl := hinv a.time b.time a.coef b.coef (by simp [Mgr.knots, hm]) (by simp [Mgr.knots, hm]) hab
      have hx0 : 0 ≤ 1 - (t - a.time) / (b.time - a.time) := by
        rw [sub_nonneg, div_le_one (sub_pos.2 hab)]; linarith
      have hx1 : 1 - (t - a.time) / (b.time - a.time) ≤ 1 := by
        have := div_nonneg (sub_nonneg.2 h0.le) (sub_pos.2 hab).le
        linarith
      have hl' := hl _ hx0 hx1
      rw [sub_sub_cancel, mul_inv_rev, inv_inv] at hl'
      simp only [between, slerpAt, hx, e3, e4, id]
      rw [← hl', mul_assoc, mul_inv_cancel_left]
  · have hout : t < s.c.mgr.getMinTime ∨ s.c.mgr.getMaxTime < t := by
      rwa [not_and_or, not_le, not_le] at hin
    rw [evaluate_outside L hs (.inl hne) (.inr hout), evaluate_outside L hs' (.inl hne') (.inr ?_)]
    rw [hmin, hmax]
    rcases hout with h | h
    · exact .inr (hφ h)
    · exact .inl (hφ h)

theorem min_is_knot {m : Mgr K G} (hne : m.knots ≠ []) :
    (∃ v, (m.getMinTime, v) ∈ m.knots) ∧ ∃ v, (m.getMaxTime, v) ∈ m.knots := by
  obtain ⟨n, l, hn⟩ := List.exists_cons_of_ne_nil (knots_ne_nil.1 hne)
  refine ⟨⟨n.coef, by simp [Mgr.getMinTime, Mgr.knots, hn]⟩, ?_⟩
  cases hl : m.nodes.getLast? with
  | none => simp [hn] at hl
  | some x =>
    exact ⟨x.coef, by simpa [Mgr.getMaxTime, hl] using mem_knots_of_node (List.mem_of_getLast? hl)⟩

theorem none_between {m : Mgr K G} (hs : Sorted m.nodes) {pre post : List (Node K G)} {a b : Node K G}
    (hm : m.nodes = pre ++ a :: b :: post) (x : K) (v : G) (hx : (x, v) ∈ m.knots) :
    x ≤ a.time ∨ b.time ≤ x := by
  obtain ⟨n, hn, e⟩ := List.mem_map.1 hx
  cases e
  rw [hm] at hs hn
  simp only [Sorted, List.pairwise_append, List.pairwise_cons] at hs
  simp only [List.mem_append, List.mem_cons] at hn
  rcases hn with hn | rfl | rfl | hn
  · exact .inl (hs.2.2 n hn a (by simp)).le
  · exact .inl le_rfl
  · exact .inr le_rfl
  · exact .inr (hs.2.1.2.1 n hn).le

/-- C121, extra knots. Setting a knot on a slerp curve, at any time with the value the curve has there, changes the
curve nowhere. -/
theorem C121_refine {L : ExpLog K G V} (hL : Path L) {s : St K G} (hr : Reachable L .slerp s)
    (hc : s.w.calls + 2 < 2 ^ 64) {x : K} {p : G} (hx : evaluate L .slerp x s.c.mgr = .ok p) :
    ∃ w' c', s.c.setCurve s.w [x] [p] = .ok (w', c') ∧ (x, p) ∈ c'.knots ∧
      ∀ t, evaluate L .slerp t c'.mgr = evaluate L .slerp t s.c.mgr := by
  have hwf := hr.WF (by omega)
  have hs := hwf.sorted
  obtain ⟨-, w', c', e, hkn, -⟩ := C53_fit_replaces L hr (ts := [x]) (vs := [p]) rfl (by simp)
    (by simpa using hc) (by simp)
  refine ⟨w', c', e, by rw [hkn]; simp, fun t => ?_⟩
  have hcalls : w'.calls ≤ s.w.calls + 1 := by
    obtain ⟨w1, m1, ks1, e1, hle⟩ := insertLoop_ok hwf [(x, p)] (by simp; omega)
    have e2 := e
    simp only [Curve.setCurve, List.length_singleton, ne_eq, not_true_eq_false, if_false, zero_lt_one, if_true,
      Mgr.insertCoefficients, List.zip_cons_cons, List.zip_nil_right, e1, Outcome.ok_bind] at e2
    cases e2
    simpa using hle
  have hs' := ((set_steps e).WF hwf (show w'.calls + 1 < 2 ^ 64 by omega)).sorted
  simp only [curve_knots] at hkn
  have hkn' : ∀ y v, (y, v) ∈ c'.mgr.knots ↔ (y = x ∧ v = p) ∨ (y ≠ x ∧ (y, v) ∈ s.c.mgr.knots) := by
    intro y v
    rw [hkn]
    simp
  have hne : s.c.mgr.knots ≠ [] := by
    intro h
    have := C42_outside L hr (by omega) x
    simp only [curve_knots] at this
    by_cases h0 : x = 0
    · rw [this.2.2 h h0 (by simp)] at hx; cases hx
    · rw [this.2.1 h h0] at hx; cases hx
  have hin : s.c.mgr.getMinTime ≤ x ∧ x ≤ s.c.mgr.getMaxTime := by
    by_contra hcon
    rw [not_and_or, not_le, not_le] at hcon
    rw [evaluate_outside L hs (.inl hne) (.inr hcon)] at hx
    cases hx
  have hne' : c'.mgr.knots ≠ [] := fun h => by
    have := (hkn' x p).2 (.inl ⟨rfl, rfl⟩)
    rw [h] at this
    cases this
  -- a knot of the curve is still one
  have hold : ∀ y v, (y, v) ∈ s.c.mgr.knots → (y, v) ∈ c'.mgr.knots := by
    intro y v hy
    rw [hkn']
    by_cases hyx : y = x
    · subst hyx
      rw [evaluate_knot L (by simp) hs hy] at hx
      cases hx
      exact .inl ⟨rfl, rfl⟩
    · exact .inr ⟨hyx, hy⟩
  by_cases ht : s.c.mgr.getMinTime ≤ t ∧ t ≤ s.c.mgr.getMaxTime
  · rcases inside_cases hs hne ht.1 ht.2 with ⟨v, hv⟩ | ⟨pre, a, b, post, hm, h0, h1⟩
    · rw [evaluate_knot L (by simp) hs hv, evaluate_knot L (by simp) hs' (hold t v hv)]
    · have hab := neighbours_lt hs hm
      have ha := hold a.time a.coef (mem_knots_of_node (by simp [hm]))
      have hb := hold b.time b.coef (mem_knots_of_node (by simp [hm]))
      rw [evaluate_segment L (by simp) hs hm h0.le h1.le]
      by_cases hxin : a.time < x ∧ x < b.time
      · rw [evaluate_segment L (by simp) hs hm hxin.1.le hxin.2.le] at hx
        simp only [between, slerpAt, Outcome.ok.injEq] at hx
        have hd : 0 < b.time - a.time := sub_pos.2 hab
        have hxm := (hkn' x p).2 (.inl ⟨rfl, rfl⟩)
        rcases le_or_gt t x with htx | htx
        · obtain ⟨pre', a', b', post', hm', e1, e2, e3, e4⟩ := exists_segment hs' ha hxm hxin.1 (by
            rintro y v hy ⟨g0, g1⟩
            rcases (hkn' y v).1 hy with ⟨rfl, -⟩ | ⟨-, hy⟩
            · exact lt_irrefl _ g1
            · rcases none_between hs hm y v hy with h | h
              · exact absurd g0 (not_lt.2 h)
              · exact absurd (g1.trans hxin.2) (not_lt.2 h))
          rw [evaluate_segment L (by simp) hs' hm' (by rw [e1]; exact h0.le) (by rw [e3]; exact htx)]
          simp only [between, slerpAt, e1, e2, e3, e4, ← hx, inv_mul_cancel_left]
          rw [hL.log_exp _ _ (div_nonneg (sub_nonneg.2 hxin.1.le) hd.le)
            ((div_le_one hd).2 (by linarith [hxin.2])), smul_smul]
          congr 4
          have : x - a.time ≠ 0 := sub_ne_zero.2 hxin.1.ne'
          field_simp
        · obtain ⟨pre', a', b', post', hm', e1, e2, e3, e4⟩ := exists_segment hs' hxm hb hxin.2 (by
            rintro y v hy ⟨g0, g1⟩
            rcases (hkn' y v).1 hy with ⟨rfl, -⟩ | ⟨-, hy⟩
            · exact lt_irrefl _ g0
            · rcases none_between hs hm y v hy with h | h
              · exact absurd (hxin.1.trans g0) (not_lt.2 h)
              · exact absurd g1 (not_lt.2 h))
          rw [evaluate_segment L (by simp) hs' hm' (by rw [e1]; exact htx.le) (by rw [e3]; exact h1.le)]
          simp only [between, slerpAt, e1, e2, e3, e4, ← hx]
          set v := L.log (a.coef⁻¹ * b.coef) with hv
          set y := (x - a.time) / (b.time - a.time) with hy
          have hy0 : 0 ≤ y := div_nonneg (sub_nonneg.2 hxin.1.le) hd.le
          have hy1 : y ≤ 1 := (div_le_one hd).2 (by linarith [hxin.2])
          have hbx : b.time - x ≠ 0 := sub_ne_zero.2 hxin.2.ne'
          have hbx' : 0 < b.time - x := sub_pos.2 hxin.2
          have hz0 : 0 ≤ (t - x) / (b.time - x) := div_nonneg (by linarith) hbx'.le
          have hz1 : (t - x) / (b.time - x) ≤ 1 := (div_le_one hbx').2 (by linarith)
          have hrest := hL.rest (a.coef⁻¹ * b.coef) y _ hy0 hy1 hz0 hz1
          rw [← hv] at hrest
          rw [mul_inv_rev, mul_assoc (L.exp (y • v))⁻¹, mul_assoc a.coef, hrest]
          congr 4
          rw [hy]
          field_simp
          ring
      · obtain ⟨pre', a', b', post', hm', e1, e2, e3, e4⟩ := exists_segment hs' ha hb hab (by
          rintro y v hy ⟨g0, g1⟩
          rcases (hkn' y v).1 hy with ⟨rfl, -⟩ | ⟨-, hy⟩
          · exact hxin ⟨g0, g1⟩
          · rcases none_between hs hm y v hy with h | h
            · exact absurd g0 (not_lt.2 h)
            · exact absurd g1 (not_lt.2 h))
        rw [evaluate_segment L (by simp) hs' hm' (by rw [e1]; exact h0.le) (by rw [e3]; exact h1.le)]
        simp only [between, slerpAt, e1, e2, e3, e4]
  · have hout : t < s.c.mgr.getMinTime ∨ s.c.mgr.getMaxTime < t := by
      rwa [not_and_or, not_le, not_le] at ht
    rw [evaluate_outside L hs (.inl hne) (.inr hout), evaluate_outside L hs' (.inl hne') (.inr ?_)]
    have hrange : ∀ y v, (y, v) ∈ c'.mgr.knots → s.c.mgr.getMinTime ≤ y ∧ y ≤ s.c.mgr.getMaxTime := by
      intro y v hy
      rcases (hkn' y v).1 hy with ⟨rfl, -⟩ | ⟨-, hy⟩
      · exact hin
      · obtain ⟨n, hn, e⟩ := List.mem_map.1 hy
        cases e
        exact min_le_node hs hn
    obtain ⟨⟨v, hv⟩, v', hv'⟩ := min_is_knot hne'
    rcases hout with h | h
    · exact .inl (h.trans_le (hrange _ _ hv).1)
    · exact .inr ((hrange _ _ hv').2.trans_lt h)

/-! ### The plane -/

theorem Pose2.exp_smul {v : ℂ × ℝ} (hv : v.2 ≠ 0) (x : ℝ) :
    Pose2.exp (x • v) = ⟨v.1 * (((Circle.exp (x * v.2) : Circle) : ℂ) - 1) / (Complex.I * v.2),
      Circle.exp (x * v.2)⟩ := by
  have hv' : ((v.2 : ℝ) : ℂ) ≠ 0 := by exact_mod_cast hv
  by_cases hx : x = 0
  · subst hx
    simp [Pose2.exp]
  · have h : (x • v).2 ≠ 0 := by simpa [hx] using hv
    have hx' : (x : ℂ) ≠ 0 := by exact_mod_cast hx
    rw [Pose2.exp, if_neg h]
    ext
    · simp only [Prod.smul_snd, Prod.smul_fst, smul_eq_mul, Complex.ofReal_mul, Complex.real_smul]
      field_simp
    · simp

/-- The maps of the plane are geodesic. -/
theorem se2_geodesic : Geodesic se2Maps where
  exp_add v x y := by
    change Pose2.exp _ = Pose2.exp _ * Pose2.exp _
    by_cases hv : v.2 = 0
    · ext
      · simp [Pose2.exp, hv, Pose2.mul_def, add_smul]
      · simp [Pose2.exp, hv, Pose2.mul_def]
    · have hv' : ((v.2 : ℝ) : ℂ) ≠ 0 := by exact_mod_cast hv
      rw [Pose2.exp_smul hv, Pose2.exp_smul hv, Pose2.exp_smul hv, Pose2.mul_def, add_mul, Circle.exp_add]
      ext
      · simp only [Circle.coe_mul]
        field_simp
        ring
      · rfl
  log_exp g x h0 h1 := by
    change Pose2.log (Pose2.exp (x • Pose2.log g)) = x • Pose2.log g
    by_cases hg : Complex.arg g.rot = 0
    · have h : Pose2.log g = (g.pos, 0) := by rw [Pose2.log, if_pos hg]
      rw [h]
      simp [Pose2.exp, Pose2.log]
    · have h2 : (Pose2.log g).2 = Complex.arg g.rot := by rw [Pose2.log, if_neg hg]
      have hne : (Pose2.log g).2 ≠ 0 := by rw [h2]; exact hg
      rw [Pose2.exp_smul hne]
      set v := Pose2.log g with hv
      have hlo := Complex.neg_pi_lt_arg (g.rot : ℂ)
      have hhi := Complex.arg_le_pi (g.rot : ℂ)
      have hpi := Real.pi_pos
      have harg : Complex.arg ((Circle.exp (x * v.2) : Circle) : ℂ) = x * v.2 := by
        rw [Circle.arg_exp]
        · rw [h2]
          rcases le_or_gt 0 (Complex.arg (g.rot : ℂ)) with h | h
          · nlinarith [mul_nonneg h0 h]
          · nlinarith
        · rw [h2]
          rcases le_or_gt 0 (Complex.arg (g.rot : ℂ)) with h | h
          · nlinarith
          · nlinarith [mul_nonneg h0 (neg_nonneg.2 h.le)]
      by_cases hx : x = 0
      · subst hx
        simp [Pose2.log]
      · have hxv : x * v.2 ≠ 0 := mul_ne_zero hx hne
        rw [Pose2.log]
        simp only [harg, if_neg hxv]
        have hne' : ((v.2 : ℝ) : ℂ) ≠ 0 := by exact_mod_cast hne
        have h1' : (((Circle.exp (x * v.2) : Circle) : ℂ) - 1) ≠ 0 := by
          intro e0
          apply hxv
          rw [← harg, sub_eq_zero.1 e0, Complex.arg_one]
        ext
        · simp only [Prod.smul_fst, Complex.real_smul, Complex.ofReal_mul]
          field_simp
        · simp

/-- The maps of the line are geodesic. -/
theorem line_geodesic : Geodesic (lineMaps K) where
  exp_add v x y := by simp [lineMaps, add_mul, ofAdd_add]
  log_exp g x _ _ := rfl

/-! ### Examples -/

/-- The curve `demo` on a clock that runs twice as fast and is one ahead. -/
def demoFast : St ℚ (Multiplicative ℚ) :=
  ⟨⟨4, 4⟩, ⟨⟨[⟨0, 1, 1, .ofAdd 1⟩, ⟨1, 3, 2, .ofAdd 3⟩, ⟨2, 9, 3, .ofAdd 7⟩, ⟨3, 13, 4, .ofAdd 5⟩],
    [(1, 0), (2, 1), (3, 2), (4, 3)]⟩, ⟨0, 1⟩⟩⟩

/-- The curve `demo` backwards. -/
def demoBack : St ℚ (Multiplicative ℚ) :=
  ⟨⟨4, 4⟩, ⟨⟨[⟨0, -6, 1, .ofAdd 5⟩, ⟨1, -4, 2, .ofAdd 7⟩, ⟨2, -1, 3, .ofAdd 3⟩, ⟨3, 0, 4, .ofAdd 1⟩],
    [(1, 0), (2, 1), (3, 2), (4, 3)]⟩, ⟨0, 1⟩⟩⟩

theorem demoFast_reachable (kind : Kind) : Reachable (lineMaps ℚ) kind demoFast :=
  ⟨⟨0, 0⟩, [.fit [1, 3, 9, 13] [.ofAdd 1, .ofAdd 3, .ofAdd 7, .ofAdd 5]], ⟨trivial, fun _ _ => trivial⟩,
    by cases kind <;> rfl⟩

theorem demoBack_reachable (kind : Kind) : Reachable (lineMaps ℚ) kind demoBack :=
  ⟨⟨0, 0⟩, [.fit [-6, -4, -1, 0] [.ofAdd 5, .ofAdd 7, .ofAdd 3, .ofAdd 1]], ⟨trivial, fun _ _ => trivial⟩,
    by cases kind <;> rfl⟩

example : evaluate (lineMaps ℚ) .slerp 5 demoFast.c.mgr = .ok (.ofAdd (13 / 3)) ∧
    evaluate (lineMaps ℚ) .slerp 2 demo.c.mgr = .ok (.ofAdd (13 / 3)) ∧
    evaluate (lineMaps ℚ) .slerp (-2) demoBack.c.mgr = .ok (.ofAdd (13 / 3)) := by decide +kernel

example (t : ℚ) := C121_clock (lineMaps ℚ) (kind := .discrete) (by decide) (demo_reachable _)
  (demoFast_reachable _) demo_calls (by decide) (al := 2) (be := 1) (by norm_num) (by decide)
  (by decide +kernel) t

example (t : ℚ) := C121_reversed (demo_reachable _) (demoBack_reachable _) demo_calls (by decide)
  (al := -1) (be := 0) (by norm_num) (by decide) (by decide +kernel)
  (fun _ _ A B _ _ _ => line_geodesic.reversible <| by
    change Multiplicative.toAdd _ = -Multiplicative.toAdd _
    simp only [toAdd_mul, toAdd_inv]) t

example := C121_refine line_geodesic.path (demo_reachable _) (by decide +kernel) (x := 2) (p := .ofAdd (13 / 3))
  (by decide +kernel)

/-- Exactly half way the discrete curve takes the earlier knot, so running it backwards changes it there. -/
example : evaluate (lineMaps ℚ) .discrete (5 / 2) demo.c.mgr = .ok (.ofAdd 3) ∧
    evaluate (lineMaps ℚ) .discrete (-5 / 2) demoBack.c.mgr = .ok (.ofAdd 7) := by decide +kernel

end Verif.Discrete

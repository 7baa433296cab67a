import Verif.Interface.Lemmas
import Verif.Manager.Props
import Verif.Discrete.Props

/-!
# Properties of the curves as seen through `SE3Curve`

C83-C86.
-/

set_option linter.unusedSectionVars false
set_option linter.dupNamespace false

namespace Verif.Interface

open Verif.Manager Verif.Policy Verif.Discrete Verif.Composition

variable {K G V : Type} [Field K] [LinearOrder K] [IsStrictOrderedRing K] [Group G]
  [AddCommGroup V] [Module K V]

/-! ## C83: what the factory makes can be used -/

/-- The value a curve is to have between two neighbouring measurements: the nearer one, or a point on the
way from one to the other. -/
def joined (L : ExpLog K G V) (kind : Kind) (a b : K × G) (t : K) : G :=
  match kind with
  | .discrete => if t - a.1 ≤ b.1 - t then a.2 else b.2
  | _ => a.2 * L.exp (((t - a.1) / (b.1 - a.1)) • L.log (a.2⁻¹ * b.2))

/-- Everything C83 asks of a curve that was given the measurements `xs`. -/
def Usable (L : ExpLog K G V) (kind : Kind) (xs : List (K × G)) (a : Any K G) : Prop :=
  a.isEmpty = false ∧ a.baseSize = xs.length ∧
  (xs.map Prod.fst).head? = some a.getMinTime ∧ (xs.map Prod.fst).getLast? = some a.getMaxTime ∧
  (∀ p ∈ xs, a.evaluate L p.1 = .ok p.2) ∧
  (∀ pre p q post, xs = pre ++ p :: q :: post → ∀ t, p.1 ≤ t → t ≤ q.1 →
    a.evaluate L t = .ok (joined L kind p q t)) ∧
  (∀ t, t < a.getMinTime ∨ a.getMaxTime < t → a.evaluate L t = .abort)

theorem usable_mgr (L : ExpLog K G V) {kind : Kind} (hk : kind ≠ .slerpSE3) {m : Mgr K G}
    (hs : Sorted m.nodes) {xs : List (K × G)} (h : m.knots = xs) (hne : xs ≠ []) :
    m.isEmpty = false ∧ m.size = xs.length ∧
    (xs.map Prod.fst).head? = some m.getMinTime ∧ (xs.map Prod.fst).getLast? = some m.getMaxTime ∧
    (∀ p ∈ xs, evaluate L kind p.1 m = .ok p.2) ∧
    (∀ pre p q post, xs = pre ++ p :: q :: post → ∀ t, p.1 ≤ t → t ≤ q.1 →
      evaluate L kind t m = .ok (joined L kind p q t)) ∧
    (∀ t, t < m.getMinTime ∨ m.getMaxTime < t → evaluate L kind t m = .abort) := by
  have hn : m.nodes ≠ [] := knots_ne_nil.1 (h ▸ hne)
  subst h
  refine ⟨by simpa [Mgr.isEmpty] using hn, by simp [Mgr.size, Mgr.knots], ?_, ?_, ?_, ?_, ?_⟩
  · cases hm : m.nodes with
    | nil => exact absurd hm hn
    | cons a l => simp [Mgr.knots, hm, Mgr.getMinTime]
  · rcases List.eq_nil_or_concat m.nodes with hm | ⟨l, a, hm⟩
    · exact absurd hm hn
    · simp [Mgr.knots, hm, Mgr.getMaxTime]
  · exact fun p hp => evaluate_knot L hk hs hp
  · intro pre p q post e t h0 h1
    obtain ⟨l1, l2, hl, hp1, hp2⟩ := List.map_eq_append_iff.1 e
    obtain ⟨a, r, rfl, ha, hr⟩ := List.map_eq_cons_iff.1 hp2
    obtain ⟨b, r', rfl, hb, hr'⟩ := List.map_eq_cons_iff.1 hr
    subst ha hb
    rw [evaluate_segment L hk hs hl h0 h1]
    congr 1
    cases kind with
    | slerpSE3 => exact absurd rfl hk
    | discrete => rfl
    | slerp => rfl
  · exact fun t ht => evaluate_outside L hs (.inl hne) (.inr ht)

/-- A curve that is no composition, fed without thinning. -/
theorem single_usable (L : ExpLog K G V) (kind : Kind) (w : World) {xs : List (K × G)}
    (hinc : xs.Pairwise fun a b => a.1 < b.1) (hw : w.calls + xs.length < 2 ^ 64) :
    ∃ s : Discrete.St K G, (Any.single kind ⟨w, ⟨Mgr.empty, Pol.fresh⟩⟩).feed L xs = .ok (.single kind s) ∧
      Sorted s.c.mgr.nodes ∧ s.c.mgr.knots = xs := by
  obtain ⟨w', c', e, h⟩ := feed_inv w (⟨Mgr.empty, Pol.fresh⟩ : Curve K G) 0 1 rfl rfl rfl (by simp)
    (by simp) (by simp) xs hinc hw
  refine ⟨⟨w', c'⟩, by rw [single_feed, e]; rfl, h.wf.sorted, ?_⟩
  have hk : c'.knots = thinned 1 xs := by rw [thinned_eq]; exact h.knots
  have hc : c'.mgr.knots = c'.knots := by
    simp [Mgr.knots, Curve.knots, Mgr.contents]
  rw [hc, hk, thinned]
  simp [Nat.mod_one]

/-- **C83, partial.** Three of the five curves the factory knows are usable: made by name and given any
measurements at increasing times one after the other, they accept all of them, return each at its time,
join neighbouring ones, and abort outside. Missing: the other two names, see `C83_refuted`. -/
theorem C83_usable_partial (L : ExpLog K G V) {name : String} {kind : Kind}
    (hn : (name, kind) ∈ [("discrete_curve", Kind.discrete), ("discrete_composition_curve", .discrete),
      ("semi_discrete_composition_curve", .slerp)]) (w : World) {xs : List (K × G)} (hne : xs ≠ [])
    (hinc : xs.Pairwise fun a b => a.1 < b.1) (hw : w.calls + 7 * xs.length + 1 < 2 ^ 64) :
    ∃ a a', create w name = .ok a ∧ a.isEmpty = true ∧ a.feed L xs = .ok a' ∧ Usable L kind xs a' := by
  have hk : kind ≠ .slerpSE3 := by
    simp only [List.mem_cons, Prod.mk.injEq, List.not_mem_nil, or_false] at hn
    rcases hn with ⟨-, rfl⟩ | ⟨-, rfl⟩ | ⟨-, rfl⟩ <;> simp
  have comp : create (K := K) (G := G) w name = .ok (.comp kind kind (Comp.fresh w)) →
      ∃ a a', create w name = .ok a ∧ a.isEmpty = true ∧ a.feed L xs = .ok a' ∧ Usable L kind xs a' := by
    intro hcr
    obtain ⟨s, e, hle, h⟩ := comp_feed L hk xs (fed_fresh L kind kind w) (by simpa using hinc)
      (by simpa [Comp.fresh] using hw)
    simp only [List.nil_append, Comp.fresh] at h hle
    refine ⟨_, .comp kind kind s, hcr, rfl, e, ?_⟩
    have hc : s.w.calls + 1 < 2 ^ 64 := by omega
    obtain ⟨hwb, hwc⟩ := (h.reach.inv hc).wf hc
    obtain ⟨h1, h2, h3, h4, h5, h6, h7⟩ := usable_mgr L hk hwb.sorted h.base hne
    have hb : s.base.mgr.knots ≠ [] := by rw [h.base]; exact hne
    obtain ⟨x, hx, ex⟩ := knots_min hb
    obtain ⟨y, hy, ey⟩ := knots_max hb
    obtain ⟨hq, hlo⟩ := (low_iff hwc.sorted).1 (h.covers x hx).1
    have hhi := ((high_iff hwc.sorted).1 (h.covers y hy).2).2
    have key : ∀ t, s.base.mgr.getMinTime ≤ t → t ≤ s.base.mgr.getMaxTime →
        eval L kind kind t s = Discrete.evaluate L kind t s.base.mgr := by
      intro t h0 h1
      have := evaluate_const L hk hwc.sorted h.corr hq (t := t) (hlo.trans (ex.trans_le h0))
        ((h1.trans ey.ge).trans hhi)
      simp only [eval, this, Outcome.ok_bind, one_mul]
      cases Discrete.evaluate L kind t s.base.mgr <;> rfl
    have hr : ∀ p ∈ xs, s.base.mgr.getMinTime ≤ p.1 ∧ p.1 ≤ s.base.mgr.getMaxTime :=
      fun p hp => mem_range hwb.sorted (h.base ▸ hp)
    refine ⟨h1, h2, h3, h4, fun p hp => ?_, fun pre p q post e t h0 h1 => ?_, fun t ht => ?_⟩
    · exact (key p.1 (hr p hp).1 (hr p hp).2).trans (h5 p hp)
    · refine (key t ((hr p ?_).1.trans h0) (h1.trans (hr q ?_).2)).trans (h6 pre p q post e t h0 h1) <;>
        simp [e]
    · refine (C44_domain L hk hk h.reach hc hb hq t).2 ?_
      rintro ⟨a, b, -⟩
      rcases ht with ht | ht
      exacts [absurd ht (not_lt.2 a), absurd ht (not_lt.2 b)]
  simp only [List.mem_cons, Prod.mk.injEq, List.not_mem_nil, or_false] at hn
  rcases hn with ⟨rfl, rfl⟩ | ⟨rfl, rfl⟩ | ⟨rfl, rfl⟩
  · obtain ⟨s, e, hs, hkn⟩ := single_usable L .discrete w hinc (by omega)
    exact ⟨_, _, by simp [create], rfl, e, usable_mgr L (kind := .discrete) (by simp) hs hkn hne⟩
  · exact comp (by simp [create])
  · exact comp (by simp [create])

/-- Three measurements. -/
def demoXs : List (ℚ × Multiplicative ℚ) := [(1, .ofAdd 5), (2, .ofAdd 7), (4, .ofAdd 3)]

example (L : ExpLog ℚ (Multiplicative ℚ) ℚ) : ∃ a a', create ⟨9, 9⟩ "semi_discrete_composition_curve" = .ok a ∧
    a.isEmpty = true ∧ a.feed L demoXs = .ok a' ∧ Usable L .slerp demoXs a' :=
  C83_usable_partial L (by simp) ⟨9, 9⟩ (by simp [demoXs]) (by simp [demoXs]; norm_num) (by simp [demoXs])

example : ((create ⟨9, 9⟩ "semi_discrete_composition_curve" >>= fun a => a.feed (lineMaps ℚ) demoXs) >>=
    fun a => a.evaluate (lineMaps ℚ) (5 / 2)) = .ok (.ofAdd 6) := by decide +kernel

/-- **C83, refuted for the other two names.** A `slerp_curve` accepts all measurements and then aborts
at every evaluation; a `composition_curve` aborts on its first measurement. -/
theorem C83_refuted (L : ExpLog K G V) (w : World) :
    (∃ a, create w "slerp_curve" = .ok a ∧ ∀ xs : List (K × G), (xs.Pairwise fun a b => a.1 < b.1) →
      w.calls + xs.length < 2 ^ 64 → ∃ a', a.feed L xs = .ok a' ∧ a'.size = xs.length ∧
        ∀ t, a'.evaluate L t = .abort) ∧
    (∃ a, create w "composition_curve" = .ok a ∧ ∀ (t : K) (v : G), a.extend L [t] [v] = .abort) := by
  constructor
  · refine ⟨_, by simp [create]; rfl, fun xs hinc hw => ?_⟩
    obtain ⟨s, e, -, hkn⟩ := single_usable L .slerpSE3 w hinc hw
    refine ⟨_, e, ?_, fun t => rfl⟩
    rw [← hkn]
    simp [Any.size, Mgr.size, Mgr.knots]
  · refine ⟨_, by simp [create]; rfl, fun t v => ?_⟩
    have key : ∀ x : Work K G, (growMax L .slerpSE3 (newMax (Comp.fresh w : Comp K G) t) x >>= fun x =>
        growMin L .slerpSE3 (newMin (Comp.fresh w : Comp K G) t) x >>= fun x =>
        evaluate L .slerpSE3 t x.corr.mgr >>= fun q =>
        (Comp.fresh w : Comp K G).base.extend x.w [t] [q⁻¹ * v] >>= fun r =>
          .ok ((⟨r.1, r.2.1, x.corr⟩ : Comp K G), r.2.2)) = .abort := by
      intro x
      simp only [growMax, growMin, evaluate]
      split
      · rfl
      · simp only [Outcome.ok_bind]
        split <;> rfl
    obtain ⟨x, ex⟩ : ∃ x, growEmpty (newMin (Comp.fresh w : Comp K G) t)
        ⟨w, (Comp.fresh w : Comp K G).corr, [], []⟩ = .ok x := ⟨_, rfl⟩
    simp only [Any.extend, Composition.extend]
    rw [show (Comp.fresh w : Comp K G).w = w from rfl, ex, Outcome.ok_bind, key x]
    rfl

/-- C83, refusal: no other name is known. -/
theorem C83_unknown (w : World) {name : String} (h : name ∉ ["slerp_curve", "discrete_curve",
    "composition_curve", "discrete_composition_curve", "semi_discrete_composition_curve"]) :
    (create w name : Outcome (Any K G)) = .abort := by
  simp only [List.mem_cons, List.not_mem_nil, or_false, not_or] at h
  simp [create, h]

example : (create ⟨0, 0⟩ "semi_discrete_curve" : Outcome (Any ℚ (Multiplicative ℚ))) = .abort :=
  C83_unknown _ (by decide)

/-! ## C84: the lists of times -/

/-- Everything C84 asks of a list of times handed out by a curve. -/
def TimesOf (L : ExpLog K G V) (a : Any K G) (l : List K) : Prop :=
  l.length = a.baseSize ∧ l.Pairwise (· < ·) ∧ l.head? = some a.getMinTime ∧
  l.getLast? = some a.getMaxTime ∧ ∀ t ∈ l, ∃ v, a.evaluate L t = .ok v

theorem times_mgr {m : Mgr K G} (hs : Sorted m.nodes) (hne : m.knots ≠ []) (out : List K) :
    (m.getTimes out).length = m.size ∧ (m.getTimes out).Pairwise (· < ·) ∧
    (m.getTimes out).head? = some m.getMinTime ∧ (m.getTimes out).getLast? = some m.getMaxTime ∧
    ∀ t ∈ m.getTimes out, m.getMinTime ≤ t ∧ t ≤ m.getMaxTime := by
  have hn : m.nodes ≠ [] := knots_ne_nil.1 hne
  refine ⟨by simp [Mgr.getTimes, Mgr.size], times_sorted hs, ?_, ?_, fun t ht => ?_⟩
  · cases hm : m.nodes with
    | nil => exact absurd hm hn
    | cons a l => simp [Mgr.getTimes, hm, Mgr.getMinTime]
  · rcases List.eq_nil_or_concat m.nodes with hm | ⟨l, a, hm⟩
    · exact absurd hm hn
    · simp [Mgr.getTimes, hm, Mgr.getMaxTime]
  · rw [times_knots] at ht
    obtain ⟨p, hp, rfl⟩ := List.mem_map.1 ht
    exact mem_range hs hp

/-- C84, part: the times `getCurveTimes` gives for a curve that is no composition. -/
theorem C84_single_partial (L : ExpLog K G V) {kind : Kind} (hk : kind ≠ .slerpSE3) {s : Discrete.St K G}
    (hr : Discrete.Reachable L kind s) (hc : s.w.calls + 1 < 2 ^ 64)
    (hne : (Any.single kind s).isEmpty = false) (out : List K) :
    TimesOf L (.single kind s) ((Any.single kind s).getCurveTimes out) := by
  have hs := (hr.WF hc).sorted
  have hn : s.c.mgr.knots ≠ [] := by
    refine knots_ne_nil.2 fun h => ?_
    simp [Any.isEmpty, Mgr.isEmpty, h] at hne
  obtain ⟨h1, h2, h3, h4, h5⟩ := times_mgr hs hn out
  exact ⟨h1, h2, h3, h4, fun t ht => evaluate_inside L hk hs hn (h5 t ht).1 (h5 t ht).2⟩

example : TimesOf (lineMaps ℚ) (.single .slerp Discrete.demo) ((Any.single .slerp Discrete.demo).getCurveTimes []) :=
  C84_single_partial _ (by decide) (Discrete.demo_reachable .slerp) (by decide +kernel) (by decide +kernel) []

/-- C84, part: the times `getBaseCurveTimes` gives for a composition, after any history that avoids the
four things listed in `Gentle` (see C81). -/
theorem C84_composition_partial (L : ExpLog K G V) {kb kc : Kind} (hkb : kb ≠ .slerpSE3)
    (hkc : kc ≠ .slerpSE3) {w : World} {ops : List (Composition.Op K G)} {s : Comp K G}
    (hg : GentleRun L kb kc (Comp.fresh w) ops) (e : Composition.run L kb kc (Comp.fresh w) ops = .ok s)
    (hc : s.w.calls + 1 < 2 ^ 64) (hne : (Any.comp kb kc s).isEmpty = false) (out : List K) :
    TimesOf L (.comp kb kc s) ((Any.comp kb kc s).getBaseCurveTimes out) := by
  have hr : Composition.Reachable L kb kc s := ⟨w, ops, e⟩
  obtain ⟨hwb, -⟩ := (hr.inv hc).wf hc
  have hn : s.base.mgr.knots ≠ [] := by
    refine knots_ne_nil.2 fun h => ?_
    simp [Any.isEmpty, Composition.isEmpty, Mgr.isEmpty, h] at hne
  obtain ⟨h1, h2, h3, h4, h5⟩ := times_mgr hwb.sorted hn out
  exact ⟨h1, h2, h3, h4, fun t ht => (C81_domain_partial L hkb hkc hg e hc hne t).2 (h5 t ht)⟩

example : ∃ s, Composition.run (lineMaps ℚ) .slerp .slerp (Comp.fresh ⟨100, 200⟩) gentleOps = .ok s ∧
    TimesOf (lineMaps ℚ) (.comp .slerp .slerp s) ((Any.comp .slerp .slerp s).getBaseCurveTimes []) := by
  have hrun : (Composition.run (lineMaps ℚ) .slerp .slerp (Comp.fresh ⟨100, 200⟩) gentleOps >>= fun s =>
      .ok (s.w.calls, isEmpty s)) = .ok (132, false) := by decide +kernel
  obtain ⟨s, e, h⟩ := Outcome.bind_eq_ok.1 hrun
  simp only [Outcome.ok.injEq, Prod.mk.injEq] at h
  exact ⟨s, e, C84_composition_partial (lineMaps ℚ) (by decide) (by decide)
    (gentleRun_of _ _ _ _ _ (by decide +kernel)) e (by rw [h.1]; norm_num) h.2 []⟩

/-- C84, refuted for `getBaseCurveTimes` and `getBaseCurveTimesInWindow` of a curve that is no composition:
whatever the curve holds, the caller's list is left as it was, although `baseSize` counts the knots. -/
theorem C84_base_single_refuted (L : ExpLog K G V) (kind : Kind) (s : Discrete.St K G)
    (hne : (Any.single kind s).isEmpty = false) (beg en : K) :
    0 < (Any.single kind s).baseSize ∧ (Any.single kind s).getBaseCurveTimes [] = [] ∧
      (Any.single kind s).getBaseCurveTimesInWindow beg en [] = .ok [] ∧
      ¬ TimesOf L (.single kind s) ((Any.single kind s).getBaseCurveTimes []) := by
  have : 0 < (Any.single kind s).baseSize := by
    simp only [Any.isEmpty, Mgr.isEmpty, List.isEmpty_eq_false_iff] at hne
    simpa [Any.baseSize, Any.size, Mgr.size, List.length_pos_iff] using hne
  refine ⟨this, rfl, rfl, fun h => ?_⟩
  have := h.1
  simp only [Any.getBaseCurveTimes, List.length_nil] at this
  omega

example := C84_base_single_refuted (lineMaps ℚ) .slerp Discrete.demo (by decide +kernel) 0 1

/-- C84, refuted for `getCurveTimes` of a composition: after the first measurement, taken at a time other
than zero, it lists two times although there is one measurement, and at the one that is not the
measurement's, zero, the curve cannot be evaluated. -/
theorem C84_curve_refuted (L : ExpLog K G V) {kb kc : Kind} (hkb : kb ≠ .slerpSE3)
    (hkc : kc ≠ .slerpSE3) (w : World) (hw : w.calls + 8 < 2 ^ 64) {t : K} (ht : t ≠ 0) (v : G)
    (out : List K) :
    ∃ a' ks, (Any.comp kb kc (Comp.fresh w : Comp K G)).extend L [t] [v] = .ok (a', ks) ∧
      a'.baseSize = 1 ∧ 0 ∈ a'.getCurveTimes out ∧ t ∈ a'.getCurveTimes out ∧
      a'.evaluate L 0 = .abort ∧ ¬ TimesOf L a' (a'.getCurveTimes out) := by
  obtain ⟨s', ks, e, hle, hf⟩ := fed_step L hkc (fed_fresh L kb kc w) hw (t := t) (v := v) (by simp)
  obtain ⟨s2, ks2, e2, hb, hq⟩ := C44_extend_first L (kb := kb) hkc ⟨w, [], rfl⟩
    (show (Comp.fresh w : Comp K G).w.calls + 5 < 2 ^ 64 by simp only [Comp.fresh]; omega) rfl rfl t v
  rw [e] at e2
  cases e2
  simp only [Comp.fresh] at hle
  have hc : s'.w.calls + 1 < 2 ^ 64 := by omega
  obtain ⟨hwb, hwc⟩ := (hf.reach.inv hc).wf hc
  have h0 : 0 ∈ (Any.comp kb kc s').getCurveTimes out := by
    simp only [Any.getCurveTimes, times_knots]
    exact List.mem_map.2 ⟨(0, 1), (hq 0 1).2 ⟨.inl rfl, rfl⟩, rfl⟩
  have ht' : t ∈ (Any.comp kb kc s').getCurveTimes out := by
    simp only [Any.getCurveTimes, times_knots]
    exact List.mem_map.2 ⟨(t, 1), (hq t 1).2 ⟨.inr rfl, rfl⟩, rfl⟩
  have hkb : s'.base.mgr.knots ≠ [] := by simp [hb]
  have ha : (Any.comp kb kc s').evaluate L 0 = .abort := by
    refine (C44_domain L ‹_› hkc hf.reach hc hkb (List.ne_nil_of_mem ((hq 0 1).2 ⟨.inl rfl, rfl⟩)) 0).2 ?_
    obtain ⟨x, hx, ex⟩ := knots_min hkb
    obtain ⟨y, hy, ey⟩ := knots_max hkb
    rw [hb, List.mem_singleton] at hx hy
    rw [← ex, ← ey, hx, hy]
    rintro ⟨h1, h2, -⟩
    exact ht (le_antisymm h1 h2)
  refine ⟨.comp kb kc s', ks, by simp [Any.extend, e], ?_, h0, ht', ha, fun h => ?_⟩
  · have : s'.base.mgr.knots.length = 1 := by rw [hb]; rfl
    simpa [Any.baseSize, Mgr.size, Mgr.knots] using this
  · obtain ⟨u, hu⟩ := h.2.2.2.2 0 h0
    rw [ha] at hu
    cases hu

example : ∃ a' ks, (Any.comp .slerp .slerp (Comp.fresh ⟨0, 0⟩)).extend (lineMaps ℚ) [3] [.ofAdd 5] =
    .ok (a', ks) ∧ a'.evaluate (lineMaps ℚ) 0 = .abort := by
  obtain ⟨a', ks, e, -, -, -, h, -⟩ := C84_curve_refuted (lineMaps ℚ) (kb := .slerp) (kc := .slerp)
    (by simp) (by simp) ⟨0, 0⟩ (by norm_num) (t := 3) (by norm_num) (.ofAdd 5) []
  exact ⟨a', ks, e, h⟩

example : (create ⟨9, 9⟩ "discrete_curve" >>= fun a => a.feed (lineMaps ℚ) demoXs >>= fun a =>
      .ok (a.getCurveTimes [8], a.getBaseCurveTimes [8], a.baseSize)) = .ok ([1, 2, 4], [8], 3) ∧
    (create ⟨9, 9⟩ "semi_discrete_composition_curve" >>= fun a => a.feed (lineMaps ℚ) demoXs >>= fun a =>
      .ok (a.getCurveTimes [8], a.getBaseCurveTimes [8], a.baseSize)) = .ok ([0, 1, 2, 4], [1, 2, 4], 3) := by
  decide +kernel

/-! ## C85: saving -/

open Verif.Csv

theorem vals_of {f : K → Outcome G} : ∀ {l : List K}, (∀ t ∈ l, ∃ v, f t = .ok v) →
    ∃ vals : List G, l.map f = vals.map .ok
  | [], _ => ⟨[], rfl⟩
  | t :: l, h => by
    obtain ⟨v, hv⟩ := h t (by simp)
    obtain ⟨vs, hvs⟩ := vals_of (l := l) fun u hu => h u (by simp [hu])
    exact ⟨v :: vs, by simp [hv, hvs]⟩

theorem knot_vals (L : ExpLog K G V) {kind : Kind} (hk : kind ≠ .slerpSE3) {m : Mgr K G}
    (hs : Sorted m.nodes) : (m.getTimes []).map (fun t => evaluate L kind t m) =
      (m.knots.map Prod.snd).map .ok := by
  rw [times_knots, List.map_map, List.map_map]
  exact List.map_congr_left fun p hp => evaluate_knot L hk hs hp

theorem zip_knots (m : Mgr K G) : (m.getTimes []).zip (m.knots.map Prod.snd) = m.knots := by
  rw [times_knots]
  induction m.knots with
  | nil => rfl
  | cons a l ih => simp [ih]

/-- The table of a list of knots: one row each, the time and the numbers of the value. -/
def rows (F : Fmt K) (toVec : G → List K) (l : List (K × G)) : List (List Str) :=
  l.map fun p => (p.1 :: toVec p.2).map F.print

/-- The file `name` holds the table of `l`. -/
def Holds (F : Fmt K) (toVec : G → List K) (fs : FS) (name : Str) (l : List (K × G)) : Prop :=
  loadCSV fs name = .ok (rows F toVec l)

/-- C85, part: `saveCurveTimesAndValues` of a curve that is no composition writes its knots and no other
file. -/
theorem C85_single_partial (L : ExpLog K G V) {kind : Kind} (hk : kind ≠ .slerpSE3) {s : Discrete.St K G}
    (hr : Discrete.Reachable L kind s) (hc : s.w.calls + 1 < 2 ^ 64)
    (hne : (Any.single kind s).isEmpty = false) (F : Fmt K) {toVec : G → List K} {dim : Nat}
    (hdim : ∀ g, (toVec g).length = dim) {fs : FS} {name : Str} (hw : fs.writable name = true) :
    ∃ fs', (Any.single kind s).saveCurveTimesAndValues L F toVec fs name = .ok fs' ∧
      (∀ n, n ≠ name → fs'.files n = fs.files n) ∧ Holds F toVec fs' name s.c.mgr.knots := by
  have hs := (hr.WF hc).sorted
  have hn : s.c.mgr.nodes ≠ [] := by
    intro h
    simp [Any.isEmpty, Mgr.isEmpty, h] at hne
  obtain ⟨fs', e, ho, hl⟩ := C62_saved F hdim hw (times := s.c.mgr.getTimes [])
    (by simpa [Mgr.getTimes] using hn) (knot_vals L hk hs)
  rw [zip_knots] at hl
  exact ⟨fs', e, ho, hl⟩

/-- C85, part: what the three functions of a composition write, after any history that avoids the four
things listed in `Gentle` (see C81). `saveCurveTimesAndValues` writes the composed value at each time of
the base; `saveCorrectionCurveTimesAndValues` the knots of the correction; `saveCurves` the knots of the
base, the knots of the correction and the composed values, in three files. No other file changes. -/
theorem C85_composition_partial (L : ExpLog K G V) {kb kc : Kind} (hkb : kb ≠ .slerpSE3)
    (hkc : kc ≠ .slerpSE3) {w : World} {ops : List (Composition.Op K G)} {s : Comp K G}
    (hg : GentleRun L kb kc (Comp.fresh w) ops) (e : Composition.run L kb kc (Comp.fresh w) ops = .ok s)
    (hc : s.w.calls + 1 < 2 ^ 64) (hne : (Any.comp kb kc s).isEmpty = false) (F : Fmt K)
    {toVec : G → List K} {dim : Nat} (hdim : ∀ g, (toVec g).length = dim) :
    ∃ xs : List (K × G), xs.map Prod.fst = s.base.mgr.knots.map Prod.fst ∧
      (∀ p ∈ xs, (Any.comp kb kc s).evaluate L p.1 = .ok p.2) ∧
      (∀ fs name, fs.writable name = true →
        (∃ fs', (Any.comp kb kc s).saveCurveTimesAndValues L F toVec fs name = .ok fs' ∧
          (∀ n, n ≠ name → fs'.files n = fs.files n) ∧ Holds F toVec fs' name xs) ∧
        (∃ fs', (Any.comp kb kc s).saveCorrectionCurveTimesAndValues L F toVec fs name = .ok fs' ∧
          (∀ n, n ≠ name → fs'.files n = fs.files n) ∧ Holds F toVec fs' name s.corr.mgr.knots)) ∧
      (∀ fs name, fs.writable (name ++ "_base.csv".toList) = true →
        fs.writable (name ++ "_correction.csv".toList) = true →
        fs.writable (name ++ "_composed.csv".toList) = true →
        ∃ fs', saveCurves L F toVec kb kc fs name s = .ok fs' ∧
          Holds F toVec fs' (name ++ "_base.csv".toList) s.base.mgr.knots ∧
          Holds F toVec fs' (name ++ "_correction.csv".toList) s.corr.mgr.knots ∧
          Holds F toVec fs' (name ++ "_composed.csv".toList) xs ∧
          ∀ n, n ≠ name ++ "_base.csv".toList → n ≠ name ++ "_correction.csv".toList →
            n ≠ name ++ "_composed.csv".toList → fs'.files n = fs.files n) := by
  have hr : Composition.Reachable L kb kc s := ⟨w, ops, e⟩
  obtain ⟨hwb, hwc⟩ := (hr.inv hc).wf hc
  have hb : s.base.mgr.knots ≠ [] := by
    refine knots_ne_nil.2 fun h => ?_
    simp [Any.isEmpty, Composition.isEmpty, Mgr.isEmpty, h] at hne
  have hcov : Covers s := run_covers hkb hkc ⟨w, [], rfl⟩
    (by intro p hp; simp [Comp.fresh, Mgr.empty, Mgr.knots] at hp) hg e hc
  obtain ⟨x, hx, -⟩ := knots_min hb
  have hq := ((low_iff hwc.sorted).1 (hcov x hx).1).1
  obtain ⟨vals, hv⟩ := vals_of (f := fun t => eval L kb kc t s) (l := s.base.mgr.getTimes [])
    (C84_composition_partial L hkb hkc hg e hc hne []).2.2.2.2
  have hlen : (s.base.mgr.getTimes []).length = vals.length := by simpa using congrArg List.length hv
  have hbt : s.base.mgr.getTimes [] ≠ [] := by rw [times_knots]; simpa using hb
  have hqt : s.corr.mgr.getTimes [] ≠ [] := by rw [times_knots]; simpa using hq
  have hkl : ∀ m : Mgr K G, (m.getTimes []).length = (m.knots.map Prod.snd).length := by
    intro m; simp [times_knots]
  refine ⟨(s.base.mgr.getTimes []).zip vals, ?_, ?_, fun fs name hw => ⟨?_, ?_⟩, fun fs name h1 h2 h3 => ?_⟩
  · rw [List.map_fst_zip hlen.le, times_knots]
  · intro p hp
    obtain ⟨i, hi, rfl⟩ := List.mem_iff_getElem.1 hp
    have hi1 : i < (s.base.mgr.getTimes []).length := by
      simp only [List.length_zip] at hi; omega
    have hi2 : i < vals.length := by omega
    have := congrArg (fun l => l[i]?) hv
    simp only [List.getElem?_map, List.getElem?_eq_getElem hi1, List.getElem?_eq_getElem hi2,
      Option.map_some, Option.some.injEq] at this
    simpa [Any.evaluate] using this
  · exact C62_saved F hdim hw hbt hv
  · obtain ⟨fs', e, ho, hl⟩ := C62_saved F hdim hw hqt (knot_vals L hkc hwc.sorted)
    rw [zip_knots] at hl
    exact ⟨fs', e, ho, hl⟩
  · have hne1 : name ++ "_correction.csv".toList ≠ name ++ "_base.csv".toList := by simp
    have hne2 : name ++ "_composed.csv".toList ≠ name ++ "_base.csv".toList := by simp
    have hne3 : name ++ "_composed.csv".toList ≠ name ++ "_correction.csv".toList := by simp
    obtain ⟨f1, e1, w1, o1, l1⟩ := write_table F hdim h1 hbt (hkl s.base.mgr)
    obtain ⟨f2, e2, w2, o2, l2⟩ := write_table F hdim (fs := f1) (by rw [w1]; exact h2) hqt
      (hkl s.corr.mgr)
    obtain ⟨f3, e3, w3, o3, l3⟩ := write_table F hdim (fs := f2) (by rw [w2, w1]; exact h3) hbt hlen
    rw [zip_knots] at l1 l2
    refine ⟨f3, ?_, ?_, ?_, l3, fun n n1 n2 n3 => by rw [o3 n n3, o2 n n2, o1 n n1]⟩
    · simp only [saveCurves, collect_ok (toVec := toVec) (knot_vals L hkb hwb.sorted),
        collect_ok (toVec := toVec) (knot_vals L hkc hwc.sorted), collect_ok (toVec := toVec) hv,
        Outcome.ok_bind, e1, e2, e3]
    · rw [← rows] at l1
      rw [Holds, ← l1]
      simp only [loadCSV, o3 _ hne2.symm, o2 _ hne1.symm]
    · rw [← rows] at l2
      rw [Holds, ← l2]
      simp only [loadCSV, o3 _ hne3.symm]

/-- C85, refusal: an empty curve is not saved. -/
theorem C85_empty (L : ExpLog K G V) (F : Fmt K) (toVec : G → List K) (fs fs' : FS) (name : Str)
    {a : Any K G} (hne : a.isEmpty = true) : a.saveCurveTimesAndValues L F toVec fs name ≠ .ok fs' := by
  cases a with
  | single k s =>
    have : s.c.mgr.nodes = [] := by simpa [Any.isEmpty, Mgr.isEmpty] using hne
    exact C62_refuses F fs name _ (.inl (by simp [Mgr.getTimes, this])) fs'
  | comp kb kc s =>
    have : s.base.mgr.nodes = [] := by simpa [Any.isEmpty, Composition.isEmpty, Mgr.isEmpty] using hne
    exact C62_refuses F fs name _ (.inl (by simp [Mgr.getTimes, this])) fs'

/-- C85, refuted for the two functions that save the correction, on a curve that is no composition: they
return normally and no file has been written, whatever the curve, the file and the times. -/
theorem C85_correction_refuted (L : ExpLog K G V) (F : Fmt K) (toVec : G → List K) (fs : FS) (name : Str)
    (times : List K) (kind : Kind) (s : Discrete.St K G) (h : fs.files name = none) :
    ∃ fs1 fs2, (Any.single kind s).saveCorrectionCurveAtTimes L F toVec fs name times = .ok fs1 ∧
      (Any.single kind s).saveCorrectionCurveTimesAndValues L F toVec fs name = .ok fs2 ∧
      loadCSV fs1 name = .abort ∧ loadCSV fs2 name = .abort := by
  refine ⟨fs, fs, rfl, rfl, ?_, ?_⟩ <;> simp [loadCSV, h]

/-- Rational numbers written as strokes, by their number in a list of all of them. -/
def strokesQ : Fmt ℚ where
  print q := List.replicate (q.num.natAbs + q.den) 'I'
  parse s := s.length
  print_ne q := by
    have := q.den_pos
    intro h
    have := congrArg List.length h
    simp at this
  print_comma q := by simp
  print_newline q := by simp

example : (create ⟨9, 9⟩ "semi_discrete_composition_curve" >>= fun a => a.feed (lineMaps ℚ) demoXs >>= fun a =>
      a.saveCurveTimesAndValues (lineMaps ℚ) strokesQ (fun g => [g.toAdd]) disk "a".toList >>= fun fs =>
      loadCSV fs "a".toList) =
    .ok [["II".toList, "IIIIII".toList], ["III".toList, "IIIIIIII".toList],
      ["IIIII".toList, "IIII".toList]] := by decide +kernel

example : ∃ fs', (Any.single .slerp Discrete.demo).saveCurveTimesAndValues (lineMaps ℚ) strokesQ
    (fun g => [g.toAdd]) disk "a".toList = .ok fs' ∧
    Holds strokesQ (fun g => [g.toAdd]) fs' "a".toList Discrete.demo.c.mgr.knots := by
  obtain ⟨fs', e, -, h⟩ := C85_single_partial (lineMaps ℚ) (by decide) (Discrete.demo_reachable .slerp)
    (by decide +kernel) (by decide +kernel) strokesQ (toVec := fun g => [g.toAdd]) (dim := 1) (by simp)
    (fs := disk) (name := "a".toList) (by decide)
  exact ⟨fs', e, h⟩

example : ∃ s fs', Composition.run (lineMaps ℚ) .slerp .slerp (Comp.fresh ⟨100, 200⟩) gentleOps = .ok s ∧
    saveCurves (lineMaps ℚ) strokesQ (fun g => [g.toAdd]) .slerp .slerp disk "c".toList s = .ok fs' ∧
    Holds strokesQ (fun g => [g.toAdd]) fs' "c_base.csv".toList s.base.mgr.knots := by
  have hrun : (Composition.run (lineMaps ℚ) .slerp .slerp (Comp.fresh ⟨100, 200⟩) gentleOps >>= fun s =>
      .ok (s.w.calls, isEmpty s)) = .ok (132, false) := by decide +kernel
  obtain ⟨s, e, h⟩ := Outcome.bind_eq_ok.1 hrun
  simp only [Outcome.ok.injEq, Prod.mk.injEq] at h
  obtain ⟨xs, -, -, -, h4⟩ := C85_composition_partial (lineMaps ℚ) (by decide) (by decide)
    (gentleRun_of _ _ _ _ _ (by decide +kernel)) e (by rw [h.1]; norm_num) h.2 strokesQ
    (toVec := fun g => [g.toAdd]) (dim := 1) (by simp)
  obtain ⟨fs', e', hb, -⟩ := h4 disk "c".toList (by decide) (by decide) (by decide)
  exact ⟨s, fs', e, e', hb⟩

example (fs' : FS) := C85_empty (lineMaps ℚ) strokesQ (fun g => [g.toAdd]) disk fs' "a".toList
  (a := .comp .slerp .slerp (Comp.fresh ⟨0, 0⟩)) rfl

example := C85_correction_refuted (lineMaps ℚ) strokesQ (fun g => [g.toAdd]) disk "a".toList [1] .slerp
  Discrete.demo rfl

/-! ## C86: editing -/

/-- C86, refuted for the curves that are no compositions: every editing function returns normally and the
curve is what it was. Asked, for instance, to have one knot `(t, v)` as its base, it still has the knots
it had. -/
theorem C86_refuted (L : ExpLog K G V) {kind : Kind} (hk : kind ≠ .slerpSE3) {s : Discrete.St K G}
    (hr : Discrete.Reachable L kind s) (hc : s.w.calls + 1 < 2 ^ 64) {t : K} {u v : G}
    (hu : (t, u) ∈ s.c.mgr.knots) (huv : u ≠ v) :
    (∀ op, ∃ a', Any.edit L op (.single kind s) = .ok a' ∧ a'.size = (Any.single kind s).size ∧
      ∀ x, a'.evaluate L x = (Any.single kind s).evaluate L x) ∧
    ∀ op ∈ [Any.Edit.setBaseCurve [t] [v], .setBaseCurvePart [t] [v],
      .modifyBaseCoefficientsValuesInBatch [t] [v]], ∃ a', Any.edit L op (.single kind s) = .ok a' ∧
        a'.evaluate L t = .ok u ∧ a'.evaluate L t ≠ .ok v := by
  have he : evaluate L kind t s.c.mgr = .ok u := evaluate_knot L hk (hr.WF hc).sorted hu
  have h0 : ∀ op, Any.edit L op (.single kind s) = .ok (.single kind s) := fun op => by cases op <;> rfl
  refine ⟨fun op => ⟨_, h0 op, rfl, fun _ => rfl⟩, fun op _ => ⟨_, h0 op, he, ?_⟩⟩
  simp only [Any.evaluate, he, ne_eq, Outcome.ok.injEq]
  exact huv

example := C86_refuted (lineMaps ℚ) (kind := .slerp) (by decide) (Discrete.demo_reachable .slerp)
  (by decide +kernel) (t := 1) (u := .ofAdd 3) (v := .ofAdd 6) (by decide +kernel) (by decide)

/-- C86, partial: `setBaseCurvePart` of a composition (what is missing: `C86_refuted`, `C86_add_refuted`). When it returns, the correction is untouched, the
base has the given knots (the times being distinct) and keeps the others, and the value at a given time is
the correction there times the given value. -/
theorem C86_part_partial (L : ExpLog K G V) {kb kc : Kind} (hkb : kb ≠ .slerpSE3) (hkc : kc ≠ .slerpSE3)
    {s : Comp K G} (hr : Composition.Reachable L kb kc s) {ts : List K} {vs : List G} {a' : Any K G}
    (e : Any.edit L (.setBaseCurvePart ts vs) (.comp kb kc s) = .ok a')
    (hc : a'.world.calls + 1 < 2 ^ 64) (hd : ts.Nodup) (hq : s.corr.mgr.knots ≠ []) :
    ∃ s', a' = .comp kb kc s' ∧ s'.corr = s.corr ∧ ts.length = vs.length ∧
      (∀ t v, (t, v) ∈ s'.base.mgr.knots ↔ (t, v) ∈ ts.zip vs ∨ (t ∉ ts ∧ (t, v) ∈ s.base.mgr.knots)) ∧
      (∀ t v, (t, v) ∈ ts.zip vs → ∃ q, evaluate L kc t s.corr.mgr = .ok q ∧
        a'.evaluate L t = .ok (q * v)) ∧
      s.corr.mgr.getMinTime = s'.base.mgr.getMinTime ∧ s.corr.mgr.getMaxTime = s'.base.mgr.getMaxTime := by
  obtain ⟨s', e1, h⟩ := Outcome.bind_eq_ok.1 e
  cases h
  clear e
  have e := e1
  simp only [Any.world] at hc
  have hst := step_inv (L := L) (kb := kb) (kc := kc) (op := .setPart ts vs) e
  have hi := hr.inv (show s.w.calls + 1 < 2 ^ 64 by omega)
  obtain ⟨hwb', -⟩ := (hst.2 hi hc).wf hc
  obtain ⟨hwb, hwc⟩ := hi.wf (show s.w.calls + 1 < 2 ^ 64 by omega)
  obtain ⟨⟨w1, c1⟩, h1, e⟩ := Outcome.bind_eq_ok.1 e
  obtain ⟨rfl, hmin, hmax⟩ := checkEnds_eq e
  have hkn : ts.length = vs.length ∧ ∀ t v, (t, v) ∈ c1.mgr.knots ↔
      (t, v) ∈ ts.zip vs ∨ (t ∉ ts ∧ (t, v) ∈ s.base.mgr.knots) := by
    unfold Curve.setCurve at h1
    split at h1
    · cases h1
    · rename_i hl
      push Not at hl
      split at h1
      · obtain ⟨⟨w2, m2, ks⟩, h2, h3⟩ := Outcome.bind_eq_ok.1 h1
        cases h3
        have h2' : s.base.mgr.insertLoop s.w (ts.zip vs) = .ok (w1, m2, ks) := by
          simpa [Mgr.insertCoefficients, hl] using h2
        have := insertLoop_mem hwb h2' hc (by
          intro t v v' hv hv'
          have hnd : ((ts.zip vs).map Prod.fst).Nodup := by rwa [List.map_fst_zip hl.le]
          exact congrArg Prod.snd (List.inj_on_of_nodup_map hnd hv hv' rfl))
        rw [List.map_fst_zip hl.le] at this
        exact ⟨hl, this⟩
      · cases h1
        have : ts = [] := by
          rename_i h0
          exact List.length_eq_zero_iff.1 (by omega)
        subst this
        exact ⟨hl, by simp⟩
  refine ⟨_, rfl, rfl, hkn.1, hkn.2, fun t v h => ?_, hmin, hmax⟩
  have hm := (hkn.2 t v).2 (.inl h)
  obtain ⟨h0, h1⟩ := mem_range hwb'.sorted hm
  dsimp only at hmin hmax h0 h1
  obtain ⟨q, hq'⟩ := evaluate_inside L hkc hwc.sorted hq (hmin ▸ h0) (hmax ▸ h1)
  have := evaluate_knot L hkb hwb'.sorted hm
  exact ⟨q, hq', by simp only [Any.evaluate, eval, hq', this, Outcome.ok_bind]⟩

theorem part_inside {L : ExpLog K G V} {kb kc : Kind} {s : Comp K G} (hr : Composition.Reachable L kb kc s)
    {ts : List K} {vs : List G} (hc : s.w.calls + ts.length + 1 < 2 ^ 64) (hl : ts.length = vs.length)
    (hd : ts.Nodup) (hb : s.base.mgr.knots ≠ [])
    (hin : ∀ t ∈ ts, s.base.mgr.getMinTime ≤ t ∧ t ≤ s.base.mgr.getMaxTime) :
    ∃ w' m', s.base.setCurve s.w ts vs = .ok (w', { s.base with mgr := m' }) ∧
      w'.calls ≤ s.w.calls + ts.length ∧
      m'.getMinTime = s.base.mgr.getMinTime ∧ m'.getMaxTime = s.base.mgr.getMaxTime := by
  obtain ⟨hwb, hwc⟩ := (hr.inv (by omega)).wf (show s.w.calls + 1 < 2 ^ 64 by omega)
  by_cases hts : ts = []
  · subst hts
    cases vs with
    | cons v vs => simp at hl
    | nil => exact ⟨s.w, s.base.mgr, by simp [Curve.setCurve], by simp, rfl, rfl⟩
  · obtain ⟨w', m', ks, e, hle⟩ := insertLoop_ok hwb (ts.zip vs) (by
      simp only [List.length_zip, hl, min_self]; omega)
    simp only [List.length_zip, ← hl, min_self] at hle
    have hwf := (insertLoop_WF hwb e (by omega)).1
    have hk := insertLoop_mem hwb e (by omega) (by
      intro t v v' hv hv'
      have hnd : ((ts.zip vs).map Prod.fst).Nodup := by rwa [List.map_fst_zip hl.le]
      exact congrArg Prod.snd (List.inj_on_of_nodup_map hnd hv hv' rfl))
    rw [List.map_fst_zip hl.le] at hk
    have hmem : ∀ t, (∃ v, (t, v) ∈ m'.knots) ↔ t ∈ ts ∨ ∃ v, (t, v) ∈ s.base.mgr.knots := by
      intro t
      constructor
      · rintro ⟨v, hv⟩
        rcases (hk t v).1 hv with h | ⟨-, h⟩
        exacts [.inl (List.of_mem_zip h).1, .inr ⟨v, h⟩]
      · intro h
        by_cases ht : t ∈ ts
        · obtain ⟨p, hp, rfl⟩ : ∃ p ∈ ts.zip vs, p.1 = t := by
            rw [← List.map_fst_zip hl.le] at ht
            simpa using List.mem_map.1 ht
          exact ⟨p.2, (hk _ _).2 (.inl hp)⟩
        · obtain ⟨v, hv⟩ := h.resolve_left ht
          exact ⟨v, (hk t v).2 (.inr ⟨ht, hv⟩)⟩
    have hall : ∀ t v, (t, v) ∈ m'.knots → s.base.mgr.getMinTime ≤ t ∧ t ≤ s.base.mgr.getMaxTime := by
      intro t v hv
      rcases (hmem t).1 ⟨v, hv⟩ with h | ⟨u, hu⟩
      exacts [hin t h, mem_range hwb.sorted hu]
    obtain ⟨⟨x, xv⟩, hx, ex⟩ := knots_min hb
    obtain ⟨⟨y, yv⟩, hy, ey⟩ := knots_max hb
    dsimp only at ex ey
    obtain ⟨xv', hx'⟩ := (hmem x).2 (.inr ⟨xv, hx⟩)
    obtain ⟨yv', hy'⟩ := (hmem y).2 (.inr ⟨yv, hy⟩)
    have hne : m'.knots ≠ [] := List.ne_nil_of_mem hx'
    obtain ⟨⟨p, pv⟩, hp, ep⟩ := knots_min hne
    obtain ⟨⟨q, qv⟩, hq, eq⟩ := knots_max hne
    dsimp only at ep eq
    have hmin : m'.getMinTime = s.base.mgr.getMinTime :=
      le_antisymm (ex ▸ (mem_range hwf.sorted hx').1) (ep ▸ (hall p pv hp).1)
    have hmax : m'.getMaxTime = s.base.mgr.getMaxTime :=
      le_antisymm (eq ▸ (hall q qv hq).2) (ey ▸ (mem_range hwf.sorted hy').2)
    refine ⟨w', m', ?_, hle, hmin, hmax⟩
    have hpos := List.length_pos_iff.2 hts
    simp only [Curve.setCurve, ne_eq, hl, not_true_eq_false, if_false]
    rw [if_pos (hl ▸ hpos)]
    simp [Mgr.insertCoefficients, hl, e]

/-- C86, the guard of `setBaseCurvePart`: as many values as times, all within the base, are accepted
exactly if base and correction end together; otherwise the function aborts. -/
theorem C86_part_ok_partial (L : ExpLog K G V) {kb kc : Kind} {s : Comp K G} (hr : Composition.Reachable L kb kc s)
    {ts : List K} {vs : List G} (hc : s.w.calls + ts.length + 1 < 2 ^ 64) (hl : ts.length = vs.length)
    (hd : ts.Nodup) (hb : s.base.mgr.knots ≠ [])
    (hin : ∀ t ∈ ts, s.base.mgr.getMinTime ≤ t ∧ t ≤ s.base.mgr.getMaxTime) :
    (s.corr.mgr.getMinTime = s.base.mgr.getMinTime ∧ s.corr.mgr.getMaxTime = s.base.mgr.getMaxTime →
      ∃ a', Any.edit L (.setBaseCurvePart ts vs) (.comp kb kc s) = .ok a' ∧
        a'.world.calls ≤ s.w.calls + ts.length) ∧
    (¬ (s.corr.mgr.getMinTime = s.base.mgr.getMinTime ∧ s.corr.mgr.getMaxTime = s.base.mgr.getMaxTime) →
      Any.edit L (.setBaseCurvePart ts vs) (.comp kb kc s) = .abort) := by
  obtain ⟨w', m', e, hle, hmin, hmax⟩ := part_inside hr hc hl hd hb hin
  constructor
  · rintro ⟨h0, h1⟩
    refine ⟨.comp kb kc ⟨w', { s.base with mgr := m' }, s.corr⟩, ?_, hle⟩
    simp [Any.edit, setBaseCurvePart, e, checkEnds, hmin, hmax, h0, h1]
  · intro h
    simp only [Any.edit, setBaseCurvePart, e, checkEnds, hmin, hmax, Outcome.ok_bind, if_neg h,
      Outcome.abort_bind]

/-- C86, part: `modifyBaseCoefficientsValuesInBatch` of a composition, given the times of consecutive knots
of the base and as many values. If base and correction end together it gives those knots the new values,
leaves the others and the correction alone, and the value at such a time is the correction there times
the given value; otherwise it aborts. -/
theorem C86_modify_partial (L : ExpLog K G V) {kb kc : Kind} (hkb : kb ≠ .slerpSE3) (hkc : kc ≠ .slerpSE3)
    {s : Comp K G} (hr : Composition.Reachable L kb kc s) (hc : s.w.calls + 1 < 2 ^ 64)
    (hq : s.corr.mgr.knots ≠ []) {pre mid post : List (K × G)} (hk : s.base.mgr.knots = pre ++ mid ++ post)
    (hmid : mid ≠ []) {vs : List G} (hl : vs.length = mid.length) :
    (s.corr.mgr.getMinTime = s.base.mgr.getMinTime ∧ s.corr.mgr.getMaxTime = s.base.mgr.getMaxTime →
      ∃ s', Any.edit L (.modifyBaseCoefficientsValuesInBatch (mid.map Prod.fst) vs) (.comp kb kc s) =
          .ok (.comp kb kc s') ∧ s'.corr = s.corr ∧
        s'.base.mgr.knots = pre ++ (mid.map Prod.fst).zip vs ++ post ∧
        ∀ t v, (t, v) ∈ (mid.map Prod.fst).zip vs → ∃ q, evaluate L kc t s.corr.mgr = .ok q ∧
          (Any.comp kb kc s').evaluate L t = .ok (q * v)) ∧
    (¬ (s.corr.mgr.getMinTime = s.base.mgr.getMinTime ∧ s.corr.mgr.getMaxTime = s.base.mgr.getMaxTime) →
      Any.edit L (.modifyBaseCoefficientsValuesInBatch (mid.map Prod.fst) vs) (.comp kb kc s) = .abort) := by
  have hi := hr.inv hc
  obtain ⟨hwb, hwc⟩ := hi.wf hc
  have hkc' : s.base.mgr.knots = s.base.mgr.contents.map fun x => (x.1, x.2.2) := by
    simp [Mgr.knots, Mgr.contents]
  rw [hkc'] at hk
  obtain ⟨x, cpost, hx, hx1, hx2⟩ := List.map_eq_append_iff.1 hk
  obtain ⟨cpre, cmid, rfl, hp, hm⟩ := List.map_eq_append_iff.1 hx1
  subst hm hp hx2
  have hcm : cmid ≠ [] := by simpa using hmid
  have hft : (cmid.map fun x => (x.1, x.2.2)).map Prod.fst = cmid.map (·.1) := by
    simp [Function.comp_def]
  rw [hft]
  obtain ⟨m', e, hcont, -⟩ := C10_batch_modify (s := ⟨s.w, s.base.mgr⟩) hi.base hc hx hcm
    (by simpa using hl)
  dsimp only at e hcont
  have hkn : m'.knots = cpre.map (fun x => (x.1, x.2.2)) ++ (cmid.map (·.1)).zip vs ++
      cpost.map (fun x => (x.1, x.2.2)) := by
    rw [show m'.knots = m'.contents.map fun x => (x.1, x.2.2) by simp [Mgr.knots, Mgr.contents], hcont]
    simp only [List.map_append, List.map_zipWith]
    rw [List.zip_eq_zipWith, List.zipWith_map_left]
  have hfr := modBatch_frame e
  have htimes : m'.nodes.map (·.time) = s.base.mgr.nodes.map (·.time) := by
    have h1 : m'.contents.map (·.1) = s.base.mgr.contents.map (·.1) := by
      rw [hcont, hx]
      simp only [List.map_append, List.map_zipWith]
      congr 2
      have : vs.length = cmid.length := by simpa using hl
      clear hcont hx hkn e hk hx1 hft
      induction cmid generalizing vs with
      | nil => simp
      | cons a l ih =>
        cases vs with
        | nil => simp at this
        | cons v vs =>
          by_cases hl0 : l = []
          · subst hl0; simp
          · simp only [List.zipWith_cons_cons, List.map_cons, List.cons.injEq, true_and]
            exact ih (by simpa using hl0) (by simpa using this) hl0 (by simpa using this)
    simpa [Mgr.contents, Function.comp_def] using h1
  have hmin : m'.getMinTime = s.base.mgr.getMinTime := by
    have := congrArg List.head? htimes
    cases h1 : m'.nodes <;> cases h2 : s.base.mgr.nodes <;> simp_all [Mgr.getMinTime]
  have hmax : m'.getMaxTime = s.base.mgr.getMaxTime := by
    have := congrArg List.getLast? htimes
    simp only [List.getLast?_map] at this
    simp only [Mgr.getMaxTime]
    cases h1 : m'.nodes.getLast? <;> cases h2 : s.base.mgr.nodes.getLast? <;> simp_all
  have hs' : Sorted m'.nodes := by
    rw [sorted_iff_times, htimes]; exact sorted_iff_times.1 hwb.sorted
  constructor
  · rintro ⟨h0, h1⟩
    refine ⟨{ s with base := { s.base with mgr := m' } }, ?_, rfl, hkn, fun t v h => ?_⟩
    · simp [Any.edit, modifyBase, e, checkEnds, hmin, hmax, h0, h1]
    · have hm : (t, v) ∈ m'.knots := by rw [hkn]; simp [h]
      obtain ⟨ha, hb⟩ := mem_range hs' hm
      obtain ⟨q, hq'⟩ := evaluate_inside L hkc hwc.sorted hq (t := t) (by rw [h0, ← hmin]; exact ha)
        (by rw [h1, ← hmax]; exact hb)
      have := evaluate_knot L hkb hs' hm
      exact ⟨q, hq', by simp only [Any.evaluate, eval, hq', this, Outcome.ok_bind]⟩
  · intro h
    simp only [Any.edit, modifyBase, e, checkEnds, hmin, hmax, Outcome.ok_bind, if_neg h,
      Outcome.abort_bind]

/-- C86, refuted for `setCorrectionTimes`, which is to add coefficients to the correction: a knot of the
correction whose time is not among the given ones is gone afterwards, and there are knots at the given
times only. -/
theorem C86_add_refuted (L : ExpLog K G V) {kb kc : Kind} {s : Comp K G}
    (hr : Composition.Reachable L kb kc s) {ts : List K} {a' : Any K G}
    (e : Any.edit L (.setCorrectionTimes ts) (.comp kb kc s) = .ok a') (hc : a'.world.calls + 1 < 2 ^ 64)
    {t : K} (ht : t ∈ (Any.comp kb kc s).getCurveTimes []) (hn : t ∉ ts) :
    t ∈ (Any.comp kb kc s).getCurveTimes [] ∧ t ∉ a'.getCurveTimes [] ∧
      ∀ x ∈ a'.getCurveTimes [], x ∈ ts := by
  obtain ⟨s', e1, h⟩ := Outcome.bind_eq_ok.1 e
  cases h
  have h2 := (C57_set_times L hr e1 hc).2.1
  have : ∀ x ∈ (Any.comp kb kc s').getCurveTimes [], x ∈ ts := by
    intro x hx
    simp only [Any.getCurveTimes, times_knots] at hx
    obtain ⟨⟨y, u⟩, hy, rfl⟩ := List.mem_map.1 hx
    exact ((h2 y u).1 hy).1
  exact ⟨ht, fun h => hn (this t h), this⟩

/-- C86, part: the functions that edit single coefficients of the correction. They abort unless the
correction has a coefficient at the time; otherwise they change or remove that one alone. -/
theorem C86_coefficient_partial (L : ExpLog K G V) {kb kc : Kind} (hkc : kc ≠ .slerpSE3) {s : Comp K G}
    (hr : Composition.Reachable L kb kc s) (hc : s.w.calls + 1 < 2 ^ 64) (t : K) (v : G) :
    ((∀ u, (t, u) ∉ s.corr.mgr.knots) →
      Any.edit L (.removeCorrectionCoefficientAtTime t) (.comp kb kc s) = .abort ∧
      Any.edit L (.setCorrectionCoefficientAtTime t v) (.comp kb kc s) = .abort) ∧
    ((∃ u, (t, u) ∈ s.corr.mgr.knots) →
      (∃ s', Any.edit L (.removeCorrectionCoefficientAtTime t) (.comp kb kc s) = .ok (.comp kb kc s') ∧
        s'.base = s.base ∧ ∀ a u, (a, u) ∈ s'.corr.mgr.knots ↔ a ≠ t ∧ (a, u) ∈ s.corr.mgr.knots) ∧
      ∃ s', Any.edit L (.setCorrectionCoefficientAtTime t v) (.comp kb kc s) = .ok (.comp kb kc s') ∧
        s'.base = s.base ∧
        (∀ a u, (a, u) ∈ s'.corr.mgr.knots ↔ (a = t ∧ u = v) ∨ (a ≠ t ∧ (a, u) ∈ s.corr.mgr.knots)) ∧
        ∀ b, evaluate L kb t s.base.mgr = .ok b → (Any.comp kb kc s').evaluate L t = .ok (v * b)) := by
  have h1 := C60_remove L hr hc t
  have h2 := C60_set L hkc hr hc t v
  constructor
  · intro h
    exact ⟨by simp [Any.edit, h1.1 h], by simp [Any.edit, h2.1 h]⟩
  · intro h
    obtain ⟨s1, e1, q1⟩ := h1.2 h
    obtain ⟨s2, e2, q2⟩ := h2.2 h
    exact ⟨⟨s1, by simp [Any.edit, e1], q1⟩, s2, by simp [Any.edit, e2], q2⟩

example := C86_coefficient_partial (lineMaps ℚ) (by decide) Composition.demo_reachable
  (by decide +kernel) 3 (.ofAdd 9)

/-- C86, part: the functions that replace the base or the correction as a whole, when they return.
`resetCorrectionCurve` leaves the base as it is and the curve is the base; `setBaseCurve` leaves the
correction as it is and the base has exactly the given knots. -/
theorem C86_replace_partial (L : ExpLog K G V) {kb kc : Kind} (hkb : kb ≠ .slerpSE3) (hkc : kc ≠ .slerpSE3)
    {s : Comp K G} (hr : Composition.Reachable L kb kc s) (hc : s.w.calls + 1 < 2 ^ 64)
    (hq : s.corr.mgr.knots ≠ []) {ts : List K} (hd : ts.Nodup) (hne : ts ≠ []) (vs : List G) :
    (∀ a', Any.edit L (.resetCorrectionCurve ts) (.comp kb kc s) = .ok a' →
      ∃ s', a' = .comp kb kc s' ∧ s'.base = s.base ∧
        s'.corr.mgr.knots.Perm (ts.map fun t => (t, 1)) ∧
        ∀ t, s.base.mgr.getMinTime ≤ t → t ≤ s.base.mgr.getMaxTime →
          a'.evaluate L t = evaluate L kb t s.base.mgr) ∧
    ∀ a', Any.edit L (.setBaseCurve ts vs) (.comp kb kc s) = .ok a' →
      ∃ s', a' = .comp kb kc s' ∧ s'.corr = s.corr ∧ s'.base.mgr.knots.Perm (ts.zip vs) ∧
        ∀ t v, (t, v) ∈ ts.zip vs → ∃ q, evaluate L kc t s.corr.mgr = .ok q ∧
          a'.evaluate L t = .ok (q * v) := by
  constructor
  · intro a' e
    obtain ⟨s', e1, h⟩ := Outcome.bind_eq_ok.1 e
    cases h
    obtain ⟨h1, h2, -, -, h3⟩ := C60_reset L (kb := kb) hkc hd hne e1
    exact ⟨s', rfl, h1, h2, h3⟩
  · intro a' e
    obtain ⟨s', e1, h⟩ := Outcome.bind_eq_ok.1 e
    cases h
    obtain ⟨h1, h2, -, -, h3⟩ := C60_base L hkb hkc hr hc hq hd hne e1
    exact ⟨s', rfl, h1, h2, h3⟩

/-- The correction of a composition that ends where its base does is reset at its own ends. -/
example : ∃ s a', Composition.run (lineMaps ℚ) .slerp .slerp (Comp.fresh ⟨100, 200⟩)
      (Composition.demoOps ++ [.setTimes [1, 3, 4]]) = .ok s ∧
    Any.edit (lineMaps ℚ) (.resetCorrectionCurve [4, 1]) (.comp .slerp .slerp s) = .ok a' ∧
    a'.evaluate (lineMaps ℚ) 3 = .ok (.ofAdd 4) := by
  have hrun : (Composition.run (lineMaps ℚ) .slerp .slerp (Comp.fresh ⟨100, 200⟩)
      (Composition.demoOps ++ [.setTimes [1, 3, 4]]) >>= fun s =>
      Any.edit (lineMaps ℚ) (.resetCorrectionCurve [4, 1]) (.comp .slerp .slerp s) >>= fun _ =>
      .ok ([s.w.calls, s.corr.mgr.size], [s.base.mgr.getMinTime, s.base.mgr.getMaxTime],
        evaluate (lineMaps ℚ) .slerp 3 s.base.mgr)) = .ok ([114, 3], [1, 4], .ok (.ofAdd 4)) := by
    decide +kernel
  obtain ⟨s, e, h⟩ := Outcome.bind_eq_ok.1 hrun
  obtain ⟨a', ea, h⟩ := Outcome.bind_eq_ok.1 h
  simp only [Outcome.ok.injEq, Prod.mk.injEq, List.cons.injEq, and_true] at h
  obtain ⟨⟨h1, h2⟩, ⟨h3, h4⟩, h5⟩ := h
  have hq : s.corr.mgr.knots ≠ [] := by
    intro h
    have : s.corr.mgr.nodes = [] := by simpa [Mgr.knots] using h
    simp [Mgr.size, this] at h2
  obtain ⟨s', -, -, -, hv⟩ := (C86_replace_partial (lineMaps ℚ) (kb := .slerp) (kc := .slerp) (by decide) (by decide)
    ⟨_, _, e⟩ (by rw [h1]; norm_num) hq (ts := [4, 1]) (by simp) (by simp) []).1 a' ea
  refine ⟨s, a', e, ea, ?_⟩
  rw [hv 3 (by rw [h3]; norm_num) (by rw [h4]; norm_num), h5]

/-- C86, part: `foldInCorrections`, when it returns, keeps the times of base and correction and the value
of the curve at every time of the base, and makes every correction the identity. -/
theorem C86_fold_partial (L : ExpLog K G V) {kb kc : Kind} (hkb : kb ≠ .slerpSE3) (hkc : kc ≠ .slerpSE3)
    {s : Comp K G} (hr : Composition.Reachable L kb kc s) {a' : Any K G}
    (e : Any.edit L .foldInCorrections (.comp kb kc s) = .ok a') (hc : a'.world.calls + 1 < 2 ^ 64) :
    a'.getBaseCurveTimes [] = (Any.comp kb kc s).getBaseCurveTimes [] ∧
    a'.getCurveTimes [] = (Any.comp kb kc s).getCurveTimes [] ∧
    (∀ t ∈ a'.getBaseCurveTimes [], ∃ v, (Any.comp kb kc s).evaluate L t = .ok v ∧
      a'.evaluate L t = .ok v) ∧
    ∃ s', a' = .comp kb kc s' ∧ ∀ t v, (t, v) ∈ s'.corr.mgr.knots → v = 1 := by
  obtain ⟨s', e1, h⟩ := Outcome.bind_eq_ok.1 e
  cases h
  obtain ⟨h1, h2, h3, h4, -⟩ := C44_fold L hkb hkc hr e1 hc
  refine ⟨h1, h2, fun t ht => ?_, s', rfl, h3⟩
  simp only [Any.getBaseCurveTimes, times_knots] at ht
  obtain ⟨⟨y, u⟩, hy, rfl⟩ := List.mem_map.1 ht
  exact ⟨u, h4 y u hy⟩

example : ∃ a', Any.edit (lineMaps ℚ) .foldInCorrections (.comp .slerp .slerp Composition.demo) = .ok a' ∧
    a'.getCurveTimes [] = (Any.comp .slerp .slerp Composition.demo).getCurveTimes [] := by
  have hrun : (Any.edit (lineMaps ℚ) .foldInCorrections (.comp .slerp .slerp Composition.demo) >>=
      fun a => .ok (decide (a.world.calls < 1000))) = .ok true := by decide +kernel
  obtain ⟨a', e, h⟩ := Outcome.bind_eq_ok.1 hrun
  simp only [Outcome.ok.injEq, decide_eq_true_eq] at h
  exact ⟨a', e, (C86_fold_partial (lineMaps ℚ) (by decide) (by decide) Composition.demo_reachable e
    (by norm_num; omega)).2.1⟩

/-- A composition whose base and correction end together. -/
def alignedOps : List (Composition.Op ℚ (Multiplicative ℚ)) := Composition.demoOps ++ [.setTimes [1, 3, 4]]

example : ∃ s, Composition.run (lineMaps ℚ) .slerp .slerp (Comp.fresh ⟨100, 200⟩) alignedOps = .ok s ∧
    (∃ a', Any.edit (lineMaps ℚ) (.setBaseCurvePart [3, 1] [.ofAdd 9, .ofAdd 8]) (.comp .slerp .slerp s) =
      .ok a' ∧ ∃ q, a'.evaluate (lineMaps ℚ) 3 = .ok (q * .ofAdd 9)) ∧
    (∃ s', Any.edit (lineMaps ℚ) (.modifyBaseCoefficientsValuesInBatch [2, 3] [.ofAdd 9, .ofAdd 8])
      (.comp .slerp .slerp s) = .ok (.comp .slerp .slerp s') ∧
      s'.base.mgr.knots = [(1, .ofAdd 5), (2, .ofAdd 9), (3, .ofAdd 8), (4, .ofAdd 0)]) := by
  have hrun : (Composition.run (lineMaps ℚ) .slerp .slerp (Comp.fresh ⟨100, 200⟩) alignedOps >>= fun s =>
      .ok (s.w.calls, s.base.mgr.knots, s.corr.mgr.knots.map Prod.fst, [s.base.mgr.getMinTime,
        s.base.mgr.getMaxTime, s.corr.mgr.getMinTime, s.corr.mgr.getMaxTime])) =
      .ok (114, [(1, .ofAdd 5), (2, .ofAdd 6), (3, .ofAdd 4), (4, .ofAdd 0)], [1, 3, 4],
        [1, 4, 1, 4]) := by
    decide +kernel
  obtain ⟨s, e, h⟩ := Outcome.bind_eq_ok.1 hrun
  simp only [Outcome.ok.injEq, Prod.mk.injEq, List.cons.injEq, and_true] at h
  obtain ⟨h1, h2, h3, h4, h5, h6, h7⟩ := h
  have hr : Composition.Reachable (lineMaps ℚ) .slerp .slerp s := ⟨_, _, e⟩
  have hq : s.corr.mgr.knots ≠ [] := by intro h; simp [h] at h3
  have hends := And.intro (h6.trans h4.symm) (h7.trans h5.symm)
  refine ⟨s, e, ?_, ?_⟩
  · obtain ⟨a', ea, hle⟩ := (C86_part_ok_partial (lineMaps ℚ) hr (ts := [3, 1]) (vs := [.ofAdd 9, .ofAdd 8])
      (by rw [h1]; simp) rfl (by simp) (by simp [h2]) (by rw [h4, h5]; simp; norm_num)).1 hends
    obtain ⟨s', -, -, -, -, hv, -⟩ := C86_part_partial (lineMaps ℚ) (by decide) (by decide) hr ea
      (by rw [h1] at hle; simp at hle; omega) (by simp) hq
    obtain ⟨q, -, hq'⟩ := hv 3 (.ofAdd 9) (by simp)
    exact ⟨a', ea, q, hq'⟩
  · obtain ⟨s', ea, -, hk, -⟩ := (C86_modify_partial (lineMaps ℚ) (by decide) (by decide) hr (by rw [h1]; norm_num) hq
      (pre := [(1, .ofAdd 5)]) (mid := [(2, .ofAdd 6), (3, .ofAdd 4)]) (post := [(4, .ofAdd 0)])
      (by rw [h2]; rfl) (by simp) (vs := [.ofAdd 9, .ofAdd 8]) rfl).1 hends
    exact ⟨s', ea, hk⟩

example : ∃ a', Any.edit (lineMaps ℚ) (.setCorrectionTimes [4, 1]) (.comp .slerp .slerp Composition.demo) = .ok a' ∧
    (3 : ℚ) ∉ a'.getCurveTimes [] := by
  have hrun : (Any.edit (lineMaps ℚ) (.setCorrectionTimes [4, 1]) (.comp .slerp .slerp Composition.demo) >>=
      fun a => .ok a.world.calls) = .ok 113 := by decide +kernel
  obtain ⟨a', e, h⟩ := Outcome.bind_eq_ok.1 hrun
  rw [Outcome.ok.injEq] at h
  exact ⟨a', e, (C86_add_refuted (lineMaps ℚ) Composition.demo_reachable e (by rw [h]; norm_num) (t := 3)
    (by decide +kernel) (by simp)).2.1⟩

/-! ## C87: replacing a measurement -/

theorem fed_ends {L : ExpLog K G V} {kb kc : Kind} {s : Comp K G} {xs : List (K × G)} (h : Fed L kb kc s xs)
    (hc : s.w.calls + 1 < 2 ^ 64) (hne : xs ≠ []) :
    s.corr.mgr.getMinTime = min s.base.mgr.getMinTime 0 ∧
    s.corr.mgr.getMaxTime = max s.base.mgr.getMaxTime 0 := by
  obtain ⟨hwb, hwc⟩ := (h.reach.inv hc).wf hc
  have hb : s.base.mgr.knots ≠ [] := by rw [h.base]; exact hne
  obtain ⟨x, hx, ex⟩ := knots_min hb
  obtain ⟨y, hy, ey⟩ := knots_max hb
  obtain ⟨hq, hlo⟩ := (low_iff hwc.sorted).1 (h.covers x hx).1
  have hhi := ((high_iff hwc.sorted).1 (h.covers y hy).2).2
  have h0 := mem_range hwc.sorted (h.zero hne)
  obtain ⟨p, hp, ep⟩ := knots_min hq
  obtain ⟨q, hq', eq⟩ := knots_max hq
  have hin : ∀ a ∈ xs.map Prod.fst, s.base.mgr.getMinTime ≤ a ∧ a ≤ s.base.mgr.getMaxTime := by
    intro a ha
    rw [← h.base] at ha
    obtain ⟨z, hz, rfl⟩ := List.mem_map.1 ha
    exact mem_range hwb.sorted hz
  constructor
  · refine le_antisymm (le_min (ex ▸ hlo) h0.1) ?_
    rw [← ep]
    rcases h.ends p hp with h1 | h1
    · rw [h1]; exact min_le_right _ _
    · exact (min_le_left _ _).trans (hin _ h1).1
  · refine le_antisymm ?_ (max_le (ey ▸ hhi) h0.2)
    rw [← eq]
    rcases h.ends q hq' with h1 | h1
    · rw [h1]; exact le_max_right _ _
    · exact (hin _ h1).2.trans (le_max_left _ _)

/-- The two ways to replace the value of the base at `t`. -/
def replaceOps (t : K) (v : G) : List (Any.Edit K G) :=
  [.setBaseCurvePart [t] [v], .modifyBaseCoefficientsValuesInBatch [t] [v]]

theorem modify_one (L : ExpLog K G V) {kb kc : Kind} {s : Comp K G} {xs : List (K × G)}
    (h : Fed L kb kc s xs) {t : K} {u : G} (hm : (t, u) ∈ xs) :
    ∃ pre post, xs = pre ++ [(t, u)] ++ post ∧ s.base.mgr.knots = pre ++ [(t, u)] ++ post := by
  obtain ⟨pre, post, e⟩ := List.append_of_mem hm
  exact ⟨pre, post, by simp [e], by simp [h.base, e]⟩

/-- **C87, partial.** A composition that was given measurements at increasing times, the first not after
and the last not before time zero, accepts a new value for any of them, from either function; it then has
the new value there and the old ones at all other measured times. Missing: see `C87_refuted`. -/
theorem C87_replace_partial (L : ExpLog K G V) {kb kc : Kind} (hkb : kb ≠ .slerpSE3) (hkc : kc ≠ .slerpSE3)
    (w : World) {xs : List (K × G)} (hinc : xs.Pairwise fun a b => a.1 < b.1)
    (hw : w.calls + 7 * xs.length + 2 < 2 ^ 64) {t : K} {u : G} (hm : (t, u) ∈ xs) (v : G) :
    ∃ a, (Any.comp kb kc (Comp.fresh w)).feed L xs = .ok a ∧
      (a.getMinTime ≤ 0 ∧ 0 ≤ a.getMaxTime → ∀ op ∈ replaceOps t v, ∃ a', a.edit L op = .ok a' ∧
        a'.evaluate L t = .ok v ∧ a'.baseSize = a.baseSize ∧
        ∀ p ∈ xs, p.1 ≠ t → a'.evaluate L p.1 = .ok p.2) := by
  obtain ⟨s, e, hle, h⟩ := comp_feed L hkc xs (fed_fresh L kb kc w) (by simpa using hinc)
    (by simp only [Comp.fresh]; omega)
  simp only [List.nil_append, Comp.fresh] at h hle
  refine ⟨_, e, ?_⟩
  rintro ⟨hlo, hhi⟩
  have hc : s.w.calls + 1 < 2 ^ 64 := by omega
  have hne : xs ≠ [] := List.ne_nil_of_mem hm
  obtain ⟨hmin, hmax⟩ := fed_ends h hc hne
  simp only [Any.getMinTime, Composition.getMinTime] at hlo
  simp only [Any.getMaxTime, Composition.getMaxTime] at hhi
  rw [min_eq_left hlo] at hmin
  rw [max_eq_left hhi] at hmax
  obtain ⟨hwb, hwc⟩ := (h.reach.inv hc).wf hc
  have hb : s.base.mgr.knots ≠ [] := by rw [h.base]; exact hne
  have hq : s.corr.mgr.knots ≠ [] := List.ne_nil_of_mem (h.zero hne)
  obtain ⟨pre, post, hxs, hk⟩ := modify_one L h hm
  -- what follows once the base is known to have the new knots
  have fin : ∀ s' : Comp K G, s'.corr = s.corr → Sorted s'.base.mgr.nodes →
      s'.base.mgr.knots = pre ++ [(t, v)] ++ post →
      (Any.comp kb kc s').evaluate L t = .ok v ∧ (Any.comp kb kc s').baseSize = (Any.comp kb kc s).baseSize ∧
      ∀ p ∈ xs, p.1 ≠ t → (Any.comp kb kc s').evaluate L p.1 = .ok p.2 := by
    intro s' hcs hs' hk'
    have hev : ∀ p ∈ s'.base.mgr.knots, s.corr.mgr.getMinTime ≤ p.1 ∧ p.1 ≤ s.corr.mgr.getMaxTime →
        (Any.comp kb kc s').evaluate L p.1 = .ok p.2 := by
      intro p hp hr
      have h1 := evaluate_const L hkc hwc.sorted h.corr hq hr.1 hr.2
      have h2 := evaluate_knot L hkb hs' hp
      simp [Any.evaluate, eval, hcs, h1, h2]
    have hin : ∀ p ∈ xs, s.corr.mgr.getMinTime ≤ p.1 ∧ p.1 ≤ s.corr.mgr.getMaxTime := by
      intro p hp
      rw [hmin, hmax]
      exact mem_range hwb.sorted (h.base ▸ hp)
    refine ⟨hev (t, v) (by rw [hk']; simp) (hin (t, u) hm), ?_, fun p hp hpt => ?_⟩
    · have h1 : s'.base.mgr.knots.length = s.base.mgr.knots.length := by rw [hk', hk]; simp
      simpa [Any.baseSize, Mgr.size, Mgr.knots] using h1
    · refine hev p ?_ (hin p hp)
      rw [hxs] at hp
      rw [hk']
      simp only [List.mem_append, List.mem_singleton] at hp ⊢
      rcases hp with (hp | rfl) | hp
      exacts [.inl (.inl hp), absurd rfl hpt, .inr hp]
  intro op hop
  simp only [replaceOps, List.mem_cons, List.not_mem_nil, or_false] at hop
  rcases hop with rfl | rfl
  · obtain ⟨a', e', hle1⟩ := (C86_part_ok_partial L h.reach (ts := [t]) (vs := [v]) (by simp; omega) rfl (by simp) hb
      (by
        intro x hx
        rw [List.mem_singleton] at hx
        subst hx
        exact mem_range hwb.sorted (h.base ▸ hm))).1 ⟨hmin, hmax⟩
    obtain ⟨s1, e1, e2⟩ := Outcome.bind_eq_ok.1 e'
    cases e2
    simp only [Any.world, List.length_singleton] at hle1
    have hc1 : s1.w.calls + 1 < 2 ^ 64 := by omega
    have hst := step_inv (L := L) (kb := kb) (kc := kc) (op := .setPart [t] [v]) e1
    obtain ⟨hwb', -⟩ := (hst.2 (h.reach.inv hc) hc1).wf hc1
    obtain ⟨s', es, hcs, -, hk', -⟩ := C86_part_partial L hkb hkc h.reach e' hc1 (by simp) hq
    cases es
    refine ⟨_, e', fin s1 hcs hwb'.sorted ?_⟩
    have hp := knots_pairwise hwb.sorted
    rw [hk] at hp
    refine eq_of_mem_iff (knots_pairwise hwb'.sorted) ?_ ?_
    · have : (pre ++ [(t, v)] ++ post).map Prod.fst = (pre ++ [(t, u)] ++ post).map Prod.fst := by simp
      rw [← List.pairwise_map (f := Prod.fst) (R := (· < ·))] at hp ⊢
      rw [this]; exact hp
    · rintro ⟨a, b⟩
      rw [hk', hk]
      simp only [List.zip_cons_cons, List.zip_nil_right, List.mem_append, List.mem_singleton, Prod.mk.injEq]
      have hpre : ∀ b, (t, b) ∉ pre := by
        intro b hb'
        exact lt_irrefl _ ((List.pairwise_append.1 (List.pairwise_append.1 hp).1).2.2 (t, b) hb' (t, u) (by simp))
      have hpost : ∀ b, (t, b) ∉ post := by
        intro b hb'
        exact lt_irrefl _ ((List.pairwise_append.1 hp).2.2 (t, u) (by simp) (t, b) hb')
      constructor
      · rintro (h1 | ⟨h1, (h2 | h2) | h2⟩)
        exacts [.inl (.inr h1), .inl (.inl h2), absurd h2.1 h1, .inr h2]
      · rintro ((h1 | h1) | h1)
        · exact .inr ⟨fun h => hpre b (h ▸ h1), .inl (.inl h1)⟩
        · exact .inl h1
        · exact .inr ⟨fun h => hpost b (h ▸ h1), .inr h1⟩
  · obtain ⟨s', e', hcs, hk', -⟩ := (C86_modify_partial L hkb hkc h.reach hc hq hk (by simp) (vs := [v]) (by simp)).1
      ⟨hmin, hmax⟩
    refine ⟨_, e', fin s' hcs ?_ (by simpa using hk')⟩
    rw [sorted_iff_knots, hk']
    have := sorted_iff_knots.1 hwb.sorted
    rw [hk] at this
    simpa using this

/-- **C87 refuted.** Composition curves begin their correction at time zero. Given any measurements that are
all after time zero, or all before it, the curve aborts on every attempt to replace one of them. -/
theorem C87_refuted (L : ExpLog K G V) {kb kc : Kind} (hkb : kb ≠ .slerpSE3) (hkc : kc ≠ .slerpSE3)
    (w : World) {xs : List (K × G)} (hinc : xs.Pairwise fun a b => a.1 < b.1)
    (hw : w.calls + 7 * xs.length + 2 < 2 ^ 64) {t : K} {u : G} (hm : (t, u) ∈ xs) (v : G)
    (h0 : (∀ p ∈ xs, 0 < p.1) ∨ ∀ p ∈ xs, p.1 < 0) :
    ∃ a, (Any.comp kb kc (Comp.fresh w)).feed L xs = .ok a ∧
      ∀ op ∈ replaceOps t v, a.edit L op = .abort := by
  obtain ⟨s, e, hle, h⟩ := comp_feed L hkc xs (fed_fresh L kb kc w) (by simpa using hinc)
    (by simp only [Comp.fresh]; omega)
  simp only [List.nil_append, Comp.fresh] at h hle
  refine ⟨_, e, ?_⟩
  have hc : s.w.calls + 1 < 2 ^ 64 := by omega
  have hne : xs ≠ [] := List.ne_nil_of_mem hm
  obtain ⟨hmin, hmax⟩ := fed_ends h hc hne
  obtain ⟨hwb, hwc⟩ := (h.reach.inv hc).wf hc
  have hb : s.base.mgr.knots ≠ [] := by rw [h.base]; exact hne
  have hq : s.corr.mgr.knots ≠ [] := List.ne_nil_of_mem (h.zero hne)
  obtain ⟨pre, post, hxs, hk⟩ := modify_one L h hm
  obtain ⟨x, hx, ex⟩ := knots_min hb
  obtain ⟨y, hy, ey⟩ := knots_max hb
  rw [h.base] at hx hy
  have hno : ¬ (s.corr.mgr.getMinTime = s.base.mgr.getMinTime ∧
      s.corr.mgr.getMaxTime = s.base.mgr.getMaxTime) := by
    rintro ⟨h1, h2⟩
    rcases h0 with h0 | h0
    · have := h0 x hx
      rw [ex] at this
      rw [hmin, min_eq_right this.le] at h1
      exact this.ne h1
    · have := h0 y hy
      rw [ey] at this
      rw [hmax, max_eq_right this.le] at h2
      exact this.ne' h2
  intro op hop
  simp only [replaceOps, List.mem_cons, List.not_mem_nil, or_false] at hop
  rcases hop with rfl | rfl
  · refine (C86_part_ok_partial L h.reach (ts := [t]) (vs := [v]) (by simp; omega) rfl (by simp) hb ?_).2 hno
    intro x hx
    rw [List.mem_singleton] at hx
    subst hx
    exact mem_range hwb.sorted (h.base ▸ hm)
  · exact (C86_modify_partial L hkb hkc h.reach hc hq hk (by simp) (vs := [v]) (by simp)).2 hno

example := C87_replace_partial (lineMaps ℚ) (kb := .slerp) (kc := .slerp) (by decide) (by decide) ⟨9, 9⟩
  (xs := [(-1, .ofAdd 5), (2, .ofAdd 7), (4, .ofAdd 3)]) (by simp; norm_num) (by simp) (t := 2) (u := .ofAdd 7)
  (by simp) (.ofAdd 1)

example : ((Any.comp .slerp .slerp (Comp.fresh ⟨9, 9⟩)).feed (lineMaps ℚ)
      [(-1, .ofAdd 5), (2, .ofAdd 7), (4, .ofAdd 3)] >>= fun a => a.edit (lineMaps ℚ)
        (.setBaseCurvePart [2] [.ofAdd 1]) >>= fun a => .ok (a.evaluate (lineMaps ℚ) 2, a.getMinTime, a.getMaxTime)) =
    .ok (.ok (.ofAdd 1), -1, 4) := by decide +kernel

example : ∃ a, (Any.comp .slerp .slerp (Comp.fresh ⟨9, 9⟩)).feed (lineMaps ℚ) demoXs = .ok a ∧
    ∀ op ∈ replaceOps (2 : ℚ) (Multiplicative.ofAdd 1), a.edit (lineMaps ℚ) op = .abort :=
  C87_refuted (lineMaps ℚ) (by decide) (by decide) ⟨9, 9⟩ (by simp [demoXs]; norm_num) (by simp [demoXs])
    (u := .ofAdd 7) (by simp [demoXs]) _ (.inl (by simp [demoXs]))

end Verif.Interface

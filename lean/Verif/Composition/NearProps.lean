import Verif.Composition.NearLemmas

/-!
# How far the composition curve moves, and how far editing its corrections moves it

C162.
-/

set_option linter.unusedSectionVars false
set_option linter.dupNamespace false

namespace Verif.Composition

open Verif.Manager Verif.Policy Verif.Discrete

section
variable {K G V : Type} [Field K] [LinearOrder K] [IsStrictOrderedRing K] [Group G]
  [AddCommGroup V] [Module K V]

theorem collect_value {f : K → Outcome G} {ts : List K} {vs : List G} (h : collect f ts = .ok vs) {t : K} (ht : t ∈ ts) :
    ∃ v, f t = .ok v := by
  induction ts generalizing vs with
  | nil => cases ht
  | cons x ts ih =>
    obtain ⟨v, hv, h⟩ := Outcome.bind_eq_ok.1 h
    obtain ⟨vs', hvs, -⟩ := Outcome.bind_eq_ok.1 h
    rcases List.mem_cons.1 ht with rfl | ht
    · exact ⟨v, hv⟩
    · exact ih hvs ht

/-- C162, pace. Of a composition of two interpolating curves: if between neighbouring knots the base moves at most at the
rate `Ωb`, the correction at most at the rate `Ωc` and turns at most at the rate `ω`, and the base stays within `r` of the
identity, then the composition moves at most at the rate `κ (Ωb + Ωc) + r κ' ω`: turning the correction swings the base
around. -/
theorem C162_pace {L : ExpLog K G V} {d a : G → G → K} {κ κ' : K} (hd : Measured L d κ) (ha : Measured L a κ')
    (hl : Lever d a) {s : Comp K G} (hr : Reachable L .slerp .slerp s) (hc : s.w.calls + 1 < 2 ^ 64) {Ωb Ωc ω r : K}
    (hb : s.base.mgr.knots.IsChain fun x y => d x.2 y.2 ≤ Ωb * (y.1 - x.1))
    (hq : s.corr.mgr.knots.IsChain fun x y => d x.2 y.2 ≤ Ωc * (y.1 - x.1))
    (hw : s.corr.mgr.knots.IsChain fun x y => a x.2 y.2 ≤ ω * (y.1 - x.1))
    (hrad : ∀ t b, evaluate L .slerp t s.base.mgr = .ok b → d 1 b ≤ r) {x y : K} {p q : G} (hxy : x ≤ y)
    (hp : eval L .slerp .slerp x s = .ok p) (hq' : eval L .slerp .slerp y s = .ok q) :
    d p q ≤ (κ * (Ωb + Ωc) + r * (κ' * ω)) * (y - x) := by
  obtain ⟨hwb, hwc⟩ := (hr.inv hc).wf hc
  obtain ⟨c1, e1, hp⟩ := Outcome.bind_eq_ok.1 hp
  obtain ⟨b1, f1, hp⟩ := Outcome.bind_eq_ok.1 hp
  obtain ⟨c2, e2, hq'⟩ := Outcome.bind_eq_ok.1 hq'
  obtain ⟨b2, f2, hq'⟩ := Outcome.bind_eq_ok.1 hq'
  cases hp
  cases hq'
  have k := product_near hd hl c1 c2 b1 b2
  have k1 := pace_sorted hd hwb.sorted hb hxy f1 f2
  have k2 := pace_sorted hd hwc.sorted hq hxy e1 e2
  have k3 := pace_sorted ha hwc.sorted hw hxy e1 e2
  have k4 := mul_le_mul (hrad y b2 f2) k3 (ha.nonneg _ _) ((hd.nonneg _ _).trans (hrad y b2 f2))
  linarith

/-- C162, radius. Where the knots of an interpolating curve are within `r` of the identity, its values are within
`(1 + κ) r`. -/
theorem C162_radius {L : ExpLog K G V} {d : G → G → K} {κ : K} (hd : Measured L d κ) {m : Mgr K G} (hs : Sorted m.nodes) {r : K}
    (hk : ∀ t v, (t, v) ∈ m.knots → d 1 v ≤ r) {t : K} {p : G} (e : evaluate L .slerp t m = .ok p) :
    d 1 p ≤ (1 + κ) * r := by
  obtain ⟨-, hne, h0, h1⟩ := evaluate_dom L hs e
  have hin : ∀ x ∈ m.knots, m.getMinTime ≤ x.1 ∧ x.1 ≤ m.getMaxTime := by
    intro x hx
    obtain ⟨n, hn, rfl⟩ := List.mem_map.1 hx
    exact min_le_node hs hn
  obtain ⟨p', e', hn⟩ := slerp_sorted hd hs le_rfl (sub_nonneg.2 (h0.trans h1)) (R := fun _ => 1) (ε := r)
    (fun x y _ _ _ => by simp [hd.self]) hk
    (List.Pairwise.isChain (List.pairwise_of_forall_mem_list fun x hx y hy => by linarith [(hin x hx).1, (hin y hy).2])) hne h0 h1
  rw [e] at e'
  cases e'
  rw [hd.symm]
  simpa using hn

/-- Where a fold returned, the correction reaches every time of the base. -/
theorem fold_reaches {L : ExpLog K G V} {kb kc : Kind} {s : Comp K G} (hwb : Sorted s.base.mgr.nodes)
    (hwc : Sorted s.corr.mgr.nodes) (hkb : kb ≠ .slerpSE3) (hkc : kc ≠ .slerpSE3) (hne : s.base.mgr.knots ≠ [])
    (h : ∀ t v, (t, v) ∈ s.base.mgr.knots → ∃ p, evaluate L kc t s.corr.mgr = .ok p) {t : K}
    (h0 : s.base.mgr.getMinTime ≤ t) (h1 : t ≤ s.base.mgr.getMaxTime) :
    s.corr.mgr.knots ≠ [] ∧ s.corr.mgr.getMinTime ≤ t ∧ t ≤ s.corr.mgr.getMaxTime ∧
      (∃ q, evaluate L kc t s.corr.mgr = .ok q) ∧ ∃ p, eval L kb kc t s = .ok p := by
  obtain ⟨⟨v, hv⟩, ⟨v', hv'⟩⟩ := ends_are_knots hne
  obtain ⟨p, e⟩ := h _ _ hv
  obtain ⟨p', e'⟩ := h _ _ hv'
  obtain ⟨-, hq, a0, -⟩ := evaluate_dom L hwc e
  obtain ⟨-, -, -, a1⟩ := evaluate_dom L hwc e'
  obtain ⟨q, eq⟩ := evaluate_inside L hkc hwc hq (a0.trans h0) (h1.trans a1)
  obtain ⟨b, eb⟩ := evaluate_inside L hkb hwb hne h0 h1
  exact ⟨hq, a0.trans h0, h1.trans a1, ⟨q, eq⟩, q * b, by simp [eval, eq, eb]⟩

/-- C162, folding. `foldInCorrections` keeps the value at the knots of the base (C44); between them it does not, but the curve
stays close: if the composition moves at most at the rate `Ω` and the knots of the base are at most `h` apart, the value at
every time moves by at most `(1 + κ) Ω h / 2`, and no time is lost. -/
theorem C162_fold {L : ExpLog K G V} {d : G → G → K} {κ : K} (hd : Measured L d κ) {kc : Kind} (hkc : kc ≠ .slerpSE3)
    {s s' : Comp K G} (hr : Reachable L .slerp kc s) (e : foldInCorrections L .slerp kc s = .ok s')
    (hc : s'.w.calls + 1 < 2 ^ 64) {Ω h : K} (hΩ : 0 ≤ Ω) (hh : 0 ≤ h)
    (hpace : ∀ x y p q, x ≤ y → eval L .slerp kc x s = .ok p → eval L .slerp kc y s = .ok q → d p q ≤ Ω * (y - x))
    (hgap : s.base.mgr.knots.IsChain fun x y => y.1 - x.1 ≤ h) {t : K} {p : G} (hp : eval L .slerp kc t s = .ok p) :
    ∃ p', eval L .slerp kc t s' = .ok p' ∧ d p' p ≤ (1 + κ) * (Ω * h / 2) := by
  have hcalls := (step_inv (L := L) (kb := .slerp) (kc := kc) (op := .fold) e).1
  obtain ⟨hwb, hwc⟩ := (hr.inv (show s.w.calls + 1 < 2 ^ 64 by omega)).wf (show s.w.calls + 1 < 2 ^ 64 by omega)
  obtain ⟨hwb', hwc'⟩ := ((hr.step (op := .fold) e).inv hc).wf hc
  obtain ⟨ht1, -, -, hk, hbase⟩ := C44_fold L (by simp) hkc hr e hc
  obtain ⟨c0, ec, hp'⟩ := Outcome.bind_eq_ok.1 hp
  obtain ⟨b0, eb, -⟩ := Outcome.bind_eq_ok.1 hp'
  obtain ⟨-, hne, h0, h1⟩ := evaluate_dom L hwb.sorted eb
  obtain ⟨m0, m1, hne'⟩ := min_of_times ht1.symm hne
  have hkn : ∀ t v, (t, v) ∈ s.base.mgr.knots → ∃ p, evaluate L kc t s.corr.mgr = .ok p := by
    intro t v hv
    have hm : t ∈ s'.base.mgr.knots.map Prod.fst := by
      rw [knots_time ht1]
      exact List.mem_map.2 ⟨_, hv, rfl⟩
    obtain ⟨⟨t', v'⟩, hv', rfl⟩ := List.mem_map.1 hm
    obtain ⟨c, ec, -⟩ := Outcome.bind_eq_ok.1 (hk _ _ hv').1
    exact ⟨c, ec⟩
  obtain ⟨p', ep, hn⟩ := slerp_sorted hd hwb'.sorted hΩ hh (R := valueOr fun t => eval L .slerp kc t s) (ε := 0) (fun x y hx hxy hy => by
      rw [← m0] at hx
      rw [← m1] at hy
      obtain ⟨-, -, -, -, px, ex⟩ := fold_reaches (L := L) (kb := .slerp) hwb.sorted hwc.sorted (by simp) hkc hne hkn hx (hxy.trans hy)
      obtain ⟨-, -, -, -, py, ey⟩ := fold_reaches (L := L) (kb := .slerp) hwb.sorted hwc.sorted (by simp) hkc hne hkn (hx.trans hxy) hy
      rw [valueOr_eq (f := fun t => eval L .slerp kc t s) ex, valueOr_eq (f := fun t => eval L .slerp kc t s) ey]
      exact hpace _ _ _ _ hxy ex ey)
    (fun x v hv => by
      rw [valueOr_eq (f := fun t => eval L .slerp kc t s) (hk x v hv).1, hd.self])
    (gap_of_times ht1 hgap) hne' (m0 ▸ h0) (m1 ▸ h1)
  obtain ⟨hq, q0, q1, -⟩ := fold_reaches (L := L) (kb := .slerp) hwb.sorted hwc.sorted (by simp) hkc hne hkn h0 h1
  refine ⟨p', by rw [hbase t hq q0 q1, ep], ?_⟩
  rw [valueOr_eq (f := fun t => eval L .slerp kc t s) hp, zero_add] at hn
  exact hn

/-- C162, new times for the correction. `setCorrectionTimes` keeps the value at the given times (C57); between them, if the
correction moved at most at the rate `Ωc` and turned at most at the rate `ω`, the given times are at most `h` apart and the
base stays within `r` of the identity, the value at every time moves by at most
`(1 + κ) κ Ωc h / 2 + r (1 + κ') κ' ω h / 2`, and no time is lost. At least one time has to be given, see
`C162_no_times`. -/
theorem C162_times {L : ExpLog K G V} {d a : G → G → K} {κ κ' : K} (hd : Measured L d κ) (ha : Measured L a κ')
    (hl : Lever d a) {kb : Kind} {s s' : Comp K G} (hr : Reachable L kb .slerp s) {ts : List K}
    (hts : ts ≠ []) (e : setCorrectionTimes L .slerp ts s = .ok s') (hc : s'.w.calls + 1 < 2 ^ 64) {Ωc ω r h : K} (hΩ : 0 ≤ Ωc) (hω : 0 ≤ ω)
    (hh : 0 ≤ h) (hq : s.corr.mgr.knots.IsChain fun x y => d x.2 y.2 ≤ Ωc * (y.1 - x.1))
    (hw : s.corr.mgr.knots.IsChain fun x y => a x.2 y.2 ≤ ω * (y.1 - x.1))
    (hrad : ∀ t b, evaluate L kb t s.base.mgr = .ok b → d 1 b ≤ r)
    (hgap : s'.corr.mgr.knots.IsChain fun x y => y.1 - x.1 ≤ h) {t : K} {p : G} (hp : eval L kb .slerp t s = .ok p) :
    ∃ p', eval L kb .slerp t s' = .ok p' ∧
      d p' p ≤ (1 + κ) * (κ * Ωc * h / 2) + r * ((1 + κ') * (κ' * ω * h / 2)) := by
  have hcalls := (step_inv (L := L) (kb := kb) (kc := .slerp) (op := .setTimes ts) e).1
  obtain ⟨hwb, hwc⟩ := (hr.inv (show s.w.calls + 1 < 2 ^ 64 by omega)).wf (show s.w.calls + 1 < 2 ^ 64 by omega)
  obtain ⟨hwb', hwc'⟩ := ((hr.step (op := .setTimes ts) e).inv hc).wf hc
  obtain ⟨hbase, hk, -, hmin, hmax⟩ := C57_set_times L hr e hc
  obtain ⟨c0, ec, hp'⟩ := Outcome.bind_eq_ok.1 hp
  obtain ⟨b0, eb, hp'⟩ := Outcome.bind_eq_ok.1 hp'
  cases hp'
  obtain ⟨-, hne, h0, h1⟩ := evaluate_dom L hwb.sorted eb
  have hne' : s'.corr.mgr.knots ≠ [] := by
    obtain ⟨u, us, rfl⟩ := List.exists_cons_of_ne_nil hts
    obtain ⟨vals, hv, -⟩ := Outcome.bind_eq_ok.1 e
    obtain ⟨v, hv, -⟩ := Outcome.bind_eq_ok.1 hv
    exact List.ne_nil_of_mem ((hk u v).2 ⟨by simp, hv⟩)
  obtain ⟨⟨v, hv⟩, ⟨v', hv'⟩⟩ := ends_are_knots hne'
  obtain ⟨-, hq0, a0, -⟩ := evaluate_dom L hwc.sorted ((hk _ _).1 hv).2
  obtain ⟨-, -, -, a1⟩ := evaluate_dom L hwc.sorted ((hk _ _).1 hv').2
  have hκ := zero_le_one.trans hd.one_le
  have hκ' := zero_le_one.trans ha.one_le
  have near : ∀ {d : G → G → K} {κ Ω : K}, Measured L d κ → 0 ≤ Ω →
      (s.corr.mgr.knots.IsChain fun x y => d x.2 y.2 ≤ Ω * (y.1 - x.1)) →
      ∃ q, evaluate L .slerp t s'.corr.mgr = .ok q ∧ d q c0 ≤ (1 + κ) * (κ * Ω * h / 2) := by
    intro d κ Ω hd hΩ hq
    have hκ := zero_le_one.trans hd.one_le
    obtain ⟨q, eq, hn⟩ := slerp_sorted hd hwc'.sorted (mul_nonneg hκ hΩ) hh (R := valueOr fun t => evaluate L .slerp t s.corr.mgr) (ε := 0)
      (fun x y hx hxy hy => by
        obtain ⟨px, ex⟩ := evaluate_inside L (kind := .slerp) (by simp) hwc.sorted hq0 (a0.trans hx) ((hxy.trans hy).trans a1)
        obtain ⟨py, ey⟩ := evaluate_inside L (kind := .slerp) (by simp) hwc.sorted hq0 (a0.trans (hx.trans hxy)) (hy.trans a1)
        rw [valueOr_eq (f := fun t => evaluate L .slerp t s.corr.mgr) ex, valueOr_eq (f := fun t => evaluate L .slerp t s.corr.mgr) ey]
        exact pace_sorted hd hwc.sorted hq hxy ex ey)
      (fun x v hv => by
        rw [valueOr_eq (f := fun t => evaluate L .slerp t s.corr.mgr) ((hk x v).1 hv).2, hd.self])
      hgap hne' (hmin ▸ h0) (hmax ▸ h1)
    rw [valueOr_eq (f := fun t => evaluate L .slerp t s.corr.mgr) ec, zero_add] at hn
    exact ⟨q, eq, hn⟩
  obtain ⟨q, eq, n1⟩ := near hd hΩ hq
  obtain ⟨q', eq', n2⟩ := near ha hω hw
  rw [eq] at eq'
  cases eq'
  refine ⟨q * b0, by simp [eval, eq, hbase, eb], ?_⟩
  have k := hl q c0 b0
  have k4 := mul_le_mul (hrad t b0 eb) n2 (ha.nonneg _ _) ((hd.nonneg _ _).trans (hrad t b0 eb))
  linarith

/-- The times of two curves with the same times, up to the values. -/
theorem mem_of_times {m m' : Mgr K G} (h : m.getTimes [] = m'.getTimes []) {t : K} {v : G} (hv : (t, v) ∈ m.knots) :
    ∃ v', (t, v') ∈ m'.knots := by
  have hm : t ∈ m'.knots.map Prod.fst := by
    rw [← knots_time h]
    exact List.mem_map.2 ⟨_, hv, rfl⟩
  obtain ⟨⟨t', v'⟩, hv', rfl⟩ := List.mem_map.1 hm
  exact ⟨v', hv'⟩

/-- C162, folding with a discrete base. After `foldInCorrections` the curve shows at every time the value it had before at
the nearest knot of the base, the earlier one of two equally near ones: also the correction now jumps there. -/
theorem C162_fold_discrete {L : ExpLog K G V} {kc : Kind} (hkc : kc ≠ .slerpSE3) {s s' : Comp K G}
    (hr : Reachable L .discrete kc s) (e : foldInCorrections L .discrete kc s = .ok s') (hc : s'.w.calls + 1 < 2 ^ 64) {t : K}
    {p : G} (hp : eval L .discrete kc t s = .ok p) :
    ∃ t0, (∃ v0, (t0, v0) ∈ s.base.mgr.knots) ∧
      (∀ t1 v1, (t1, v1) ∈ s.base.mgr.knots → |t0 - t| < |t1 - t| ∨ (|t0 - t| = |t1 - t| ∧ t0 ≤ t1)) ∧
      ∃ p', eval L .discrete kc t s' = .ok p' ∧ eval L .discrete kc t0 s = .ok p' := by
  have hcalls := (step_inv (L := L) (kb := .discrete) (kc := kc) (op := .fold) e).1
  obtain ⟨hwb, hwc⟩ := (hr.inv (show s.w.calls + 1 < 2 ^ 64 by omega)).wf (show s.w.calls + 1 < 2 ^ 64 by omega)
  obtain ⟨hwb', hwc'⟩ := ((hr.step (op := .fold) e).inv hc).wf hc
  obtain ⟨ht1, -, -, hk, hbase⟩ := C44_fold L (by simp) hkc hr e hc
  obtain ⟨c0, ec, hp'⟩ := Outcome.bind_eq_ok.1 hp
  obtain ⟨b0, eb, -⟩ := Outcome.bind_eq_ok.1 hp'
  obtain ⟨-, hne, h0, h1⟩ := evaluate_dom L hwb.sorted eb
  obtain ⟨-, hq, q0, q1⟩ := evaluate_dom L hwc.sorted ec
  obtain ⟨m0, m1, hne'⟩ := min_of_times ht1.symm hne
  obtain ⟨t0, v0, hv0, ev, hnear⟩ := nearest_sorted L hwb'.sorted hne' (m0 ▸ h0) (m1 ▸ h1)
  exact ⟨t0, mem_of_times ht1 hv0, fun t1 v1 hv1 => by
      obtain ⟨v1', hv1'⟩ := mem_of_times ht1.symm hv1
      exact hnear t1 v1' hv1',
    v0, by rw [hbase t hq q0 q1, ev], (hk _ _ hv0).1⟩

/-- C162, new times for a discrete correction. After `setCorrectionTimes` the correction at every time is the former one at
the nearest of the given times, the earlier one of two equally near ones. -/
theorem C162_times_discrete {L : ExpLog K G V} {kb : Kind} {s s' : Comp K G} (hr : Reachable L kb .discrete s) {ts : List K}
    (hts : ts ≠ []) (e : setCorrectionTimes L .discrete ts s = .ok s') (hc : s'.w.calls + 1 < 2 ^ 64) {t : K} {p : G}
    (hp : eval L kb .discrete t s = .ok p) :
    ∃ t0 ∈ ts, (∀ t1 ∈ ts, |t0 - t| < |t1 - t| ∨ (|t0 - t| = |t1 - t| ∧ t0 ≤ t1)) ∧
      ∃ q b, evaluate L .discrete t0 s.corr.mgr = .ok q ∧ evaluate L kb t s.base.mgr = .ok b ∧
        eval L kb .discrete t s' = .ok (q * b) := by
  have hcalls := (step_inv (L := L) (kb := kb) (kc := .discrete) (op := .setTimes ts) e).1
  obtain ⟨hwb, hwc⟩ := (hr.inv (show s.w.calls + 1 < 2 ^ 64 by omega)).wf (show s.w.calls + 1 < 2 ^ 64 by omega)
  obtain ⟨hwb', hwc'⟩ := ((hr.step (op := .setTimes ts) e).inv hc).wf hc
  obtain ⟨hbase, hk, -, hmin, hmax⟩ := C57_set_times L hr e hc
  obtain ⟨c0, ec, hp'⟩ := Outcome.bind_eq_ok.1 hp
  obtain ⟨b0, eb, -⟩ := Outcome.bind_eq_ok.1 hp'
  obtain ⟨-, hne, h0, h1⟩ := evaluate_dom L hwb.sorted eb
  have hall : ∀ u ∈ ts, ∃ v, (u, v) ∈ s'.corr.mgr.knots := by
    intro u hu
    obtain ⟨vals, hv, -⟩ := Outcome.bind_eq_ok.1 e
    obtain ⟨v, hv⟩ := collect_value hv hu
    exact ⟨v, (hk u v).2 ⟨hu, hv⟩⟩
  have hne' : s'.corr.mgr.knots ≠ [] := by
    obtain ⟨u, us, rfl⟩ := List.exists_cons_of_ne_nil hts
    obtain ⟨v, hv⟩ := hall u (by simp)
    exact List.ne_nil_of_mem hv
  obtain ⟨t0, v0, hv0, ev, hnear⟩ := nearest_sorted L hwc'.sorted hne' (hmin ▸ h0) (hmax ▸ h1)
  obtain ⟨hin, hq⟩ := (hk _ _).1 hv0
  exact ⟨t0, hin, fun t1 ht1 => by
      obtain ⟨v1, hv1⟩ := hall t1 ht1
      exact hnear t1 v1 hv1,
    v0, b0, hq, eb, by simp [eval, ev, hbase, eb]⟩

/-- C162, no times. Given no times at all, `setCorrectionTimes` returns only if the base has no knots away from time zero; the
curve then has no value anywhere, also where it had one, and evaluating it at time zero is undefined. -/
theorem C162_no_times {L : ExpLog K G V} {kb kc : Kind} {s s' : Comp K G} (hr : Reachable L kb kc s)
    (e : setCorrectionTimes L kc [] s = .ok s') (hc : s'.w.calls + 1 < 2 ^ 64) :
    (∀ t v, (t, v) ∈ s.base.mgr.knots → t = 0) ∧ (∀ t p, eval L kb kc t s' ≠ .ok p) ∧
      (kc ≠ .slerpSE3 → eval L kb kc 0 s' = .ub) := by
  have hcalls := (step_inv (L := L) (kb := kb) (kc := kc) (op := .setTimes []) e).1
  obtain ⟨hwb, -⟩ := (hr.inv (show s.w.calls + 1 < 2 ^ 64 by omega)).wf (show s.w.calls + 1 < 2 ^ 64 by omega)
  obtain ⟨-, hwc'⟩ := ((hr.step (op := .setTimes []) e).inv hc).wf hc
  obtain ⟨-, hk, -, hmin, hmax⟩ := C57_set_times L hr e hc
  have hnil : s'.corr.mgr.knots = [] := List.eq_nil_iff_forall_not_mem.2 fun x hx => by
    simpa using ((hk x.1 x.2).1 hx).1
  have hn : s'.corr.mgr.nodes = [] := by simpa [Mgr.knots] using hnil
  have e0 : s'.corr.mgr.getMinTime = 0 := by simp [Mgr.getMinTime, hn]
  have e1 : s'.corr.mgr.getMaxTime = 0 := by simp [Mgr.getMaxTime, hn]
  refine ⟨fun t v hv => ?_, fun t p h => ?_, fun hk => ?_⟩
  · obtain ⟨n, hn, h⟩ := List.mem_map.1 hv
    cases h
    have := min_le_node hwb.sorted hn
    rw [← hmin, ← hmax, e0, e1] at this
    exact le_antisymm this.2 this.1
  · obtain ⟨c, ec, -⟩ := Outcome.bind_eq_ok.1 h
    exact (evaluate_dom L hwc'.sorted ec).2.1 hnil
  · rw [eval, evaluate_eq L hk hwc'.sorted, evalWith_empty hnil]
    rfl

end

/-! ## Examples -/

theorem angle_le_pi (g h : SO3) : SO3.angle g h ≤ Real.pi := by
  rw [← SO3.mk_quat g, ← SO3.mk_quat h, SO3.angle_mk, Kindr.angle]
  have := Real.arccos_le_pi_div_two.2 (abs_nonneg (h.quat * star g.quat).re)
  linarith

theorem demo_radius (t : ℚ) (b : Multiplicative ℚ) (e : evaluate (lineMaps ℚ) .slerp t demo.base.mgr = .ok b) :
    |b.toAdd - (1 : Multiplicative ℚ).toAdd| ≤ 12 := by
  have hc : demo.w.calls + 1 < 2 ^ 64 := by rw [demo_calls]; norm_num
  have := C162_radius line_measured ((demo_reachable.inv hc).wf hc).1.sorted (r := 6) (by
    rw [show demo.base.mgr.knots = [(1, .ofAdd 5), (2, .ofAdd 6), (3, .ofAdd 4), (4, .ofAdd 0)] by decide +kernel]
    simp only [List.mem_cons, Prod.mk.injEq, List.not_mem_nil, or_false]
    rintro t v (⟨rfl, rfl⟩ | ⟨rfl, rfl⟩ | ⟨rfl, rfl⟩ | ⟨rfl, rfl⟩) <;> norm_num [abs_le]) e
  linarith

/-- `demo` moves at most at the rate eight. -/
theorem demo_pace (x y : ℚ) (p q : Multiplicative ℚ) (hxy : x ≤ y) (hp : eval (lineMaps ℚ) .slerp .slerp x demo = .ok p)
    (hq : eval (lineMaps ℚ) .slerp .slerp y demo = .ok q) : |q.toAdd - p.toAdd| ≤ 8 * (y - x) := by
  have := C162_pace line_measured measured_zero line_lever demo_reachable (by rw [demo_calls]; norm_num) (Ωb := 4) (Ωc := 4) (ω := 0)
    (by decide +kernel) (by decide +kernel) (by decide +kernel) demo_radius hxy hp hq
  linarith

/-- Folding the corrections of `demo` in moves no value by more than eight; at 5/2 it moves the value by one half. -/
example {s' : Comp ℚ (Multiplicative ℚ)} (e : foldInCorrections (lineMaps ℚ) .slerp .slerp demo = .ok s')
    (hc : s'.w.calls + 1 < 2 ^ 64) := C162_fold line_measured (by simp) demo_reachable e hc (Ω := 8) (h := 1) (by norm_num)
  (by norm_num) demo_pace (by decide +kernel) (t := 5 / 2) (p := .ofAdd 8) (by decide +kernel)

example : (setCorrectionTimes (lineMaps ℚ) .slerp [1, 4] demo >>= fun s' => .ok (s'.w.calls, s'.corr.mgr.knots)) =
    .ok (113, [(1, .ofAdd 0), (4, .ofAdd 8)]) := by decide +kernel

/-- Correction knots only at the ends of `demo`: no value moves by more than twelve. -/
example {s' : Comp ℚ (Multiplicative ℚ)} (e : setCorrectionTimes (lineMaps ℚ) .slerp [1, 4] demo = .ok s')
    (hc : s'.w.calls + 1 < 2 ^ 64) (hk : s'.corr.mgr.knots = [(1, .ofAdd 0), (4, .ofAdd 8)]) :=
  C162_times line_measured measured_zero line_lever demo_reachable (by simp) e hc (Ωc := 4) (ω := 0) (r := 12) (h := 3) (by norm_num)
    le_rfl (by norm_num) (by decide +kernel) (by decide +kernel) demo_radius (by rw [hk]; norm_num) (t := 2)
    (p := .ofAdd 8) (by decide +kernel)

/-- The same steps with discrete curves. -/
def demoDiscrete : Comp ℚ (Multiplicative ℚ) :=
  match run (lineMaps ℚ) .discrete .discrete (Comp.fresh ⟨100, 200⟩) demoOps with
  | .ok s => s
  | _ => Comp.fresh ⟨0, 0⟩

theorem demoDiscrete_reachable : Reachable (lineMaps ℚ) .discrete .discrete demoDiscrete := by
  refine ⟨⟨100, 200⟩, demoOps, ?_⟩
  have h : (match run (lineMaps ℚ) .discrete .discrete (Comp.fresh ⟨100, 200⟩) demoOps with
    | .ok _ => true | _ => false) = true := by decide +kernel
  unfold demoDiscrete
  split at h
  · rename_i s e; rw [e]
  · cases h

example {s' : Comp ℚ (Multiplicative ℚ)} (e : foldInCorrections (lineMaps ℚ) .discrete .discrete demoDiscrete = .ok s')
    (hc : s'.w.calls + 1 < 2 ^ 64) := C162_fold_discrete (by simp) demoDiscrete_reachable e hc (t := 9 / 4) (p := .ofAdd 10)
  (by decide +kernel)

/-- Before and after folding, at 9/4. -/
example : (foldInCorrections (lineMaps ℚ) .discrete .discrete demoDiscrete >>= fun s' =>
      eval (lineMaps ℚ) .discrete .discrete (9 / 4) s') = .ok (.ofAdd 6) := by decide +kernel

example {s' : Comp ℚ (Multiplicative ℚ)} (e : setCorrectionTimes (lineMaps ℚ) .discrete [4, 1] demoDiscrete = .ok s')
    (hc : s'.w.calls + 1 < 2 ^ 64) := C162_times_discrete demoDiscrete_reachable (by simp) e hc (t := 9 / 4) (p := .ofAdd 10)
  (by decide +kernel)

example : (setCorrectionTimes (lineMaps ℚ) .discrete [4, 1] demoDiscrete >>= fun s' =>
      eval (lineMaps ℚ) .discrete .discrete (9 / 4) s') = .ok (.ofAdd 6) := by decide +kernel

/-- A base with one knot, at time zero: evaluating there afterwards is undefined. -/
example : (run (lineMaps ℚ) .slerp .slerp (Comp.fresh ⟨100, 200⟩) [.extend [0] [.ofAdd 5], .setTimes []] >>= fun s =>
      .ok (s.base.mgr.knots, decide (eval (lineMaps ℚ) .slerp .slerp 0 s = .ub))) =
    .ok ([(0, .ofAdd 5)], true) := by decide +kernel

/-- Poses in space: base and correction both moving at most at `v` and turning at most at `ω` between their knots, the base
within `r` of the origin. Position and attitude of the composition. -/
example {s : Comp ℝ Pose3} (hr : Reachable pose3Maps .slerp .slerp s) (hc : s.w.calls + 1 < 2 ^ 64) {v ω r : ℝ}
    (hb : s.base.mgr.knots.IsChain fun x y => Kindr.vecNorm (y.2.pos - x.2.pos) ≤ v * (y.1 - x.1))
    (hb' : s.base.mgr.knots.IsChain fun x y => SO3.angle x.2.rot y.2.rot ≤ ω * (y.1 - x.1))
    (hq : s.corr.mgr.knots.IsChain fun x y => Kindr.vecNorm (y.2.pos - x.2.pos) ≤ v * (y.1 - x.1))
    (hq' : s.corr.mgr.knots.IsChain fun x y => SO3.angle x.2.rot y.2.rot ≤ ω * (y.1 - x.1))
    (hk : ∀ t b, (t, b) ∈ s.base.mgr.knots → Kindr.vecNorm b.pos ≤ r) {x y : ℝ} {p q : Pose3} (hxy : x ≤ y)
    (hp : eval pose3Maps .slerp .slerp x s = .ok p) (hq0 : eval pose3Maps .slerp .slerp y s = .ok q) :
    Kindr.vecNorm (q.pos - p.pos) ≤ (2 * v + 2 * r * ω) * (y - x) ∧ SO3.angle p.rot q.rot ≤ 2 * ω * (y - x) := by
  have hs := ((hr.inv hc).wf hc).1.sorted
  have h1 := C162_pace pose3_measured_dist pose3_measured_angle pose3_lever hr hc hb hq hq' (r := (1 + 1) * r) (fun t b e =>
    C162_radius pose3_measured_dist hs (fun t v hv => by simpa [Pose3.one_def] using hk t v hv) e) hxy hp hq0
  have h2 := C162_pace pose3_measured_angle measured_zero pose3_lever_angle hr hc (ω := 0) (r := Real.pi) hb' hq'
    (List.Pairwise.isChain (List.pairwise_of_forall_mem_list fun x _ y _ => by simp)) (fun t b _ => angle_le_pi _ _) hxy hp hq0
  constructor <;> linarith

end Verif.Composition

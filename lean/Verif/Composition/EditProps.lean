import Verif.Composition.Props
import Mathlib.GroupTheory.Perm.Basic

/-!
# Properties of the edits of the composition curve

C57-C60 and the composition part of C50.
-/

set_option linter.unusedSectionVars false
set_option linter.dupNamespace false

namespace Verif.Composition

open Verif.Manager Verif.Policy Verif.Discrete

variable {K G V : Type} [Field K] [LinearOrder K] [IsStrictOrderedRing K] [Group G]
  [AddCommGroup V] [Module K V]

/-! ## C57: new knot times for the correction -/

/-- C57. When `setCorrectionTimes(ts)` returns, the base is untouched, the correction has knots exactly at
the given times, with the values it had there, so the curve is unchanged at these times; and the
correction begins and ends with the base. Knots of the correction at other times are gone. -/
theorem C57_set_times (L : ExpLog K G V) {kb kc : Kind} {s s' : Comp K G} (hr : Reachable L kb kc s)
    {ts : List K} (e : setCorrectionTimes L kc ts s = .ok s') (hc : s'.w.calls + 1 < 2 ^ 64) :
    s'.base = s.base ∧
    (∀ t v, (t, v) ∈ s'.corr.mgr.knots ↔ t ∈ ts ∧ evaluate L kc t s.corr.mgr = .ok v) ∧
    (∀ t ∈ ts, eval L kb kc t s' = eval L kb kc t s) ∧
    s'.corr.mgr.getMinTime = s.base.mgr.getMinTime ∧
    s'.corr.mgr.getMaxTime = s.base.mgr.getMaxTime := by
  have hst := step_inv (L := L) (kb := kb) (kc := kc) (op := .setTimes ts) e
  have hi := hr.inv (show s.w.calls + 1 < 2 ^ 64 by omega)
  have hi' := hst.2 hi hc
  obtain ⟨hwb, hwc⟩ := hi.wf (show s.w.calls + 1 < 2 ^ 64 by omega)
  obtain ⟨-, hwc'⟩ := hi'.wf hc
  obtain ⟨vals, h1, e⟩ := Outcome.bind_eq_ok.1 e
  obtain ⟨⟨w1, c1, ks1⟩, h2, e⟩ := Outcome.bind_eq_ok.1 e
  obtain ⟨rfl, hmin, hmax⟩ := checkEnds_eq e
  obtain ⟨hlen, hvals⟩ := collect_spec h1
  rw [clear_extend_eq] at h2
  obtain ⟨⟨w2, m2, ks2⟩, h3, h2⟩ := Outcome.bind_eq_ok.1 h2
  cases h2
  have hwe : WF s.w (Mgr.empty : Mgr K G) :=
    Manager.Reachable.WF (s := ⟨s.w, Mgr.empty⟩) ⟨s.w, [], trivial, rfl⟩
      (show s.w.calls + 1 < 2 ^ 64 by omega)
  have hk := insertMany_mem hwe h3 hc (by
    intro t v v' h h'
    have := (hvals _ _ h).symm.trans (hvals _ _ h')
    cases this
    rfl)
  have hk' : ∀ t v, (t, v) ∈ m2.knots ↔ t ∈ ts ∧ evaluate L kc t s.corr.mgr = .ok v := by
    intro t v
    rw [hk]
    constructor
    · rintro (h | ⟨-, h⟩)
      · exact ⟨(List.of_mem_zip h).1, hvals _ _ h⟩
      · simp [Mgr.knots, Mgr.empty] at h
    · rintro ⟨h, he⟩
      obtain ⟨i, hi, rfl⟩ := List.mem_iff_getElem.1 h
      have hz : (ts[i], vals[i]) ∈ ts.zip vals :=
        List.mem_iff_getElem.2 ⟨i, by simp only [List.length_zip]; omega, by simp⟩
      have := (hvals _ _ hz).symm.trans he
      cases this
      exact .inl hz
  refine ⟨rfl, hk', ?_, hmin, hmax⟩
  intro t ht
  have hex : ∃ v, (t, v) ∈ m2.knots := by
    obtain ⟨i, hi, rfl⟩ := List.mem_iff_getElem.1 ht
    exact ⟨vals[i], (hk _ _).2 (.inl (List.mem_iff_getElem.2
      ⟨i, by simp only [List.length_zip]; omega, by simp⟩))⟩
  obtain ⟨v, hv⟩ := hex
  have hev := ((hk' _ _).1 hv).2
  have hkk := (evaluate_dom L hwc.sorted hev).1
  have := evaluate_knot L hkk hwc'.sorted hv
  simp only [eval, this, hev]

/-- C57, when it returns: the given times lie in the range of the base, include its two ends, and the
correction reaches them. -/
theorem C57_set_times_ok (L : ExpLog K G V) {kb kc : Kind} (hkc : kc ≠ .slerpSE3) {s : Comp K G}
    (hr : Reachable L kb kc s) {ts : List K} (hc : s.w.calls + ts.length + 1 < 2 ^ 64)
    (hq : s.corr.mgr.knots ≠ []) (h0 : s.corr.mgr.getMinTime ≤ s.base.mgr.getMinTime)
    (h1 : s.base.mgr.getMaxTime ≤ s.corr.mgr.getMaxTime) (hlo : s.base.mgr.getMinTime ∈ ts)
    (hhi : s.base.mgr.getMaxTime ∈ ts)
    (hin : ∀ t ∈ ts, s.base.mgr.getMinTime ≤ t ∧ t ≤ s.base.mgr.getMaxTime) :
    ∃ s', setCorrectionTimes L kc ts s = .ok s' := by
  obtain ⟨hwb, hwc⟩ := (hr.inv (by omega)).wf (show s.w.calls + 1 < 2 ^ 64 by omega)
  obtain ⟨vals, hv⟩ := collect_ok (f := fun t => evaluate L kc t s.corr.mgr) (ts := ts) fun t ht =>
    evaluate_inside L hkc hwc.sorted hq (h0.trans (hin t ht).1) ((hin t ht).2.trans h1)
  obtain ⟨hlen, hvals⟩ := collect_spec hv
  have hwe : WF s.w s.corr.clear.mgr := ((clear_steps s.w s.corr.mgr)).WF hwc
    (show s.w.calls + 1 < 2 ^ 64 by omega)
  obtain ⟨w1, c1, ks, e, hwf, -, -, -, hk⟩ := extend_list ts vals hwe hlen hc
    (.inr rfl) (by
      intro t v v' h h'
      have := (hvals _ _ h).symm.trans (hvals _ _ h')
      cases this
      rfl)
  have hmem : ∀ t, (∃ v, (t, v) ∈ c1.mgr.knots) ↔ t ∈ ts := by
    intro t
    constructor
    · rintro ⟨v, h⟩
      rcases (hk _ _).1 h with h | ⟨-, h⟩
      · exact (List.of_mem_zip h).1
      · simp [Curve.clear, Mgr.clear, Mgr.knots] at h
    · intro h
      obtain ⟨i, hi, rfl⟩ := List.mem_iff_getElem.1 h
      exact ⟨vals[i], (hk _ _).2 (.inl (List.mem_iff_getElem.2
        ⟨i, by simp only [List.length_zip]; omega, by simp⟩))⟩
  obtain ⟨e1, e2⟩ := minmax_of_ends hwf.sorted ((hmem _).2 hlo) ((hmem _).2 hhi)
    fun p hp => hin p.1 ((hmem _).1 ⟨p.2, hp⟩)
  refine ⟨⟨w1, s.base, c1⟩, ?_⟩
  simp [setCorrectionTimes, hv, e, checkEnds, e1, e2]

example : (setCorrectionTimes (lineMaps ℚ) .slerp [4, 1, 2] demo >>= fun s' => .ok s'.corr.mgr.knots) =
    .ok [(1, .ofAdd 0), (2, .ofAdd 2), (4, .ofAdd 8)] := by decide +kernel

example : ∃ s', setCorrectionTimes (lineMaps ℚ) .slerp [4, 1, 2] demo = .ok s' :=
  C57_set_times_ok (lineMaps ℚ) (by simp) demo_reachable (by rw [demo_calls]; norm_num)
    (by decide +kernel) (by decide +kernel) (by decide +kernel) (by decide +kernel)
    (by decide +kernel) (by decide +kernel)

/-! ## C58: transforming -/

/-- C58, what `transformCurve(X)` does: it returns, leaves knot times and corrections alone, and turns the
value `q b` at each time into `q X b`. -/
theorem C58_transform (L : ExpLog K G V) {kb kc : Kind} (hkb : kb ≠ .slerpSE3) {s : Comp K G}
    (hr : Reachable L kb kc s) (hc : s.w.calls + 1 < 2 ^ 64) (X : G) :
    ∃ s', transformCurve L kb X s = .ok s' ∧ s'.corr = s.corr ∧
      s'.base.mgr.knots = s.base.mgr.knots.map (fun p => (p.1, X * p.2)) ∧
      ∀ t q b, evaluate L kc t s.corr.mgr = .ok q → evaluate L kb t s.base.mgr = .ok b →
        eval L kb kc t s = .ok (q * b) ∧ eval L kb kc t s' = .ok (q * (X * b)) := by
  obtain ⟨hwb, hwc⟩ := (hr.inv hc).wf hc
  obtain ⟨c', e, hwf, -, hcont⟩ := transform_spec L hkb X hwb hc
  have hk : c'.mgr.knots = s.base.mgr.knots.map (fun p => (p.1, X * p.2)) := by
    rw [knots_eq_contents, hcont, knots_eq_contents]; simp [Function.comp_def]
  refine ⟨⟨s.w, c', s.corr⟩, by simp [transformCurve, e], rfl, hk, ?_⟩
  intro t q b hq hb
  have := evaluate_mul L hkb hwb.sorted X hk t
  rw [hb, Outcome.ok_bind] at this
  exact ⟨by simp [eval, hq, hb], by simp [eval, hq, this]⟩

/-- C58, partial. At every time at which `X` commutes with the correction (the identity, for instance)
`transformCurve(X)` multiplies the value of the curve by `X` on the left. Missing: the other times,
see `C58_refuted`. -/
theorem C58_transform_partial (L : ExpLog K G V) {kb kc : Kind} (hkb : kb ≠ .slerpSE3) {s s' : Comp K G}
    (hr : Reachable L kb kc s) (hc : s.w.calls + 1 < 2 ^ 64) {X : G}
    (e : transformCurve L kb X s = .ok s') {t : K} {q v : G} (hq : evaluate L kc t s.corr.mgr = .ok q)
    (hX : X * q = q * X) (hv : eval L kb kc t s = .ok v) : eval L kb kc t s' = .ok (X * v) := by
  obtain ⟨s1, e1, -, -, h⟩ := C58_transform L hkb hr hc X
  rw [e1] at e
  cases e
  obtain ⟨q', h1, hv⟩ := Outcome.bind_eq_ok.1 hv
  rw [hq] at h1
  cases h1
  obtain ⟨b, hb, hv⟩ := Outcome.bind_eq_ok.1 hv
  cases hv
  rw [(h t q b hq hb).2, ← mul_assoc, ← hX, mul_assoc]

/-- C58, refuted. The header promises the transformation on the left side of the curve. At every time at
which `X` does not commute with the correction, the new value is not `X` times the old one. -/
theorem C58_refuted (L : ExpLog K G V) {kb kc : Kind} (hkb : kb ≠ .slerpSE3) {s s' : Comp K G}
    (hr : Reachable L kb kc s) (hc : s.w.calls + 1 < 2 ^ 64) {X : G}
    (e : transformCurve L kb X s = .ok s') {t : K} {q v : G} (hq : evaluate L kc t s.corr.mgr = .ok q)
    (hX : X * q ≠ q * X) (hv : eval L kb kc t s = .ok v) : eval L kb kc t s' ≠ .ok (X * v) := by
  obtain ⟨s1, e1, -, -, h⟩ := C58_transform L hkb hr hc X
  rw [e1] at e
  cases e
  obtain ⟨q', h1, hv⟩ := Outcome.bind_eq_ok.1 hv
  rw [hq] at h1
  cases h1
  obtain ⟨b, hb, hv⟩ := Outcome.bind_eq_ok.1 hv
  cases hv
  rw [(h t q b hq hb).2]
  intro h'
  have h' := Outcome.ok.inj h'
  apply hX
  rw [← mul_assoc, ← mul_assoc] at h'
  exact (mul_right_cancel h').symm

/-- A small group that is not commutative, to show the theorem is not empty. -/
abbrev P3 := Equiv.Perm (Fin 3)

/-- A number for each permutation. -/
def permLog (p : P3) : ℚ := (p 0).val + 3 * (p 1).val - 3

/-- And back. -/
def permExp (x : ℚ) : P3 :=
  (([1, Equiv.swap 0 1, Equiv.swap 0 2, Equiv.swap 1 2, Equiv.swap 0 1 * Equiv.swap 1 2,
    Equiv.swap 1 2 * Equiv.swap 0 1] : List P3).find? fun p => permLog p = x).getD 1

/-- Enough structure for a discrete curve of permutations. -/
def permMaps : ExpLog ℚ P3 ℚ where
  exp := permExp
  log := permLog
  exp_log := by decide +kernel
  log_one := by decide +kernel

/-- A curve with one knot and a correction that moves the first two points. -/
def permOps : List (Op ℚ P3) := [.extend [1] [1], .setCorr 1 (Equiv.swap 0 1)]

example : (run permMaps .discrete .discrete (Comp.fresh ⟨7, 70⟩) permOps >>= fun s =>
      eval permMaps .discrete .discrete 1 s) = .ok (Equiv.swap 0 1) ∧
    (run permMaps .discrete .discrete (Comp.fresh ⟨7, 70⟩) (permOps ++ [.transform (Equiv.swap 1 2)])
      >>= fun s => eval permMaps .discrete .discrete 1 s) =
      .ok (Equiv.swap 0 1 * Equiv.swap 1 2) ∧
    (Equiv.swap 0 1 * Equiv.swap 1 2 : P3) ≠ Equiv.swap 1 2 * Equiv.swap 0 1 := by decide +kernel

/-! ## C59: fitting -/

/-- C59, refuted. The header says the existing curve will be cleared. `fitCurve` with one sample keeps
every knot of the base at another time, and every other number of samples aborts. -/
theorem C59_refuted (L : ExpLog K G V) {kb kc : Kind} {s s' : Comp K G} (hr : Reachable L kb kc s)
    {ts : List K} {vs : List G} {ks : List Nat} (e : fitCurve L kc ts vs s = .ok (s', ks))
    (hc : s'.w.calls + 1 < 2 ^ 64) :
    ∃ t v, ts = [t] ∧ vs = [v] ∧ ∀ a u, (a, u) ∈ s.base.mgr.knots → a ≠ t →
      (a, u) ∈ s'.base.mgr.knots := by
  obtain ⟨t, v, rfl, rfl⟩ := extend_shape e
  obtain ⟨g⟩ := extend_stages e
  have hcs := g.calls
  have hi := hr.inv (show s.w.calls + 1 < 2 ^ 64 by omega)
  obtain ⟨-, -, hw3, hst, hsb⟩ := g.steps hi hc
  have hwb : WF g.x3.w s.base.mgr :=
    ((hst.other s.base.mgr).reachable hi.base).WF (show g.x3.w.calls + 1 < 2 ^ 64 by omega)
  exact ⟨t, v, rfl, rfl, fun a u h hne => ((extend_one_mem hwb hi.ratio g.ex hc).1 a u).2 (.inr ⟨hne, h⟩)⟩

example : (fitCurve (lineMaps ℚ) .slerp [5] [.ofAdd 0] demo >>= fun r => .ok (r.1.base.mgr.getTimes [])) =
    .ok [1, 2, 3, 4, 5] ∧
    (fitCurve (lineMaps ℚ) .slerp [5, 6] [.ofAdd 0, .ofAdd 1] demo >>= fun _ => .ok ()) =
      .abort := by decide +kernel

/-- C59, partial: on a curve without knots `fitCurve` with one sample at `t` leaves exactly that knot.
Missing: everything else, see `C59_refuted`. -/
theorem C59_fit_partial (L : ExpLog K G V) {kb kc : Kind} (hkc : kc ≠ .slerpSE3)
    {s : Comp K G} (hr : Reachable L kb kc s) (hc : s.w.calls + 5 < 2 ^ 64)
    (hb : s.base.mgr.knots = []) (hq : s.corr.mgr.knots = []) (t : K) (v : G) :
    ∃ s' ks, fitCurve L kc [t] [v] s = .ok (s', ks) ∧ s'.base.mgr.knots = [(t, v)] := by
  obtain ⟨s', ks, e, h, -⟩ := C44_extend_first L hkc hr hc hb hq t v
  exact ⟨s', ks, e, h⟩

/-! ## C60: editing corrections and the base -/

theorem has_iff (m : Mgr K G) (t : K) :
    m.hasCoefficientAtTime t = true ↔ ∃ v, (t, v) ∈ m.knots := by
  simp only [Mgr.hasCoefficientAtTime, mapFind, List.find?_isSome, Mgr.knots, List.mem_map,
    Prod.mk.injEq, decide_eq_true_eq]
  constructor
  · rintro ⟨n, hn, e⟩; exact ⟨n.coef, n, hn, e, rfl⟩
  · rintro ⟨v, n, hn, e, -⟩; exact ⟨n, hn, e⟩

/-- C60, one correction. `setCorrectionCoefficientAtTime` aborts unless the correction has a knot at the
time; otherwise it changes that knot alone and the value there becomes the given correction times
the base. -/
theorem C60_set (L : ExpLog K G V) {kb kc : Kind} (hkc : kc ≠ .slerpSE3) {s : Comp K G}
    (hr : Reachable L kb kc s) (hc : s.w.calls + 1 < 2 ^ 64) (t : K) (v : G) :
    ((∀ u, (t, u) ∉ s.corr.mgr.knots) → setCorrection t v s = .abort) ∧
    ((∃ u, (t, u) ∈ s.corr.mgr.knots) → ∃ s', setCorrection t v s = .ok s' ∧ s'.base = s.base ∧
      (∀ a u, (a, u) ∈ s'.corr.mgr.knots ↔ (a = t ∧ u = v) ∨ (a ≠ t ∧ (a, u) ∈ s.corr.mgr.knots)) ∧
      ∀ b, evaluate L kb t s.base.mgr = .ok b → eval L kb kc t s' = .ok (v * b)) := by
  obtain ⟨hwb, hwc⟩ := (hr.inv hc).wf hc
  constructor
  · intro h
    have : ¬ s.corr.mgr.hasCoefficientAtTime t = true := by
      rw [has_iff s.corr.mgr]; rintro ⟨u, hu⟩; exact h u hu
    simp [setCorrection, this]
  · intro h
    have hh := (has_iff s.corr.mgr t).2 h
    obtain ⟨w', m', k, e, hwf, hcont, -⟩ := insert_spec hwc hc t v
    have hk : ∀ a u, (a, u) ∈ m'.knots ↔ (a = t ∧ u = v) ∨ (a ≠ t ∧ (a, u) ∈ s.corr.mgr.knots) := by
      intro a u
      simp only [mem_knots, hcont]
      constructor
      · rintro ⟨k', ⟨rfl, -, rfl⟩ | ⟨h1, h2⟩⟩
        exacts [.inl ⟨rfl, rfl⟩, .inr ⟨h1, k', h2⟩]
      · rintro (⟨rfl, rfl⟩ | ⟨h1, k', h2⟩)
        exacts [⟨k, .inl ⟨rfl, rfl, rfl⟩⟩, ⟨k', .inr ⟨h1, h2⟩⟩]
    refine ⟨{ s with w := w', corr := { s.corr with mgr := m' } }, by simp [setCorrection, hh, e], rfl,
      hk, ?_⟩
    intro b hb
    have := evaluate_knot L hkc hwf.sorted ((hk t v).2 (.inl ⟨rfl, rfl⟩))
    simp [eval, this, hb]

/-- C60, removing. `removeCorrectionCoefficientAtTime` aborts unless the correction has a knot at the
time; otherwise it removes that knot alone. -/
theorem C60_remove (L : ExpLog K G V) {kb kc : Kind} {s : Comp K G} (hr : Reachable L kb kc s)
    (hc : s.w.calls + 1 < 2 ^ 64) (t : K) :
    ((∀ u, (t, u) ∉ s.corr.mgr.knots) → removeCorrection t s = .abort) ∧
    ((∃ u, (t, u) ∈ s.corr.mgr.knots) → ∃ s', removeCorrection t s = .ok s' ∧ s'.base = s.base ∧
      ∀ a u, (a, u) ∈ s'.corr.mgr.knots ↔ a ≠ t ∧ (a, u) ∈ s.corr.mgr.knots) := by
  obtain ⟨hwb, hwc⟩ := (hr.inv hc).wf hc
  constructor
  · intro h
    have : ¬ s.corr.mgr.hasCoefficientAtTime t = true := by
      rw [has_iff s.corr.mgr]; rintro ⟨u, hu⟩; exact h u hu
    simp [removeCorrection, this]
  · intro h
    have hh := (has_iff s.corr.mgr t).2 h
    rcases remove_spec hwc t with ⟨hno, -⟩ | ⟨k, c, m', hm, e, hwf, -, hcont⟩
    · obtain ⟨u, hu⟩ := h
      obtain ⟨k, hk⟩ := mem_knots.1 hu
      exact absurd hk (hno k u)
    · refine ⟨{ s with corr := { s.corr with mgr := m' } }, by simp [removeCorrection, hh, e], rfl, ?_⟩
      intro a u
      simp only [mem_knots, hcont]
      constructor
      · rintro ⟨k, h1, h2⟩; exact ⟨h1, k, h2⟩
      · rintro ⟨h1, k, h2⟩; exact ⟨k, h1, h2⟩

theorem knots_perm_mem {m : Mgr K G} {ts : List K} {vs : List G} (h : m.knots.Perm (ts.zip vs)) (t : K)
    (v : G) : (t, v) ∈ m.knots ↔ (t, v) ∈ ts.zip vs := h.mem_iff

theorem fit_perm {w w' : World} {c c' : Curve K G} {ts : List K} {vs : List G} {ks : List Nat}
    (hd : ts.Nodup) (hne : ts ≠ []) (e : c.fitCurve w ts vs = .ok (w', c', ks)) :
    Sorted c'.mgr.nodes ∧ c'.mgr.knots.Perm (ts.zip vs) := by
  unfold Curve.fitCurve at e
  split at e
  · cases e
  · rename_i hl
    push Not at hl
    rw [if_pos (List.length_pos_iff.2 hne)] at e
    obtain ⟨w1, m1, ks1, e1, hs, hp, -⟩ := fill_nodup w hl hd
    obtain ⟨⟨w2, m2, ks2⟩, h1, h2⟩ := Outcome.bind_eq_ok.1 e
    rw [show c.clear.mgr = (Mgr.empty : Mgr K G) from rfl, e1] at h1
    cases h1
    cases h2
    exact ⟨hs, hp⟩

/-- C60, resetting. When `resetCorrectionCurve(ts)` returns (distinct times, at least one), the base is
untouched, the correction is the identity at exactly these times and the composition is the base
over the whole range of the base, which is also that of the correction. -/
theorem C60_reset (L : ExpLog K G V) {kb kc : Kind} (hkc : kc ≠ .slerpSE3) {s s' : Comp K G} {ts : List K}
    (hd : ts.Nodup) (hne : ts ≠ []) (e : resetCorrectionCurve ts s = .ok s') :
    s'.base = s.base ∧ (s'.corr.mgr.knots.Perm (ts.map fun t => (t, 1))) ∧
    s'.corr.mgr.getMinTime = s.base.mgr.getMinTime ∧
    s'.corr.mgr.getMaxTime = s.base.mgr.getMaxTime ∧
    ∀ t, s.base.mgr.getMinTime ≤ t → t ≤ s.base.mgr.getMaxTime →
      eval L kb kc t s' = evaluate L kb t s.base.mgr := by
  obtain ⟨⟨w1, c1, ks1⟩, h1, e⟩ := Outcome.bind_eq_ok.1 e
  obtain ⟨rfl, hmin, hmax⟩ := checkEnds_eq e
  obtain ⟨hs, hp⟩ := fit_perm hd hne h1
  have hz : ∀ l : List K, l.zip (l.map fun _ => (1 : G)) = l.map fun t => (t, 1) := by
    intro l
    induction l with
    | nil => rfl
    | cons a l ih => simpa using ih
  rw [hz] at hp
  refine ⟨rfl, hp, hmin, hmax, ?_⟩
  intro t h0 h1
  have hc1 : c1.mgr.knots ≠ [] := by
    intro h
    rw [h] at hp
    have := hp.symm.eq_nil
    simp at this
    exact hne this
  have hone : ∀ p ∈ c1.mgr.knots, p.2 = 1 := by
    intro p hp'
    have := hp.mem_iff.1 hp'
    simp at this
    obtain ⟨a, -, rfl⟩ := this
    rfl
  have := evaluate_const L hkc hs hone hc1 (hmin ▸ h0 : c1.mgr.getMinTime ≤ t) (hmax ▸ h1)
  simp only [eval, this, Outcome.ok_bind, one_mul]
  cases evaluate L kb t s.base.mgr <;> rfl

/-- C60, the base. When `setBaseCurve(ts, vs)` returns (distinct times, at least one), the base has exactly
the given knots and begins and ends with the correction, which is untouched; the value at a given
time is the correction there times the given value. -/
theorem C60_base (L : ExpLog K G V) {kb kc : Kind} (hkb : kb ≠ .slerpSE3) (hkc : kc ≠ .slerpSE3)
    {s s' : Comp K G} (hr : Reachable L kb kc s) (hc : s.w.calls + 1 < 2 ^ 64)
    (hq : s.corr.mgr.knots ≠ []) {ts : List K} {vs : List G}
    (hd : ts.Nodup) (hne : ts ≠ []) (e : setBaseCurve ts vs s = .ok s') :
    s'.corr = s.corr ∧ s'.base.mgr.knots.Perm (ts.zip vs) ∧
    s.corr.mgr.getMinTime = s'.base.mgr.getMinTime ∧
    s.corr.mgr.getMaxTime = s'.base.mgr.getMaxTime ∧
    ∀ t v, (t, v) ∈ ts.zip vs → ∃ q, evaluate L kc t s.corr.mgr = .ok q ∧
      eval L kb kc t s' = .ok (q * v) := by
  obtain ⟨hwb, hwc⟩ := (hr.inv hc).wf hc
  obtain ⟨⟨w1, c1, ks1⟩, h1, e⟩ := Outcome.bind_eq_ok.1 e
  obtain ⟨rfl, hmin, hmax⟩ := checkEnds_eq e
  obtain ⟨hs, hp⟩ := fit_perm hd hne h1
  refine ⟨rfl, hp, hmin, hmax, ?_⟩
  intro t v h
  have hm := hp.mem_iff.2 h
  obtain ⟨n, hn, en⟩ := List.mem_map.1 hm
  cases en
  have hmm := min_le_node hs hn
  dsimp only at hmin hmax
  obtain ⟨q, hq'⟩ := evaluate_inside L hkc hwc.sorted hq (hmin ▸ hmm.1) (hmax ▸ hmm.2)
  have := evaluate_knot L hkb hs hm
  exact ⟨q, hq', by simp [eval, hq', this]⟩

example : (setCorrection 3 (.ofAdd 7) demo >>= fun s' => eval (lineMaps ℚ) .slerp .slerp 3 s') =
      .ok (.ofAdd 11) ∧
    (setCorrection 2 (.ofAdd 7) demo >>= fun _ => .ok ()) = .abort ∧
    (removeCorrection 3 demo >>= fun s' => .ok s'.corr.mgr.knots) =
      .ok [(0, .ofAdd 1), (1, .ofAdd 0), (4, .ofAdd 8)] ∧
    (resetCorrectionCurve [4, 1] demo >>= fun s' => eval (lineMaps ℚ) .slerp .slerp 3 s') =
      .ok (.ofAdd 4) ∧
    (resetCorrectionCurve [4, 2] demo >>= fun _ => .ok ()) = .abort ∧
    (setBaseCurve [4, 0] [.ofAdd 2, .ofAdd 6] demo >>= fun s' =>
      eval (lineMaps ℚ) .slerp .slerp 4 s') = .ok (.ofAdd 10) := by decide +kernel

/-! ## C50 -/

/-- C50 for the composition curve, refuted: its unimplemented evaluators return zero and its
`setTimeRange` returns having done nothing, in every state. -/
theorem C50_composition_refuted (s : Comp K G) (t lo hi : K) :
    (evaluateTwist t s : Outcome V) ≠ .abort ∧ setTimeRange lo hi s = .ok s :=
  ⟨by simp [evaluateTwist], rfl⟩

/-- The restricted history the class supports: on a base with two or more knots, extending at a time not
after its last knot never returns. -/
theorem C61_forward_only (L : ExpLog K G V) {kb kc : Kind} {s s' : Comp K G} (hr : Reachable L kb kc s)
    {t : K} {v : G} {ks : List Nat} (e : extend L kc [t] [v] s = .ok (s', ks))
    (hc : s'.w.calls + 1 < 2 ^ 64) (hs : 2 ≤ s.base.mgr.size) : s.base.mgr.getMaxTime < t := by
  obtain ⟨g⟩ := extend_stages e
  have hcs := g.calls
  have hi := hr.inv (show s.w.calls + 1 < 2 ^ 64 by omega)
  obtain ⟨-, -, hw3, hst, hsb⟩ := g.steps hi hc
  have hwb : WF g.x3.w s.base.mgr :=
    ((hst.other s.base.mgr).reachable hi.base).WF (show g.x3.w.calls + 1 < 2 ^ 64 by omega)
  exact (extend_one_mem hwb hi.ratio g.ex hc).2 hs

example : (extend (lineMaps ℚ) .slerp [7 / 2] [.ofAdd 0] demo >>= fun _ => .ok ()) = .abort ∧
    2 ≤ demo.base.mgr.size := by decide +kernel

end Verif.Composition

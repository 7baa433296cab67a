import Verif.Discrete.Props
import Verif.Discrete.RatioProps
import Verif.Manager.LocalLemmas

/-!
# Property C105 for the discrete and slerp curves: the past and the far away are left alone
-/

set_option linter.unusedSectionVars false
set_option linter.dupNamespace false

namespace Verif.Discrete

open Verif.Manager Verif.Policy

variable {K G V : Type} [Field K] [LinearOrder K] [IsStrictOrderedRing K] [Group G] [AddCommGroup V] [Module K V]

theorem evaluate_local (L : ExpLog K G V) {kind : Kind} (hk : kind ≠ .slerpSE3) {m m' : Mgr K G}
    (hs : Sorted m.nodes) (hs' : Sorted m'.nodes) {ta tb : K} {A B : G} (ha : (ta, A) ∈ m.knots)
    (hb : (tb, B) ∈ m.knots) (hag : AgreeOn ta tb m.knots m'.knots) {t : K} (h0 : ta ≤ t) (h1 : t ≤ tb) :
    evaluate L kind t m' = evaluate L kind t m := by
  rcases h1.eq_or_lt with rfl | h1
  · rw [evaluate_knot L hk hs hb, evaluate_knot L hk hs' ((hag t B h0 le_rfl).1 hb)]
  · rw [evaluate_eq L hk hs, evaluate_eq L hk hs', evalWith_local hs hs' ha hb hag h0 h1]
    intro a b a' b' e1 e2 e3 e4
    cases kind <;> simp only [between, nearer, slerpAt, e1, e2, e3, e4]

/-- **C105.** Two discrete or slerp curves with the same knots from `ta` to `tb` (two of them at `ta` and `tb`) have the
same values from `ta` to `tb`, whatever their other knots, their keys and their pasts. -/
theorem C105_local (L : ExpLog K G V) {kind : Kind} (hk : kind ≠ .slerpSE3) {s s' : St K G}
    (hr : Reachable L kind s) (hr' : Reachable L kind s') (hc : s.w.calls + 1 < 2 ^ 64)
    (hc' : s'.w.calls + 1 < 2 ^ 64) {ta tb : K} {A B : G} (ha : (ta, A) ∈ s.c.knots)
    (hb : (tb, B) ∈ s.c.knots) (hag : AgreeOn ta tb s.c.knots s'.c.knots) {t : K} (h0 : ta ≤ t) (h1 : t ≤ tb) :
    evaluate L kind t s'.c.mgr = evaluate L kind t s.c.mgr := by
  simp only [curve_knots] at ha hb hag
  exact evaluate_local L hk (hr.WF hc).sorted (hr'.WF hc').sorted ha hb hag h0 h1

/-- **C105, `setCurve`.** Setting knots before `ta` and after `tb`, where `ta` and `tb` are knots, changes no value
from `ta` to `tb`. -/
theorem C105_set (L : ExpLog K G V) {kind : Kind} (hk : kind ≠ .slerpSE3) {s : St K G}
    (hr : Reachable L kind s) {ts : List K} {vs : List G} (hl : ts.length = vs.length) (hd : ts.Nodup)
    (hc : s.w.calls + ts.length + 1 < 2 ^ 64) (hne : ts ≠ []) {ta tb : K} {A B : G}
    (ha : (ta, A) ∈ s.c.knots) (hb : (tb, B) ∈ s.c.knots) (hout : ∀ x ∈ ts, x < ta ∨ tb < x) :
    ∃ w' c', s.c.setCurve s.w ts vs = .ok (w', c') ∧
      ∀ t, ta ≤ t → t ≤ tb → evaluate L kind t c'.mgr = evaluate L kind t s.c.mgr := by
  obtain ⟨-, w', c', e, hkn, -⟩ := C53_fit_replaces L hr hl hd hc hne
  refine ⟨w', c', e, fun t h0 h1 => ?_⟩
  have hwf : WF s.w s.c.mgr := hr.manager.WF (show s.w.calls + 1 < 2 ^ 64 by omega)
  have hs' : Sorted c'.mgr.nodes := by
    have hpos : 0 < ts.length := List.length_pos_iff.2 hne
    have e2 := e
    simp only [Curve.setCurve, hl, ne_eq, not_true_eq_false, if_false, hl ▸ hpos, if_true] at e2
    cases hi : s.c.mgr.insertCoefficients s.w ts vs with
    | ok r =>
      obtain ⟨w1, m1, ks⟩ := r
      rw [hi] at e2
      cases e2
      obtain ⟨_, hl2⟩ := insertCoefficients_ok hi
      obtain ⟨w2, m2, ks2, e3, hle⟩ := insertLoop_ok hwf (ts.zip vs)
        (by simp only [List.length_zip, hl, min_self]; omega)
      rw [hl2] at e3
      cases e3
      refine (insertLoop_WF hwf hl2 ?_).1.sorted
      simp only [List.length_zip, hl, min_self] at hle
      omega
    | abort => rw [hi] at e2; cases e2
    | throw => rw [hi] at e2; cases e2
    | ub => rw [hi] at e2; cases e2
  simp only [curve_knots] at ha hb hkn
  refine evaluate_local L hk hwf.sorted hs' ha hb (fun x v g0 g1 => ?_) h0 h1
  rw [hkn]
  have hx : x ∉ ts := fun h => by
    rcases hout x h with h | h
    · exact absurd g0 (not_le.2 h)
    · exact absurd g1 (not_le.2 h)
  constructor
  · exact fun h => Or.inr ⟨hx, h⟩
  · rintro (h | h)
    · exact absurd (List.of_mem_zip h).1 hx
    · exact h.2

/-- **C105 (partial), `extend`.** A measurement later than all knots leaves every value alone, up to the last knot when
the policy takes a new knot (ratio 1, or the counter at 0), and up to the last but one otherwise. Missing: the last segment
inside a sampling period, see `C105_refuted`. -/
theorem C105_extend_partial (L : ExpLog K G V) {kind : Kind} (hk : kind ≠ .slerpSE3) {s : St K G}
    (hr : Reachable L kind s) (hc : s.w.calls + 1 < 2 ^ 64) (h2 : 2 ≤ s.c.mgr.size)
    (hs31 : s.c.pol.since ≠ 2 ^ 31 - 1) {t : K} (ht : ∀ x ∈ s.c.mgr.contents, x.1 < t) (v : G) :
    ∃ w' c' ks, s.c.extend s.w [t] [v] = .ok (w', c', ks) ∧
      ∀ tb B, (tb, B) ∈ s.c.knots →
        (s.c.pol.minMeas = 1 ∨ s.c.pol.since = 0 ∨ ∃ x ∈ s.c.mgr.contents, tb < x.1) →
        ∀ q, s.c.mgr.getMinTime ≤ q → q ≤ tb → evaluate L kind q c'.mgr = evaluate L kind q s.c.mgr := by
  have hwf := hr.WF hc
  have first : ∃ A, (s.c.mgr.getMinTime, A) ∈ s.c.mgr.knots := by
    cases hn : s.c.mgr.nodes with
    | nil => simp [Mgr.size, hn] at h2
    | cons n l => exact ⟨n.coef, by simp [Mgr.knots, Mgr.getMinTime, hn]⟩
  obtain ⟨A, hA⟩ := first
  by_cases hp : s.c.pol.minMeas = 1 ∨ s.c.pol.since = 0
  · obtain ⟨w', m', k, e, hwf', -, hcont⟩ := extend_opens hwf hc h2 hp t v ht
    refine ⟨_, _, _, e, fun tb B hB _ q h0 h1 => ?_⟩
    rw [curve_knots] at hB
    refine evaluate_local L hk hwf.sorted hwf'.sorted hA hB (fun x u g0 g1 => ?_) h0 h1
    have hlt : tb < t := by
      rw [knots_eq_contents] at hB
      obtain ⟨y, hy, ey⟩ := List.mem_map.1 hB
      cases ey
      exact ht y hy
    rw [knots_eq_contents m', hcont, List.map_append, ← knots_eq_contents]
    simp only [List.map_cons, List.map_nil, List.mem_append, List.mem_singleton, Prod.mk.injEq]
    constructor
    · exact Or.inl
    · rintro (h | ⟨rfl, -⟩)
      · exact h
      · exact absurd g1 (not_le.2 hlt)
  · push Not at hp
    obtain ⟨w', m', pre, k, last, e, hwf', -, c1, c2⟩ := extend_moves hwf h2 hp.1 hp.2 hs31 t v ht
    refine ⟨_, _, _, e, fun tb B hB hg q h0 h1 => ?_⟩
    rw [curve_knots] at hB
    obtain ⟨y, hy, hlt⟩ : ∃ x ∈ s.c.mgr.contents, tb < x.1 := by
      rcases hg with h | h | h
      · exact absurd h hp.1
      · exact absurd h hp.2
      · exact h
    have hlast : ∀ z ∈ s.c.mgr.contents, z.1 ≤ last.1 := by
      have hsrt : (s.c.mgr.contents.map (·.1)).Pairwise (· < ·) := by
        rw [← times_eq_contents _ []]
        exact sorted_iff_times.1 hwf.sorted
      rw [c1, List.map_append, List.pairwise_append] at hsrt
      intro z hz
      rw [c1] at hz
      rcases List.mem_append.1 hz with hz | hz
      · exact (hsrt.2.2 z.1 (List.mem_map.2 ⟨z, hz, rfl⟩) last.1 (by simp)).le
      · rw [List.mem_singleton.1 hz]
    have l1 : tb < last.1 := lt_of_lt_of_le hlt (hlast y hy)
    have l2 : tb < t := l1.trans (ht last (by rw [c1]; simp))
    refine evaluate_local L hk hwf.sorted hwf'.sorted hA hB (fun x u g0 g1 => ?_) h0 h1
    rw [knots_eq_contents m', knots_eq_contents s.c.mgr, c1, c2, List.map_append, List.map_append]
    simp only [List.map_cons, List.map_nil, List.mem_append, List.mem_singleton, Prod.mk.injEq]
    constructor
    · rintro (h | ⟨rfl, -⟩)
      · exact Or.inl h
      · exact absurd g1 (not_le.2 l1)
    · rintro (h | ⟨rfl, -⟩)
      · exact Or.inl h
      · exact absurd g1 (not_le.2 l2)

/-- **C105 is false of the code** inside a sampling period: on every curve whose last two knots have different values,
a later measurement with the value of the last knot but one makes the curve forget the last knot, so that the value
at its time changes. -/
theorem C105_refuted (L : ExpLog K G V) {kind : Kind} (hk : kind ≠ .slerpSE3) {s : St K G}
    (hr : Reachable L kind s) (hc : s.w.calls + 1 < 2 ^ 64) {pre : List (K × ℕ × G)} {ta tb : K} {ka kb : ℕ} {A B : G}
    (hm : s.c.mgr.contents = pre ++ [(ta, ka, A), (tb, kb, B)]) (hAB : A ≠ B) (hp : s.c.pol.minMeas ≠ 1)
    (hs : s.c.pol.since ≠ 0) (hs31 : s.c.pol.since ≠ 2 ^ 31 - 1) {t : K} (ht : tb < t) :
    evaluate L kind tb s.c.mgr = .ok B ∧ ∃ w' c' ks, s.c.extend s.w [t] [A] = .ok (w', c', ks) ∧
      evaluate L kind tb c'.mgr = .ok A ∧ A ≠ B := by
  have hwf := hr.WF hc
  have h2 : 2 ≤ s.c.mgr.size := by
    have := congrArg List.length hm
    simp [Mgr.contents] at this
    simp [Mgr.size, this]
  have hsrt : (s.c.mgr.contents.map (·.1)).Pairwise (· < ·) := by
    rw [← times_eq_contents _ []]
    exact sorted_iff_times.1 hwf.sorted
  rw [hm, List.map_append, List.pairwise_append] at hsrt
  have hab : ta < tb := by
    have := hsrt.2.1
    simpa using this
  have hall : ∀ x ∈ s.c.mgr.contents, x.1 < t := by
    intro x hx
    rw [hm] at hx
    rcases List.mem_append.1 hx with h | h
    · exact (hsrt.2.2 x.1 (List.mem_map.2 ⟨x, h, rfl⟩) tb (by simp)).trans ht
    · simp at h
      rcases h with rfl | rfl
      · exact hab.trans ht
      · exact ht
  refine ⟨evaluate_knot L hk hwf.sorted (by rw [knots_eq_contents, hm]; simp), ?_⟩
  obtain ⟨w', m', pre', k, last, e, hwf', -, c1, c2⟩ := extend_moves hwf h2 hp hs hs31 t A hall
  refine ⟨_, _, _, e, ?_, hAB⟩
  have hpre : pre' = pre ++ [(ta, ka, A)] := by
    rw [c1, show pre ++ [(ta, ka, A), (tb, kb, B)] = (pre ++ [(ta, ka, A)]) ++ [(tb, kb, B)] by simp] at hm
    exact (List.append_inj_left' hm rfl)
  rw [hpre] at c2
  have hn : ∃ p a b, m'.nodes = p ++ a :: b :: [] ∧ a.time = ta ∧ a.coef = A ∧ b.time = t ∧ b.coef = A := by
    have c3 : m'.nodes.map (fun n => (n.time, n.key, n.coef)) = pre ++ [(ta, ka, A), (t, k, A)] := by
      rw [show m'.nodes.map (fun n => (n.time, n.key, n.coef)) = m'.contents from rfl, c2]
      simp
    obtain ⟨p, r, er, -, h3⟩ := List.map_eq_append_iff.1 c3
    obtain ⟨a, r, rfl, ea, h3⟩ := List.map_eq_cons_iff.1 h3
    obtain ⟨b, r, rfl, eb, h3⟩ := List.map_eq_cons_iff.1 h3
    obtain rfl := List.map_eq_nil_iff.1 h3
    simp only [Prod.mk.injEq] at ea eb
    exact ⟨p, a, b, er, ea.1, ea.2.2, eb.1, eb.2.2⟩
  obtain ⟨p, a, b, hm', e1, e2, e3, e4⟩ := hn
  rw [evaluate_segment L hk hwf'.sorted hm' (by rw [e1]; exact hab.le) (by rw [e3]; exact ht.le)]
  cases kind with
  | discrete => simp [between, nearer, e2, e4]
  | slerp => simp [between, slerpAt, e2, e4, L.log_one, L.exp_zero]
  | slerpSE3 => exact absurd rfl hk

/-! ### Instances -/

/-- Knots set at 5, 6 and -1 leave the values of `demo` from 0 to 4 alone. -/
example := C105_set (lineMaps ℚ) (kind := .slerp) (by decide) (demo_reachable .slerp) (ts := [5, 6, -1])
  (vs := [.ofAdd 8, .ofAdd 9, .ofAdd 1]) rfl (by decide +kernel) (by decide +kernel) (by simp) (ta := 0) (tb := 4)
  (A := .ofAdd 1) (B := .ofAdd 7) (by decide +kernel) (by decide +kernel) (by decide +kernel)

/-- `demo` with a knot set at 5. -/
def demo5 : St ℚ (Multiplicative ℚ) :=
  ⟨⟨105, 205⟩, ⟨⟨[⟨201, 0, 102, .ofAdd 1⟩, ⟨202, 1, 103, .ofAdd 3⟩, ⟨200, 4, 101, .ofAdd 7⟩,
    ⟨204, 5, 105, .ofAdd 2⟩, ⟨203, 6, 104, .ofAdd 5⟩],
    [(104, 203), (101, 200), (102, 201), (103, 202), (105, 204)]⟩, ⟨0, 1⟩⟩⟩

theorem demo5_reachable (kind : Kind) : Reachable (lineMaps ℚ) kind demo5 :=
  ⟨⟨100, 200⟩, [.fit [4, 0, 1] [.ofAdd 7, .ofAdd 1, .ofAdd 2], .set [1] [.ofAdd 3],
    .extend [6] [.ofAdd 5], .set [5] [.ofAdd 2]], ⟨trivial, fun _ _ => ⟨trivial, fun s' e => ⟨Or.inl (by
    rename_i s h1
    cases h1
    cases e
    rfl), fun _ _ => ⟨trivial, fun _ _ => trivial⟩⟩⟩⟩, rfl⟩

/-- `demo` and `demo5` agree from 0 to 4. -/
example : evaluate (lineMaps ℚ) .slerp 2 demo5.c.mgr = evaluate (lineMaps ℚ) .slerp 2 demo.c.mgr := by
  refine C105_local (lineMaps ℚ) (kind := .slerp) (by decide) (demo_reachable .slerp) (demo5_reachable .slerp)
    demo_calls (by decide) (ta := 0) (tb := 4) (A := .ofAdd 1) (B := .ofAdd 7) (by decide +kernel) (by decide +kernel)
    (fun x v h1 h2 => ?_) (by decide +kernel) (by decide +kernel)
  have a : x ≠ 5 := by rintro rfl; norm_num at h2
  have b : x ≠ 6 := by rintro rfl; norm_num at h2
  simp [demo, demo5, Curve.knots, Mgr.contents, a, b]

/-- Extending `mid`, which is inside a sampling period, leaves the values up to 1 alone … -/
example := C105_extend_partial (lineMaps ℚ) (kind := .discrete) (by decide) mid_reachable (by decide) (by decide)
  (by decide) (t := 5) (by decide +kernel) (.ofAdd 9)

/-- … and makes it forget the value at 3. -/
example := C105_refuted (lineMaps ℚ) (kind := .discrete) (by decide) mid_reachable (by decide)
  (pre := [(0, 1, .ofAdd 1)]) (ta := 1) (tb := 3) (ka := 2) (kb := 3) (A := .ofAdd 2) (B := .ofAdd 4) rfl
  (by decide +kernel) (by decide) (by decide) (by decide) (t := 5) (by decide +kernel)

end Verif.Discrete

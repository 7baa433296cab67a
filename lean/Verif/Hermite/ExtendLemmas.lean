import Verif.Hermite.ExtendModel
import Verif.Manager.CurveLemmas
import Verif.Policy.Lemmas

/-!
# Lemmas about the sampling policy of `CubicHermiteSE3Curve`
-/

set_option linter.unusedSectionVars false
set_option linter.dupNamespace false

namespace Verif.Hermite

open Verif.Manager Verif.Kindr Verif.Policy

section

variable {T C : Type} [LinearOrder T]

theorem knots_of_contents (m : Mgr T C) : m.knots = m.contents.map fun x => (x.1, x.2.2) := by
  simp [Mgr.knots, Mgr.contents]

/-- Assigning to the last knot through its key. -/
theorem update_last {w : World} {m : Mgr T C} (h : WF w m) {pre : List (T × Key × C)} {t : T} {k : Key}
    {c0 : C} (hm : m.contents = pre ++ [(t, k, c0)]) (c : C) :
    ∃ m', m.updateCoefficientByKey k c = .ok m' ∧ WF w m' ∧ m'.contents = pre ++ [(t, k, c)] := by
  have hin : (t, k, c0) ∈ m.contents := by simp [hm]
  rcases update_spec h k c with ⟨h1, _⟩ | ⟨t1, c1, m', hin', e, hwf, -, -, hcont⟩
  · exact absurd hin (h1 t c0)
  · have ht : t1 = t := (h.cont_key_inj hin' hin).1
    subst ht
    refine ⟨m', e, hwf, ?_⟩
    have hs := contents_sorted h
    rw [hm, List.pairwise_append] at hs
    apply eq_of_mem_iff (contents_sorted hwf)
    · rw [List.pairwise_append]
      refine ⟨hs.1, by simp, fun a ha b hb => ?_⟩
      simp only [List.mem_singleton] at hb
      subst hb
      exact hs.2.2 a ha (t1, k, c0) (List.mem_singleton_self _)
    · rintro ⟨t', k', c'⟩
      rw [hcont, hm]
      simp only [List.mem_append, List.mem_singleton, Prod.mk.injEq]
      constructor
      · rintro (hx | ⟨hne, hx | hx⟩)
        · exact .inr hx
        · exact .inl hx
        · exact absurd hx.2.1 hne
      · rintro (hx | hx)
        · right
          refine ⟨?_, .inl hx⟩
          rintro rfl
          have h3 := h.cont_key_inj (show (t', k', c') ∈ m.contents by
            rw [hm]; exact List.mem_append_left _ hx) hin
          exact absurd (hs.2.2 _ hx _ (List.mem_singleton_self _)) (by simp [h3.1])
        · exact .inl hx

/-- Removing the last knot. -/
theorem remove_last {w : World} {m : Mgr T C} (h : WF w m) {pre : List (T × Key × C)} {t : T} {k : Key}
    {c0 : C} (hm : m.contents = pre ++ [(t, k, c0)]) :
    ∃ m', m.removeCoefficientAtTime t = .ok m' ∧ WF w m' ∧ m'.contents = pre := by
  have hin : (t, k, c0) ∈ m.contents := by simp [hm]
  rcases remove_spec h t with ⟨h1, _⟩ | ⟨k1, c1, m', -, e, hwf, -, hcont⟩
  · exact absurd hin (h1 k c0)
  · refine ⟨m', e, hwf, ?_⟩
    have hs := contents_sorted h
    rw [hm, List.pairwise_append] at hs
    apply eq_of_mem_iff (contents_sorted hwf) hs.1
    rintro ⟨t', k', c'⟩
    rw [hcont, hm]
    simp only [List.mem_append, List.mem_singleton, Prod.mk.injEq]
    constructor
    · rintro ⟨hne, hx | hx⟩
      · exact hx
      · exact absurd hx.1 hne
    · intro hx
      exact ⟨(hs.2.2 _ hx _ (List.mem_singleton_self _)).ne, .inl hx⟩

/-- The last node. -/
theorem last_node {m : Mgr T C} {pre : List (T × Key × C)} {a : T × Key × C}
    (hm : m.contents = pre ++ [a]) :
    ∃ n, m.nodes.getLast? = some n ∧ n.time = a.1 ∧ n.key = a.2.1 ∧ n.coef = a.2.2 := by
  simp only [Mgr.contents] at hm
  obtain ⟨npre, nl, hx, -, hl⟩ := List.map_eq_append_iff.1 hm
  obtain ⟨n, rest, rfl, hn, hr⟩ := List.map_eq_cons_iff.1 hl
  rw [List.map_eq_nil_iff] at hr
  subst hr hn
  exact ⟨n, by simp [hx], rfl, rfl, rfl⟩

variable [Zero T]

/-- The last two nodes are found at the largest time. -/
theorem last_two {m : Mgr T C} {pre : List (T × Key × C)} {a b : T × Key × C}
    (hm : m.contents = pre ++ [a, b]) :
    ∃ x y, m.nodes.getLast? = some y ∧ m.getCoefficientsAt y.time = some (x, y) ∧
      (x.time = a.1 ∧ x.key = a.2.1 ∧ x.coef = a.2.2) ∧
      (y.time = b.1 ∧ y.key = b.2.1 ∧ y.coef = b.2.2) := by
  simp only [Mgr.contents] at hm
  obtain ⟨npre, nl, hx, -, hl⟩ := List.map_eq_append_iff.1 hm
  obtain ⟨x, rest, rfl, hxa, hr⟩ := List.map_eq_cons_iff.1 hl
  obtain ⟨y, rest', rfl, hyb, hr'⟩ := List.map_eq_cons_iff.1 hr
  rw [List.map_eq_nil_iff] at hr'
  subst hr' hxa hyb
  exact ⟨x, y, by simp [hx], getAt_max hx, ⟨rfl, rfl, rfl⟩, ⟨rfl, rfl, rfl⟩⟩

theorem maxTime_of {m : Mgr T C} {pre : List (T × Key × C)} {a : T × Key × C}
    (hm : m.contents = pre ++ [a]) : m.getMaxTime = a.1 := by
  obtain ⟨n, h, h1, -⟩ := last_node hm
  simp [Mgr.getMaxTime, h, h1]

theorem size_of_contents (m : Mgr T C) : m.size = m.contents.length := by
  simp [Mgr.size, Mgr.contents]

end

/-- The slope of the chord between two knots, as computed by the code. -/
noncomputable def chord (L : LogMap) (a b : ℝ × HKnot) : Twist :=
  SE3.calculateSlope L a.1 b.1 a.2.transformation b.2.transformation

/-- Every derivative is the slope of the chord over the neighbours. -/
structure Slopes (L : LogMap) (l : List (ℝ × HKnot)) : Prop where
  first : ∀ a b post, l = a :: b :: post → a.2.derivative = chord L a b
  inner : ∀ pre a b c post, l = pre ++ a :: b :: c :: post → b.2.derivative = chord L a c
  last : ∀ pre a b, l = pre ++ [a, b] → b.2.derivative = chord L a b

theorem Slopes.single (L : LogMap) (a : ℝ × HKnot) : Slopes L [a] :=
  ⟨fun _ _ _ h => by simp at h, fun pre _ _ _ _ h => by
      have := congrArg List.length h; simp at this; omega,
    fun pre _ _ h => by have := congrArg List.length h; simp at this⟩

theorem Slopes.pair (L : LogMap) {t u : ℝ} {p q : Pose} :
    Slopes L [(t, ⟨p, SE3.calculateSlope L t u p q⟩), (u, ⟨q, SE3.calculateSlope L t u p q⟩)] := by
  refine ⟨fun a b post h => ?_, fun pre _ _ _ _ h => ?_, fun pre a b h => ?_⟩
  · simp only [List.cons.injEq] at h
    obtain ⟨rfl, rfl, -⟩ := h
    rfl
  · have := congrArg List.length h
    simp at this
    omega
  · have h1 : pre = [] := by
      have := congrArg List.length h
      simp at this
      exact this
    subst h1
    simp only [List.nil_append, List.cons.injEq] at h
    obtain ⟨rfl, rfl, -⟩ := h
    rfl

/-- What `defaultExtend` does to three or more knots. -/
theorem Slopes.snoc {L : LogMap} {pre : List (ℝ × HKnot)} {a b : ℝ × HKnot} {t : ℝ} {v : Pose}
    (h : Slopes L (pre ++ [a, b])) :
    Slopes L (pre ++ [a, (b.1, ⟨b.2.transformation,
        SE3.calculateSlope L a.1 t a.2.transformation v⟩),
      (t, ⟨v, SE3.calculateSlope L b.1 t b.2.transformation v⟩)]) := by
  refine ⟨fun x y post e => ?_, fun p x y z q e => ?_, fun p x y e => ?_⟩
  · match pre with
    | [] =>
      simp only [List.nil_append, List.cons.injEq] at e
      obtain ⟨rfl, rfl, -⟩ := e
      exact h.first _ b [] rfl
    | [c] =>
      simp only [List.cons_append, List.nil_append, List.cons.injEq] at e
      obtain ⟨rfl, rfl, -⟩ := e
      exact h.first _ a [b] rfl
    | c :: d :: r =>
      simp only [List.cons_append, List.cons.injEq] at e
      obtain ⟨rfl, rfl, -⟩ := e
      exact h.first _ _ (r ++ [a, b]) rfl
  · rcases List.eq_nil_or_concat q with rfl | ⟨q', e', rfl⟩
    · have h1 : pre ++ [a, (b.1, ⟨b.2.transformation,
          SE3.calculateSlope L a.1 t a.2.transformation v⟩),
          (t, ⟨v, SE3.calculateSlope L b.1 t b.2.transformation v⟩)] = p ++ [x, y, z] := e
      obtain ⟨rfl, h2⟩ := List.append_inj' h1 rfl
      simp only [List.cons.injEq] at h2
      obtain ⟨rfl, rfl, rfl, -⟩ := h2
      rfl
    · rw [List.concat_eq_append] at e
      have h1 : (pre ++ [a, (b.1, ⟨b.2.transformation,
          SE3.calculateSlope L a.1 t a.2.transformation v⟩)]) ++
          [(t, ⟨v, SE3.calculateSlope L b.1 t b.2.transformation v⟩)] =
          (p ++ x :: y :: z :: q') ++ [e'] := by simpa using e
      obtain ⟨h2, -⟩ := List.append_inj' h1 rfl
      rcases List.eq_nil_or_concat q' with rfl | ⟨q'', e'', rfl⟩
      · have h3 : (pre ++ [a]) ++ [(b.1, ⟨b.2.transformation,
          SE3.calculateSlope L a.1 t a.2.transformation v⟩)] = (p ++ [x, y]) ++ [z] := by simpa using h2
        obtain ⟨h4, h5⟩ := List.append_inj' h3 rfl
        simp only [List.cons.injEq, and_true] at h5
        subst h5
        have h6 : pre ++ [a, b] = p ++ x :: y :: b :: [] := by
          rw [show pre ++ [a, b] = (pre ++ [a]) ++ [b] by simp, h4]; simp
        exact h.inner _ _ _ b _ h6
      · rw [List.concat_eq_append] at h2
        have h3 : (pre ++ [a]) ++ [(b.1, ⟨b.2.transformation,
          SE3.calculateSlope L a.1 t a.2.transformation v⟩)] =
          (p ++ x :: y :: z :: q'') ++ [e''] := by simpa using h2
        obtain ⟨h4, -⟩ := List.append_inj' h3 rfl
        have h6 : pre ++ [a, b] = p ++ x :: y :: z :: (q'' ++ [b]) := by
          rw [show pre ++ [a, b] = (pre ++ [a]) ++ [b] by simp, h4]; simp
        exact h.inner _ _ _ _ _ h6
  · have h1 : (pre ++ [a]) ++ [(b.1, ⟨b.2.transformation,
          SE3.calculateSlope L a.1 t a.2.transformation v⟩),
          (t, ⟨v, SE3.calculateSlope L b.1 t b.2.transformation v⟩)] = p ++ [x, y] := by simpa using e
    obtain ⟨-, h2⟩ := List.append_inj' h1 rfl
    simp only [List.cons.injEq, and_true] at h2
    obtain ⟨rfl, rfl⟩ := h2
    rfl

/-! ### The three steps on listings of knots -/

namespace HPol

theorem insert_ok (p : HPol) {w : World} {m : Mgr ℝ HKnot} (h : WF w m) (hw : w.calls + 1 < 2 ^ 64) {t : ℝ}
    (ht : ∀ x ∈ m.contents, x.1 < t) (k : HKnot) :
    ∃ c' key, insert p ⟨w, m⟩ t k = .ok (p, c') ∧ WF c'.w c'.m ∧ c'.w.calls = w.calls + 1 ∧
      c'.m.contents = m.contents ++ [(t, key, k)] := by
  obtain ⟨w', m', key, e, hwf, hc, hcont⟩ := insert_append h hw k ht
  exact ⟨⟨w', m'⟩, key, by simp [insert, e], hwf, hc, hcont⟩

/-- `defaultExtend` on a curve without knots. -/
theorem default_empty (L : LogMap) (p : HPol) {w : World} {m : Mgr ℝ HKnot} (h : WF w m)
    (hw : w.calls + 1 < 2 ^ 64) (hm : m.contents = []) (t : ℝ) (v : Pose) :
    ∃ c' key, defaultExtend L p ⟨w, m⟩ t v = .ok ({ p with since := 0, lastExtend := t }, c') ∧
      WF c'.w c'.m ∧ c'.w.calls = w.calls + 1 ∧ c'.m.contents = [(t, key, ⟨v, Twist.zero⟩)] := by
  have h0 : m.size = 0 := by rw [size_of_contents, hm]; rfl
  obtain ⟨c', key, e, hwf, hc, hcont⟩ := insert_ok { p with since := 0, lastExtend := t } h hw (t := t)
    (by simp [hm]) ⟨v, Twist.zero⟩
  refine ⟨c', key, ?_, hwf, hc, by rw [hcont, hm]; rfl⟩
  unfold defaultExtend
  simp only [h0, if_true]
  exact e

/-- `defaultExtend` on a curve with one knot. -/
theorem default_one (L : LogMap) (p : HPol) {w : World} {m : Mgr ℝ HKnot} (h : WF w m)
    (hw : w.calls + 1 < 2 ^ 64) {a : ℝ × Key × HKnot} (hm : m.contents = [a]) {t : ℝ} (v : Pose)
    (ht : a.1 < t) :
    ∃ c' key, defaultExtend L p ⟨w, m⟩ t v = .ok ({ p with since := 0, lastExtend := t }, c') ∧
      WF c'.w c'.m ∧ c'.w.calls = w.calls + 1 ∧
      c'.m.contents = [(a.1, a.2.1, ⟨a.2.2.transformation,
          SE3.calculateSlope L a.1 t a.2.2.transformation v⟩),
        (t, key, ⟨v, SE3.calculateSlope L a.1 t a.2.2.transformation v⟩)] := by
  obtain ⟨ta, ka, ca⟩ := a
  have h1 : m.size = 1 := by rw [size_of_contents, hm]; rfl
  obtain ⟨n, rest, hn, hn1, hr⟩ := List.map_eq_cons_iff.1 hm
  simp only [Prod.mk.injEq] at hn1
  obtain ⟨rfl, rfl, rfl⟩ := hn1
  obtain ⟨m', e, hwf, hcont⟩ := update_last h (pre := []) hm
    ⟨n.coef.transformation, SE3.calculateSlope L n.time t n.coef.transformation v⟩
  obtain ⟨c', key, e', hwf', hc, hcont'⟩ := insert_ok { p with since := 0, lastExtend := t } hwf hw (t := t)
    (by simpa [hcont] using ht) ⟨v, SE3.calculateSlope L n.time t n.coef.transformation v⟩
  refine ⟨c', key, ?_, hwf', hc, by rw [hcont', hcont]; rfl⟩
  unfold defaultExtend
  simp only [h1, Nat.one_ne_zero, if_false, if_true, hn, List.head?_cons, Outcome.deref, Outcome.ok_bind, e]
  exact e'

/-- `defaultExtend` on a curve with two or more knots. -/
theorem default_many (L : LogMap) (p : HPol) {w : World} {m : Mgr ℝ HKnot} (h : WF w m)
    (hw : w.calls + 1 < 2 ^ 64) {pre : List (ℝ × Key × HKnot)} {a b : ℝ × Key × HKnot}
    (hm : m.contents = pre ++ [a, b]) {t : ℝ} (v : Pose) (ht : ∀ x ∈ m.contents, x.1 < t) :
    ∃ c' key, defaultExtend L p ⟨w, m⟩ t v = .ok ({ p with since := 0, lastExtend := t }, c') ∧
      WF c'.w c'.m ∧ c'.w.calls = w.calls + 1 ∧
      c'.m.contents = pre ++ [a, (b.1, b.2.1, ⟨b.2.2.transformation,
          SE3.calculateSlope L a.1 t a.2.2.transformation v⟩),
        (t, key, ⟨v, SE3.calculateSlope L b.1 t b.2.2.transformation v⟩)] := by
  have h2 : m.size = pre.length + 2 := by rw [size_of_contents, hm]; simp
  obtain ⟨x, y, hl, hg, ⟨hx1, -, hx3⟩, ⟨hy1, hy2, hy3⟩⟩ := last_two hm
  obtain ⟨tb, kb, cb⟩ := b
  simp only at hy1 hy2 hy3
  rw [hy1] at hg
  obtain ⟨m', e, hwf, hcont⟩ := update_last h (pre := pre ++ [a]) (t := tb) (k := kb) (c0 := cb)
    (by simp [hm]) ⟨cb.transformation, SE3.calculateSlope L a.1 t a.2.2.transformation v⟩
  have ht' : ∀ x ∈ m'.contents, x.1 < t := by
    intro z hz
    rw [hcont] at hz
    simp only [List.append_assoc, List.mem_append, List.mem_singleton] at hz
    rcases hz with hz | hz | rfl
    · exact ht z (by simp [hm, hz])
    · exact ht z (by simp [hm, hz])
    · exact ht (tb, kb, cb) (by simp [hm])
  obtain ⟨c', key, e', hwf', hc, hcont'⟩ := insert_ok { p with since := 0, lastExtend := t } hwf hw ht'
    ⟨v, SE3.calculateSlope L tb t cb.transformation v⟩
  refine ⟨c', key, ?_, hwf', hc, by rw [hcont', hcont]; simp⟩
  unfold defaultExtend
  simp only [h2, hl, Outcome.deref, Outcome.ok_bind, hg, hx1, hx3, hy1, hy2, hy3, e]
  rw [if_neg (by omega), if_neg (by omega)]
  exact e'

/-- `interpolationExtend` directly after a chosen knot. -/
theorem interp_first (L : LogMap) (p : HPol) {w : World} {m : Mgr ℝ HKnot} (h : WF w m)
    (hw : w.calls + 1 < 2 ^ 64) (hp : p.since = 0) {pre : List (ℝ × Key × HKnot)} {a : ℝ × Key × HKnot}
    (hm : m.contents = pre ++ [a]) {t : ℝ} (v : Pose) (ht : ∀ x ∈ m.contents, x.1 < t) :
    ∃ c' key, interpolationExtend L p ⟨w, m⟩ t v = .ok ({ p with since := p.since + 1 }, c') ∧
      WF c'.w c'.m ∧ c'.w.calls = w.calls + 1 ∧
      c'.m.contents = pre ++ [a, (t, key, ⟨v, a.2.2.derivative⟩)] := by
  obtain ⟨n, hl, -, -, hn⟩ := last_node hm
  obtain ⟨c', key, e, hwf, hc, hcont⟩ := insert_ok { p with since := p.since + 1 } h hw ht
    ⟨v, a.2.2.derivative⟩
  refine ⟨c', key, ?_, hwf, hc, by rw [hcont, hm]; simp⟩
  unfold interpolationExtend
  simp only [if_pos hp, hl, Outcome.deref, Outcome.ok_bind, hn]
  exact e

/-- `interpolationExtend` replaces an interpolated knot. -/
theorem interp_next (L : LogMap) (p : HPol) {w : World} {m : Mgr ℝ HKnot} (h : WF w m)
    (hw : w.calls + 1 < 2 ^ 64) (hp : p.since ≠ 0) (hp' : p.since ≠ 2 ^ 31 - 1)
    {pre : List (ℝ × Key × HKnot)} {a b : ℝ × Key × HKnot}
    (hm : m.contents = pre ++ [a, b]) {t : ℝ} (v : Pose) (ht : ∀ x ∈ m.contents, x.1 < t) :
    ∃ c' key, interpolationExtend L p ⟨w, m⟩ t v = .ok ({ p with since := p.since + 1 }, c') ∧
      WF c'.w c'.m ∧ c'.w.calls = w.calls + 1 ∧
      c'.m.contents = pre ++ [a, (t, key, ⟨v, SE3.calculateSlope L a.1 t a.2.2.transformation v⟩)] := by
  obtain ⟨x, y, hl, hg, ⟨hx1, -, hx3⟩, ⟨hy1, -, -⟩⟩ := last_two hm
  obtain ⟨tb, kb, cb⟩ := b
  simp only at hy1
  rw [hy1] at hg
  obtain ⟨m', e, hwf, hcont⟩ := remove_last h (pre := pre ++ [a]) (t := tb) (k := kb) (c0 := cb) (by simp [hm])
  obtain ⟨c', key, e', hwf', hc, hcont'⟩ := insert_ok { p with since := p.since + 1 } hwf hw (t := t)
    (fun z hz => ht z (by
      rw [hcont] at hz
      simp only [List.mem_append, List.mem_singleton] at hz
      rcases hz with hz | hz <;> simp [hm, hz]))
    ⟨v, SE3.calculateSlope L a.1 t a.2.2.transformation v⟩
  refine ⟨c', key, ?_, hwf', hc, by rw [hcont', hcont]; simp⟩
  unfold interpolationExtend
  simp only [if_neg hp, hl, Outcome.deref, Outcome.ok_bind, hg, hx1, hx3, hy1, e, if_neg hp']
  exact e'

end HPol

end Verif.Hermite

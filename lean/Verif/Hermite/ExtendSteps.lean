import Verif.Hermite.ExtendLemmas

/-!
# What the sampling policy of `CubicHermiteSE3Curve` keeps: specification and invariant
-/

set_option linter.unusedSectionVars false
set_option linter.dupNamespace false

namespace Verif.Hermite

open Verif.Manager Verif.Kindr Verif.Policy

/-- Specification: one more measurement `x`, after the measurements `s.1` were chosen as knots and `s.2`
more were seen since. The first measurement is chosen; another one is chosen if at least `n` were seen
since the last chosen one and its time is more than `period` after it. -/
noncomputable def pick (n : Int) (period : ℝ) (s : List (ℝ × Pose) × Nat) (x : ℝ × Pose) :
    List (ℝ × Pose) × Nat :=
  match s.1.getLast? with
  | none => ([x], 0)
  | some k => if n ≤ s.2 ∧ k.1 + period < x.1 then (s.1 ++ [x], 0) else (s.1, s.2 + 1)

/-- The chosen measurements of a stream and how many came after the last of them. -/
noncomputable def picked (n : Int) (period : ℝ) (xs : List (ℝ × Pose)) : List (ℝ × Pose) × Nat :=
  xs.foldl (pick n period) ([], 0)

theorem picked_snoc (n : Int) (period : ℝ) (xs : List (ℝ × Pose)) (x : ℝ × Pose) :
    picked n period (xs ++ [x]) = pick n period (picked n period xs) x := by
  simp [picked, List.foldl_append]

theorem picked_nil_iff (n : Int) (period : ℝ) (xs : List (ℝ × Pose)) :
    (picked n period xs).1 = [] ↔ xs = [] := by
  rcases List.eq_nil_or_concat xs with rfl | ⟨ys, y, rfl⟩
  · simp [picked]
  · rw [List.concat_eq_append, picked_snoc, pick]
    cases h : (picked n period ys).1.getLast? with
    | none => simp
    | some k =>
      have hne : (picked n period ys).1 ≠ [] := by intro e; simp [e] at h
      by_cases hc : n ≤ (picked n period ys).2 ∧ k.1 + period < y.1 <;> simp [hc, hne]

theorem picked_sublist (n : Int) (period : ℝ) (xs : List (ℝ × Pose)) :
    (picked n period xs).1.Sublist xs := by
  induction xs using List.reverseRecOn with
  | nil => simp [picked]
  | append_singleton xs x ih =>
    rw [picked_snoc, pick]
    cases h : (picked n period xs).1.getLast? with
    | none => exact List.sublist_append_right _ _
    | some k =>
      by_cases hc : n ≤ (picked n period xs).2 ∧ k.1 + period < x.1
      · simp only [hc, and_self, if_true]
        exact ih.append (List.Sublist.refl _)
      · simp only [hc, if_false]
        exact ih.trans (List.sublist_append_left _ _)

theorem picked_lt (n : Int) (period : ℝ) (xs : List (ℝ × Pose)) (h : xs ≠ []) :
    (picked n period xs).2 < xs.length := by
  induction xs using List.reverseRecOn with
  | nil => exact absurd rfl h
  | append_singleton xs x ih =>
    rw [picked_snoc, pick]
    cases hl : (picked n period xs).1.getLast? with
    | none => simp
    | some k =>
      have hne : xs ≠ [] := by
        intro e
        subst e
        simp [picked] at hl
      have := ih hne
      by_cases hc : n ≤ (picked n period xs).2 ∧ k.1 + period < x.1
      · simp [hc]
      · simp only [hc, if_false, List.length_append, List.length_singleton]
        omega

/-- A chosen measurement is the newest one. -/
theorem picked_last (n : Int) (period : ℝ) (xs : List (ℝ × Pose)) (h : (picked n period xs).2 = 0) :
    (picked n period xs).1.getLast? = xs.getLast? := by
  rcases List.eq_nil_or_concat xs with rfl | ⟨ys, y, rfl⟩
  · simp [picked]
  · rw [List.concat_eq_append, picked_snoc, pick] at *
    cases hl : (picked n period ys).1.getLast? with
    | none => simp
    | some k =>
      simp only [hl] at h ⊢
      by_cases hc : n ≤ (picked n period ys).2 ∧ k.1 + period < y.1
      · simp [hc]
      · simp [hc] at h

namespace HPol

/-- Policy and curve after the measurements `xs`. -/
structure Inv (L : LogMap) (n : Int) (period : ℝ) (calls : Nat) (xs : List (ℝ × Pose)) (p : HPol)
    (c : SE3) : Prop where
  wf : WF c.w c.m
  drawn : c.w.calls ≤ calls + xs.length
  minMeas : p.minMeas = n
  per : p.period = period
  since : p.since = ((picked n period xs).2 : Int)
  last : ∀ k, (picked n period xs).1.getLast? = some k → p.lastExtend = k.1
  shape : ∃ core tail, c.m.knots = core ++ tail ∧
    core.map (fun k => (k.1, k.2.transformation)) = (picked n period xs).1 ∧ Slopes L core ∧
    (∀ a, core = [a] → a.2.derivative = Twist.zero) ∧
    (((picked n period xs).2 = 0 ∧ tail = []) ∨
      (0 < (picked n period xs).2 ∧ ∃ t v d, xs.getLast? = some (t, v) ∧ tail = [(t, ⟨v, d⟩)] ∧
        ∀ k, core.getLast? = some k →
          ((picked n period xs).2 = 1 → d = k.2.derivative) ∧
          ((picked n period xs).2 ≠ 1 → d = SE3.calculateSlope L k.1 t k.2.transformation v)))

/-- All knots are measurements. -/
theorem Inv.knot_mem {L : LogMap} {n : Int} {period : ℝ} {calls : Nat} {xs : List (ℝ × Pose)} {p : HPol}
    {c : SE3} (h : Inv L n period calls xs p c) :
    ∀ k ∈ c.m.knots, (k.1, k.2.transformation) ∈ xs := by
  obtain ⟨core, tail, hk, hc, -, -, ht⟩ := h.shape
  intro k hk'
  rw [hk, List.mem_append] at hk'
  rcases hk' with hk' | hk'
  · have : (k.1, k.2.transformation) ∈ (picked n period xs).1 := by
      rw [← hc]
      exact List.mem_map_of_mem (f := fun k : ℝ × HKnot => (k.1, k.2.transformation)) hk'
    exact (picked_sublist n period xs).subset this
  · rcases ht with ⟨-, rfl⟩ | ⟨-, t, v, d, hl, rfl, -⟩
    · simp at hk'
    · simp only [List.mem_singleton] at hk'
      subst hk'
      exact List.mem_of_getLast? hl

theorem contents_lt {m : Mgr ℝ HKnot} {t : ℝ} (h : ∀ k ∈ m.knots, k.1 < t) : ∀ x ∈ m.contents, x.1 < t := by
  intro x hx
  exact h (x.1, x.2.2) (by
    rw [knots_of_contents]
    exact List.mem_map_of_mem (f := fun x : ℝ × Key × HKnot => (x.1, x.2.2)) hx)

/-- One more measurement. -/
theorem Inv.step {L : LogMap} {n : Int} {period : ℝ} {calls : Nat} {xs : List (ℝ × Pose)} {p : HPol}
    {c : SE3} (h : Inv L n period calls xs p c) (hn : 1 ≤ n) {t : ℝ} (v : Pose)
    (ht : ∀ x ∈ xs, x.1 < t) (hl : xs.length + 1 < 2 ^ 31) (hw : calls + xs.length + 1 < 2 ^ 64) :
    ∃ p' c', extendOne L p c t v = .ok (p', c') ∧ Inv L n period calls (xs ++ [(t, v)]) p' c' := by
  obtain ⟨w, m⟩ := c
  have hkt : ∀ k ∈ m.knots, k.1 < t := fun k hk => ht _ (h.knot_mem k hk)
  have hct := contents_lt hkt
  have hw' : w.calls + 1 < 2 ^ 64 := by have := h.drawn; simp only at this; omega
  have hcalls := h.drawn
  obtain ⟨core, tail, hk, hc, hsl, hz, htail⟩ := h.shape
  simp only at hk hcalls
  rw [knots_of_contents] at hk
  have hp := picked_snoc n period xs (t, v)
  by_cases hx : xs = []
  · -- the first measurement
    have hp0 := (picked_nil_iff n period xs).2 hx
    subst hx
    simp only [picked, List.foldl_nil, List.map_eq_nil_iff] at hc
    have htl : tail = [] := by
      rcases htail with ⟨-, h1⟩ | ⟨h1, -⟩
      · exact h1
      · simp [picked] at h1
    subst hc htl
    have hm : m.contents = [] := by simpa using hk
    obtain ⟨c', key, e, hwf, hc', hcont⟩ := default_empty L p h.wf hw' hm t v
    have h0 : m.size = 0 := by rw [size_of_contents, hm]; rfl
    have hp' : picked n period ([] ++ [(t, v)]) = ([(t, v)], 0) := by rw [hp, pick]; simp [hp0]
    refine ⟨_, c', by unfold extendOne; simp only [h0, or_true, not_true, if_false, if_true]; exact e, ?_⟩
    refine ⟨hwf, by simp only [hc', List.length_append, List.length_singleton, List.length_nil] at *; omega,
      h.minMeas, h.per, by rw [hp']; rfl, ?_, ?_⟩
    · intro k hk'
      rw [hp'] at hk'
      simp only [List.getLast?_singleton, Option.some.injEq] at hk'
      subst hk'
      rfl
    · rw [hp', knots_of_contents, hcont]
      exact ⟨[(t, ⟨v, Twist.zero⟩)], [], rfl, rfl, Slopes.single _ _, by rintro a ha; simp at ha; rw [← ha],
        .inl ⟨rfl, rfl⟩⟩
  · -- a later measurement
    have hpne : (picked n period xs).1 ≠ [] := fun e => hx ((picked_nil_iff n period xs).1 e)
    have hcne : core ≠ [] := by
      rintro rfl
      exact hpne hc.symm
    obtain ⟨q, a, rfl⟩ : ∃ q a, core = q ++ [a] := by
      rcases List.eq_nil_or_concat core with e | ⟨q, a, e⟩
      · exact absurd e hcne
      · exact ⟨q, a, by simpa using e⟩
    have hplast : (picked n period xs).1.getLast? = some (a.1, a.2.transformation) := by
      rw [← hc]; simp
    have hle : p.lastExtend = a.1 := h.last _ hplast
    obtain ⟨cc, ct, hcont, hcc, hct'⟩ := List.map_eq_append_iff.1 hk
    obtain ⟨cq, ca', rfl, hcq, hca⟩ := List.map_eq_append_iff.1 hcc
    obtain ⟨ca, r, rfl, hca', hr⟩ := List.map_eq_cons_iff.1 hca
    rw [List.map_eq_nil_iff] at hr
    subst hr hca'
    have hs0 : m.size ≠ 0 := by rw [size_of_contents, hcont]; simp
    have hne : m.contents ≠ [] := by rw [hcont]; simp
    have hmax : m.getMaxTime < t := by
      rcases List.eq_nil_or_concat m.contents with e | ⟨ys, y, e⟩
      · exact absurd e hne
      · rw [List.concat_eq_append] at e
        rw [maxTime_of e]
        exact hct y (by rw [e]; simp)
    have hsince := h.since
    have hlt := picked_lt n period xs hx
    by_cases hcond : n ≤ (picked n period xs).2 ∧ ca.1 + period < t
    · -- chosen: the interpolated knot goes, the measurement becomes a knot
      have hpos : 0 < (picked n period xs).2 := by
        by_contra h0
        have h1 : (picked n period xs).2 = 0 := by omega
        rw [h1] at hcond
        have := hcond.1
        simp at this
        omega
      have hp' : picked n period (xs ++ [(t, v)]) = ((picked n period xs).1 ++ [(t, v)], 0) := by
        rw [hp, pick, hplast]
        simp only [hcond, and_self, if_true]
      rcases htail with ⟨h1, -⟩ | ⟨-, tt, tv, td, -, rfl, -⟩
      · omega
      obtain ⟨cb, r, rfl, hcb, hr⟩ := List.map_eq_cons_iff.1 hct'
      rw [List.map_eq_nil_iff] at hr
      subst hr
      obtain ⟨tb, kb, kk⟩ := cb
      obtain ⟨n', hnl, hnt, -, -⟩ := last_node hcont
      simp only at hnt
      obtain ⟨m', er, hwf1, hcont1⟩ := remove_last h.wf hcont
      have hct1 : ∀ x ∈ m'.contents, x.1 < t := fun x hx' => hct x (by
        rw [hcont, List.mem_append]
        exact .inl (hcont1 ▸ hx'))
      have hstep : extendOne L p ⟨w, m⟩ t v = defaultExtend L p ⟨w, m'⟩ t v := by
        unfold extendOne
        simp only [hmax, true_or, not_true, if_false, hs0, hnl, Outcome.deref, Outcome.ok_bind, hnt, er]
        rw [if_pos]
        rw [hsince, h.minMeas, hle, h.per]
        exact hcond
      rcases List.eq_nil_or_concat cq with rfl | ⟨cq', cb', rfl⟩
      · -- one knot left
        subst hcq
        simp only [List.nil_append] at hcont1
        obtain ⟨c', key, e, hwf', hc', hcont'⟩ := default_one L p hwf1 hw' hcont1 v
          (hct1 ca (by simp [hcont1]))
        refine ⟨_, c', hstep.trans e, hwf', ?_, h.minMeas, h.per, by rw [hp']; rfl, ?_, ?_⟩
        · simp only [hc', List.length_append, List.length_singleton]
          omega
        · intro k hk'
          rw [hp'] at hk'
          simp only [List.getLast?_append, List.getLast?_singleton, Option.some_or, Option.some.injEq] at hk'
          subst hk'
          rfl
        · rw [hp', knots_of_contents, hcont']
          exact ⟨_, [], rfl, by rw [← hc]; rfl, Slopes.pair L, by rintro b hb; simp at hb, .inl ⟨rfl, rfl⟩⟩
      · rw [List.concat_eq_append] at hcont1 hcq
        rw [List.append_assoc] at hcont1
        obtain ⟨c', key, e, hwf', hc', hcont'⟩ := default_many L p hwf1 hw' hcont1 v hct1
        refine ⟨_, c', hstep.trans e, hwf', ?_, h.minMeas, h.per, by rw [hp']; rfl, ?_, ?_⟩
        · simp only [hc', List.length_append, List.length_singleton]
          omega
        · intro k hk'
          rw [hp'] at hk'
          simp only [List.getLast?_append, List.getLast?_singleton, Option.some_or, Option.some.injEq] at hk'
          subst hk'
          rfl
        · rw [hp', knots_of_contents, hcont']
          refine ⟨_, [], (List.append_nil _).symm, ?_, ?_, ?_, .inl ⟨rfl, rfl⟩⟩
          · rw [← hc, ← hcq]
            simp
          · rw [← hcq] at hsl
            have := Slopes.snoc (t := t) (v := v) (pre := cq'.map fun x => (x.1, x.2.2))
              (a := (cb'.1, cb'.2.2)) (b := (ca.1, ca.2.2)) (by simpa using hsl)
            simpa using this
          · intro b hb
            have := congrArg List.length hb
            simp at this
    · -- interpolated
      have hp' : picked n period (xs ++ [(t, v)]) =
          ((picked n period xs).1, (picked n period xs).2 + 1) := by
        rw [hp, pick, hplast]
        simp only [hcond, if_false]
      have hstep : extendOne L p ⟨w, m⟩ t v = interpolationExtend L p ⟨w, m⟩ t v := by
        unfold extendOne
        simp only [hmax, true_or, not_true, if_false, hs0]
        rw [if_neg]
        rw [hsince, h.minMeas, hle, h.per]
        exact hcond
      rcases htail with ⟨h0, rfl⟩ | ⟨hpos, tt, tv, td, -, rfl, -⟩
      · rw [List.map_eq_nil_iff] at hct'
        subst hct'
        rw [List.append_nil] at hcont
        obtain ⟨c', key, e, hwf', hc', hcont'⟩ := interp_first L p h.wf hw' (by rw [hsince, h0]; rfl) hcont v hct
        refine ⟨_, c', hstep.trans e, hwf', ?_, h.minMeas, h.per, ?_, ?_, ?_⟩
        · simp only [hc', List.length_append, List.length_singleton]
          omega
        · rw [hp', hsince]; simp
        · rw [hp']; exact h.last
        · rw [hp', knots_of_contents, hcont']
          refine ⟨q ++ [(ca.1, ca.2.2)], [(t, ⟨v, ca.2.2.derivative⟩)], by rw [← hcq]; simp, hc, hsl, hz,
            .inr ⟨by simp, t, v, _, by simp, rfl, ?_⟩⟩
          intro k hk'
          simp only [List.getLast?_append, List.getLast?_singleton, Option.some_or, Option.some.injEq] at hk'
          subst hk'
          exact ⟨fun _ => rfl, fun h1 => absurd (by simp [h0]) h1⟩
      · obtain ⟨cb, r, rfl, hcb, hr⟩ := List.map_eq_cons_iff.1 hct'
        rw [List.map_eq_nil_iff] at hr
        subst hr
        rw [List.append_assoc] at hcont
        obtain ⟨c', key, e, hwf', hc', hcont'⟩ := interp_next L p h.wf hw' (by rw [hsince]; omega)
          (by rw [hsince]; omega) hcont v hct
        refine ⟨_, c', hstep.trans e, hwf', ?_, h.minMeas, h.per, ?_, ?_, ?_⟩
        · simp only [hc', List.length_append, List.length_singleton]
          omega
        · rw [hp', hsince]; simp
        · rw [hp']; exact h.last
        · rw [hp', knots_of_contents, hcont']
          refine ⟨q ++ [(ca.1, ca.2.2)], [(t, ⟨v, _⟩)], by rw [← hcq]; simp; rfl, hc, hsl, hz,
            .inr ⟨by simp, t, v, _, by simp, rfl, ?_⟩⟩
          intro k hk'
          simp only [List.getLast?_append, List.getLast?_singleton, Option.some_or, Option.some.injEq] at hk'
          subst hk'
          exact ⟨fun h1 => absurd h1 (by simp; omega), fun _ => rfl⟩

theorem extend_append (L : LogMap) (p : HPol) (c : SE3) (ts us : List ℝ) (vs ws : List Pose)
    (hl : ts.length = vs.length) :
    extend L p c (ts ++ us) (vs ++ ws) = (extend L p c ts vs >>= fun r => extend L r.1 r.2 us ws) := by
  induction ts generalizing p c vs with
  | nil =>
    match vs, hl with
    | [], _ => simp [extend]
  | cons t ts ih =>
    match vs, hl with
    | v :: vs, hl =>
      simp only [List.cons_append, extend]
      cases e : extendOne L p c t v with
      | ok r => simp only [Outcome.ok_bind]; exact ih _ _ vs (by simpa using hl)
      | abort => rfl
      | throw => rfl
      | ub => rfl

/-- A stream of measurements on an empty curve. -/
theorem extend_inv (L : LogMap) (w : World) (n : Int) (hn : 1 ≤ n) (period : ℝ) (xs : List (ℝ × Pose))
    (hinc : xs.Pairwise fun a b => a.1 < b.1) (hl : xs.length < 2 ^ 31)
    (hw : w.calls + xs.length < 2 ^ 64) :
    ∃ p' c', extend L (make n period) (SE3.fresh w) (xs.map Prod.fst) (xs.map Prod.snd) = .ok (p', c') ∧
      Inv L n period w.calls xs p' c' := by
  induction xs using List.reverseRecOn with
  | nil =>
    refine ⟨_, _, rfl, WF.empty w, le_rfl, rfl, rfl, rfl, by simp [picked], [], [], rfl, rfl, ?_, ?_, ?_⟩
    · exact ⟨fun _ _ _ h => by simp at h, fun _ _ _ _ _ h => by simp at h, fun _ _ _ h => by simp at h⟩
    · intro a h; simp at h
    · exact .inl ⟨rfl, rfl⟩
  | append_singleton xs x ih =>
    obtain ⟨t, v⟩ := x
    rw [List.pairwise_append] at hinc
    simp only [List.length_append, List.length_singleton] at hl hw
    obtain ⟨p', c', e, hi⟩ := ih hinc.1 (by omega) (by omega)
    obtain ⟨p'', c'', e', hi'⟩ := hi.step hn v (fun x hx => hinc.2.2 x hx _ (List.mem_singleton_self _)) hl hw
    refine ⟨p'', c'', ?_, hi'⟩
    rw [List.map_append, List.map_append, extend_append _ _ _ _ _ _ _ (by simp), e, Outcome.ok_bind]
    simp [extend, e']

end HPol

end Verif.Hermite

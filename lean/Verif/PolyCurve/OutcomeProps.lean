import Verif.PolyCurve.ContainerOutcomeProps

/-!
# Property C131: exactly how each call of a polynomial curve ends
-/

set_option linter.unusedSectionVars false
set_option linter.dupNamespace false

namespace Verif.PolyCurve

open Verif.Spline Verif.Container

variable {K : Type} [Field K] [LinearOrder K] [IsStrictOrderedRing K] {o : Order} {N : ℕ}

/-- Specification: a fit runs out of values. Orders 1 and 2 interpolate by straight lines, the others solve a linear
system. -/
def Short (o : Order) (ts vs : List K) : Prop :=
  match o with
  | .o1 | .o2 => LinearShort ts vs
  | _ => 2 ≤ ts.length ∧ FitShort ts vs

theorem acc_short (S : Solver K) {ts : List K} (hne : ts ≠ []) (hz : ts.length ≤ 2 ^ 28) (vs : List K) (v0 a0 vT aT : K)
    (c : Container o K) : Container.setDataAcc S ts vs v0 a0 vT aT c = .ub ↔ Short o ts vs := by
  rcases ts with _ | ⟨t, _ | ⟨t', ts⟩⟩
  · exact absurd rfl hne
  · rw [(single S t vs v0 a0 vT aT c).2]
    cases o <;> simp [Short, LinearShort]
  · have hl : (t :: t' :: ts).length = ts.length + 1 + 1 := rfl
    have hb : ts.length + 1 < 2 ^ 28 := by simp at hz; omega
    cases o
    · rw [acc_linear S _ vs v0 a0 vT aT c _ hl (by omega) hb (by simp [Order.deg]), linear_ub_iff]; rfl
    · rw [acc_linear S _ vs v0 a0 vT aT c _ hl (by omega) hb (by simp [Order.deg]), linear_ub_iff]; rfl
    all_goals
      rw [acc_ub_iff S _ vs v0 a0 vT aT c _ hl (by omega) hb (by simp [Order.deg])]
      simp [Short]

open Verif.Container.Container in
theorem read_ok (c : Container o K) (q : Quantity) (t : K) : ∃ x, q.atTime t c = .ok x := by
  rw [q.atTime_eq, Container.atTime]
  by_cases hne : c.splines = []
  · exact ⟨0, by simp [Container.getActiveSplineIndexAtTime, hne]⟩
  · have hr := findLoop_range t c.splines 0 0 hne
    have he : c.splines.isEmpty = false := by simpa using hne
    simp only [Container.getActiveSplineIndexAtTime, he]
    have h0 : ¬(findLoop t c.splines 0 0).1 < 0 := by omega
    have h1 : ¬(findLoop t c.splines 0 0).1.toNat = c.splines.length := by omega
    have h2 : toSize (findLoop t c.splines 0 0).1 < c.splines.length := by rw [toSize, if_neg h0]; omega
    refine ⟨q.seg c.splines[toSize (findLoop t c.splines 0 0).1] (t - (findLoop t c.splines 0 0).2), ?_⟩
    simp [h0, h1, at', List.getElem?_eq_getElem h2]

/-- C131, the scalar curve. A fit is undefined behaviour exactly without times or when it runs out of values, and returns
otherwise, whatever the curve was before. Evaluation and derivatives of every order return at every time. -/
theorem C131_scalar (S : Solver K) (c : ScalarCurve o K) (ts vs : List K) (hz : ts.length ≤ 2 ^ 28) (v0 a0 vT aT : K) :
    (c.fitCurveWith S ts vs v0 a0 vT aT = .ub ↔ ts = [] ∨ Short o ts vs) ∧
    ((∃ c', c.fitCurveWith S ts vs v0 a0 vT aT = .ok c') ↔ ts ≠ [] ∧ ¬Short o ts vs) ∧
    (∀ t, ∃ x, c.evaluate t = .ok x) ∧ ∀ t order, ∃ x, c.evaluateDerivative t order = .ok x := by
  have ht : Tame (c.fitCurveWith S ts vs v0 a0 vT aT) := by
    unfold ScalarCurve.fitCurveWith
    exact (tame_acc ..).bind fun _ => (tame_deref _).bind fun _ => tame_ok _
  have hub : c.fitCurveWith S ts vs v0 a0 vT aT = .ub ↔ ts = [] ∨ Short o ts vs := by
    by_cases hne : ts = []
    · refine iff_of_true ?_ (.inl hne)
      rw [ht.ub_iff]
      rintro ⟨c', e⟩
      obtain ⟨r, -, e⟩ := Outcome.bind_eq_ok.1 e
      obtain ⟨t0, e, -⟩ := Outcome.bind_eq_ok.1 e
      rw [hne] at e
      cases e
    · rw [or_iff_right hne, ← acc_short S hne hz vs v0 a0 vT aT c.container]
      obtain ⟨t0, l, rfl⟩ := List.exists_cons_of_ne_nil hne
      unfold ScalarCurve.fitCurveWith
      cases Container.setDataAcc S.toRawSolver (t0 :: l) vs v0 a0 vT aT c.container <;> simp [Outcome.deref]
  refine ⟨hub, ?_, fun t => read_ok c.container .position _, fun t order => ?_⟩
  · rw [← not_or, ← hub, ht.ub_iff, not_not]
  · unfold ScalarCurve.evaluateDerivative
    split
    · obtain ⟨x, e⟩ := read_ok c.container .velocity (t - c.minTime)
      exact ⟨some x, by rw [show c.container.getVelocityAtTime (t - c.minTime) = .ok x from e]; rfl⟩
    · split
      · obtain ⟨x, e⟩ := read_ok c.container .acceleration (t - c.minTime)
        exact ⟨some x, by rw [show c.container.getAccelerationAtTime (t - c.minTime) = .ok x from e]; rfl⟩
      · exact ⟨none, rfl⟩

theorem loop_ends (f : Fin N → Container .o5 K → Outcome (Container .o5 K)) (hf : ∀ i c, ∃ d, f i c = .ok d) :
    ∀ (is : List (Fin N)) cs, ∃ cs', VectorCurve.loop f is cs = .ok cs'
  | [], cs => ⟨cs, rfl⟩
  | i :: is, cs => by
    obtain ⟨d, e⟩ := hf i (cs i)
    rw [VectorCurve.loop, e]
    exact loop_ends f hf is _

theorem full_not_short (ts vs : List K) (h : vs.length = ts.length) : ¬Short .o5 ts vs := by
  rintro ⟨h1, -, h2 | h2⟩
  · rw [h2] at h
    simp at h
    omega
  · omega

theorem acc_full (S : Solver K) {ts : List K} (hne : ts ≠ []) (hz : ts.length ≤ 2 ^ 28) {vs : List K}
    (h : vs.length = ts.length) (v0 a0 vT aT : K) (c : Container .o5 K) :
    ∃ r, Container.setDataAcc S ts vs v0 a0 vT aT c = .ok r := by
  have := (acc_short S hne hz vs v0 a0 vT aT c).not.2 (full_not_short ts vs h)
  rw [(tame_acc ..).ub_iff, not_not] at this
  exact this

/-- C131, the vector-valued curve. A fit is undefined behaviour exactly without times; it throws exactly when there are
components and times but too few values (or derivatives, for the fit with derivatives); otherwise it returns. Evaluation and
derivatives of every component always return; the end of the domain cannot be asked for exactly when there are no
components. -/
theorem C131_vector (S : Solver K) (c : VectorCurve N K) (ts : List K) (vs ds es : List (Fin N → K))
    (hz : ts.length ≤ 2 ^ 28) (v0 a0 vT aT : Fin N → K) :
    ((c.fitCurveWith S ts vs v0 a0 vT aT = .ub ↔ ts = []) ∧
      (c.fitCurveWith S ts vs v0 a0 vT aT = .throw ↔ ts ≠ [] ∧ 0 < N ∧ vs.length < ts.length) ∧
      ((∃ c', c.fitCurveWith S ts vs v0 a0 vT aT = .ok c') ↔ ts ≠ [] ∧ (N = 0 ∨ ts.length ≤ vs.length))) ∧
    ((c.fitCurveDerivatives S ts vs ds es = .ub ↔ ts = []) ∧
      (c.fitCurveDerivatives S ts vs ds es = .throw ↔
        ts ≠ [] ∧ 0 < N ∧ (vs.length < ts.length ∨ ds.length < ts.length ∨ es.length < ts.length)) ∧
      ((∃ c', c.fitCurveDerivatives S ts vs ds es = .ok c') ↔
        ts ≠ [] ∧ (N = 0 ∨ ts.length ≤ vs.length ∧ ts.length ≤ ds.length ∧ ts.length ≤ es.length))) ∧
    (∀ t i, ∃ x, c.evaluate t i = .ok x) ∧ (∀ t order i, ∃ x, c.evaluateDerivative t order i = .ok x) ∧
    (c.getMaxTime = .throw ↔ N = 0) ∧ ((∃ x, c.getMaxTime = .ok x) ↔ 0 < N) := by
  have three : ∀ (x : Outcome (VectorCurve N K)) (A B C : Prop), (A → x = .ub) → (B → x = .throw) → (C → ∃ c', x = .ok c') →
      (A ∨ B ∨ C) → (x = .ub ↔ A) ∧ (x = .throw ↔ B) ∧ ((∃ c', x = .ok c') ↔ C) := by
    intro x A B C hA hB hC h
    cases x with
    | ok a => simp at hA hB; simp [hA, hB] at h ⊢; exact h
    | abort => simp at hA hB hC; tauto
    | throw => simp at hA hC; simp [hA, hC] at h ⊢; exact h
    | ub => simp at hB hC; simp [hB, hC] at h ⊢; exact h
  refine ⟨three _ _ _ _ ?_ ?_ ?_ ?_, three _ _ _ _ ?_ ?_ ?_ ?_, fun t i => read_ok (c.containers i) .position t,
    fun t order i => ?_, ?_, ?_⟩
  · rintro rfl; rfl
  · rintro ⟨h1, h2, h3⟩
    exact (C108_vector S h1 h2 v0 a0 vT aT c).1 h3
  · rintro ⟨h1, h2⟩
    obtain ⟨t0, l, rfl⟩ := List.exists_cons_of_ne_nil h1
    rcases h2 with rfl | h2
    · exact ⟨_, rfl⟩
    · obtain ⟨cs, e⟩ := loop_ends (fun i d => VectorCurve.collect vs i (t0 :: l).length 0 >>= fun ps =>
        Container.setDataAcc S (t0 :: l) ps (v0 i) (a0 i) (vT i) (aT i) d >>= fun r => .ok r.2) (fun i d => by
          rw [VectorCurve.collect_ok vs i _ 0 (by simpa using h2), Outcome.ok_bind]
          obtain ⟨r, e⟩ := acc_full S h1 hz (vs := ((vs.drop 0).take (t0 :: l).length).map (· i))
            (by simpa using h2) (v0 i) (a0 i) (vT i) (aT i) d
          exact ⟨r.2, by rw [e]; rfl⟩) (List.finRange N) c.containers
      unfold VectorCurve.fitCurveWith
      simp only [List.head?_cons, Outcome.deref, Outcome.ok_bind]
      rw [e]
      exact ⟨_, rfl⟩
  · by_cases h : ts = []
    · exact .inl h
    · by_cases hN : N = 0
      · exact .inr (.inr ⟨h, .inl hN⟩)
      · by_cases hl : ts.length ≤ vs.length
        · exact .inr (.inr ⟨h, .inr hl⟩)
        · exact .inr (.inl ⟨h, by omega, by omega⟩)
  · rintro rfl; rfl
  · rintro ⟨h1, h2, h3⟩
    obtain ⟨t0, l, rfl⟩ := List.exists_cons_of_ne_nil h1
    obtain ⟨M, rfl⟩ : ∃ M, N = M + 1 := ⟨N - 1, by omega⟩
    rw [VectorCurve.fitCurveDerivatives, List.finRange_succ, VectorCurve.loop]
    by_cases h4 : vs.length < (t0 :: l).length
    · rw [collect_short vs _ _ _ (by omega) (by omega)]
      rfl
    rw [VectorCurve.collect_ok vs _ _ 0 (by omega), Outcome.ok_bind]
    by_cases h5 : ds.length < (t0 :: l).length
    · rw [collect_short ds _ _ _ (by omega) (by omega)]
      rfl
    rw [VectorCurve.collect_ok ds _ _ 0 (by omega), Outcome.ok_bind,
      collect_short es _ _ _ (by omega) (by omega)]
    rfl
  · rintro ⟨h1, h2⟩
    obtain ⟨t0, l, rfl⟩ := List.exists_cons_of_ne_nil h1
    rcases h2 with rfl | ⟨h2, h3, h4⟩
    · exact ⟨_, rfl⟩
    · unfold VectorCurve.fitCurveDerivatives
      simp only [List.head?_cons, Outcome.deref_some, Outcome.ok_bind]
      suffices h : ∀ i d, ∃ r, (VectorCurve.collect vs i (t0 :: l).length 0 >>= fun ps =>
          VectorCurve.collect ds i (t0 :: l).length 0 >>= fun d1 => VectorCurve.collect es i (t0 :: l).length 0 >>= fun d2 =>
          Outcome.deref d1.head? >>= fun v0 => Outcome.deref d2.head? >>= fun a0 =>
          Outcome.deref d1.getLast? >>= fun vT => Outcome.deref d2.getLast? >>= fun aT =>
          Container.setDataAcc S.toRawSolver (t0 :: l) ps v0 a0 vT aT d >>= fun r => .ok r.2) = Outcome.ok r by
        obtain ⟨cs, e⟩ := loop_ends _ h (List.finRange N) c.containers
        exact ⟨_, by rw [e]; rfl⟩
      intro i d
      rw [VectorCurve.collect_ok vs i _ 0 (by simpa using h2), VectorCurve.collect_ok ds i _ 0 (by simpa using h3),
        VectorCurve.collect_ok es i _ 0 (by simpa using h4)]
      simp only [Outcome.ok_bind, List.drop_zero]
      have hd : (ds.take (t0 :: l).length).map (· i) ≠ [] := by
        have : ((ds.take (t0 :: l).length).map (· i)).length = (t0 :: l).length := by
          rw [List.length_map, List.length_take, min_eq_left h3]
        intro hc
        rw [hc] at this
        simp at this
      have he : (es.take (t0 :: l).length).map (· i) ≠ [] := by
        have : ((es.take (t0 :: l).length).map (· i)).length = (t0 :: l).length := by
          rw [List.length_map, List.length_take, min_eq_left h4]
        intro hc
        rw [hc] at this
        simp at this
      rw [List.head?_eq_some_head hd, List.head?_eq_some_head he, List.getLast?_eq_some_getLast hd,
        List.getLast?_eq_some_getLast he]
      simp only [Outcome.deref_some, Outcome.ok_bind]
      obtain ⟨r, e⟩ := acc_full S h1 hz (vs := (vs.take (t0 :: l).length).map (· i)) (by simpa using h2)
        (((ds.take (t0 :: l).length).map (· i)).head hd) (((es.take (t0 :: l).length).map (· i)).head he)
        (((ds.take (t0 :: l).length).map (· i)).getLast hd) (((es.take (t0 :: l).length).map (· i)).getLast he) d
      exact ⟨r.2, by rw [e]; rfl⟩
  · by_cases h : ts = []
    · exact .inl h
    · by_cases hN : N = 0
      · exact .inr (.inr ⟨h, .inl hN⟩)
      · by_cases hl : ts.length ≤ vs.length ∧ ts.length ≤ ds.length ∧ ts.length ≤ es.length
        · exact .inr (.inr ⟨h, .inr hl⟩)
        · exact .inr (.inl ⟨h, by omega, by omega⟩)
  · unfold VectorCurve.evaluateDerivative
    split
    · obtain ⟨x, e⟩ := read_ok (c.containers i) .velocity t
      exact ⟨some x, by rw [show (c.containers i).getVelocityAtTime t = .ok x from e]; rfl⟩
    · split
      · obtain ⟨x, e⟩ := read_ok (c.containers i) .acceleration t
        exact ⟨some x, by rw [show (c.containers i).getAccelerationAtTime t = .ok x from e]; rfl⟩
      · exact ⟨none, rfl⟩
  · unfold VectorCurve.getMaxTime
    split
    · simp; omega
    · simp; omega
  · unfold VectorCurve.getMaxTime
    split <;> simp [*]

/-- C131 has instances of every kind: a missing last value goes unnoticed by a quintic, a missing inner one is undefined
behaviour, and a vector-valued curve throws in both cases. -/
example (S : Solver ℚ) :
    (∃ c', (ScalarCurve.fresh : ScalarCurve .o5 ℚ).fitCurveWith S [0, 1, 2] [5, 7] 0 0 0 0 = .ok c') ∧
    (ScalarCurve.fresh : ScalarCurve .o5 ℚ).fitCurveWith S [0, 1, 2] [5] 0 0 0 0 = .ub ∧
    (VectorCurve.fresh : VectorCurve 1 ℚ).fitCurveWith S [0, 1, 2] [![5], ![7]] ![0] ![0] ![0] ![0] = .throw := by
  refine ⟨(C131_scalar S _ _ _ (by norm_num) 0 0 0 0).2.1.2 ⟨by simp, ?_⟩,
    (C131_scalar S _ _ _ (by norm_num) 0 0 0 0).1.2 (.inr ?_),
    (C131_vector S _ _ _ [] [] (by norm_num) _ _ _ _).1.2.1.2 (by simp)⟩
  · simp [Short, FitShort]
  · simp [Short, FitShort]

end Verif.PolyCurve

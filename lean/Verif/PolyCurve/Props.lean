import Verif.PolyCurve.Lemmas

/-!
# Properties C30 - C33 and the curve part of C48: polynomial-spline curves
-/

set_option linter.unusedSectionVars false
set_option linter.dupNamespace false

namespace Verif.PolyCurve

open Verif.Spline Verif.Container

section field
variable {K : Type} [Field K] [LinearOrder K] [IsStrictOrderedRing K] {o : Order}

theorem fitCurveWith_through (S : Solver K) (ts vs : List K) (h2 : 2 ≤ ts.length)
    (hb : ts.length ≤ 2 ^ 28) (hl : vs.length = ts.length) (hinc : ts.Pairwise (· < ·))
    (v0 a0 vT aT : K) (c : ScalarCurve o K) :
    ∃ d, c.fitCurveWith S ts vs v0 a0 vT aT = .ok ⟨d, ts[0]⟩ ∧
      Container.setDataAcc S ts vs v0 a0 vT aT c.container = .ok (true, d) ∧
      Container.Through ts vs d := by
  obtain ⟨n, hn⟩ : ∃ n, ts.length = n + 1 := ⟨ts.length - 1, by omega⟩
  obtain ⟨d, e, h⟩ := Container.acc_through S ts vs v0 a0 vT aT c.container n (by omega) (by omega) hn
    (by omega) hinc
  refine ⟨d, ?_, e, h⟩
  rw [ScalarCurve.fitCurveWith, e, List.head?_eq_getElem?, List.getElem?_eq_getElem (by omega)]
  rfl

/-- **C30.** For every order, every previous curve, strictly increasing times (at least two) and every
end derivatives: `fitCurve` returns, the domain is first to last time and the curve passes through the
data. `fitCurve` without derivatives is the case of zeros. For the derivatives see
`C30_derivatives`. -/
theorem C30_domain_and_interpolation (S : Solver K) (ts vs : List K) (h2 : 2 ≤ ts.length)
    (hb : ts.length ≤ 2 ^ 28) (hl : vs.length = ts.length) (hinc : ts.Pairwise (· < ·))
    (v0 a0 vT aT : K) (c : ScalarCurve o K) (r : Outcome (ScalarCurve o K))
    (hr : r = c.fitCurveWith S ts vs v0 a0 vT aT ∨ r = c.fitCurve S ts vs) :
    ∃ c', r = .ok c' ∧ c'.getMinTime = ts[0] ∧ c'.getMaxTime = ts[ts.length - 1] ∧
      (∀ (i : ℕ) (h : i < ts.length) (h' : i < vs.length), c'.evaluate ts[i] = .ok vs[i]) ∧
      ∀ t k, k ≠ 1 → k ≠ 2 → c'.evaluateDerivative t k = .ok none := by
  have key : ∀ v0 a0 vT aT, ∃ c', c.fitCurveWith S ts vs v0 a0 vT aT = .ok c' ∧
      c'.getMinTime = ts[0] ∧ c'.getMaxTime = ts[ts.length - 1] ∧
      (∀ (i : ℕ) (h : i < ts.length) (h' : i < vs.length), c'.evaluate ts[i] = .ok vs[i]) ∧
      ∀ t k, k ≠ 1 → k ≠ 2 → c'.evaluateDerivative t k = .ok none := by
    intro v0 a0 vT aT
    obtain ⟨d, e, -, h⟩ := fitCurveWith_through S ts vs h2 hb hl hinc v0 a0 vT aT c
    refine ⟨_, e, rfl, ?_, fun i hi hi' => ?_, fun t k h1 h2 => ?_⟩
    · rw [ScalarCurve.getMaxTime, h.duration, h.totals (by rintro rfl; simp at h2),
        knot_eq (by omega), knot_eq (by omega), sub_add_cancel]
    · have := h.interpolates hinc h2 i hi
      rwa [knot_eq hi, knot_eq (by omega), knot_eq hi'] at this
    · simp [ScalarCurve.evaluateDerivative, h1, h2]
  rcases hr with rfl | rfl
  · exact key ..
  · exact key ..

/-- An instance of C30 with times not starting at 0. -/
example : ∃ (S : Solver ℚ) (c' : ScalarCurve .o5 ℚ),
    ScalarCurve.fresh.fitCurve S [2, 3, 7] [1, -1, 4] = .ok c' ∧ c'.evaluate 3 = .ok (-1) := by
  obtain ⟨S⟩ := solver_exists (K := ℚ)
  obtain ⟨c', e, -, -, h, -⟩ := C30_domain_and_interpolation S [2, 3, 7] [1, -1, 4] (by simp) (by simp)
    rfl (by simp; norm_num) 0 0 0 0 (ScalarCurve.fresh : ScalarCurve .o5 ℚ) _ (Or.inr rfl)
  exact ⟨S, c', e, h 1 (by simp) (by simp)⟩

/-- **C31.** For every order, all data (increasing or not) and every shift `s`: fitting at shifted
times gives a curve whose values and derivatives at `t + s` are those of the original at `t`, and whose
domain is shifted by `s`; and if the original fit does not return, neither does the shifted one. -/
theorem C31_time_shift (S : Solver K) (ts vs : List K) (v0 a0 vT aT s : K) (c : ScalarCurve o K) :
    match c.fitCurveWith S ts vs v0 a0 vT aT with
    | .ok c1 => ∃ c2, c.fitCurveWith S (ts.map (· + s)) vs v0 a0 vT aT = .ok c2 ∧
        (∀ t, c2.evaluate (t + s) = c1.evaluate t) ∧
        (∀ t k, c2.evaluateDerivative (t + s) k = c1.evaluateDerivative t k) ∧
        c2.getMinTime = c1.getMinTime + s ∧ c2.getMaxTime = c1.getMaxTime + s
    | x => c.fitCurveWith S (ts.map (· + s)) vs v0 a0 vT aT = x := by
  have hs := Container.acc_shift S s ts vs v0 a0 vT aT c.container
  simp only [ScalarCurve.fitCurveWith, hs]
  cases Container.setDataAcc S ts vs v0 a0 vT aT c.container with
  | abort => rfl
  | throw => rfl
  | ub => rfl
  | ok r =>
    cases ts with
    | nil => rfl
    | cons t0 ts =>
      simp only [List.head?_cons, Outcome.deref_some, Outcome.ok_bind, List.map_cons]
      refine ⟨_, rfl, fun t => ?_, fun t k => ?_, rfl, ?_⟩
      · simp [ScalarCurve.evaluate]
      · simp [ScalarCurve.evaluateDerivative]
      · simp only [ScalarCurve.getMaxTime]; ring

/-- C31 applies with a returning fit. -/
example : ∃ (S : Solver ℚ) (c1 c2 : ScalarCurve .o3 ℚ),
    ScalarCurve.fresh.fitCurveWith S [0, 1, 3] [1, 2, 0] 1 0 1 0 = .ok c1 ∧
    ScalarCurve.fresh.fitCurveWith S ([0, 1, 3].map (· + 5)) [1, 2, 0] 1 0 1 0 = .ok c2 ∧
    c2.evaluate (2 + 5) = c1.evaluate 2 := by
  obtain ⟨S⟩ := solver_exists (K := ℚ)
  obtain ⟨d, e, -⟩ := fitCurveWith_through S [0, 1, 3] [1, 2, 0] (by simp) (by simp) rfl (by simp)
    1 0 1 0 (ScalarCurve.fresh : ScalarCurve .o3 ℚ)
  have := C31_time_shift S [0, 1, 3] [1, 2, 0] 1 0 1 0 5 (ScalarCurve.fresh : ScalarCurve .o3 ℚ)
  rw [e] at this
  obtain ⟨c2, e2, h, -⟩ := this
  exact ⟨S, _, c2, e, e2, h 2⟩

/-- **C32 (partial), scalar curve.** Fitting to times and values gives, whatever the curve held before,
exactly what fitting a new curve gives (for all data, also data that make the fit fail). Missing:
`fitCurve` from a list of spline options, see `C32_options_append`. -/
theorem C32_scalar_refit_partial (S : Solver K) (ts vs : List K) (v0 a0 vT aT : K)
    (c : ScalarCurve o K) :
    c.fitCurveWith S ts vs v0 a0 vT aT = ScalarCurve.fresh.fitCurveWith S ts vs v0 a0 vT aT ∧
    c.fitCurve S ts vs = ScalarCurve.fresh.fitCurve S ts vs := by
  have : ∀ v0 a0 vT aT,
      c.fitCurveWith S ts vs v0 a0 vT aT = ScalarCurve.fresh.fitCurveWith S ts vs v0 a0 vT aT := by
    intro v0 a0 vT aT
    rw [ScalarCurve.fitCurveWith, ScalarCurve.fitCurveWith,
      Container.acc_forgets S ts vs v0 a0 vT aT c.container ScalarCurve.fresh.container]
  exact ⟨this .., this ..⟩

theorem foldl_add (S : Solver K) (l : List (Options K)) : ∀ c : Container o K,
    l.foldl (fun d p => d.addSpline ((Spline.empty o).computeCoefficients S p).2) c =
      { c with splines := c.splines ++ l.map fun p => ⟨compute S o p, p.tf⟩
               duration := c.duration + (l.map Options.tf).sum } := by
  induction l with
  | nil => intro c; simp
  | cons p l ih =>
    intro c
    rw [List.foldl_cons, ih]
    simp [Container.addSpline, Spline.computeCoefficients, add_assoc]

/-- **C32 is false of the code** for the overload taking spline options: it always appends to what the
container holds (and keeps its cursor). The resulting end of the domain is the old duration plus the
new one. -/
theorem C32_options_append (S : Solver K) (l : List (Options K)) (c : ScalarCurve o K) :
    (c.fitCurveOptions S l).container.splines =
      c.container.splines ++ (ScalarCurve.fresh.fitCurveOptions S l : ScalarCurve o K).container.splines ∧
    (c.fitCurveOptions S l).getMaxTime =
      c.container.duration + (ScalarCurve.fresh.fitCurveOptions S l : ScalarCurve o K).getMaxTime := by
  simp only [ScalarCurve.fitCurveOptions, foldl_add, ScalarCurve.fresh, Container.fresh,
    Container.reset, Container.resetTime, ScalarCurve.getMaxTime]
  simp

/-- The counterexample to C32: fit a one-second piece twice; the curve lasts two seconds. -/
theorem C32_refuted : ∃ (S : Solver ℚ) (l : List (Options ℚ)) (c : ScalarCurve .o5 ℚ),
    c = ScalarCurve.fresh.fitCurveOptions S l ∧
    (c.fitCurveOptions S l).getMaxTime ≠ c.getMaxTime := by
  obtain ⟨S⟩ := solver_exists (K := ℚ)
  refine ⟨S, [⟨1, 0, 1, 0, 0, 0, 0⟩], _, rfl, ?_⟩
  rw [(C32_options_append S _ _).2]
  simp only [ScalarCurve.fitCurveOptions, foldl_add, ScalarCurve.fresh, Container.fresh,
    Container.reset, Container.resetTime, ScalarCurve.getMaxTime]
  simp

/-- `clear` before the fit restores C32 for the options overload. -/
theorem C32_options_after_clear (S : Solver K) (l : List (Options K)) (c : ScalarCurve o K) :
    c.clear.fitCurveOptions S l = ScalarCurve.fresh.fitCurveOptions S l := rfl

variable {N : ℕ}

/-- **C32, vector curve.** Each of the three implemented `fitCurve` overloads gives, whatever the curve
held before, exactly what it gives on a new curve. -/
theorem C32_vector_refit (S : Solver K) (ts : List K) (vs ds es : List (Fin N → K))
    (v0 a0 vT aT : Fin N → K) (c : VectorCurve N K) :
    c.fitCurve S ts vs = VectorCurve.fresh.fitCurve S ts vs ∧
    c.fitCurveWith S ts vs v0 a0 vT aT = VectorCurve.fresh.fitCurveWith S ts vs v0 a0 vT aT ∧
    c.fitCurveDerivatives S ts vs ds es = VectorCurve.fresh.fitCurveDerivatives S ts vs ds es := by
  have h1 : ∀ v0 a0 vT aT,
      c.fitCurveWith S ts vs v0 a0 vT aT = VectorCurve.fresh.fitCurveWith S ts vs v0 a0 vT aT := by
    intro v0 a0 vT aT
    rw [VectorCurve.fitCurveWith, VectorCurve.fitCurveWith, VectorCurve.loop_forgets _
      (fun i x y => rfl) (List.finRange N) c.containers VectorCurve.fresh.containers
      (fun j hj => absurd (List.mem_finRange j) hj)]
  refine ⟨h1 .., h1 .., ?_⟩
  rw [VectorCurve.fitCurveDerivatives, VectorCurve.fitCurveDerivatives, VectorCurve.loop_forgets _
      (fun i x y => rfl) (List.finRange N) c.containers VectorCurve.fresh.containers
      (fun j hj => absurd (List.mem_finRange j) hj)]

theorem vector_fit_through (S : Solver K) (ts : List K) (vs : List (Fin N → K)) (h2 : 2 ≤ ts.length)
    (hb : ts.length ≤ 2 ^ 28) (hl : vs.length = ts.length) (hinc : ts.Pairwise (· < ·))
    (v0 a0 vT aT : Fin N → K) (c : VectorCurve N K) :
    ∃ d : Fin N → Container .o5 K, c.fitCurveWith S ts vs v0 a0 vT aT = .ok ⟨d, ts[0]⟩ ∧
      ∀ i, Container.Through ts (vs.map (· i)) (d i) := by
  obtain ⟨n, hn⟩ : ∃ n, ts.length = n + 1 := ⟨ts.length - 1, by omega⟩
  choose d e h using fun i => Container.acc_through S ts (vs.map (· i)) (v0 i) (a0 i) (vT i) (aT i)
    (Container.fresh : Container .o5 K) n (by omega) (by omega) hn (by simp; omega) hinc
  refine ⟨d, ?_, h⟩
  rw [VectorCurve.fitCurveWith, List.head?_eq_getElem?, List.getElem?_eq_getElem (by omega)]
  simp only [Outcome.deref_some, Outcome.ok_bind]
  rw [VectorCurve.loop_all _ d (fun i c => ?_)]
  · rfl
  · rw [VectorCurve.collect_ok vs i ts.length 0 (by omega), ← hl]
    simp only [List.drop_zero, List.take_length, Outcome.ok_bind]
    rw [Container.acc_forgets S ts _ _ _ _ _ c Container.fresh, e i]
    rfl

theorem vector_fit_derivatives (S : Solver K) (ts : List K) (vs ds es : List (Fin N → K))
    (hl : ts.length ≤ vs.length) (hd : ds.length = ts.length)
    (he : es.length = ts.length) (hd0 : ds ≠ []) (he0 : es ≠ []) (c : VectorCurve N K) :
    c.fitCurveDerivatives S ts vs ds es = c.fitCurveWith S ts vs (ds.head hd0) (es.head he0)
      (ds.getLast hd0) (es.getLast he0) := by
  rw [VectorCurve.fitCurveDerivatives, VectorCurve.fitCurveWith]
  congr 2
  funext t0
  congr 2
  funext i d
  rw [VectorCurve.collect_ok vs i ts.length 0 (by omega),
    VectorCurve.collect_ok ds i ts.length 0 (by omega),
    VectorCurve.collect_ok es i ts.length 0 (by omega)]
  simp only [List.drop_zero, ← hd, List.take_length, Outcome.ok_bind]
  rw [hd, ← he, List.take_length]
  simp only [List.head?_map, List.getLast?_map, List.head?_eq_some_head hd0,
    List.head?_eq_some_head he0, List.getLast?_eq_some_getLast hd0,
    List.getLast?_eq_some_getLast he0, Option.map_some, Outcome.deref_some, Outcome.ok_bind]

/-- **C33 (partial).** For every dimension, previous curve and end derivatives, and strictly increasing
times starting at 0: the domain is first to last time and every component passes through the data.
This covers all three implemented overloads. Missing: times not starting at 0, where the property is
false, see `C33_max_time_wrong` and `C33_refuted`. -/
theorem C33_vector_partial (S : Solver K) (ts : List K) (vs ds es : List (Fin N → K))
    (h2 : 2 ≤ ts.length) (hb : ts.length ≤ 2 ^ 28) (hl : vs.length = ts.length)
    (hinc : ts.Pairwise (· < ·)) (h0 : ts[0] = 0) (hN : 0 < N)
    (v0 a0 vT aT : Fin N → K) (c : VectorCurve N K) (r : Outcome (VectorCurve N K))
    (hr : r = c.fitCurve S ts vs ∨ r = c.fitCurveWith S ts vs v0 a0 vT aT ∨
      (ds.length = ts.length ∧ es.length = ts.length ∧ r = c.fitCurveDerivatives S ts vs ds es)) :
    ∃ c', r = .ok c' ∧ c'.getMinTime = ts[0] ∧ c'.getMaxTime = .ok ts[ts.length - 1] ∧
      ∀ (k : ℕ) (h : k < ts.length) (h' : k < vs.length) (i : Fin N),
        c'.evaluate ts[k] i = .ok (vs[k] i) := by
  have key : ∀ v0 a0 vT aT, ∃ c', c.fitCurveWith S ts vs v0 a0 vT aT = .ok c' ∧
      c'.getMinTime = ts[0] ∧ c'.getMaxTime = .ok ts[ts.length - 1] ∧
      ∀ (k : ℕ) (h : k < ts.length) (h' : k < vs.length) (i : Fin N),
        c'.evaluate ts[k] i = .ok (vs[k] i) := by
    intro v0 a0 vT aT
    obtain ⟨d, e, h⟩ := vector_fit_through S ts vs h2 hb hl hinc v0 a0 vT aT c
    refine ⟨_, e, rfl, ?_, fun k hk hk' i => ?_⟩
    · rw [VectorCurve.getMaxTime, dif_pos hN]
      simp only
      rw [(h ⟨0, hN⟩).duration, (h ⟨0, hN⟩).totals (by rintro rfl; simp at h2),
        knot_eq (by omega), knot_eq (by omega), h0, sub_zero]
    · have := (h i).interpolates hinc h2 k hk
      rwa [knot_eq hk, knot_eq (by omega), h0, sub_zero, knot_eq (by simpa using hk'),
        List.getElem_map] at this
  rcases hr with rfl | rfl | ⟨hd, he, rfl⟩
  · exact key ..
  · exact key ..
  · have hd0 : ds ≠ [] := by rintro rfl; simp at hd; omega
    have he0 : es ≠ [] := by rintro rfl; simp at he; omega
    rw [vector_fit_derivatives S ts vs ds es hl.ge hd he hd0 he0]
    exact key ..

/-- An instance of C33 in dimension 3. -/
example : ∃ (S : Solver ℚ) (c' : VectorCurve 3 ℚ),
    VectorCurve.fresh.fitCurve S [0, 1, 3] [![1, 2, 3], ![4, 5, 6], ![0, 0, 1]] = .ok c' ∧
    c'.evaluate 1 2 = .ok 6 := by
  obtain ⟨S⟩ := solver_exists (K := ℚ)
  obtain ⟨c', e, -, -, h⟩ := C33_vector_partial S [0, 1, 3] [![1, 2, 3], ![4, 5, 6], ![0, 0, 1]] [] []
    (by simp) (by simp) rfl (by simp) rfl (by omega) 0 0 0 0 VectorCurve.fresh _ (Or.inl rfl)
  exact ⟨S, c', e, h 1 (by simp) (by simp) 2⟩

/-- What holds without the restriction on the first time: the evaluation time is counted from the
first knot, and the reported end of the domain is the length of the domain. -/
theorem C33_relative_time (S : Solver K) (ts : List K) (vs : List (Fin N → K)) (h2 : 2 ≤ ts.length)
    (hb : ts.length ≤ 2 ^ 28) (hl : vs.length = ts.length) (hinc : ts.Pairwise (· < ·))
    (hN : 0 < N) (v0 a0 vT aT : Fin N → K) (c : VectorCurve N K) :
    ∃ c', c.fitCurveWith S ts vs v0 a0 vT aT = .ok c' ∧ c'.getMinTime = ts[0] ∧
      c'.getMaxTime = .ok (ts[ts.length - 1] - ts[0]) ∧
      ∀ (k : ℕ) (h : k < ts.length) (h' : k < vs.length) (i : Fin N),
        c'.evaluate (ts[k] - ts[0]) i = .ok (vs[k] i) := by
  obtain ⟨d, e, h⟩ := vector_fit_through S ts vs h2 hb hl hinc v0 a0 vT aT c
  refine ⟨_, e, rfl, ?_, fun k hk hk' i => ?_⟩
  · rw [VectorCurve.getMaxTime, dif_pos hN]
    simp only
    rw [(h ⟨0, hN⟩).duration, (h ⟨0, hN⟩).totals (by rintro rfl; simp at h2),
      knot_eq (by omega), knot_eq (by omega)]
  · have := (h i).interpolates hinc h2 k hk
    rwa [knot_eq hk, knot_eq (by omega), knot_eq (by simpa using hk'), List.getElem_map] at this

/-- **C33 is false of the code** whenever the first time is not 0: the reported end of the domain is
never the last time. -/
theorem C33_max_time_wrong (S : Solver K) (ts : List K) (vs : List (Fin N → K)) (h2 : 2 ≤ ts.length)
    (hb : ts.length ≤ 2 ^ 28) (hl : vs.length = ts.length) (hinc : ts.Pairwise (· < ·))
    (hN : 0 < N) (h0 : ts[0] ≠ 0) (v0 a0 vT aT : Fin N → K) (c c' : VectorCurve N K)
    (h : c.fitCurveWith S ts vs v0 a0 vT aT = .ok c') :
    c'.getMaxTime ≠ .ok ts[ts.length - 1] := by
  obtain ⟨c'', e, -, e', -⟩ := C33_relative_time S ts vs h2 hb hl hinc hN v0 a0 vT aT c
  rw [e] at h; cases h
  rw [e']
  intro he
  injection he with he
  exact h0 (by linarith)

/-- The counterexample to the interpolation part of C33: at the first time of the data the curve shows
the last value. -/
theorem C33_refuted : ∃ (S : Solver ℚ) (c' : VectorCurve 1 ℚ),
    VectorCurve.fresh.fitCurve S [1, 2] [fun _ => 5, fun _ => 9] = .ok c' ∧
    c'.evaluate 1 0 = .ok 9 := by
  obtain ⟨S⟩ := solver_exists (K := ℚ)
  obtain ⟨c', e, -, -, h⟩ := C33_relative_time S [1, 2] [fun _ => 5, fun _ => 9] (by simp) (by simp) rfl
    (by simp) Nat.one_pos (fun _ => 0) (fun _ => 0) (fun _ => 0) (fun _ => 0)
    (VectorCurve.fresh : VectorCurve 1 ℚ)
  refine ⟨S, c', e, ?_⟩
  have := h 1 (by simp) (by simp) 0
  norm_num at this
  exact this

/-! ## C48 for the curves -/

/-- **C48 is false of the polynomial-spline curves**: fitting an empty list is undefined behaviour for
every order, dimension, previous curve and other argument. -/
theorem C48_curves_refuted (S : Solver K) (vs : List K) (v0 a0 vT aT : K) (c : ScalarCurve o K)
    (ws ds es : List (Fin N → K)) (v0' a0' vT' aT' : Fin N → K) (c' : VectorCurve N K) :
    c.fitCurveWith S [] vs v0 a0 vT aT = .ub ∧ c.fitCurve S [] vs = .ub ∧
    c'.fitCurveWith S [] ws v0' a0' vT' aT' = .ub ∧ c'.fitCurve S [] ws = .ub ∧
    c'.fitCurveDerivatives S [] ws ds es = .ub := by
  have : ∀ v0 a0 vT aT, c.fitCurveWith S [] vs v0 a0 vT aT = .ub := by
    intro v0 a0 vT aT
    rw [ScalarCurve.fitCurveWith]
    have h1 := C48_container_partial S vs v0 a0 vT aT c.container
    have h2 := C48_container_refuted S vs v0 a0 vT aT c.container
    cases o
    · rw [(h2 (by simp)).2]; rfl
    · rw [(h2 (by simp)).2]; rfl
    · rw [(h2 (by simp)).2]; rfl
    · rw [(h1.2 (by simp)).2]; rfl
    · rw [(h1.2 (by simp)).2]; rfl
  exact ⟨this .., this .., rfl, rfl, rfl⟩

/-- The overload taking spline options accepts an empty list: nothing is added. -/
theorem C48_options_partial (S : Solver K) (c : ScalarCurve o K) :
    c.fitCurveOptions S [] = { c with minTime := 0 } := rfl

end field

section real
variable {o : Order}

/-- Inside a segment the container's velocity and acceleration are derivatives. -/
theorem interior_deriv (d : Container o ℝ) (hpos : ∀ s ∈ d.splines, 0 ≤ s.duration)
    (pos vel acc : ℝ → ℝ) (hp : ∀ t, d.getPositionAtTime t = .ok (pos t))
    (hv : ∀ t, d.getVelocityAtTime t = .ok (vel t)) (ha : ∀ t, d.getAccelerationAtTime t = .ok (acc t))
    (k : ℕ) (s : Spline o ℝ) (hs : d.splines[k]? = some s) (t : ℝ)
    (h0 : start d.splines k < t) (h1 : t < start d.splines k + s.duration) :
    HasDerivAt pos (vel t) t ∧ HasDerivAt vel (acc t) t := by
  have key : ∀ u, start d.splines k < u → u < start d.splines k + s.duration →
      pos u = s.getPositionAtTime (u - start d.splines k) ∧
      vel u = s.getVelocityAtTime (u - start d.splines k) ∧
      acc u = s.getAccelerationAtTime (u - start d.splines k) := by
    intro u a b
    have e1 := (hp u).symm.trans (Container.atTime_half_open _ d hpos k s hs u a.le b)
    have e2 := (hv u).symm.trans (Container.atTime_half_open _ d hpos k s hs u a.le b)
    have e3 := (ha u).symm.trans (Container.atTime_half_open _ d hpos k s hs u a.le b)
    injection e1 with e1; injection e2 with e2; injection e3 with e3
    exact ⟨e1, e2, e3⟩
  have hev : ∀ᶠ u in nhds t, start d.splines k < u ∧ u < start d.splines k + s.duration :=
    Ioo_mem_nhds h0 h1
  have hd := C17_derivatives o s (t - start d.splines k) (by linarith) (by linarith)
  rw [(key t h0 h1).2.1, (key t h0 h1).2.2]
  constructor
  · refine (HasDerivAt.comp_sub_const t _ hd.1).congr_of_eventuallyEq ?_
    filter_upwards [hev] with u hu using (key u hu.1 hu.2).1
  · refine (HasDerivAt.comp_sub_const t _ hd.2).congr_of_eventuallyEq ?_
    filter_upwards [hev] with u hu using (key u hu.1 hu.2).2.1

/-- **C30**, derivatives: between two knots `evaluateDerivative` of order 1 is the derivative of
`evaluate` and order 2 the derivative of order 1, for every order; for the orders 3, 4, 5 this also
holds at interior knots, where order 2 is continuous. -/
theorem C30_derivatives (S : Solver ℝ) (ts vs : List ℝ) (h2 : 2 ≤ ts.length)
    (hb : ts.length ≤ 2 ^ 28) (hl : vs.length = ts.length) (hinc : ts.Pairwise (· < ·))
    (v0 a0 vT aT : ℝ) (c : ScalarCurve o ℝ) :
    ∃ c', c.fitCurveWith S ts vs v0 a0 vT aT = .ok c' ∧ ∃ pos vel acc : ℝ → ℝ,
      (∀ t, c'.evaluate t = .ok (pos t)) ∧ (∀ t, c'.evaluateDerivative t 1 = .ok (some (vel t))) ∧
      (∀ t, c'.evaluateDerivative t 2 = .ok (some (acc t))) ∧
      (∀ t (i : ℕ) (h : i + 1 < ts.length), ts[i] < t → t < ts[i + 1] →
        HasDerivAt pos (vel t) t ∧ HasDerivAt vel (acc t) t) ∧
      (o = .o3 ∨ o = .o4 ∨ o = .o5 → ∀ t, ts[0] < t → t < ts[ts.length - 1] →
        HasDerivAt pos (vel t) t ∧ HasDerivAt vel (acc t) t ∧ ContinuousAt acc t) := by
  obtain ⟨d, e, e', h⟩ := fitCurveWith_through S ts vs h2 hb hl hinc v0 a0 vT aT c
  choose pos hp using fun t => Container.atTime_isOk Spline.getPositionAtTime d t
  choose vel hv using fun t => Container.atTime_isOk Spline.getVelocityAtTime d t
  choose acc ha using fun t => Container.atTime_isOk Spline.getAccelerationAtTime d t
  refine ⟨_, e, fun t => pos (t - ts[0]), fun t => vel (t - ts[0]), fun t => acc (t - ts[0]),
    fun t => hp _, fun t => ?_, fun t => ?_, fun t i hi h0 h1 => ?_, fun ho t h0 h1 => ?_⟩
  · simp only [ScalarCurve.evaluateDerivative, if_true]
    rw [Container.getVelocityAtTime, hv]; rfl
  · simp only [ScalarCurve.evaluateDerivative]
    rw [if_neg (by omega), if_pos trivial, Container.getAccelerationAtTime, ha]; rfl
  · have hlen := h.len
    have hi' : i < d.splines.length := by omega
    have es := List.getElem?_eq_getElem hi'
    have hst := h.starts i (by omega)
    have hdu := (h.seg i _ es).1
    rw [knot_eq (by omega), knot_eq (by omega)] at hst
    rw [dur, if_pos hi, knot_eq hi, knot_eq (by omega)] at hdu
    have := interior_deriv d (fun s hs => (h.pos hinc s hs).le) pos vel acc hp hv ha i _ es (t - ts[0])
      (by rw [hst]; linarith) (by rw [hst, hdu]; linarith)
    exact ⟨HasDerivAt.comp_sub_const t _ this.1, HasDerivAt.comp_sub_const t _ this.2⟩
  · obtain ⟨c'', e2, pos', vel', acc', k1, k2, k3, k4⟩ := C21_twice_differentiable S ts vs h2 hb hl hinc
      v0 a0 vT aT c.container _ ho (Or.inl rfl)
    rw [e'] at e2; cases e2
    have q1 : pos' = pos := funext fun t => by
      have := (k1 t).symm.trans (hp t); injection this
    have q2 : vel' = vel := funext fun t => by
      have := (k2 t).symm.trans (hv t); injection this
    have q3 : acc' = acc := funext fun t => by
      have := (k3 t).symm.trans (ha t); injection this
    subst q1 q2 q3
    have := k4 (t - ts[0]) (by linarith) (by linarith)
    refine ⟨HasDerivAt.comp_sub_const t _ this.1, HasDerivAt.comp_sub_const t _ this.2.1, ?_⟩
    exact this.2.2.comp (f := fun t => t - ts[0]) (continuous_id.sub continuous_const).continuousAt

/-- An instance of `C30_derivatives`: times not starting at 0, an interior knot at 3. -/
example : ∃ (S : Solver ℝ) (c' : ScalarCurve .o4 ℝ) (pos : ℝ → ℝ) (v : ℝ),
    ScalarCurve.fresh.fitCurveWith S [2, 3, 7] [1, -1, 4] 1 0 0 1 = .ok c' ∧
    (∀ t, c'.evaluate t = .ok (pos t)) ∧ c'.evaluateDerivative 3 1 = .ok (some v) ∧
    HasDerivAt pos v 3 := by
  obtain ⟨S⟩ := solver_exists (K := ℝ)
  obtain ⟨c', e, pos, vel, acc, h1, h2, -, -, h⟩ := C30_derivatives S [2, 3, 7] [1, -1, 4] (by simp)
    (by simp) rfl (by simp; norm_num) 1 0 0 1 (ScalarCurve.fresh : ScalarCurve .o4 ℝ)
  exact ⟨S, c', pos, vel 3, e, h1, h2 3, (h (by simp) 3 (by simp; norm_num) (by simp; norm_num)).1⟩

end real

end Verif.PolyCurve

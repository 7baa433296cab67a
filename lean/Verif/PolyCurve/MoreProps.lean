import Verif.PolyCurve.Props

/-!
# Properties C71 - C73: end derivatives, curves from spline options and clearing
-/

set_option linter.unusedSectionVars false
set_option linter.dupNamespace false

namespace Verif.PolyCurve

open Verif.Spline Verif.Container Polynomial

variable {K : Type} [Field K] [LinearOrder K] [IsStrictOrderedRing K] {o : Order} {N : ℕ}

/-! ## C71 -/

/-- **C71, scalar curve.** For order 5, and for order 4 with at least three knots: at the first time the
first and second derivative of the fitted curve are the initial velocity and acceleration handed over,
at the last time the final ones; the overload without derivatives gives zeros. Any previous curve, any
strictly increasing times. -/
theorem C71_scalar_ends (S : Solver K) (ts vs : List K) (h2 : 2 ≤ ts.length)
    (hb : ts.length ≤ 2 ^ 28) (hl : vs.length = ts.length) (hinc : ts.Pairwise (· < ·))
    (ho : o = .o5 ∨ o = .o4 ∧ 3 ≤ ts.length) (v0 a0 vT aT : K) (c : ScalarCurve o K) :
    (∃ c', c.fitCurveWith S ts vs v0 a0 vT aT = .ok c' ∧
      c'.evaluateDerivative ts[0] 1 = .ok (some v0) ∧ c'.evaluateDerivative ts[0] 2 = .ok (some a0) ∧
      c'.evaluateDerivative ts[ts.length - 1] 1 = .ok (some vT) ∧
      c'.evaluateDerivative ts[ts.length - 1] 2 = .ok (some aT)) ∧
    (∃ c', c.fitCurve S ts vs = .ok c' ∧ ∀ k, k = 1 ∨ k = 2 →
      c'.evaluateDerivative ts[0] k = .ok (some 0) ∧
      c'.evaluateDerivative ts[ts.length - 1] k = .ok (some 0)) := by
  have key : ∀ v0 a0 vT aT : K, ∃ c', c.fitCurveWith S ts vs v0 a0 vT aT = .ok c' ∧
      c'.evaluateDerivative ts[0] 1 = .ok (some v0) ∧ c'.evaluateDerivative ts[0] 2 = .ok (some a0) ∧
      c'.evaluateDerivative ts[ts.length - 1] 1 = .ok (some vT) ∧
      c'.evaluateDerivative ts[ts.length - 1] 2 = .ok (some aT) := by
    intro v0 a0 vT aT
    obtain ⟨d, e, e', -⟩ := fitCurveWith_through S ts vs h2 hb hl hinc v0 a0 vT aT c
    obtain ⟨d', e'', -, -, k1, k2, k3, k4, -⟩ := C21_smooth_acc S ts vs h2 hb hl hinc ho v0 a0 vT aT
      c.container
    rw [e'] at e''; cases e''
    refine ⟨_, e, ?_, ?_, ?_, ?_⟩ <;> simp [ScalarCurve.evaluateDerivative, k1, k2, k3, k4]
  refine ⟨key .., ?_⟩
  obtain ⟨c', e, k1, k2, k3, k4⟩ := key 0 0 0 0
  refine ⟨c', e, ?_⟩
  rintro k (rfl | rfl)
  exacts [⟨k1, k3⟩, ⟨k2, k4⟩]

/-- **C71, scalar curve of order 3**, and of order 4 with two knots: the velocities are met; the
accelerations handed over have no influence at all. -/
theorem C71_scalar_velocity (S : Solver K) (ts vs : List K) (h2 : 2 ≤ ts.length)
    (hb : ts.length ≤ 2 ^ 28) (hl : vs.length = ts.length) (hinc : ts.Pairwise (· < ·))
    (ho : o = .o3 ∨ o = .o4 ∧ ts.length = 2) (v0 a0 vT aT : K) (c : ScalarCurve o K) :
    ∃ c', c.fitCurveWith S ts vs v0 a0 vT aT = .ok c' ∧
      c'.evaluateDerivative ts[0] 1 = .ok (some v0) ∧
      c'.evaluateDerivative ts[ts.length - 1] 1 = .ok (some vT) ∧
      ∀ b0 bT, c.fitCurveWith S ts vs v0 b0 vT bT = .ok c' := by
  obtain ⟨d, e, e', -⟩ := fitCurveWith_through S ts vs h2 hb hl hinc v0 a0 vT aT c
  obtain ⟨d', e'', -, -, k1, k2, -⟩ := C21_smooth_vel S ts vs h2 hb hl hinc v0 a0 vT aT c.container _
    (Or.inl ⟨ho, rfl⟩)
  rw [e'] at e''; cases e''
  refine ⟨_, e, ?_, ?_, fun b0 bT => ?_⟩
  · simp [ScalarCurve.evaluateDerivative, k1]
  · simp [ScalarCurve.evaluateDerivative, k2]
  · have hv : ∀ a b, Container.setDataAcc S ts vs v0 a vT b c.container =
        Container.setDataVel S ts vs v0 vT c.container := by
      intro a b
      refine Container.setDataAcc_vel S.toRawSolver ts vs v0 a vT b c.container (ts.length - 1) (by omega) (by omega)
        (by omega) ?_
      rcases ho with rfl | ⟨rfl, h⟩
      · exact Or.inl (by simp [Order.deg])
      · exact Or.inr ⟨rfl, by omega⟩
    rw [← e, ScalarCurve.fitCurveWith, ScalarCurve.fitCurveWith, hv, hv]

/-- An instance of C71: four different end derivatives on three knots. -/
example : ∃ (S : Solver ℚ) (c' : ScalarCurve .o5 ℚ),
    ScalarCurve.fresh.fitCurveWith S [2, 3, 7] [1, -1, 4] 5 6 7 8 = .ok c' ∧
    c'.evaluateDerivative 2 2 = .ok (some 6) ∧ c'.evaluateDerivative 7 1 = .ok (some 7) := by
  obtain ⟨S⟩ := solver_exists (K := ℚ)
  obtain ⟨⟨c', e, -, h1, h2, -⟩, -⟩ := C71_scalar_ends S [2, 3, 7] [1, -1, 4] (by simp) (by simp) rfl
    (by simp; norm_num) (Or.inl rfl) 5 6 7 8 (ScalarCurve.fresh : ScalarCurve .o5 ℚ)
  exact ⟨S, c', e, h1, h2⟩

/-- Component `i` of a fitted vector curve, as a scalar fit. -/
theorem vector_fit_scalar (S : Solver K) (ts : List K) (vs : List (Fin N → K)) (h2 : 2 ≤ ts.length)
    (hb : ts.length ≤ 2 ^ 28) (hl : vs.length = ts.length) (hinc : ts.Pairwise (· < ·))
    (v0 a0 vT aT : Fin N → K) (c : VectorCurve N K) :
    ∃ d : Fin N → Container .o5 K, c.fitCurveWith S ts vs v0 a0 vT aT = .ok ⟨d, ts[0]⟩ ∧
      ∀ (i : Fin N) (s : ScalarCurve .o5 K), s.fitCurveWith S ts (vs.map (· i)) (v0 i) (a0 i) (vT i)
        (aT i) = .ok ⟨d i, ts[0]⟩ := by
  obtain ⟨n, hn⟩ : ∃ n, ts.length = n + 1 := ⟨ts.length - 1, by omega⟩
  choose d e h using fun i => Container.acc_through S ts (vs.map (· i)) (v0 i) (a0 i) (vT i) (aT i)
    (Container.fresh : Container .o5 K) n (by omega) (by omega) hn (by simp; omega) hinc
  refine ⟨d, ?_, fun i s => ?_⟩
  · rw [VectorCurve.fitCurveWith, List.head?_eq_getElem?, List.getElem?_eq_getElem (by omega)]
    simp only [Outcome.deref_some, Outcome.ok_bind]
    rw [VectorCurve.loop_all _ d (fun i c => ?_)]
    · rfl
    · rw [VectorCurve.collect_ok vs i ts.length 0 (by omega), ← hl]
      simp only [List.drop_zero, List.take_length, Outcome.ok_bind]
      rw [Container.acc_forgets S ts _ _ _ _ _ c Container.fresh, e i]
      rfl
  · rw [ScalarCurve.fitCurveWith, Container.acc_forgets S ts _ _ _ _ _ s.container Container.fresh, e i,
      List.head?_eq_getElem?, List.getElem?_eq_getElem (by omega)]
    rfl

/-- **C71, vector curve.** Component `i` of a fitted vector curve is the quintic scalar curve fitted to
component `i` of the data and of the end derivatives, with times counted from the first knot: same
values and same derivatives of every order at every time. -/
theorem C71_vector_is_scalar (S : Solver K) (ts : List K) (vs : List (Fin N → K)) (h2 : 2 ≤ ts.length)
    (hb : ts.length ≤ 2 ^ 28) (hl : vs.length = ts.length) (hinc : ts.Pairwise (· < ·))
    (v0 a0 vT aT : Fin N → K) (c : VectorCurve N K) :
    ∃ c', c.fitCurveWith S ts vs v0 a0 vT aT = .ok c' ∧ ∀ i : Fin N, ∃ s : ScalarCurve .o5 K,
      ScalarCurve.fresh.fitCurveWith S ts (vs.map (· i)) (v0 i) (a0 i) (vT i) (aT i) = .ok s ∧
      ∀ t, c'.evaluate t i = s.evaluate (t + ts[0]) ∧
        ∀ k, c'.evaluateDerivative t k i = s.evaluateDerivative (t + ts[0]) k := by
  obtain ⟨d, e, h⟩ := vector_fit_scalar S ts vs h2 hb hl hinc v0 a0 vT aT c
  refine ⟨_, e, fun i => ⟨_, h i _, fun t => ⟨?_, fun k => ?_⟩⟩⟩
  · simp [VectorCurve.evaluate, ScalarCurve.evaluate]
  · simp [VectorCurve.evaluateDerivative, ScalarCurve.evaluateDerivative]

/-- **C71, vector curve, all overloads.** At relative time 0 and at the end, the derivatives of every
component are those handed over: zeros, the four vectors, or the first and last elements of the lists
of derivatives. Other orders than 1 and 2 are refused at every time. -/
theorem C71_vector_ends (S : Solver K) (ts : List K) (vs ds es : List (Fin N → K)) (h2 : 2 ≤ ts.length)
    (hb : ts.length ≤ 2 ^ 28) (hl : vs.length = ts.length) (hinc : ts.Pairwise (· < ·))
    (v0 a0 vT aT : Fin N → K) (c : VectorCurve N K) (r : Outcome (VectorCurve N K))
    (hr : (r = c.fitCurve S ts vs ∧ v0 = 0 ∧ a0 = 0 ∧ vT = 0 ∧ aT = 0) ∨
      r = c.fitCurveWith S ts vs v0 a0 vT aT ∨
      (ds.length = ts.length ∧ es.length = ts.length ∧ r = c.fitCurveDerivatives S ts vs ds es ∧
        ds[0]? = some v0 ∧ es[0]? = some a0 ∧ ds[ts.length - 1]? = some vT ∧
        es[ts.length - 1]? = some aT)) :
    ∃ c', r = .ok c' ∧ ∀ i : Fin N,
      c'.evaluateDerivative 0 1 i = .ok (some (v0 i)) ∧
      c'.evaluateDerivative 0 2 i = .ok (some (a0 i)) ∧
      c'.evaluateDerivative (ts[ts.length - 1] - ts[0]) 1 i = .ok (some (vT i)) ∧
      c'.evaluateDerivative (ts[ts.length - 1] - ts[0]) 2 i = .ok (some (aT i)) ∧
      ∀ t k, k ≠ 1 → k ≠ 2 → c'.evaluateDerivative t k i = .ok none := by
  have key : r = c.fitCurveWith S ts vs v0 a0 vT aT := by
    rcases hr with ⟨rfl, rfl, rfl, rfl, rfl⟩ | h | ⟨hd, he, rfl, e1, e2, e3, e4⟩
    · rfl
    · exact h
    · have hd0 : ds ≠ [] := by rintro rfl; simp at hd; omega
      have he0 : es ≠ [] := by rintro rfl; simp at he; omega
      rw [vector_fit_derivatives S ts vs ds es hl.ge hd he hd0 he0]
      rw [← hd, ← List.getLast?_eq_getElem?, List.getLast?_eq_some_getLast hd0] at e3
      rw [← he, ← List.getLast?_eq_getElem?, List.getLast?_eq_some_getLast he0] at e4
      rw [← List.head?_eq_getElem?, List.head?_eq_some_head hd0] at e1
      rw [← List.head?_eq_getElem?, List.head?_eq_some_head he0] at e2
      injection e1 with e1; injection e2 with e2; injection e3 with e3; injection e4 with e4
      rw [e1, e2, e3, e4]
  rw [key]
  obtain ⟨c', e, h⟩ := C71_vector_is_scalar S ts vs h2 hb hl hinc v0 a0 vT aT c
  refine ⟨c', e, fun i => ?_⟩
  obtain ⟨s, es', hs⟩ := h i
  obtain ⟨⟨s', e', k1, k2, k3, k4⟩, -⟩ := C71_scalar_ends S ts (vs.map (· i)) h2 hb (by simpa using hl) hinc
    (Or.inl rfl) (v0 i) (a0 i) (vT i) (aT i) (ScalarCurve.fresh : ScalarCurve .o5 K)
  rw [es'] at e'; cases e'
  refine ⟨?_, ?_, ?_, ?_, fun t k n1 n2 => ?_⟩
  · rw [(hs 0).2, zero_add, k1]
  · rw [(hs 0).2, zero_add, k2]
  · rw [(hs _).2, sub_add_cancel, k3]
  · rw [(hs _).2, sub_add_cancel, k4]
  · simp [VectorCurve.evaluateDerivative, n1, n2]

/-- An instance of C71 for the overload with lists of derivatives; the inner elements are not used. -/
example : ∃ (S : Solver ℚ) (c' : VectorCurve 2 ℚ),
    VectorCurve.fresh.fitCurveDerivatives S [2, 3, 7] [![1, 2], ![4, 5], ![0, 1]]
      [![1, 2], ![100, 100], ![5, 6]] [![3, 4], ![100, 100], ![7, 8]] = .ok c' ∧
    c'.evaluateDerivative 0 2 1 = .ok (some 4) ∧ c'.evaluateDerivative 5 1 0 = .ok (some 5) := by
  obtain ⟨S⟩ := solver_exists (K := ℚ)
  obtain ⟨c', e, h⟩ := C71_vector_ends S [2, 3, 7] [![1, 2], ![4, 5], ![0, 1]]
    [![1, 2], ![100, 100], ![5, 6]] [![3, 4], ![100, 100], ![7, 8]] (by simp) (by simp) rfl
    (by simp; norm_num) ![1, 2] ![3, 4] ![5, 6] ![7, 8] (VectorCurve.fresh : VectorCurve 2 ℚ) _
    (Or.inr (Or.inr ⟨rfl, rfl, rfl, rfl, rfl, rfl, rfl⟩))
  refine ⟨S, c', e, ?_, ?_⟩
  · simpa using (h 1).2.1
  · have := (h 0).2.2.1; norm_num at this; exact this

/-! ## C72 -/

/-- **C72.** On a new or cleared curve `fitCurve(optionList)` with positive durations gives the curve
that runs through the requested pieces one after the other: it starts at time 0 and ends at the sum of
the durations, and over piece `k` it is one polynomial of the order of the container that meets the
boundary conditions of option `k`; the derivatives reported are its derivatives. A time where two
pieces meet belongs to the later one, the last time to the last one. -/
theorem C72_options (S : Solver K) (l : List (Options K)) (hpos : ∀ p ∈ l, 0 < p.tf)
    (c : ScalarCurve o K) (hc : c = ScalarCurve.fresh ∨ ∃ b : ScalarCurve o K, c = b.clear) :
    (c.fitCurveOptions S l).getMinTime = 0 ∧
    (c.fitCurveOptions S l).getMaxTime = (l.map Options.tf).sum ∧
    ∀ (k : ℕ) (p : Options K), l[k]? = some p →
      ∃ P : K[X], P.natDegree ≤ o.deg ∧ Meets o p P ∧
        ∀ t, 0 ≤ t → (t < p.tf ∨ t = p.tf ∧ k + 1 = l.length) →
          (c.fitCurveOptions S l).evaluate (((l.take k).map Options.tf).sum + t) = .ok (P.eval t) ∧
          (c.fitCurveOptions S l).evaluateDerivative (((l.take k).map Options.tf).sum + t) 1 =
            .ok (some (P.derivative.eval t)) ∧
          (c.fitCurveOptions S l).evaluateDerivative (((l.take k).map Options.tf).sum + t) 2 =
            .ok (some (P.derivative.derivative.eval t)) := by
  have hf : c = ScalarCurve.fresh := by
    rcases hc with rfl | ⟨b, rfl⟩ <;> rfl
  subst hf
  set c' := (ScalarCurve.fresh : ScalarCurve o K).fitCurveOptions S l with hc'
  have hsp : c'.container.splines = l.map fun p => ⟨compute S o p, p.tf⟩ := by
    simp [hc', ScalarCurve.fitCurveOptions, foldl_add, ScalarCurve.fresh, Container.fresh,
      Container.reset, Container.resetTime]
  have hmin : c'.minTime = 0 := rfl
  have hp : ∀ s ∈ c'.container.splines, 0 ≤ s.duration := by
    rw [hsp]; intro s hs
    obtain ⟨p, hp, rfl⟩ := List.mem_map.1 hs
    exact (hpos p hp).le
  have hst : ∀ k, start c'.container.splines k = ((l.take k).map Options.tf).sum := by
    intro k
    rw [start, total, hsp, ← List.map_take, List.map_map]; rfl
  refine ⟨hmin, ?_, fun k p hk => ?_⟩
  · simp [hc', ScalarCurve.fitCurveOptions, foldl_add, ScalarCurve.fresh, Container.fresh,
      Container.reset, Container.resetTime, ScalarCurve.getMaxTime]
  · have h0 := hpos p (List.mem_of_getElem? hk)
    refine ⟨toPoly (compute S.toRawSolver o p), ?_, compute_meets S o p h0, fun t ht hcase => ?_⟩
    · unfold toPoly
      refine (natDegree_sum_le_of_forall_le _ _ fun i _ => ?_)
      exact (natDegree_C_mul_X_pow_le _ _).trans (by omega)
    have hs : c'.container.splines[k]? = some ⟨compute S o p, p.tf⟩ := by
      rw [hsp, List.getElem?_map, hk]; rfl
    have hle : t ≤ p.tf := by rcases hcase with h | ⟨h, -⟩ <;> linarith
    have key : ∀ f : Spline o K → K → K,
        c'.container.atTime f (((l.take k).map Options.tf).sum + t - c'.minTime) =
          .ok (f ⟨compute S o p, p.tf⟩ t) := by
      intro f
      rw [hmin, sub_zero]
      rcases hcase with h | ⟨rfl, hkl⟩
      · rw [Container.atTime_half_open f c'.container hp k _ hs _ (by rw [hst]; linarith)
          (by rw [hst]; simp only; linarith), hst, add_sub_cancel_left]
      · have hlen : c'.container.splines.length = k + 1 := by rw [hsp, List.length_map, hkl]
        have hend := start_succ _ k _ hs
        rw [← hlen, start_length] at hend
        rw [Container.atTime_beyond f c'.container hp _ (by
          rw [List.getLast?_eq_getElem?, hlen]; exact hs) _ (by rw [hend, hst]), hlen,
          Nat.add_sub_cancel, hst, add_sub_cancel_left]
    refine ⟨?_, ?_, ?_⟩
    · rw [ScalarCurve.evaluate, Container.getPositionAtTime, key, getPosition_eq _ _ ht hle]
    · simp only [ScalarCurve.evaluateDerivative, if_true]
      rw [Container.getVelocityAtTime, key, getVelocity_eq _ _ ht hle]; rfl
    · simp only [ScalarCurve.evaluateDerivative]
      rw [if_neg (by omega), if_pos trivial, Container.getAccelerationAtTime, key,
        getAcceleration_eq _ _ ht hle]; rfl

/-- An instance of C72: two pieces that do not fit together; at the joint the second one wins. -/
example : ∃ S : Solver ℚ,
    ((ScalarCurve.fresh : ScalarCurve .o5 ℚ).fitCurveOptions S
      [⟨2, 0, 1, 0, 0, 0, 0⟩, ⟨3, 10, 20, 7, 0, 0, 0⟩]).evaluate 2 = .ok 10 ∧
    ((ScalarCurve.fresh : ScalarCurve .o5 ℚ).fitCurveOptions S
      [⟨2, 0, 1, 0, 0, 0, 0⟩, ⟨3, 10, 20, 7, 0, 0, 0⟩]).evaluate 5 = .ok 20 ∧
    ((ScalarCurve.fresh : ScalarCurve .o5 ℚ).fitCurveOptions S
      [⟨2, 0, 1, 0, 0, 0, 0⟩, ⟨3, 10, 20, 7, 0, 0, 0⟩]).evaluateDerivative 2 1 = .ok (some 7) := by
  obtain ⟨S⟩ := solver_exists (K := ℚ)
  obtain ⟨P, -, hm, h⟩ := (C72_options S [⟨2, 0, 1, 0, 0, 0, 0⟩, ⟨3, 10, 20, 7, 0, 0, 0⟩]
    (by simp) (ScalarCurve.fresh : ScalarCurve .o5 ℚ) (Or.inl rfl)).2.2 1 _ rfl
  have h0 := h 0 le_rfl (Or.inl (by norm_num))
  have h3 := h 3 (by norm_num) (Or.inr ⟨rfl, rfl⟩)
  rw [hm.pos0, hm.vel0 (by simp [Order.deg])] at h0
  have hT := hm.posT
  simp only at hT
  rw [hT] at h3
  norm_num at h0 h3
  exact ⟨S, h0.1, h3.1, h0.2.1⟩

/-! ## C73 -/

/-- **C73, scalar curve.** `clear` gives a curve that answers every query as a new one: domain `[0, 0]`,
value 0 and derivatives 0 at every time. -/
theorem C73_scalar_clear (c : ScalarCurve o K) :
    c.clear.getMinTime = 0 ∧ c.clear.getMaxTime = 0 ∧
    ∀ t, c.clear.evaluate t = .ok 0 ∧ c.clear.evaluateDerivative t 1 = .ok (some 0) ∧
      c.clear.evaluateDerivative t 2 = .ok (some 0) ∧
      c.clear.evaluate t = (ScalarCurve.fresh : ScalarCurve o K).evaluate t ∧
      ∀ k, c.clear.evaluateDerivative t k = (ScalarCurve.fresh : ScalarCurve o K).evaluateDerivative t k := by
  have e : ∀ (f : Spline o K → K → K) (t : K), c.container.reset.atTime f t = .ok 0 :=
    fun f t => Container.atTime_empty f t _ rfl
  refine ⟨rfl, by simp [ScalarCurve.getMaxTime, ScalarCurve.clear, Container.reset, Container.resetTime], fun t =>
    ⟨e Spline.getPositionAtTime (t - 0), ?_, ?_, rfl, fun k => rfl⟩⟩
  · simp only [ScalarCurve.evaluateDerivative, if_true, ScalarCurve.clear]
    rw [Container.getVelocityAtTime, e]; rfl
  · simp only [ScalarCurve.evaluateDerivative, ScalarCurve.clear]
    rw [if_neg (by omega), if_pos trivial, Container.getAccelerationAtTime, e]; rfl

/-- **C73 (partial), vector curve.** `clear` gives value 0 and derivatives 0 at every time and the
maximal time 0, and every later fit behaves as on a new curve. Missing: the minimal time, which
survives, see `C73_refuted`. -/
theorem C73_vector_clear_partial (c : VectorCurve N K) :
    (0 < N → c.clear.getMaxTime = .ok 0) ∧
    (∀ t (i : Fin N), c.clear.evaluate t i = .ok 0 ∧ c.clear.evaluateDerivative t 1 i = .ok (some 0) ∧
      c.clear.evaluateDerivative t 2 i = .ok (some 0)) ∧
    ∀ (S : RawSolver K) ts vs v0 a0 vT aT ds es,
      c.clear.fitCurve S ts vs = VectorCurve.fresh.fitCurve S ts vs ∧
      c.clear.fitCurveWith S ts vs v0 a0 vT aT = VectorCurve.fresh.fitCurveWith S ts vs v0 a0 vT aT ∧
      c.clear.fitCurveDerivatives S ts vs ds es = VectorCurve.fresh.fitCurveDerivatives S ts vs ds es := by
  have e : ∀ i (f : Spline .o5 K → K → K) (t : K), (c.containers i).reset.atTime f t = .ok 0 :=
    fun i f t => Container.atTime_empty f t _ rfl
  refine ⟨fun h => by simp [VectorCurve.getMaxTime, VectorCurve.clear, h, Container.reset,
    Container.resetTime],
    fun t i => ⟨e i Spline.getPositionAtTime t, ?_, ?_⟩, fun S ts vs v0 a0 vT aT ds es => ⟨rfl, rfl, rfl⟩⟩
  · simp only [VectorCurve.evaluateDerivative, if_true, VectorCurve.clear]
    rw [Container.getVelocityAtTime, e]; rfl
  · simp only [VectorCurve.evaluateDerivative, VectorCurve.clear]
    rw [if_neg (by omega), if_pos trivial, Container.getAccelerationAtTime, e]; rfl

/-- **C73 is false of the vector curve**: after any fit to strictly increasing times and `clear`, the
minimal time is still the first time of the old data. If that was positive, the cleared curve reports
a minimal time after its maximal time. -/
theorem C73_refuted (S : Solver K) (ts : List K) (vs : List (Fin N → K)) (h2 : 2 ≤ ts.length)
    (hb : ts.length ≤ 2 ^ 28) (hl : vs.length = ts.length) (hinc : ts.Pairwise (· < ·)) (hN : 0 < N)
    (v0 a0 vT aT : Fin N → K) (c : VectorCurve N K) :
    ∃ c', c.fitCurveWith S ts vs v0 a0 vT aT = .ok c' ∧ c'.clear.getMinTime = ts[0] ∧
      ((0 : K) < ts[0] → ∃ T, c'.clear.getMaxTime = .ok T ∧ T < c'.clear.getMinTime) := by
  obtain ⟨d, e, -⟩ := vector_fit_through S ts vs h2 hb hl hinc v0 a0 vT aT c
  exact ⟨_, e, rfl, fun h => ⟨0, (C73_vector_clear_partial _).1 hN, h⟩⟩

/-- An instance of `C73_refuted`: data from time 2 to 7. -/
example : ∃ (S : Solver ℚ) (c' : VectorCurve 1 ℚ) (T : ℚ),
    VectorCurve.fresh.fitCurveWith S [2, 3, 7] [![1], ![4], ![0]] 0 0 0 0 = .ok c' ∧
    c'.clear.getMinTime = 2 ∧ c'.clear.getMaxTime = .ok T ∧ T < 2 := by
  obtain ⟨S⟩ := solver_exists (K := ℚ)
  obtain ⟨c', e, h, h'⟩ := C73_refuted S [2, 3, 7] [![1], ![4], ![0]] (by simp) (by simp) rfl
    (by simp; norm_num) Nat.one_pos 0 0 0 0 (VectorCurve.fresh : VectorCurve 1 ℚ)
  obtain ⟨T, e1, e2⟩ := h' (by simp)
  exact ⟨S, c', T, e, h, e1, by rwa [h] at e2⟩

end Verif.PolyCurve

import Verif.Qr.Basic
import Verif.PolyCurve.MoreProps

/-!
# C141: a fit of data moved by a constant is the fit moved by that constant

The test `invarianceUnderOffset` of PolynomialSplineQuinticScalarCurveTest.cpp:168-197 for all times,
values, end derivatives and orders. The equations of a fit leave the answer open for order 5 with three or
more knots, so this is a property of the solver: solvers that just solve solvable systems need not have it.
-/

set_option linter.unusedSectionVars false
set_option linter.dupNamespace false

namespace Verif.Qr

open Verif.Spline Verif.Container Verif.Container.Container Verif.PolyCurve

variable {K : Type} [Field K] [LinearOrder K] [IsStrictOrderedRing K] {o : Order}

/-- The coefficients of `n` segments that stand still at `a`. -/
def still (o : Order) (n : ℕ) (a : K) (q : ℕ) : K :=
  if q < n * o.count then (if q % o.count = o.count - 1 then a else 0) else 0

theorem seg_still {n : ℕ} (a : K) (d : K) {j : ℕ} (hj : j < n) : seg o (still o n a) j = (line o a a d).coeffs := by
  funext i
  have h1 : j * o.count + i < n * o.count := by
    have : (j + 1) * o.count ≤ n * o.count := Nat.mul_le_mul_right _ hj
    have := i.2
    rw [Nat.succ_mul] at *
    omega
  have h2 : (j * o.count + i) % o.count = i := by
    rw [Nat.add_comm, Nat.add_mul_mod_self_right, Nat.mod_eq_of_lt i.2]
  simp only [seg, still, Sys.column, if_pos h1, h2, line, sub_self, zero_div, ite_self]

theorem line_still (a d t : K) : inner (line o a a d).coeffs (tau o t) = a ∧
    inner (line o a a d).coeffs (dtau o t) = 0 ∧ inner (line o a a d).coeffs (ddtau o t) = 0 := by
  have := line_coeffs o a a d t
  simpa using this

theorem tau_zero : tau o (0 : K) = tauZero o ∧ dtau o (0 : K) = dtauZero o ∧ ddtau o (0 : K) = ddtauZero o := by
  cases o <;> simp [tau, dtau, ddtau, tauZero, dtauZero, ddtauZero]

/-- Standing still fulfils the equations for equal positions and end derivatives zero. -/
theorem still_eqs (n : ℕ) (hn : 0 < n) (D P : ℕ → K) (a : K) (hP : ∀ j ≤ n, P j = a) (z : List K)
    (hz : ∀ (j : ℕ) (p : K), z[j]? = some p → p = 0) : FitEq o n D P z z (still o n a) := by
  have h0 := line_still (o := o) a 0 0
  rw [tau_zero.1, tau_zero.2.1, tau_zero.2.2] at h0
  have ht : ∀ t, _ := fun t => line_still (o := o) a 0 t
  refine ⟨⟨?_, ?_, ?_⟩, ⟨?_, ?_, ?_⟩, ?_⟩
  · intro p hp
    rw [seg_still a 0 hn, h0.1]
    simp only [List.getElem?_cons_zero, Option.some.injEq] at hp
    rw [← hp, hP 0 (by omega)]
  · intro p hp
    rw [seg_still a 0 hn, h0.2.1]
    exact (hz 0 p (by simpa using hp)).symm
  · intro p hp
    rw [seg_still a 0 hn, h0.2.2]
    exact (hz 1 p (by simpa using hp)).symm
  · intro p hp
    rw [seg_still a 0 (by omega), (ht _).1]
    simp only [List.getElem?_cons_zero, Option.some.injEq] at hp
    rw [← hp, hP n le_rfl]
  · intro p hp
    rw [seg_still a 0 (by omega), (ht _).2.1]
    exact (hz 0 p (by simpa using hp)).symm
  · intro p hp
    rw [seg_still a 0 (by omega), (ht _).2.2]
    exact (hz 1 p (by simpa using hp)).symm
  · intro j hj
    refine ⟨?_, ?_, ?_, ?_⟩
    · rw [seg_still a 0 (by omega), (ht _).1, hP _ (by omega)]
    · rw [seg_still a 0 hj, h0.1, hP _ (by omega)]
    · rw [seg_still a 0 hj, seg_still a 0 (by omega), h0.2.1, (ht _).2.1]
    · rw [seg_still a 0 hj, seg_still a 0 (by omega), h0.2.2, (ht _).2.2]

/-- The segments of a fit start at the given positions. -/
theorem eqs_start {n : ℕ} {D P : ℕ → K} {ini fin : List K} {x : ℕ → K} (h : FitEq o n D P ini fin x) {j : ℕ}
    (hj : j < n) : x (j * o.count + (o.count - 1)) = P j := by
  have : inner (seg o x j) (tauZero o) = P j := by
    cases j with
    | zero => exact h.1.1 _ rfl
    | succ j => exact (h.2.2 j hj).2.1
  rw [inner_tauZero] at this
  exact this

/-- With a solver that leaves unknowns at zero, equal positions and end derivatives zero give a container
that stands still. -/
theorem fit_still (S : Solver K) (hB : Basic (S : RawSolver K)) (e : ℕ) (ts : List K) (z : List K)
    (c : Container o K) (n : ℕ) (hn : 0 < n) (hb : n < 2 ^ 28) (hts : ts.length = n + 1)
    (hinc : ts.Pairwise (· < ·)) (he : 1 ≤ e ∧ e ≤ 3) (hz : ∀ (j : ℕ) (p : K), z[j]? = some p → p = 0)
    (hzl : z.length + 1 = e) (a : K) :
    ∃ c', fit S e ts (List.replicate (n + 1) a) z z c.reset = .ok (true, c') ∧
      c'.splines = (List.range n).map fun j => line o a a (dur ts j) := by
  obtain ⟨s, e1, e2, e3, e4, e5⟩ := fit_solved S e ts (List.replicate (n + 1) a) z z c.reset n hn hb hts
    (by simp) hinc he hzl hzl
  have hk : ∀ j ≤ n, knot (List.replicate (n + 1) a) j = a := fun j hj => by
    rw [knot, List.getElem?_replicate_of_lt (by omega)]
    rfl
  have hst := (e4 _).2 (still_eqs (o := o) n hn (dur ts) _ a hk z hz)
  have hsol := (e4 _).1 (S.exact _ _ _ _ ⟨_, hst⟩)
  have hx := hB.eq hst (fun q hq => by
    have hq1 : q < n * o.count := by
      by_contra hc
      exact hq (by rw [still, if_neg hc])
    have hq2 : q % o.count = o.count - 1 := by
      by_contra hc
      exact hq (by rw [still, if_pos hq1, if_neg hc])
    have ha : a ≠ 0 := by rw [still, if_pos hq1, if_pos hq2] at hq; exact hq
    have hc : 0 < o.count := by cases o <;> simp
    have hj : q / o.count < n := Nat.div_lt_of_lt_mul (by rw [Nat.mul_comm]; exact hq1)
    have := eqs_start hsol hj
    rw [← hq2, Nat.mul_comm, Nat.div_add_mod, hk _ hj.le] at this
    rw [this]
    exact ha)
  rw [hx] at e5
  refine ⟨_, e5, ?_⟩
  simp only [reset, resetTime, List.nil_append]
  refine List.map_congr_left fun j hj => ?_
  rw [seg_still a (dur ts j) (List.mem_range.1 hj)]
  rfl

/-- Segments that stand still at `a`, read. -/
theorem still_read {c : Container o K} {n : ℕ} {D : ℕ → K} {a : K} (hn : 0 < n)
    (hc : c.splines = (List.range n).map fun j => line o a a (D j)) (t : K) :
    c.getPositionAtTime t = .ok a ∧ c.getVelocityAtTime t = .ok 0 ∧ c.getAccelerationAtTime t = .ok 0 := by
  have hne : c.splines ≠ [] := by
    intro h
    rw [hc] at h
    have := congrArg List.length h
    simp at this
    omega
  obtain ⟨k, hk, hfind, -⟩ := findLoop_cases t c.splines hne
  have gx := List.getElem?_eq_getElem hk
  have hs : ∃ d, c.splines[k] = line o a a d := by
    have : c.splines[k]? = ((List.range n).map fun j => line o a a (D j))[k]? := by rw [hc]
    rw [gx] at this
    rw [hc] at hk
    have hk' : k < n := by simpa using hk
    simp only [List.getElem?_map, List.getElem?_range hk', Option.map_some, Option.some.injEq] at this
    exact ⟨_, this⟩
  obtain ⟨d, hd⟩ := hs
  have hr := fun f => atTime_of_find f t c k _ _ gx hfind
  have hl := fun u => line_still (o := o) a d u
  refine ⟨?_, ?_, ?_⟩
  · rw [getPositionAtTime, hr, hd, Spline.getPositionAtTime, (hl _).1]
  · rw [getVelocityAtTime, hr, hd, Spline.getVelocityAtTime, (hl _).2.1]
  · rw [getAccelerationAtTime, hr, hd, Spline.getAccelerationAtTime, (hl _).2.2]

/-- Specification: `z` is `x` moved by `a`, at every time. -/
def Moved (a : K) (x z : Container o K) : Prop :=
  (∀ t, ∃ p, x.getPositionAtTime t = .ok p ∧ z.getPositionAtTime t = .ok (p + a)) ∧
  (∀ t, ∃ p, x.getVelocityAtTime t = .ok p ∧ z.getVelocityAtTime t = .ok p) ∧
  (∀ t, ∃ p, x.getAccelerationAtTime t = .ok p ∧ z.getAccelerationAtTime t = .ok p)

theorem moved_of_superposed {a : K} {x y z : Container o K} (h : Superposed 1 1 x y z)
    (hy : ∀ t, y.getPositionAtTime t = .ok a ∧ y.getVelocityAtTime t = .ok 0 ∧ y.getAccelerationAtTime t = .ok 0) :
    Moved a x z := by
  obtain ⟨h1, h2, h3⟩ := h
  refine ⟨fun t => ?_, fun t => ?_, fun t => ?_⟩
  · obtain ⟨p, q, e1, e2, e3⟩ := h1 t
    rw [(hy t).1] at e2
    cases e2
    exact ⟨p, e1, by rw [e3, one_mul, one_mul]⟩
  · obtain ⟨p, q, e1, e2, e3⟩ := h2 t
    rw [(hy t).2.1] at e2
    cases e2
    exact ⟨p, e1, by rw [e3, one_mul, mul_zero, add_zero]⟩
  · obtain ⟨p, q, e1, e2, e3⟩ := h3 t
    rw [(hy t).2.2] at e2
    cases e2
    exact ⟨p, e1, by rw [e3, one_mul, mul_zero, add_zero]⟩

theorem mix_offset (ps : List K) (n : ℕ) (hp : ps.length = n) (a : K) :
    mix 1 1 ps (List.replicate n a) = ps.map (· + a) := by
  apply List.ext_getElem?
  intro i
  by_cases hi : i < n
  · simp [mix, hp, hi]
  · simp [mix, hp, hi]

theorem straight_still (ts : List K) (n : ℕ) (hn : 0 < n) (hts : ts.length = n + 1)
    (hinc : ts.Pairwise (· < ·)) (a : K) (c : Container o K) :
    ∃ c', setDataLinear ts (List.replicate (n + 1) a) c = .ok (true, c') ∧
      c'.splines = (List.range n).map fun j => line o a a (dur ts j) := by
  obtain ⟨c', e, -, r⟩ := linear_through ts (List.replicate (n + 1) a) n hn hts (by simp) hinc c
  refine ⟨c', e, ?_⟩
  rw [r]
  refine List.map_congr_left fun j hj => ?_
  have := List.mem_range.1 hj
  rw [knot, knot, List.getElem?_replicate_of_lt (by omega), List.getElem?_replicate_of_lt (by omega)]
  rfl

theorem vel_still (S : Solver K) (hB : Basic (S : RawSolver K)) (ts : List K) (n : ℕ) (hn : 0 < n)
    (hb : n < 2 ^ 28) (hts : ts.length = n + 1) (hinc : ts.Pairwise (· < ·)) (a : K) (c : Container o K) :
    ∃ c', setDataVel S ts (List.replicate (n + 1) a) 0 0 c = .ok (true, c') ∧
      c'.splines = (List.range n).map fun j => line o a a (dur ts j) := by
  by_cases ho : 3 ≤ o.deg
  · rw [setDataVel_fit _ _ _ _ _ _ n hn hb hts ho]
    exact fit_still S hB 2 ts [0] c n hn hb hts hinc (by omega) (fun j p h => by
      match j with
      | 0 => simpa using h.symm
      | j + 1 => simp at h) rfl a
  · rw [setDataVel_linear _ _ _ _ _ _ n hn hb hts (show o.deg ≤ 2 by omega)]
    exact straight_still ts n hn hts hinc a c

theorem acc_still (S : Solver K) (hB : Basic (S : RawSolver K)) (ts : List K) (n : ℕ) (hn : 0 < n)
    (hb : n < 2 ^ 28) (hts : ts.length = n + 1) (hinc : ts.Pairwise (· < ·)) (a : K) (c : Container o K) :
    ∃ c', setDataAcc S ts (List.replicate (n + 1) a) 0 0 0 0 c = .ok (true, c') ∧
      c'.splines = (List.range n).map fun j => line o a a (dur ts j) := by
  by_cases ho : o.deg = 5 ∨ o.deg = 4 ∧ 2 ≤ n
  · rw [setDataAcc_fit _ _ _ _ _ _ _ _ n hn hb hts ho]
    exact fit_still S hB 3 ts [0, 0] c n hn hb hts hinc (by omega) (fun j p h => by
      match j with
      | 0 => simpa using h.symm
      | 1 => simpa using h.symm
      | j + 2 => simp at h) rfl a
  · have hle : o.deg ≤ 5 := by cases o <;> simp [Order.deg]
    rw [setDataAcc_vel _ _ _ _ _ _ _ _ n hn hb hts (show o.deg ≤ 3 ∨ o.deg = 4 ∧ n = 1 by omega)]
    exact vel_still S hB ts n hn hb hts hinc a c

/-- **C141.** With a solver as the one the code calls (`solver`): moving all positions by a constant moves
the fitted trajectory by that constant and leaves its velocities and accelerations as they are, at every
time, for every order and any number of knots, in both formulations. -/
theorem C141_offset (S : Solver K) (hS : Superposes (S : RawSolver K)) (hB : Basic (S : RawSolver K))
    (ts ps : List K) (h2 : 2 ≤ ts.length) (hb : ts.length ≤ 2 ^ 28) (hp : ps.length = ts.length)
    (hinc : ts.Pairwise (· < ·)) (v0 a0 vT aT a : K) (c d : Container o K) :
    (∃ x z, setDataAcc S ts ps v0 a0 vT aT c = .ok (true, x) ∧
      setDataAcc S ts (ps.map (· + a)) v0 a0 vT aT d = .ok (true, z) ∧ Moved a x z) ∧
    ∃ x z, setDataVel S ts ps v0 vT c = .ok (true, x) ∧
      setDataVel S ts (ps.map (· + a)) v0 vT d = .ok (true, z) ∧ Moved a x z := by
  obtain ⟨n, hn⟩ : ∃ n, ts.length = n + 1 := ⟨ts.length - 1, by omega⟩
  obtain ⟨h1, h1'⟩ := C139_superposition S hS ts ps (List.replicate (n + 1) a) h2 hb hp (by simp [hn]) hinc
    v0 a0 vT aT 0 0 0 0 1 1 c fresh d
  rw [mix_offset ps (n + 1) (by omega) a] at h1 h1'
  simp only [one_mul, mul_zero, add_zero] at h1 h1'
  constructor
  · obtain ⟨x, y, z, e1, e2, e3, h⟩ := h1
    obtain ⟨y', e4, r⟩ := acc_still S hB ts n (by omega) (by omega) hn hinc a (fresh : Container o K)
    rw [e2] at e4
    cases e4
    exact ⟨x, z, e1, e3, moved_of_superposed h fun t => still_read (by omega) r t⟩
  · obtain ⟨x, y, z, e1, e2, e3, h⟩ := h1'
    obtain ⟨y', e4, r⟩ := vel_still S hB ts n (by omega) (by omega) hn hinc a (fresh : Container o K)
    rw [e2] at e4
    cases e4
    exact ⟨x, z, e1, e3, moved_of_superposed h fun t => still_read (by omega) r t⟩

/-- **C141**, the scalar curve: the test of the project, for all inputs. -/
theorem C141_scalar (S : Solver K) (hS : Superposes (S : RawSolver K)) (hB : Basic (S : RawSolver K))
    (ts vs : List K) (h2 : 2 ≤ ts.length) (hb : ts.length ≤ 2 ^ 28) (hp : vs.length = ts.length)
    (hinc : ts.Pairwise (· < ·)) (v0 a0 vT aT a : K) (c d : ScalarCurve o K) :
    ∃ x z, c.fitCurveWith S ts vs v0 a0 vT aT = .ok x ∧
      d.fitCurveWith S ts (vs.map (· + a)) v0 a0 vT aT = .ok z ∧
      (∀ t, ∃ p, x.evaluate t = .ok p ∧ z.evaluate t = .ok (p + a)) ∧
      ∀ t n, ∃ r, x.evaluateDerivative t n = .ok r ∧ z.evaluateDerivative t n = .ok r := by
  obtain ⟨x, z, e1, e2, h1, h3, h4⟩ := (C141_offset S hS hB ts vs h2 hb hp hinc v0 a0 vT aT a c.container
    d.container).1
  obtain ⟨t0, ht0⟩ : ∃ t0, ts.head? = some t0 := by
    cases ts with
    | nil => simp at h2
    | cons t ts => exact ⟨t, rfl⟩
  refine ⟨⟨x, t0⟩, ⟨z, t0⟩, ?_, ?_, fun t => h1 _, fun t n => ?_⟩
  · simp [ScalarCurve.fitCurveWith, e1, ht0]
  · simp [ScalarCurve.fitCurveWith, e2, ht0]
  · simp only [ScalarCurve.evaluateDerivative]
    split
    · obtain ⟨p, a, b⟩ := h3 (t - t0)
      exact ⟨some p, by rw [a]; rfl, by rw [b]; rfl⟩
    · split
      · obtain ⟨p, a, b⟩ := h4 (t - t0)
        exact ⟨some p, by rw [a]; rfl, by rw [b]; rfl⟩
      · exact ⟨none, rfl, rfl⟩

/-- **C141**, the vector curve: an offset for every component. -/
theorem C141_vector {N : ℕ} (S : Solver K) (hS : Superposes (S : RawSolver K)) (hB : Basic (S : RawSolver K))
    (ts : List K) (vs : List (Fin N → K)) (h2 : 2 ≤ ts.length) (hb : ts.length ≤ 2 ^ 28)
    (hp : vs.length = ts.length) (hinc : ts.Pairwise (· < ·)) (v0 a0 vT aT a : Fin N → K)
    (c d : VectorCurve N K) :
    ∃ x z, c.fitCurveWith S ts vs v0 a0 vT aT = .ok x ∧
      d.fitCurveWith S ts (vs.map fun v i => v i + a i) v0 a0 vT aT = .ok z ∧
      (∀ t i, ∃ p, x.evaluate t i = .ok p ∧ z.evaluate t i = .ok (p + a i)) ∧
      ∀ t n i, ∃ r, x.evaluateDerivative t n i = .ok r ∧ z.evaluateDerivative t n i = .ok r := by
  obtain ⟨x, e1, h1⟩ := C71_vector_is_scalar S ts vs h2 hb hp hinc v0 a0 vT aT c
  obtain ⟨z, e3, h3⟩ := C71_vector_is_scalar S ts (vs.map fun v i => v i + a i) h2 hb (by simpa using hp) hinc
    v0 a0 vT aT d
  have key : ∀ i, ∃ y w : ScalarCurve .o5 K, (∀ t, x.evaluate t i = y.evaluate (t + ts[0]) ∧
      ∀ k, x.evaluateDerivative t k i = y.evaluateDerivative (t + ts[0]) k) ∧
      (∀ t, z.evaluate t i = w.evaluate (t + ts[0]) ∧
      ∀ k, z.evaluateDerivative t k i = w.evaluateDerivative (t + ts[0]) k) ∧
      (∀ t, ∃ p, y.evaluate t = .ok p ∧ w.evaluate t = .ok (p + a i)) ∧
      ∀ t n, ∃ r, y.evaluateDerivative t n = .ok r ∧ w.evaluateDerivative t n = .ok r := by
    intro i
    obtain ⟨y, f1, g1⟩ := h1 i
    obtain ⟨w, f3, g3⟩ := h3 i
    obtain ⟨y', w', k1, k2, k3⟩ := C141_scalar S hS hB ts (vs.map (· i)) h2 hb (by simpa using hp) hinc
      (v0 i) (a0 i) (vT i) (aT i) (a i) (ScalarCurve.fresh (o := .o5)) ScalarCurve.fresh
    rw [f1] at k1
    cases k1
    rw [List.map_map] at f3 k2
    have : w = w' := by
      have := f3.symm.trans k2
      cases this
      rfl
    subst this
    exact ⟨y, w, g1, g3, k3⟩
  refine ⟨x, z, e1, e3, fun t i => ?_, fun t n i => ?_⟩
  · obtain ⟨y, w, g1, g3, k, -⟩ := key i
    rw [(g1 t).1, (g3 t).1]
    exact k _
  · obtain ⟨y, w, g1, g3, -, k⟩ := key i
    rw [(g1 t).2, (g3 t).2]
    exact k _ n

/-- **C141 is false** of solvers that merely solve solvable systems: for order 5, whatever the three or more
knots, the end derivatives and the offset, there is one for which the fit of the moved positions is not the
moved fit. -/
theorem C141_refuted (ts ps : List K) (h3 : 3 ≤ ts.length) (hb : ts.length ≤ 2 ^ 28)
    (hp : ps.length = ts.length) (hinc : ts.Pairwise (· < ·)) (v0 a0 vT aT a : K) (ha : a ≠ 0)
    (c d : Container .o5 K) :
    ∃ (S : Solver K) (x z : Container .o5 K), setDataAcc S ts ps v0 a0 vT aT c = .ok (true, x) ∧
      setDataAcc S ts (ps.map (· + a)) v0 a0 vT aT d = .ok (true, z) ∧ ¬ Moved a x z := by
  classical
  obtain ⟨n, hn⟩ : ∃ n, ts.length = n + 1 := ⟨ts.length - 1, by omega⟩
  have hset := fun (S : RawSolver K) (qs : List K) (e : Container .o5 K) =>
    setDataAcc_fit (o := .o5) S ts qs v0 a0 vT aT e n (by omega) (by omega) hn (Or.inl rfl)
  have hfit := fun (S : Solver K) => fit_solved (o := .o5) S 3 ts ps [v0, a0] [vT, aT] c.reset n (by omega)
    (by omega) hn (by omega) hinc (by omega) rfl rfl
  have hfit' := fun (S : Solver K) => fit_solved (o := .o5) S 3 ts (ps.map (· + a)) [v0, a0] [vT, aT] d.reset n
    (by omega) (by omega) hn (by simp; omega) hinc (by omega) rfl rfl
  obtain ⟨S0⟩ := solver_exists (K := K)
  obtain ⟨s, e1, -, -, e4, -⟩ := hfit S0
  obtain ⟨s', e1', -, -, e4', -⟩ := hfit' S0
  obtain ⟨F, hdet⟩ : ∃ F : (ℕ → K) → Container .o5 K, ∀ S : Solver K,
      fit S 3 ts ps [v0, a0] [vT, aT] c.reset =
        .ok (true, F (S.solve s.rows s.cols s.A s.b)) := ⟨fun y => { c.reset with
        splines := c.reset.splines ++ (List.range n).map fun j =>
          ⟨seg .o5 y j, dur ts j⟩
        duration := c.reset.duration + ((List.range n).map (dur ts)).sum }, fun S => by
    obtain ⟨u, f1, -, -, -, f5⟩ := hfit S
    rw [e1] at f1
    cases f1
    exact f5⟩
  obtain ⟨F', hdet'⟩ : ∃ F : (ℕ → K) → Container .o5 K, ∀ S : Solver K,
      fit S 3 ts (ps.map (· + a)) [v0, a0] [vT, aT] d.reset =
        .ok (true, F (S.solve s'.rows s'.cols s'.A s'.b)) := ⟨fun y => { d.reset with
        splines := d.reset.splines ++ (List.range n).map fun j =>
          ⟨seg .o5 y j, dur ts j⟩
        duration := d.reset.duration + ((List.range n).map (dur ts)).sum }, fun S => by
    obtain ⟨u, f1, -, -, -, f5⟩ := hfit' S
    rw [e1'] at f1
    cases f1
    exact f5⟩
  by_cases hm : ∃ x z : Container .o5 K, setDataAcc S0 ts ps v0 a0 vT aT c = .ok (true, x) ∧
      setDataAcc S0 ts (ps.map (· + a)) v0 a0 vT aT d = .ok (true, z) ∧ ¬ Moved a x z
  · exact ⟨S0, hm⟩
  · have hmv : Moved a (F (S0.solve s.rows s.cols s.A s.b)) (F' (S0.solve s'.rows s'.cols s'.A s'.b)) := by
      by_contra hc
      exact hm ⟨_, _, by rw [hset, hdet S0], by rw [hset, hdet' S0], hc⟩
    have hlt := List.pairwise_iff_getElem.1 hinc 0 1 (by omega) (by omega) (by omega)
    obtain ⟨m, hm0⟩ : ∃ m : K, m = (ts[0] + ts[1]) / 2 := ⟨_, rfl⟩
    obtain ⟨p, hp0, hp1⟩ := hmv.1 (m - ts[0])
    obtain ⟨S1, x1, q1, q2⟩ := C88_quintic_refuted ts ps h3 hb hp hinc v0 a0 vT aT c 0 (by omega)
        m (by linarith) (by simp only [zero_add]; linarith) (p + 1)
    let S : Solver K := ⟨⟨fun r k A b => if r = s.rows ∧ k = s.cols ∧ A = s.A ∧ b = s.b then S1.solve r k A b
      else S0.solve r k A b⟩, fun r k A b h => by
        by_cases hh : r = s.rows ∧ k = s.cols ∧ A = s.A ∧ b = s.b
        · simp only [if_pos hh]
          exact S1.exact r k A b h
        · simp only [if_neg hh]
          exact S0.exact r k A b h⟩
    have hS : S.solve s.rows s.cols s.A s.b = S1.solve s.rows s.cols s.A s.b := if_pos ⟨rfl, rfl, rfl, rfl⟩
    have hS' : S.solve s'.rows s'.cols s'.A s'.b = S0.solve s'.rows s'.cols s'.A s'.b := by
      refine if_neg fun hh => ?_
      obtain ⟨x, hx⟩ := solvable_acc5 n (by omega) (dur ts) (knot ps) (dur_pos hinc) v0 a0 vT aT
      have h1 := (e4 x).2 hx
      rw [← hh.1, ← hh.2.1, ← hh.2.2.1, ← hh.2.2.2] at h1
      have h2 := (e4' x).1 h1
      have k1 := eqs_start hx (j := 0) (by omega)
      have k2 := eqs_start h2 (j := 0) (by omega)
      rw [k1, knot, knot, List.getElem?_map, List.getElem?_eq_getElem (by omega)] at k2
      simp at k2
      exact ha k2
    refine ⟨S, _, _, by rw [hset, hdet S], by rw [hset, hdet' S], fun hc => ?_⟩
    rw [hS, hS'] at hc
    obtain ⟨p', r1, r2⟩ := hc.1 (m - ts[0])
    rw [hp1] at r2
    beta_reduce at q1
    rw [hset, hdet S1] at q1
    cases q1
    rw [q2] at r1
    cases r1
    simp only [Outcome.ok.injEq] at r2
    linarith

/-- An instance of C141: the data of the test of the project, with the solver of the code. -/
example : ∃ x z : ScalarCurve .o5 ℝ,
    ScalarCurve.fresh.fitCurveWith solver [0, 0.41545, 0.58075] [0, 0.1, 0] 0 0 0 0 = .ok x ∧
    ScalarCurve.fresh.fitCurveWith solver [0, 0.41545, 0.58075] [-0.05, 0.05, -0.05] 0 0 0 0 = .ok z ∧
    ∀ t, ∃ p, x.evaluate t = .ok p ∧ z.evaluate t = .ok (p + -0.05) := by
  obtain ⟨x, z, h1, h2, h3, -⟩ := C141_scalar (o := .o5) solver solver_superposes solver_basic
    [0, 0.41545, 0.58075] [0, 0.1, 0] (by simp) (by norm_num) rfl (by norm_num) 0 0 0 0 (-0.05)
    ScalarCurve.fresh ScalarCurve.fresh
  refine ⟨x, z, h1, ?_, h3⟩
  rw [← h2]
  norm_num

end Verif.Qr

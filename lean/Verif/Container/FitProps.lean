import Verif.Container.Glue

/-!
# Properties C20 - C24 and the container part of C48: fitting a container

`ts`, `ps` are the knot times and positions given to `setData`. `S` is the linear solver, of which only
its contract is used. The bound `ts.length ≤ 2 ^ 28` keeps the `unsigned int` sizes of the code from
wrapping.
-/

set_option linter.unusedSectionVars false
set_option linter.dupNamespace false

namespace Verif.Container

open Verif.Spline Container

section field
variable {K : Type} [Field K] [LinearOrder K] [IsStrictOrderedRing K] {o : Order}

/-- Specification: the call succeeds and the container passes through every knot. -/
def Interpolates (ts ps : List K) (r : Outcome (Bool × Container o K)) : Prop :=
  ∃ c, r = .ok (true, c) ∧ ∀ (i : ℕ) (h : i < ts.length) (h' : i < ps.length),
    c.getPositionAtTime (ts[i] - ts[0]) = .ok ps[i]

/-- Specification: adjacent segments have the same position, velocity and acceleration where they
meet. -/
def JoinsSmoothly (c : Container o K) : Prop :=
  ∀ j s s', c.splines[j]? = some s → c.splines[j + 1]? = some s' →
    s.getPositionAtTime s.duration = s'.getPositionAtTime 0 ∧
    s.getVelocityAtTime s.duration = s'.getVelocityAtTime 0 ∧
    s.getAccelerationAtTime s.duration = s'.getAccelerationAtTime 0

theorem Container.Through.to_interpolates {ts ps : List K} {r : Outcome (Bool × Container o K)}
    {c : Container o K} (e : r = .ok (true, c)) (h : Through ts ps c) (hinc : ts.Pairwise (· < ·))
    (h2 : 2 ≤ ts.length) : Interpolates ts ps r := by
  refine ⟨c, e, fun i hi hi' => ?_⟩
  have := h.interpolates hinc h2 i hi
  rwa [knot_eq hi, knot_eq (by omega), knot_eq hi'] at this

/-- **C20.** For strictly increasing times with at least two knots and as many positions, each of the
three `setData` variants succeeds, for every order, every end derivatives and every previous content
`c` of the container, and the result passes through all knots. -/
theorem C20_interpolates (S : Solver K) (ts ps : List K) (h2 : 2 ≤ ts.length)
    (hb : ts.length ≤ 2 ^ 28) (hl : ps.length = ts.length) (hinc : ts.Pairwise (· < ·))
    (v0 a0 vT aT : K) (c : Container o K) :
    Interpolates ts ps (setDataLinear ts ps c) ∧ Interpolates ts ps (setDataVel S ts ps v0 vT c) ∧
      Interpolates ts ps (setDataAcc S ts ps v0 a0 vT aT c) := by
  obtain ⟨n, hn⟩ : ∃ n, ts.length = n + 1 := ⟨ts.length - 1, by omega⟩
  refine ⟨?_, ?_, ?_⟩
  · obtain ⟨c', e, h, -⟩ := linear_through ts ps n (by omega) hn (by omega) hinc c
    exact h.to_interpolates e hinc h2
  · obtain ⟨c', e, h⟩ := vel_through S ts ps v0 vT c n (by omega) (by omega) hn (by omega) hinc
    exact h.to_interpolates e hinc h2
  · obtain ⟨c', e, h⟩ := acc_through S ts ps v0 a0 vT aT c n (by omega) (by omega) hn (by omega) hinc
    exact h.to_interpolates e hinc h2

/-- C20 has a non-trivial instance: three unevenly spaced knots, order 4. -/
example : ∃ S : Solver ℚ, Interpolates [0, 1, 3] [5, -1, 2]
    (setDataAcc S [0, 1, 3] [5, -1, 2] 1 2 3 4 (fresh : Container .o4 ℚ)) := by
  obtain ⟨S⟩ := solver_exists (K := ℚ)
  have := C20_interpolates S [0, 1, 3] [5, -1, 2] (by simp) (by simp) rfl (by simp) 1 2 3 4
    (fresh : Container .o4 ℚ)
  exact ⟨S, this.2.2⟩

theorem Container.Through.joins {ts ps : List K} {c : Container o K} (h : Through ts ps c)
    (hs : Smooth c) : JoinsSmoothly c := by
  intro j s s' e e'
  exact ⟨(h.seg j s e).2.2.trans (h.seg (j + 1) s' e').2.1.symm, hs.vel j s s' e e',
    hs.acc j s s' e e'⟩

theorem Container.Through.ends {ts ps : List K} {c : Container o K} (h : Through ts ps c)
    (hinc : ts.Pairwise (· < ·)) (h2 : 2 ≤ ts.length) (f : Spline o K → K → K) (x y : K)
    (hx : ∀ s, c.splines[0]? = some s → f s 0 = x)
    (hy : ∀ s, c.splines.getLast? = some s → f s s.duration = y) :
    c.atTime f 0 = .ok x ∧ c.atTime f (ts[ts.length - 1] - ts[0]) = .ok y ∧ c.atEnd f = y := by
  have hl := h.len
  have e0 : c.splines[0]? = some (c.splines[0]'(by omega)) := List.getElem?_eq_getElem _
  have eT : c.splines.getLast? = some (c.splines[c.splines.length - 1]'(by omega)) := by
    rw [List.getLast?_eq_getElem?]; exact List.getElem?_eq_getElem _
  refine ⟨?_, ?_, ?_⟩
  · have := h.at_knot hinc f 0 _ e0
    rw [sub_self] at this
    rw [this, hx _ e0]
  · have := h.at_last hinc f _ eT
    rw [hy _ eT] at this
    rw [show c.splines.length = ts.length - 1 by omega] at this
    rw [← knot_eq (by omega), ← knot_eq (show 0 < ts.length by omega), this]
  · rw [atEnd, eT]; exact hy _ eT

/-- **C21**, acceleration formulation: order 5, and order 4 with at least two segments. -/
theorem C21_smooth_acc (S : Solver K) (ts ps : List K) (h2 : 2 ≤ ts.length)
    (hb : ts.length ≤ 2 ^ 28) (hl : ps.length = ts.length) (hinc : ts.Pairwise (· < ·))
    (ho : o = .o5 ∨ o = .o4 ∧ 3 ≤ ts.length) (v0 a0 vT aT : K) (c : Container o K) :
    ∃ c', setDataAcc S ts ps v0 a0 vT aT c = .ok (true, c') ∧
      c'.splines.length + 1 = ts.length ∧ JoinsSmoothly c' ∧
      c'.getVelocityAtTime 0 = .ok v0 ∧ c'.getAccelerationAtTime 0 = .ok a0 ∧
      c'.getVelocityAtTime (ts[ts.length - 1] - ts[0]) = .ok vT ∧
      c'.getAccelerationAtTime (ts[ts.length - 1] - ts[0]) = .ok aT ∧
      c'.getEndVelocity = vT ∧ c'.getEndAcceleration = aT := by
  obtain ⟨n, hn⟩ : ∃ n, ts.length = n + 1 := ⟨ts.length - 1, by omega⟩
  obtain ⟨c', e, h, hs, hi, hf⟩ := acc_ok S ts ps v0 a0 vT aT c n (by omega) (by omega) hn (by omega)
    hinc (by rcases ho with rfl | ⟨rfl, h⟩ <;> simp [Order.deg] <;> omega)
  have k1 := h.ends hinc h2 Spline.getVelocityAtTime v0 vT (fun s e => (hi s e).1)
    (fun s e => (hf s e).1)
  have k2 := h.ends hinc h2 Spline.getAccelerationAtTime a0 aT (fun s e => (hi s e).2)
    (fun s e => (hf s e).2)
  exact ⟨c', e, h.len, h.joins hs, k1.1, k2.1, k1.2.1, k2.2.1, k1.2.2, k2.2.2⟩

/-- **C21**, velocity formulation: `setData` with accelerations for order 3 and for order 4 with one
segment, and `setData` with velocities for the orders 3, 4 and 5. -/
theorem C21_smooth_vel (S : Solver K) (ts ps : List K) (h2 : 2 ≤ ts.length)
    (hb : ts.length ≤ 2 ^ 28) (hl : ps.length = ts.length) (hinc : ts.Pairwise (· < ·))
    (v0 a0 vT aT : K) (c : Container o K) (r : Outcome (Bool × Container o K))
    (hr : (o = .o3 ∨ o = .o4 ∧ ts.length = 2) ∧ r = setDataAcc S ts ps v0 a0 vT aT c ∨
      (o = .o3 ∨ o = .o4 ∨ o = .o5) ∧ r = setDataVel S ts ps v0 vT c) :
    ∃ c', r = .ok (true, c') ∧
      c'.splines.length + 1 = ts.length ∧ JoinsSmoothly c' ∧
      c'.getVelocityAtTime 0 = .ok v0 ∧
      c'.getVelocityAtTime (ts[ts.length - 1] - ts[0]) = .ok vT ∧ c'.getEndVelocity = vT := by
  obtain ⟨n, hn⟩ : ∃ n, ts.length = n + 1 := ⟨ts.length - 1, by omega⟩
  have hd : 3 ≤ o.deg := by
    rcases hr with ⟨h | h, -⟩ | ⟨h | h | h, -⟩ <;> simp [h, Order.deg]
  obtain ⟨c', e, h, hs, hi, hf⟩ := vel_ok S ts ps v0 vT c n (by omega) (by omega) hn (by omega)
    hinc hd
  have k1 := h.ends hinc h2 Spline.getVelocityAtTime v0 vT hi hf
  refine ⟨c', ?_, h.len, h.joins hs, k1⟩
  rcases hr with ⟨ho, rfl⟩ | ⟨-, rfl⟩
  · rw [setDataAcc_vel S ts ps v0 a0 vT aT c n (by omega) (by omega) hn, e]
    rcases ho with rfl | ⟨rfl, h⟩
    · exact Or.inl (by simp [Order.deg])
    · exact Or.inr ⟨rfl, by omega⟩
  · exact e

/-- An instance of C21: order 5, two segments, non-zero end derivatives. -/
example : ∃ (S : Solver ℚ) (c' : Container .o5 ℚ),
    setDataAcc S [0, 1, 3] [5, -1, 2] 1 2 3 4 fresh = .ok (true, c') ∧ c'.getEndVelocity = 3 := by
  obtain ⟨S⟩ := solver_exists (K := ℚ)
  obtain ⟨c', h⟩ := C21_smooth_acc S [0, 1, 3] [5, -1, 2] (by simp) (by simp) rfl (by simp)
    (Or.inl rfl) 1 2 3 4 (fresh : Container .o5 ℚ)
  exact ⟨S, c', h.1, h.2.2.2.2.2.2.2.1⟩

/-- **C22.** The equations that `setData` assembles (segment durations, then matrix and right-hand
side with the sizes the code computes) have a solution: acceleration variant (`e = 3`) for order 5 and
for order 4 with at least two segments, velocity variant (`e = 2`) for the orders 3, 4, 5. -/
theorem C22_consistent (ts ps : List K) (h2 : 2 ≤ ts.length) (hb : ts.length ≤ 2 ^ 28)
    (hl : ps.length = ts.length) (hinc : ts.Pairwise (· < ·)) (v0 a0 vT aT : K)
    (e : ℕ) (ini fin : List K)
    (ho : (o = .o5 ∨ o = .o4 ∧ 3 ≤ ts.length) ∧ e = 3 ∧ ini = [v0, a0] ∧ fin = [vT, aT] ∨
      (o = .o3 ∨ o = .o4 ∨ o = .o5) ∧ e = 2 ∧ ini = [v0] ∧ fin = [vT]) :
    ∃ ds s, segDurations ts (numSplines ts) 0 = .ok (some ds) ∧
      assembleWith o (numConstraints e (numSplines ts)) (solutionDim o (numSplines ts))
        (numJunctions (numSplines ts)) ps ds ini fin = .ok s ∧
      s.rows = numConstraints e (numSplines ts) ∧ s.rows = s.next ∧
      ∃ x, Solves s.rows s.cols s.A s.b x := by
  obtain ⟨n, hn⟩ : ∃ n, ts.length = n + 1 := ⟨ts.length - 1, by omega⟩
  have he : e ≤ 3 ∧ 1 ≤ e := by rcases ho with ⟨-, rfl, -⟩ | ⟨-, rfl, -⟩ <;> omega
  have hsol : ∃ x, FitEq o n (dur ts) (knot ps) ini fin x := by
    rcases ho with ⟨rfl | ⟨rfl, h⟩, rfl, rfl, rfl⟩ | ⟨h, rfl, rfl, rfl⟩
    · exact solvable_acc5 n (by omega) _ _ (dur_pos hinc) v0 a0 vT aT
    · exact solvable_acc4 n (by omega) _ _ (dur_pos hinc) v0 a0 vT aT
    · exact solvable_vel o (by rcases h with rfl | rfl | rfl <;> simp [Order.deg]) n (by omega) _ _
        (dur_pos hinc) v0 vT
  have hini : ini.length + 1 = e ∧ fin.length + 1 = e := by
    rcases ho with ⟨-, rfl, rfl, rfl⟩ | ⟨-, rfl, rfl, rfl⟩ <;> simp
  rw [numSplines_eq ts n hn (by omega), numConstraints_eq e n (by omega) (by omega) he.1,
    numJunctions_eq n (by omega) (by omega), solutionDim_eq o n (by omega)]
  have hs := segDurations_ok ts hinc n 0 (by omega)
  simp only [Nat.zero_add] at hs
  obtain ⟨s, e1, e2, e3, e4, e5⟩ := assembleWith_eq o e n _ ps ((List.range n).map (dur ts)) ini fin
    (dur ts) (knot ps) (by omega) rfl (by omega) (by simp) (by intro j hj; simp [hj])
    (fun j hj => getElem?_knot (by omega)) ⟨he.2, he.1⟩ hini.1 hini.2
  obtain ⟨x, hx⟩ := hsol
  exact ⟨_, s, hs, e1, e3, by rw [e3, e2], x, (e5 x).mpr hx⟩

/-- **C23.** Which formulation `setData` with accelerations uses depends on order and segment count
only (the knots need not even be increasing): straight lines for the orders 1 and 2, velocities for
order 3 and for order 4 with one segment, otherwise the equations with accelerations. What the three
formulations achieve is C20 and C21. -/
theorem C23_choice (S : Solver K) (ts ps : List K) (h2 : 2 ≤ ts.length) (hb : ts.length ≤ 2 ^ 28)
    (v0 a0 vT aT : K) (c : Container o K) :
    (o = .o1 ∨ o = .o2 → setDataAcc S ts ps v0 a0 vT aT c = setDataLinear ts ps c ∧
      setDataVel S ts ps v0 vT c = setDataLinear ts ps c) ∧
    (o = .o3 ∨ o = .o4 ∧ ts.length = 2 →
      setDataAcc S ts ps v0 a0 vT aT c = fit S 2 ts ps [v0] [vT] c.reset ∧
      setDataAcc S ts ps v0 a0 vT aT c = setDataVel S ts ps v0 vT c) ∧
    (o = .o4 ∧ 3 ≤ ts.length ∨ o = .o5 →
      setDataAcc S ts ps v0 a0 vT aT c = fit S 3 ts ps [v0, a0] [vT, aT] c.reset) := by
  obtain ⟨n, hn⟩ : ∃ n, ts.length = n + 1 := ⟨ts.length - 1, by omega⟩
  have hn0 : 0 < n := by omega
  have hb' : n < 2 ^ 28 := by omega
  refine ⟨fun h => ?_, fun h => ?_, fun h => ?_⟩
  · have hd : o.deg ≤ 2 := by rcases h with rfl | rfl <;> simp [Order.deg]
    rw [setDataAcc_vel S ts ps v0 a0 vT aT c n hn0 hb' hn (Or.inl (by omega)),
      setDataVel_linear S ts ps v0 vT c n hn0 hb' hn hd]
    exact ⟨rfl, rfl⟩
  · have hd : 3 ≤ o.deg := by rcases h with rfl | ⟨rfl, -⟩ <;> simp [Order.deg]
    rw [setDataAcc_vel S ts ps v0 a0 vT aT c n hn0 hb' hn (by
        rcases h with rfl | ⟨rfl, h⟩
        · exact Or.inl (by simp [Order.deg])
        · exact Or.inr ⟨rfl, by omega⟩),
      setDataVel_fit S ts ps v0 vT c n hn0 hb' hn hd]
    exact ⟨rfl, rfl⟩
  · exact setDataAcc_fit S.toRawSolver ts ps v0 a0 vT aT c n hn0 hb' hn (by
      rcases h with ⟨rfl, h⟩ | rfl
      · exact Or.inr ⟨rfl, by omega⟩
      · exact Or.inl rfl)

/-! ## C24: failure -/

theorem fit_bad (S : Solver K) (e : ℕ) (ts ps ini fin : List K) (c : Container o K) (n : ℕ)
    (hts : ts.length = n + 1) (hb : n < 2 ^ 28)
    (hbad : ∃ j < n, knot ts (j + 1) ≤ knot ts j) :
    fit S e ts ps ini fin c = .ok (false, c) := by
  have := segDurations_bad ts n 0 (by omega) (by simpa using hbad)
  rw [fit, fitWith, numSplines_eq ts n hts hb, this]
  rfl

/-- **C24 (partial).** For the orders 3, 4, 5, whatever the container held before, `setData` with
velocities or accelerations on knots that are not strictly increasing returns false and leaves an
empty container: duration 0, position 0 at every time. Missing: the straight-line formulation
(orders 1, 2, and the variant without derivatives), where the property is false, see
`C24_linear_keeps_prefix`. -/
theorem C24_failed_partial (S : Solver K) (ts ps : List K) (hb : ts.length ≤ 2 ^ 28)
    (ho : o = .o3 ∨ o = .o4 ∨ o = .o5) (i : ℕ) (hi : i + 1 < ts.length) (hbad : ts[i + 1] ≤ ts[i])
    (v0 a0 vT aT : K) (c : Container o K) (r : Outcome (Bool × Container o K))
    (hr : r = setDataVel S ts ps v0 vT c ∨ r = setDataAcc S ts ps v0 a0 vT aT c) :
    ∃ c', r = .ok (false, c') ∧ c'.splines = [] ∧ c'.duration = 0 ∧ c'.getPosition = .ok 0 ∧
      ∀ t, c'.getPositionAtTime t = .ok 0 := by
  obtain ⟨n, hn⟩ : ∃ n, ts.length = n + 1 := ⟨ts.length - 1, by omega⟩
  have hn0 : 0 < n := by omega
  have hb' : n < 2 ^ 28 := by omega
  have hd : 3 ≤ o.deg := by rcases ho with rfl | rfl | rfl <;> simp [Order.deg]
  have hk : ∃ j < n, knot ts (j + 1) ≤ knot ts j :=
    ⟨i, by omega, by rwa [knot_eq hi, knot_eq (by omega)]⟩
  refine ⟨c.reset, ?_, rfl, rfl, by simp [getPosition, current, reset, resetTime], fun t =>
    atTime_empty _ _ _ rfl⟩
  have hv : setDataVel S ts ps v0 vT c = .ok (false, c.reset) := by
    rw [setDataVel_fit S ts ps v0 vT c n hn0 hb' hn hd, fit_bad S 2 ts ps _ _ _ n hn hb' hk]
  rcases hr with rfl | rfl
  · exact hv
  · by_cases h : o.deg = 5 ∨ o.deg = 4 ∧ 2 ≤ n
    · rw [setDataAcc_fit S ts ps v0 a0 vT aT c n hn0 hb' hn h, fit_bad S 3 ts ps _ _ _ n hn hb' hk]
    · have hle : o.deg ≤ 5 := by cases o <;> simp [Order.deg]
      rw [setDataAcc_vel S ts ps v0 a0 vT aT c n hn0 hb' hn (by omega), hv]

/-- An instance of C24. -/
example : ∃ (S : Solver ℚ) (c' : Container .o3 ℚ),
    setDataVel S [0, 2, 1] [5, -1, 2] 1 2 fresh = .ok (false, c') ∧ c'.duration = 0 := by
  obtain ⟨S⟩ := solver_exists (K := ℚ)
  obtain ⟨c', h⟩ := C24_failed_partial S [0, 2, 1] [5, -1, 2] (by simp) (Or.inl rfl) 1 (by simp)
    (by simp) 1 0 2 0 (fresh : Container .o3 ℚ) _ (Or.inl rfl)
  exact ⟨S, c', h.1, h.2.2.1⟩

theorem linearLoop_stop (ts ps : List K) (m : ℕ) : ∀ (k i : ℕ) (c : Container o K),
    m < k → i + k + 1 ≤ ts.length → i + m + 1 ≤ ps.length →
    (∀ j < m, knot ts (i + j) < knot ts (i + j + 1)) → knot ts (i + m + 1) ≤ knot ts (i + m) →
    ∃ c', linearLoop ts ps k i c = .ok (false, c') ∧
      c'.splines.length = c.splines.length + m ∧
      c'.duration = c.duration + (knot ts (i + m) - knot ts i) := by
  induction m with
  | zero =>
    intro k i c hk hl hp _ hbad
    obtain ⟨k, rfl⟩ : ∃ k', k = k' + 1 := ⟨k - 1, by omega⟩
    rw [linearLoop, getElem?_knot (l := ts) (j := i + 1) (by omega),
      getElem?_knot (l := ts) (j := i) (by omega)]
    simp only [Outcome.deref_some, Outcome.ok_bind]
    rw [if_pos (sub_nonpos.mpr (by simpa using hbad))]
    exact ⟨c, rfl, by simp, by simp⟩
  | succ m ih =>
    intro k i c hk hl hp hlt hbad
    obtain ⟨k, rfl⟩ : ∃ k', k = k' + 1 := ⟨k - 1, by omega⟩
    have h0 := hlt 0 (by omega)
    rw [linearLoop, getElem?_knot (l := ts) (j := i + 1) (by omega),
      getElem?_knot (l := ts) (j := i) (by omega), getElem?_knot (l := ps) (j := i + 1) (by omega),
      getElem?_knot (l := ps) (j := i) (by omega)]
    simp only [Outcome.deref_some, Outcome.ok_bind]
    rw [if_neg (not_le.mpr (sub_pos.mpr (by simpa using h0)))]
    obtain ⟨c', e, h1, h2⟩ := ih k (i + 1) _ (by omega) (by omega) (by omega)
      (fun j hj => by
        have := hlt (j + 1) (by omega)
        rw [show i + 1 + j = i + (j + 1) by omega]; exact this)
      (by rw [show i + 1 + m = i + (m + 1) by omega]; exact hbad)
    refine ⟨c', e, ?_, ?_⟩
    · rw [h1]; simp [addSpline]; omega
    · rw [h2, show i + 1 + m = i + (m + 1) by omega]; simp [addSpline]; ring

/-- **C24 is false of the straight-line formulation**, on all inputs: if the first non-positive segment
is number `m`, the call returns false but the container keeps the `m` segments before it, and
duration `ts[m] - ts[0]` (positive when `m > 0`). -/
theorem C24_linear_keeps_prefix (S : Solver K) (ts ps : List K) (hb : ts.length ≤ 2 ^ 28)
    (hl : ps.length = ts.length) (m : ℕ) (hm : m + 1 < ts.length) (hbad : ts[m + 1] ≤ ts[m])
    (hgood : ∀ (j : ℕ) (h : j < m), ts[j] < ts[j + 1]) (v0 a0 vT aT : K) (c : Container o K)
    (r : Outcome (Bool × Container o K))
    (hr : r = setDataLinear ts ps c ∨
      (o = .o1 ∨ o = .o2) ∧ (r = setDataVel S ts ps v0 vT c ∨ r = setDataAcc S ts ps v0 a0 vT aT c)) :
    ∃ c', r = .ok (false, c') ∧ c'.splines.length = m ∧ c'.duration = ts[m] - ts[0] := by
  have hr' : r = setDataLinear ts ps c := by
    rcases hr with h | ⟨ho, h⟩
    · exact h
    · have := (C23_choice S ts ps (by omega) hb v0 a0 vT aT c).1 ho
      rcases h with rfl | rfl
      · exact this.2
      · exact this.1
  obtain ⟨c', e, h1, h2⟩ := linearLoop_stop ts ps m (ts.length - 1) 0 c.reset (by omega) (by omega)
    (by omega) (fun j hj => by
      rw [zero_add, knot_eq (by omega), knot_eq (by omega)]; exact hgood j hj)
    (by rw [zero_add, knot_eq (by omega), knot_eq (by omega)]; exact hbad)
  refine ⟨c', ?_, ?_, ?_⟩
  · rw [hr', setDataLinear, if_neg (by omega), e]
  · simpa [reset, resetTime] using h1
  · rw [h2, zero_add, knot_eq (by omega), knot_eq (by omega)]; simp [reset, resetTime]

/-- The counterexample to C24 in numbers. -/
theorem C24_refuted : ∃ c' : Container .o1 ℚ,
    setDataLinear [0, 1, 1] [0, 7, 9] fresh = .ok (false, c') ∧ c'.duration = 1 ∧
      c'.splines ≠ [] := by
  obtain ⟨S⟩ := solver_exists (K := ℚ)
  obtain ⟨c', h⟩ := C24_linear_keeps_prefix S [0, 1, 1] [0, 7, 9] (by simp) rfl 1 (by simp) (by simp)
    (by intro j hj; obtain rfl : j = 0 := by omega
        simp) 0 0 0 0 (fresh : Container .o1 ℚ) _ (Or.inl rfl)
  exact ⟨c', h.1, by simpa using h.2.2, by intro h0; have := h.2.1; simp [h0] at this⟩

/-! ## C48: empty knot lists -/

theorem segDurations_nil (k i : ℕ) (hk : 0 < k) : segDurations ([] : List K) k i = .ub := by
  obtain ⟨k, rfl⟩ : ∃ k', k = k' + 1 := ⟨k - 1, by omega⟩
  simp [segDurations]

theorem fit_nil (S : Solver K) (e : ℕ) (ps ini fin : List K) (c : Container o K) :
    fit S e [] ps ini fin c = .ub := by
  rw [fit, fitWith, segDurations_nil _ _ (by simp [numSplines, sizeMinus1, u32])]
  rfl

theorem solutionDim_nil (o : Order) : solutionDim o (numSplines ([] : List K)) = 2 ^ 32 - o.count := by
  cases o <;> simp [solutionDim, numSplines, sizeMinus1, u32, Order.deg, Order.count]

theorem numConstraints_nil : numConstraints 3 (numSplines ([] : List K)) = 2 ^ 32 - 2 ∧
    numConstraints 2 (numSplines ([] : List K)) = 2 ^ 32 - 4 := by
  constructor <;> simp [numConstraints, numJunctions, numSplines, sizeMinus1, u32]

/-- **C48 (container, partial).** The straight-line variant refuses an empty knot list for every order
and changes nothing; the variants with derivatives refuse it for the orders 4 and 5 and leave an empty
container. Missing: the variants with derivatives for the orders 1, 2, 3, see
`C48_container_refuted`. -/
theorem C48_container_partial (S : Solver K) (ps : List K) (v0 a0 vT aT : K) (c : Container o K) :
    setDataLinear [] ps c = .ok (false, c) ∧
    (o = .o4 ∨ o = .o5 → setDataVel S [] ps v0 vT c = .ok (false, c.reset) ∧
      setDataAcc S [] ps v0 a0 vT aT c = .ok (false, c.reset)) := by
  refine ⟨by simp [setDataLinear], fun ho => ?_⟩
  have hv : ∀ c : Container o K, setDataVel S [] ps v0 vT c = .ok (false, c.reset) := by
    intro c
    rw [setDataVel, solutionDim_nil, numConstraints_nil.2, if_neg (by simp [numSplines, sizeMinus1, u32]),
      if_pos (by rcases ho with rfl | rfl <;> simp [Order.count, Order.deg])]
    simp [setDataLinear]
  refine ⟨hv c, ?_⟩
  rw [setDataAcc, solutionDim_nil, numConstraints_nil.1, if_neg (by simp [numSplines, sizeMinus1, u32]),
    if_pos (by rcases ho with rfl | rfl <;> simp [Order.count, Order.deg]), hv]
  rfl

/-- **C48 is false of the container** for the orders 1, 2 and 3: for every previous content and every
other argument the variants with derivatives run into undefined behaviour on an empty knot list. -/
theorem C48_container_refuted (S : Solver K) (ps : List K) (v0 a0 vT aT : K) (c : Container o K)
    (ho : o = .o1 ∨ o = .o2 ∨ o = .o3) :
    setDataVel S [] ps v0 vT c = .ub ∧ setDataAcc S [] ps v0 a0 vT aT c = .ub := by
  have hv : ∀ c : Container o K, setDataVel S [] ps v0 vT c = .ub := by
    intro c
    rw [setDataVel, solutionDim_nil, numConstraints_nil.2, if_neg (by simp [numSplines, sizeMinus1, u32]),
      if_neg (by rcases ho with rfl | rfl | rfl <;> simp [Order.count, Order.deg]), fit_nil]
  refine ⟨hv c, ?_⟩
  rw [setDataAcc, solutionDim_nil, numConstraints_nil.1, if_neg (by simp [numSplines, sizeMinus1, u32])]
  split
  · exact hv _
  · exact fit_nil ..

end field

/-- **C21 over the reals**: for the orders and formulations of `C21_smooth_acc` and `C21_smooth_vel`,
strictly inside the duration velocity is the derivative of position, acceleration the derivative of
velocity, and acceleration is continuous; so the trajectory is twice continuously differentiable. -/
theorem C21_twice_differentiable {o : Order} (S : Solver ℝ) (ts ps : List ℝ) (h2 : 2 ≤ ts.length)
    (hb : ts.length ≤ 2 ^ 28) (hl : ps.length = ts.length) (hinc : ts.Pairwise (· < ·))
    (v0 a0 vT aT : ℝ) (c : Container o ℝ) (r : Outcome (Bool × Container o ℝ))
    (ho : o = .o3 ∨ o = .o4 ∨ o = .o5)
    (hr : r = setDataAcc S ts ps v0 a0 vT aT c ∨ r = setDataVel S ts ps v0 vT c) :
    ∃ c', r = .ok (true, c') ∧ ∃ pos vel acc : ℝ → ℝ,
      (∀ t, c'.getPositionAtTime t = .ok (pos t)) ∧ (∀ t, c'.getVelocityAtTime t = .ok (vel t)) ∧
      (∀ t, c'.getAccelerationAtTime t = .ok (acc t)) ∧
      ∀ t, 0 < t → t < ts[ts.length - 1] - ts[0] →
        HasDerivAt pos (vel t) t ∧ HasDerivAt vel (acc t) t ∧ ContinuousAt acc t := by
  obtain ⟨n, hn⟩ : ∃ n, ts.length = n + 1 := ⟨ts.length - 1, by omega⟩
  have hd : 3 ≤ o.deg := by rcases ho with rfl | rfl | rfl <;> simp [Order.deg]
  have hgo : ∃ c', r = .ok (true, c') ∧ Through ts ps c' ∧ Smooth c' := by
    obtain ⟨c', e, h, hs, -⟩ := vel_ok S ts ps v0 vT c n (by omega) (by omega) hn (by omega) hinc hd
    rcases hr with rfl | rfl
    · by_cases ho : o.deg = 5 ∨ o.deg = 4 ∧ 2 ≤ n
      · obtain ⟨c', e, h, hs, -⟩ := acc_ok S ts ps v0 a0 vT aT c n (by omega) (by omega) hn (by omega)
          hinc ho
        exact ⟨c', e, h, hs⟩
      · have hle : o.deg ≤ 5 := by cases o <;> simp [Order.deg]
        rw [setDataAcc_vel S ts ps v0 a0 vT aT c n (by omega) (by omega) hn (by omega)]
        exact ⟨c', e, h, hs⟩
    · exact ⟨c', e, h, hs⟩
  obtain ⟨c', e, h, hs⟩ := hgo
  obtain ⟨pos, vel, acc, k1, k2, k3, k4⟩ := glue_c2 c' (h.pos hinc)
    (fun j s s' e e' => (h.joins hs j s s' e e').1) hs
  refine ⟨c', e, pos, vel, acc, k1, k2, k3, fun t h0 h1 => k4 t h0 ?_⟩
  rw [h.totals (by rintro rfl; simp at h2), knot_eq (by omega), knot_eq (by omega)]
  exact h1

end Verif.Container

import Verif.Container.UniqueProps
import Verif.Container.MoreProps
import Mathlib.Algebra.Polynomial.Taylor
import Mathlib.Algebra.Polynomial.Derivative

/-!
# C135: fitting samples of a polynomial motion gives the motion
-/

set_option linter.unusedSectionVars false
set_option linter.dupNamespace false

namespace Verif.Container

open Verif.Spline Container Polynomial

variable {K : Type} [Field K] [LinearOrder K] [IsStrictOrderedRing K] {o : Order}

/-! ### Lemmas -/

/-- The coefficients of a polynomial, the highest power first. -/
def vecOf (o : Order) (p : K[X]) : Vec o K := fun i => p.coeff (o.deg - i)

theorem toPoly_vec (p : K[X]) (hp : p.natDegree ≤ o.deg) : toPoly (vecOf o p) = p := by
  conv_rhs => rw [p.as_sum_range_C_mul_X_pow' (n := o.deg + 1) (by omega)]
  rw [← Finset.sum_range_reflect, Finset.sum_range, toPoly]
  refine Finset.sum_congr rfl fun i _ => ?_
  have : o.deg + 1 - 1 - (i : ℕ) = o.deg - i := by omega
  rw [this, vecOf]

theorem eval_vec (p : K[X]) (hp : p.natDegree ≤ o.deg) (t : K) :
    inner (vecOf o p) (tau o t) = p.eval t ∧ inner (vecOf o p) (dtau o t) = p.derivative.eval t ∧
    inner (vecOf o p) (ddtau o t) = p.derivative.derivative.eval t := by
  rw [← eval_toPoly, ← eval_toPoly', ← eval_toPoly'', toPoly_vec p hp]
  exact ⟨rfl, rfl, rfl⟩

/-- The piece of `p` that begins at `a`, of duration `d`. -/
noncomputable def piece (o : Order) (p : K[X]) (a d : K) : Spline o K := ⟨vecOf o (taylor a p), d⟩

theorem piece_at {p : K[X]} (hp : p.natDegree ≤ o.deg) {a d u : K} (h0 : 0 ≤ u) (h1 : u ≤ d) :
    (piece o p a d).getPositionAtTime u = p.eval (a + u) ∧
    (piece o p a d).getVelocityAtTime u = p.derivative.eval (a + u) ∧
    (piece o p a d).getAccelerationAtTime u = p.derivative.derivative.eval (a + u) := by
  have hd : (taylor a p).natDegree ≤ o.deg := by rwa [natDegree_taylor]
  have := eval_vec (o := o) (taylor a p) hd u
  simp only [Spline.getPositionAtTime, Spline.getVelocityAtTime, Spline.getAccelerationAtTime, piece, clamp_inside h0 h1]
  rw [this.1, this.2.1, this.2.2]
  simp [taylor_apply, derivative_comp, add_comm]

/-- The pieces of `p` between the knots. -/
noncomputable def pieces (o : Order) (p : K[X]) (ts : List K) : List (Spline o K) :=
  (List.range (ts.length - 1)).map fun j => piece o p (knot ts j) (dur ts j)

theorem pieces_get {p : K[X]} {ts : List K} {j : ℕ} {s : Spline o K} (h : (pieces o p ts)[j]? = some s) :
    j + 1 < ts.length ∧ s = piece o p (knot ts j) (knot ts (j + 1) - knot ts j) := by
  have hj : j < (pieces o p ts).length := by
    by_contra hc
    rw [List.getElem?_eq_none (by omega)] at h
    simp at h
  have hj' : j + 1 < ts.length := by simp [pieces] at hj; omega
  refine ⟨hj', ?_⟩
  rw [List.getElem?_eq_getElem hj] at h
  simp only [pieces, List.getElem_map, List.getElem_range, Option.some.injEq, dur, if_pos hj'] at h
  exact h.symm

theorem pieces_fulfil {p : K[X]} (hp : p.natDegree ≤ o.deg) {ts : List K} (h2 : 2 ≤ ts.length)
    (hinc : ts.Pairwise (· < ·)) :
    Fulfils ts (ts.map p.eval) (p.derivative.eval (knot ts 0)) (p.derivative.eval (knot ts (ts.length - 1)))
      (pieces o p ts) ∧
    EndAccelerations (p.derivative.derivative.eval (knot ts 0)) (p.derivative.derivative.eval (knot ts (ts.length - 1)))
      (pieces o p ts) := by
  have hlen : (pieces o p ts).length + 1 = ts.length := by simp [pieces]; omega
  have hd : ∀ j, j + 1 < ts.length → 0 ≤ knot ts (j + 1) - knot ts j := fun j hj =>
    sub_nonneg.2 (knot_lt hinc (Nat.lt_succ_self j) hj).le
  have hfirst : ∀ s, (pieces o p ts).head? = some s → s.getVelocityAtTime 0 = p.derivative.eval (knot ts 0) ∧
      s.getAccelerationAtTime 0 = p.derivative.derivative.eval (knot ts 0) := by
    intro s h
    rw [List.head?_eq_getElem?] at h
    obtain ⟨h1, rfl⟩ := pieces_get h
    have := piece_at hp (a := knot ts 0) le_rfl (hd 0 h1)
    rw [add_zero] at this
    exact this.2
  have hlast : ∀ s, (pieces o p ts).getLast? = some s →
      s.getVelocityAtTime s.duration = p.derivative.eval (knot ts (ts.length - 1)) ∧
      s.getAccelerationAtTime s.duration = p.derivative.derivative.eval (knot ts (ts.length - 1)) := by
    intro s h
    rw [List.getLast?_eq_getElem?] at h
    obtain ⟨h1, rfl⟩ := pieces_get h
    have := piece_at hp (a := knot ts ((pieces o p ts).length - 1)) (hd _ h1) le_rfl
    rw [add_sub_cancel, show (pieces o p ts).length - 1 + 1 = ts.length - 1 by omega] at this
    rw [show (pieces o p ts).length - 1 + 1 = ts.length - 1 by omega]
    exact this.2
  refine ⟨⟨hlen, ?_, ?_, fun s h => (hfirst s h).1, fun s h => (hlast s h).1⟩,
    ⟨fun s h => (hfirst s h).2, fun s h => (hlast s h).2⟩⟩
  · intro j s hs a b x y ha hb hx hy
    obtain ⟨h1, rfl⟩ := pieces_get hs
    rw [getElem?_knot (by omega), Option.some.injEq] at ha hb
    rw [List.getElem?_map, getElem?_knot (by omega)] at hx hy
    simp only [Option.map_some, Option.some.injEq] at hx hy
    subst ha hb hx hy
    have e1 := piece_at hp (a := knot ts j) le_rfl (hd j h1)
    have e2 := piece_at hp (a := knot ts j) (hd j h1) le_rfl
    rw [add_zero] at e1
    rw [add_sub_cancel] at e2
    exact ⟨rfl, e1.1, e2.1⟩
  · intro j s s' hs hs'
    obtain ⟨h1, rfl⟩ := pieces_get hs
    obtain ⟨h1', rfl⟩ := pieces_get hs'
    have e1 := piece_at hp (a := knot ts (j + 1)) le_rfl (hd (j + 1) h1')
    have e2 := piece_at hp (a := knot ts j) (hd j h1) le_rfl
    rw [add_zero] at e1
    rw [add_sub_cancel] at e2
    exact ⟨e2.2.1.trans e1.2.1.symm, e2.2.2.trans e1.2.2.symm⟩

theorem pieces_start (p : K[X]) {ts : List K} (k : ℕ) (hk : k < ts.length) :
    start (pieces o p ts) k = knot ts k - knot ts 0 := by
  induction k with
  | zero => simp
  | succ k ih =>
    have hl : k < (pieces o p ts).length := by simp [pieces]; omega
    have hs := List.getElem?_eq_getElem hl
    rw [start_succ _ _ _ hs, ih (by omega), (pieces_get hs).2]
    simp [piece]

/-- Reading a container made of the pieces of `p`. -/
theorem pieces_read {p : K[X]} (hp : p.natDegree ≤ o.deg) {ts : List K} (h2 : 2 ≤ ts.length)
    (hinc : ts.Pairwise (· < ·)) {c : Container o K} (hc : c.splines = pieces o p ts) {t : K} (h0 : knot ts 0 ≤ t)
    (h1 : t ≤ knot ts (ts.length - 1)) :
    c.getPositionAtTime (t - knot ts 0) = .ok (p.eval t) ∧
    c.getVelocityAtTime (t - knot ts 0) = .ok (p.derivative.eval t) ∧
    c.getAccelerationAtTime (t - knot ts 0) = .ok (p.derivative.derivative.eval t) := by
  obtain ⟨hf, -⟩ := pieces_fulfil hp h2 hinc
  have hpos : ∀ s ∈ c.splines, 0 < s.duration := by
    intro s hs
    rw [hc] at hs
    obtain ⟨j, hj⟩ := List.getElem?_of_mem hs
    obtain ⟨hj', rfl⟩ := pieces_get hj
    exact sub_pos.2 (knot_lt hinc (Nat.lt_succ_self j) hj')
  obtain ⟨k, hk, hk0, hk1⟩ : ∃ k, k + 1 < ts.length ∧ knot ts k ≤ t ∧ t ≤ knot ts (k + 1) := by
    by_contra hcon
    push Not at hcon
    have : ∀ k, k + 1 < ts.length → knot ts (k + 1) < t := by
      intro k
      induction k with
      | zero => exact fun h => hcon 0 h h0
      | succ k ih => exact fun h => hcon (k + 1) h (ih (by omega)).le
    have := this (ts.length - 2) (by omega)
    rw [show ts.length - 2 + 1 = ts.length - 1 by omega] at this
    exact absurd h1 (not_le.2 this)
  have hl : k < (pieces o p ts).length := by simp [pieces]; omega
  have hs := List.getElem?_eq_getElem hl
  have e := (pieces_get hs).2
  have hst := pieces_start (o := o) p k (by omega : k < ts.length)
  have hat := piece_at hp (a := knot ts k) (sub_nonneg.2 hk0) (sub_le_sub_right hk1 _)
  rw [add_sub_cancel, ← e] at hat
  have key : ∀ f : Spline o K → K → K, (∀ j s s', (pieces o p ts)[j]? = some s → (pieces o p ts)[j + 1]? = some s' →
      f s s.duration = f s' 0) → c.atTime f (t - knot ts 0) = .ok (f (pieces o p ts)[k] (t - knot ts k)) := by
    intro f hj
    have := atTime_closed f c hpos (by rw [hc]; exact hj) k _ (by rw [hc]; exact hs) (t - knot ts 0)
      (by rw [hc, hst]; linarith) (by rw [hc, hst, e]; simp [piece]; linarith)
    rw [this, hc, hst]
    congr 2
    ring
  refine ⟨(key _ ?_).trans (by rw [hat.1]), (key _ fun j s s' h h' => (hf.joint j s s' h h').1).trans (by rw [hat.2.1]),
    (key _ fun j s s' h h' => (hf.joint j s s' h h').2).trans (by rw [hat.2.2])⟩
  intro j s s' h h'
  obtain ⟨g1, rfl⟩ := pieces_get h
  obtain ⟨g2, rfl⟩ := pieces_get h'
  have e1 := piece_at hp (a := knot ts (j + 1)) le_rfl (sub_nonneg.2 (knot_lt hinc (Nat.lt_succ_self (j + 1)) g2).le)
  have e2 := piece_at hp (a := knot ts j) (sub_nonneg.2 (knot_lt hinc (Nat.lt_succ_self j) g1).le) le_rfl
  rw [add_zero] at e1
  rw [add_sub_cancel] at e2
  exact e2.1.trans e1.1.symm

/-! ### The theorems -/

/-- C135 (partial). Fitting the samples of a polynomial motion of at most the degree of the splines, with the derivatives of
the motion at the ends, gives the motion: position, velocity and acceleration are those of the motion at every time from the
first to the last knot. For order 3 with any number of knots (with either `setData`), order 4 with three knots and order 5
with two. Missing: the other cases, in which it is false (`C135_straight_refuted`, `C135_loose_refuted`). -/
theorem C135_reproduces_partial (S : Solver K) (p : K[X]) (hp : p.natDegree ≤ o.deg) (ts : List K) (h2 : 2 ≤ ts.length)
    (hb : ts.length ≤ 2 ^ 28) (hinc : ts.Pairwise (· < ·))
    (ho : o = .o3 ∨ o = .o4 ∧ ts.length = 3 ∨ o = .o5 ∧ ts.length = 2) (c : Container o K)
    (r : Outcome (Bool × Container o K))
    (hr : r = setDataAcc S ts (ts.map p.eval) (p.derivative.eval ts[0]) (p.derivative.derivative.eval ts[0])
        (p.derivative.eval ts[ts.length - 1]) (p.derivative.derivative.eval ts[ts.length - 1]) c ∨
      o = .o3 ∧ r = setDataVel S ts (ts.map p.eval) (p.derivative.eval ts[0]) (p.derivative.eval ts[ts.length - 1]) c) :
    ∃ c', r = .ok (true, c') ∧ ∀ t, ts[0] ≤ t → t ≤ ts[ts.length - 1] →
      c'.getPositionAtTime (t - ts[0]) = .ok (p.eval t) ∧
      c'.getVelocityAtTime (t - ts[0]) = .ok (p.derivative.eval t) ∧
      c'.getAccelerationAtTime (t - ts[0]) = .ok (p.derivative.derivative.eval t) := by
  have hr' : r = setDataAcc S ts (ts.map p.eval) (p.derivative.eval ts[0]) (p.derivative.derivative.eval ts[0])
        (p.derivative.eval ts[ts.length - 1]) (p.derivative.derivative.eval ts[ts.length - 1]) c := by
    rcases hr with h | ⟨h, h'⟩
    · exact h
    · rw [h', ((C23_choice S ts _ h2 hb _ _ _ _ c).2.1 (.inl h)).2]
  subst hr'
  rw [← knot_eq (by omega : 0 < ts.length), ← knot_eq (by omega : ts.length - 1 < ts.length)]
  obtain ⟨c', e, -, -, hu⟩ := C88_determined_partial S ts (ts.map p.eval) h2 hb (by simp) hinc ho
    (p.derivative.eval (knot ts 0)) (p.derivative.derivative.eval (knot ts 0))
    (p.derivative.eval (knot ts (ts.length - 1))) (p.derivative.derivative.eval (knot ts (ts.length - 1))) c
  obtain ⟨hf, ha⟩ := pieces_fulfil hp h2 hinc
  exact ⟨c', e, fun t h0 h1 => pieces_read hp h2 hinc (hu _ hf fun _ => ha).symm h0 h1⟩

/-- A time between the first and the last knot lies between two consecutive ones. -/
theorem between_knots {ts : List K} (h2 : 2 ≤ ts.length) {t : K} (h0 : ts[0] ≤ t) (h1 : t ≤ ts[ts.length - 1]) :
    ∃ (k : ℕ) (hk : k + 1 < ts.length), ts[k] ≤ t ∧ t ≤ ts[k + 1] := by
  by_contra hcon
  push Not at hcon
  have : ∀ k (hk : k + 1 < ts.length), ts[k + 1] < t := by
    intro k
    induction k with
    | zero => exact fun h => hcon 0 h h0
    | succ k ih => exact fun h => hcon (k + 1) h (ih (by omega)).le
  have := this (ts.length - 2) (by omega)
  simp only [show ts.length - 2 + 1 = ts.length - 1 by omega] at this
  exact absurd h1 (not_le.2 this)

/-- C135, order 1 and 2, and the `setData` without end conditions in every order: between two knots, samples of the motion
`x + v t + a t²` give the motion less `a (t - l) (t - u)`, where `l` and `u` are the knots around `t`. So a straight motion
is reproduced, and a motion with acceleration (of degree 2, the degree of the splines if the order is 2) is missed at every
time between knots. -/
theorem C135_straight_refuted (S : Solver K) (x v a : K) (ts : List K) (h2 : 2 ≤ ts.length)
    (hb : ts.length ≤ 2 ^ 28) (hinc : ts.Pairwise (· < ·)) (v0 a0 vT aT : K) (c : Container o K)
    (r : Outcome (Bool × Container o K))
    (hr : r = setDataLinear ts (ts.map fun t => x + v * t + a * t ^ 2) c ∨
      (o = .o1 ∨ o = .o2) ∧ (r = setDataVel S ts (ts.map fun t => x + v * t + a * t ^ 2) v0 vT c ∨
        r = setDataAcc S ts (ts.map fun t => x + v * t + a * t ^ 2) v0 a0 vT aT c)) :
    ∃ c', r = .ok (true, c') ∧
      (∀ (k : ℕ) (hk : k + 1 < ts.length) (t : K), ts[k] ≤ t → t ≤ ts[k + 1] → c'.getPositionAtTime (t - ts[0]) =
        .ok (x + v * t + a * t ^ 2 - a * (t - ts[k]) * (t - ts[k + 1]))) ∧
      (a = 0 → ∀ t, ts[0] ≤ t → t ≤ ts[ts.length - 1] → c'.getPositionAtTime (t - ts[0]) = .ok (x + v * t)) ∧
      (a ≠ 0 → ∀ t, ts[0] ≤ t → t ≤ ts[ts.length - 1] → t ∉ ts →
        c'.getPositionAtTime (t - ts[0]) ≠ .ok (x + v * t + a * t ^ 2)) := by
  obtain ⟨c', e, h⟩ := C65_straight S ts (ts.map fun t => x + v * t + a * t ^ 2) h2 hb (by simp) hinc v0 a0 vT aT c r hr
  have key : ∀ (k : ℕ) (hk : k + 1 < ts.length) (t : K), ts[k] ≤ t → t ≤ ts[k + 1] → c'.getPositionAtTime (t - ts[0]) =
        .ok (x + v * t + a * t ^ 2 - a * (t - ts[k]) * (t - ts[k + 1])) := by
    intro k hk t h0 h1
    rw [(h k hk (by simpa using hk) t h0).1 h1]
    have hne : ts[k + 1] - ts[k] ≠ 0 :=
      sub_ne_zero.2 (List.pairwise_iff_getElem.1 hinc k (k + 1) (by omega) hk (by omega)).ne'
    simp only [List.getElem_map, Outcome.ok.injEq]
    field_simp
    ring
  refine ⟨c', e, key, fun ha t h0 h1 => ?_, fun ha t h0 h1 hm => ?_⟩
  · obtain ⟨k, hk, hk0, hk1⟩ := between_knots h2 h0 h1
    rw [key k hk t hk0 hk1, ha]
    simp
  · obtain ⟨k, hk, hk0, hk1⟩ := between_knots h2 h0 h1
    rw [key k hk t hk0 hk1]
    intro he
    rw [Outcome.ok.injEq, sub_eq_self] at he
    rcases mul_eq_zero.1 he with he | he
    · rcases mul_eq_zero.1 he with he | he
      · exact ha he
      · exact hm (by rw [sub_eq_zero.1 he]; exact List.getElem_mem _)
    · exact hm (by rw [sub_eq_zero.1 he]; exact List.getElem_mem _)

/-- C135, refuted where the equations leave the curve open: for order 5 with three or more knots and every polynomial motion
there is, for every time strictly between two knots, a linear solver with which the fitted curve misses the motion at that
time. -/
theorem C135_loose_refuted (p : K[X]) (ts : List K) (h3 : 3 ≤ ts.length) (hb : ts.length ≤ 2 ^ 28)
    (hinc : ts.Pairwise (· < ·)) (c : Container .o5 K) (j : ℕ) (hj : j + 1 < ts.length) (t : K) (h0 : ts[j] < t)
    (h1 : t < ts[j + 1]) :
    ∃ (S : Solver K) (c' : Container .o5 K), setDataAcc S ts (ts.map p.eval) (p.derivative.eval ts[0])
        (p.derivative.derivative.eval ts[0]) (p.derivative.eval ts[ts.length - 1])
        (p.derivative.derivative.eval ts[ts.length - 1]) c = .ok (true, c') ∧
      c'.getPositionAtTime (t - ts[0]) ≠ .ok (p.eval t) := by
  obtain ⟨S, c', e, h⟩ := C88_quintic_refuted ts (ts.map p.eval) h3 hb (by simp) hinc (p.derivative.eval ts[0])
    (p.derivative.derivative.eval ts[0]) (p.derivative.eval ts[ts.length - 1])
    (p.derivative.derivative.eval ts[ts.length - 1]) c j hj t h0 h1 (p.eval t + 1)
  exact ⟨S, c', e, by rw [h]; simp⟩

/-- C135, refuted likewise at some time for order 4 with two knots or with four and more, and for the `setData` with
velocities only, for the orders 4 and 5 with any number of knots. -/
theorem C135_open_refuted (p : K[X]) (ts : List K) (h2 : 2 ≤ ts.length) (hb : ts.length ≤ 2 ^ 28)
    (hinc : ts.Pairwise (· < ·)) (c : Container o K) (r : Solver K → Outcome (Bool × Container o K))
    (hr : o = .o4 ∧ ts.length ≠ 3 ∧ r = (fun S : Solver K => setDataAcc S ts (ts.map p.eval) (p.derivative.eval ts[0])
        (p.derivative.derivative.eval ts[0]) (p.derivative.eval ts[ts.length - 1])
        (p.derivative.derivative.eval ts[ts.length - 1]) c) ∨
      (o = .o4 ∨ o = .o5) ∧ r = fun S : Solver K => setDataVel S ts (ts.map p.eval) (p.derivative.eval ts[0])
        (p.derivative.eval ts[ts.length - 1]) c) :
    ∃ (j : ℕ) (hj : j + 1 < ts.length) (t : K), ts[j] < t ∧ t < ts[j + 1] ∧ ∃ (S : Solver K) (c' : Container o K),
      r S = .ok (true, c') ∧ c'.getPositionAtTime (t - ts[0]) ≠ .ok (p.eval t) := by
  obtain ⟨j, hj, t, h0, h1, h⟩ := C88_refuted ts (ts.map p.eval) h2 hb (by simp) hinc (p.derivative.eval ts[0])
    (p.derivative.derivative.eval ts[0]) (p.derivative.eval ts[ts.length - 1])
    (p.derivative.derivative.eval ts[ts.length - 1]) c r hr
  obtain ⟨S, c', e, h⟩ := h (p.eval t + 1)
  exact ⟨j, hj, t, h0, h1, S, c', e, by rw [h]; simp⟩

/-- The cubic motion `t^3 - 2 t` sampled at four times. -/
example : (X ^ 3 - 2 * X : ℚ[X]).natDegree ≤ Order.o3.deg ∧ ([0, 1, 3, 4] : List ℚ).Pairwise (· < ·) ∧
    2 ≤ ([0, 1, 3, 4] : List ℚ).length := by
  refine ⟨?_, by decide +kernel, by decide⟩
  show (X ^ 3 - 2 * X : ℚ[X]).natDegree ≤ 3
  compute_degree

/-- Whatever solver is used, the cubic fit of `t^3 - 2 t` at 0, 1, 3, 4 with the right end velocities is `t^3 - 2 t`: at time
2 it is 4, with velocity 10 and acceleration 12. -/
example (S : Solver ℚ) (c : Container .o3 ℚ) : ∃ c', setDataVel S [0, 1, 3, 4] [0, -1, 21, 56] (-2) 46 c = .ok (true, c') ∧
    c'.getPositionAtTime 2 = .ok 4 ∧ c'.getVelocityAtTime 2 = .ok 10 ∧ c'.getAccelerationAtTime 2 = .ok 12 := by
  have hd : (X ^ 3 - C 2 * X : ℚ[X]).natDegree ≤ 3 := by compute_degree
  obtain ⟨c', e, h⟩ := C135_reproduces_partial (o := .o3) S (X ^ 3 - C 2 * X) hd [0, 1, 3, 4] (by decide) (by decide)
    (by decide +kernel) (.inl rfl) c _ (.inr ⟨rfl, rfl⟩)
  have h := h 2 (by decide +kernel) (by decide +kernel)
  refine ⟨c', ?_, ?_, ?_, ?_⟩
  · rw [← e]
    norm_num
  · simpa using (by norm_num at h; exact h.1 : _)
  · norm_num at h
    exact h.2.1
  · norm_num at h
    exact h.2.2

end Verif.Container

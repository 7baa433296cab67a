import Verif.Container.ResidualLemmas
import Verif.Container.Glue

/-!
# Property C116: with an approximate linear solver

The other theorems about fits assume a linear solver that solves the equations exactly. Here nothing
is assumed of the solver but how far its answer to the one system that is solved misses the equations
of that system, which is what a backward stable solver bounds. The system is named before the solver,
so it cannot depend on it, and it has a solution, so that there are solvers missing it by any `ρ ≥ 0`.
-/

set_option linter.unusedSectionVars false
set_option linter.dupNamespace false

namespace Verif.Container

open Verif.Spline Container

variable {K : Type} [Field K] [LinearOrder K] [IsStrictOrderedRing K] {o : Order}

/-- **C116**, single segments of any order: no boundary condition is missed by more than the residual.
(Orders 1 and 2 call no solver: their conditions are met exactly whatever the solver does.) -/
theorem C116_segment (o : Order) (p : Options K) (h : 0 < p.tf) :
    ∃ (rows cols : ℕ) (A : ℕ → ℕ → K) (b : ℕ → K), (∃ x, Solves rows cols A b x) ∧
      ∀ (S : RawSolver K) (ρ : K), 0 ≤ ρ → Misses ρ rows cols A b (S.solve rows cols A b) →
      ∀ s0 : Spline o K, ∃ s, s0.computeCoefficients S p = (true, s) ∧ s.duration = p.tf ∧
        |s.getPositionAtTime 0 - p.pos0| ≤ ρ ∧ |s.getPositionAtTime p.tf - p.posT| ≤ ρ ∧
        (2 ≤ o.deg → |s.getVelocityAtTime 0 - p.vel0| ≤ ρ) ∧
        (3 ≤ o.deg → |s.getVelocityAtTime p.tf - p.velT| ≤ ρ) ∧
        (4 ≤ o.deg → |s.getAccelerationAtTime 0 - p.acc0| ≤ ρ) ∧
        (5 ≤ o.deg → |s.getAccelerationAtTime p.tf - p.accT| ≤ ρ) := by
  have h' : p.tf ≠ 0 := h.ne'
  have ends : ∀ s : Spline o K, s.duration = p.tf →
      s.getPositionAtTime 0 = inner s.coeffs (tauZero o) ∧
      s.getPositionAtTime p.tf = inner s.coeffs (tau o p.tf) ∧
      s.getVelocityAtTime 0 = inner s.coeffs (dtauZero o) ∧
      s.getVelocityAtTime p.tf = inner s.coeffs (dtau o p.tf) ∧
      s.getAccelerationAtTime 0 = inner s.coeffs (ddtauZero o) ∧
      s.getAccelerationAtTime p.tf = inner s.coeffs (ddtau o p.tf) := by
    intro s hs
    have hd : 0 < s.duration := by rw [hs]; exact h
    rw [← hs]
    exact ⟨pos_zero hd, pos_end hd, vel_zero hd, vel_end hd, acc_zero hd, acc_end hd⟩
  cases o
  · refine ⟨0, 0, fun _ _ => 0, fun _ => 0, ⟨0, fun r hr => absurd hr (by omega)⟩,
      fun S ρ hρ _ s0 => ⟨⟨compute S .o1 p, p.tf⟩, rfl, rfl, ?_⟩⟩
    obtain ⟨e1, e2, -⟩ := ends ⟨compute S .o1 p, p.tf⟩ rfl
    rw [e1, e2]
    have k1 : inner (compute S .o1 p) (tauZero .o1) = p.pos0 := by
      simp [compute, inner, tauZero, sum_o1]
    have k2 : inner (compute S .o1 p) (tau .o1 p.tf) = p.posT := by
      simp [compute, inner, tau, sum_o1, h']
    simp [k1, k2, hρ, Order.deg]
  · refine ⟨0, 0, fun _ _ => 0, fun _ => 0, ⟨0, fun r hr => absurd hr (by omega)⟩,
      fun S ρ hρ _ s0 => ⟨⟨compute S .o2 p, p.tf⟩, rfl, rfl, ?_⟩⟩
    obtain ⟨e1, e2, e3, -⟩ := ends ⟨compute S .o2 p, p.tf⟩ rfl
    rw [e1, e2, e3]
    have k1 : inner (compute S .o2 p) (tauZero .o2) = p.pos0 := by
      simp [compute, inner, tauZero, sum_o2]
    have k2 : inner (compute S .o2 p) (tau .o2 p.tf) = p.posT := by
      simp [compute, inner, tau, sum_o2, h']
    have k3 : inner (compute S .o2 p) (dtauZero .o2) = p.vel0 := by
      simp [compute, inner, dtauZero, sum_o2]
    simp [k1, k2, k3, hρ, Order.deg]
  · refine ⟨_, _, _, _, solveRows_solvable (o := .o3)
      [(tauZero .o3, p.pos0), (dtauZero .o3, p.vel0), (tau .o3 p.tf, p.posT),
       (dtau .o3 p.tf, p.velT)] (cubic p.tf p.pos0 p.vel0 p.posT p.velT) (by
        have := cubic_spec h' p.pos0 p.vel0 p.posT p.velT
        simp [this.1, this.2.1, this.2.2.1, this.2.2.2.1]), fun S ρ hρ hm s0 =>
      ⟨⟨compute S .o3 p, p.tf⟩, rfl, rfl, ?_⟩⟩
    have k := solveRows_off S ρ _ hm
    obtain ⟨e1, e2, e3, e4, -⟩ := ends ⟨compute S .o3 p, p.tf⟩ rfl
    simp only [List.forall_mem_cons] at k
    obtain ⟨k1, k2, k3, k4, -⟩ := k
    rw [e1, e2, e3, e4]
    exact ⟨k1, k3, fun _ => k2, fun _ => k4, by simp [Order.deg], by simp [Order.deg]⟩
  · refine ⟨_, _, _, _, solveRows_solvable (o := .o4)
      [(tauZero .o4, p.pos0), (dtauZero .o4, p.vel0), (ddtauZero .o4, p.acc0),
       (tau .o4 p.tf, p.posT), (dtau .o4 p.tf, p.velT)]
       (quartic p.tf p.pos0 p.vel0 p.acc0 p.posT p.velT) (by
        have := quartic_spec h' p.pos0 p.vel0 p.acc0 p.posT p.velT
        simp [this.1, this.2.1, this.2.2.1, this.2.2.2.1, this.2.2.2.2.1]), fun S ρ hρ hm s0 =>
      ⟨⟨compute S .o4 p, p.tf⟩, rfl, rfl, ?_⟩⟩
    have k := solveRows_off S ρ _ hm
    obtain ⟨e1, e2, e3, e4, e5, -⟩ := ends ⟨compute S .o4 p, p.tf⟩ rfl
    simp only [List.forall_mem_cons] at k
    obtain ⟨k1, k2, k3, k4, k5, -⟩ := k
    rw [e1, e2, e3, e4, e5]
    exact ⟨k1, k4, fun _ => k2, fun _ => k5, fun _ => k3, by simp [Order.deg]⟩
  · refine ⟨_, _, _, _, solveRows_solvable (o := .o5)
      [(tauZero .o5, p.pos0), (dtauZero .o5, p.vel0), (ddtauZero .o5, p.acc0),
       (tau .o5 p.tf, p.posT), (dtau .o5 p.tf, p.velT), (ddtau .o5 p.tf, p.accT)]
       (quintic p.tf p.pos0 p.vel0 p.acc0 p.posT p.velT p.accT) (by
        have := quintic_spec h' p.pos0 p.vel0 p.acc0 p.posT p.velT p.accT
        simp [this.1, this.2.1, this.2.2.1, this.2.2.2.1, this.2.2.2.2.1, this.2.2.2.2.2]),
      fun S ρ hρ hm s0 => ⟨⟨compute S .o5 p, p.tf⟩, rfl, rfl, ?_⟩⟩
    have k := solveRows_off S ρ _ hm
    obtain ⟨e1, e2, e3, e4, e5, e6⟩ := ends ⟨compute S .o5 p, p.tf⟩ rfl
    simp only [List.forall_mem_cons] at k
    obtain ⟨k1, k2, k3, k4, k5, k6, -⟩ := k
    rw [e1, e2, e3, e4, e5, e6]
    exact ⟨k1, k4, fun _ => k2, fun _ => k5, fun _ => k3, fun _ => k6⟩

/-- What an approximate fit through the knots `ts`, `ps` is, stated of the public functions: as many
segments as knot intervals and as long, read at the knots within `ρ` of the positions, and at every
junction no jump of position above `2 * ρ` and none of velocity or acceleration above `ρ`. -/
structure NearFit (ρ : K) (ts ps : List K) (c : Container o K) : Prop where
  segments : c.splines.length + 1 = ts.length
  duration : c.duration = knot ts (ts.length - 1) - knot ts 0
  durations : ∀ j s, c.splines[j]? = some s → s.duration = knot ts (j + 1) - knot ts j
  knots : ∀ i, i < ts.length →
    ∃ p, c.getPositionAtTime (knot ts i - knot ts 0) = .ok p ∧ |p - knot ps i| ≤ ρ
  ends : ∀ j s, c.splines[j]? = some s → |s.getPositionAtTime 0 - knot ps j| ≤ ρ ∧
    |s.getPositionAtTime s.duration - knot ps (j + 1)| ≤ ρ
  position : ∀ j s s', c.splines[j]? = some s → c.splines[j + 1]? = some s' →
    |s.getPositionAtTime s.duration - s'.getPositionAtTime 0| ≤ 2 * ρ
  velocity : ∀ j s s', c.splines[j]? = some s → c.splines[j + 1]? = some s' →
    |s.getVelocityAtTime s.duration - s'.getVelocityAtTime 0| ≤ ρ
  acceleration : ∀ j s s', c.splines[j]? = some s → c.splines[j + 1]? = some s' →
    |s.getAccelerationAtTime s.duration - s'.getAccelerationAtTime 0| ≤ ρ

theorem Container.Nearly.nearFit {ρ : K} {ts ps : List K} {c : Container o K} (h : Nearly ρ ts ps c)
    (hinc : ts.Pairwise (· < ·)) (h2 : 2 ≤ ts.length) : NearFit ρ ts ps c where
  segments := h.len
  duration := by
    rw [h.duration, ← start_length, h.starts _ (by have := h.len; omega)]
    congr 2
    have := h.len
    omega
  durations := fun j s hs => by
    have hj : j < c.splines.length := (List.getElem?_eq_some_iff.mp hs).1
    have := h.len
    rw [(h.seg j s hs).1, dur, if_pos (by omega)]
  knots := h.interpolates hinc h2
  ends := fun j s hs => (h.seg j s hs).2
  position := fun j s s' hs hs' => by
    have h1 := abs_le.mp (h.seg j s hs).2.2
    have h2 := abs_le.mp (h.seg (j + 1) s' hs').2.1
    exact abs_le.mpr ⟨by linarith [h1.1, h2.2], by linarith [h1.2, h2.1]⟩
  velocity := h.vel
  acceleration := h.acc

/-- **C116**, fits with end velocities (orders 3 to 5). -/
theorem C116_velocities (ts ps : List K) (h2 : 2 ≤ ts.length) (hb : ts.length ≤ 2 ^ 28)
    (hl : ps.length = ts.length) (hinc : ts.Pairwise (· < ·)) (v0 vT : K) (ho : 3 ≤ o.deg) :
    ∃ s : Sys K, (∃ x, Solves s.rows s.cols s.A s.b x) ∧ ∀ (S : RawSolver K) (ρ : K),
      Misses ρ s.rows s.cols s.A s.b (S.solve s.rows s.cols s.A s.b) →
      ∀ c : Container o K, ∃ c', setDataVel S ts ps v0 vT c = .ok (true, c') ∧ NearFit ρ ts ps c' ∧
        (∀ s, c'.splines.head? = some s → |s.getVelocityAtTime 0 - v0| ≤ ρ) ∧
        (∀ s, c'.splines.getLast? = some s → |s.getVelocityAtTime s.duration - vT| ≤ ρ) := by
  obtain ⟨n, hn⟩ : ∃ n, ts.length = n + 1 := ⟨ts.length - 1, by omega⟩
  obtain ⟨s, -, -, hs, h⟩ := fit_off (o := o) 2 ts ps [v0] [vT] n (by omega) (by omega) hn (by omega)
    hinc (by omega) rfl rfl (solvable_vel o ho n (by omega) _ _ (dur_pos hinc) v0 vT)
  refine ⟨s, hs, fun S ρ hm c => ?_⟩
  obtain ⟨x, hx, e⟩ := h S ρ hm
  obtain ⟨k, ki, kf⟩ := fit_nearly ρ ts ps [v0] [vT] c n x (by omega) hn hinc hx
  refine ⟨_, ?_, k.nearFit hinc h2, fun s hs => (ki s ?_).1 v0 rfl, fun s hs => (kf s hs).1 vT rfl⟩
  · rw [setDataVel_fit S ts ps v0 vT c n (by omega) (by omega) hn ho, e]
  · rwa [← List.head?_eq_getElem?]

/-- **C116**, fits with end velocities and accelerations (order 4 with three or more knots, order 5). -/
theorem C116_accelerations (ts ps : List K) (h2 : 2 ≤ ts.length) (hb : ts.length ≤ 2 ^ 28)
    (hl : ps.length = ts.length) (hinc : ts.Pairwise (· < ·)) (v0 a0 vT aT : K)
    (ho : o = .o5 ∨ o = .o4 ∧ 3 ≤ ts.length) :
    ∃ s : Sys K, (∃ x, Solves s.rows s.cols s.A s.b x) ∧ ∀ (S : RawSolver K) (ρ : K),
      Misses ρ s.rows s.cols s.A s.b (S.solve s.rows s.cols s.A s.b) →
      ∀ c : Container o K, ∃ c', setDataAcc S ts ps v0 a0 vT aT c = .ok (true, c') ∧
        NearFit ρ ts ps c' ∧
        (∀ s, c'.splines.head? = some s →
          |s.getVelocityAtTime 0 - v0| ≤ ρ ∧ |s.getAccelerationAtTime 0 - a0| ≤ ρ) ∧
        (∀ s, c'.splines.getLast? = some s → |s.getVelocityAtTime s.duration - vT| ≤ ρ ∧
          |s.getAccelerationAtTime s.duration - aT| ≤ ρ) := by
  obtain ⟨n, hn⟩ : ∃ n, ts.length = n + 1 := ⟨ts.length - 1, by omega⟩
  have hsol : ∃ x, FitEq o n (dur ts) (knot ps) [v0, a0] [vT, aT] x := by
    rcases ho with rfl | ⟨rfl, h⟩
    · exact solvable_acc5 n (by omega) _ _ (dur_pos hinc) v0 a0 vT aT
    · exact solvable_acc4 n (by omega) _ _ (dur_pos hinc) v0 a0 vT aT
  obtain ⟨s, -, -, hs, h⟩ := fit_off (o := o) 3 ts ps [v0, a0] [vT, aT] n (by omega) (by omega) hn
    (by omega) hinc (by omega) rfl rfl hsol
  refine ⟨s, hs, fun S ρ hm c => ?_⟩
  obtain ⟨x, hx, e⟩ := h S ρ hm
  obtain ⟨k, ki, kf⟩ := fit_nearly ρ ts ps [v0, a0] [vT, aT] c n x (by omega) hn hinc hx
  refine ⟨_, ?_, k.nearFit hinc h2, fun s hs => ?_,
    fun s hs => ⟨(kf s hs).1 vT rfl, (kf s hs).2 aT rfl⟩⟩
  · rw [setDataAcc_fit S ts ps v0 a0 vT aT c n (by omega) (by omega) hn
      (by rcases ho with rfl | ⟨rfl, h⟩
          · exact Or.inl rfl
          · exact Or.inr ⟨rfl, by omega⟩), e]
  · rw [List.head?_eq_getElem?] at hs
    exact ⟨(ki s hs).1 v0 rfl, (ki s hs).2 a0 rfl⟩

/-- **C116**, single segments: a solver that is exact misses nothing. -/
example : ∃ (rows cols : ℕ) (A : ℕ → ℕ → ℚ) (b : ℕ → ℚ), (∃ x, Solves rows cols A b x) ∧
    ∃ S : RawSolver ℚ, Misses 0 rows cols A b (S.solve rows cols A b) ∧
      ∃ s, (Spline.empty .o3).computeCoefficients S ⟨2, 1, 5, -1, 3, 0, 0⟩ = (true, s) ∧
        s.getPositionAtTime 2 = 5 := by
  obtain ⟨S⟩ := solver_exists (K := ℚ)
  obtain ⟨r, c, A, b, hx, h⟩ := C116_segment (K := ℚ) .o3 ⟨2, 1, 5, -1, 3, 0, 0⟩ (by norm_num)
  have hm : Misses 0 r c A b (S.solve r c A b) := fun i hi => by
    rw [S.exact r c A b hx i hi]; simp
  obtain ⟨s, e, -, -, k, -⟩ := h S 0 le_rfl hm (Spline.empty .o3)
  exact ⟨r, c, A, b, hx, S, hm, s, e, sub_eq_zero.mp (abs_nonpos_iff.mp k)⟩

/-- A solver that is not exact: whatever the exact solver of some system returns, moved by `1/1000`
in one place, misses that system by no more than a thousandth of the largest entry in that column. -/
example (rows cols : ℕ) (A : ℕ → ℕ → ℚ) (b x : ℕ → ℚ) (hx : Solves rows cols A b x)
    (hA : ∀ r < rows, |A r 0| ≤ 1) :
    Misses (1 / 1000) rows cols A b (fun c => x c + if c = 0 then 1 / 1000 else 0) := by
  intro r hr
  have h := hx r hr
  have hs : ∑ c ∈ Finset.range cols, A r c * (x c + if c = 0 then 1 / 1000 else 0) =
      b r + ∑ c ∈ Finset.range cols, if c = 0 then A r c * (1 / 1000) else 0 := by
    rw [← h, ← Finset.sum_add_distrib]
    refine Finset.sum_congr rfl fun c _ => ?_
    by_cases hc : c = 0 <;> simp [hc, mul_add]
  rw [hs, add_sub_cancel_left, Finset.sum_ite_eq']
  have := abs_le.mp (hA r hr)
  by_cases hc : (0 : ℕ) ∈ Finset.range cols
  · rw [if_pos hc]
    exact abs_le.mpr ⟨by linarith [this.1], by linarith [this.2]⟩
  · rw [if_neg hc]; norm_num

/-- The hypotheses of the fits are met by an everyday set of knots, and by an exact solver. -/
example (c : Container .o3 ℚ) : ∃ (S : RawSolver ℚ) (c' : Container .o3 ℚ),
    setDataVel S [0, 1, 3] [2, 5, 4] 1 0 c = .ok (true, c') ∧
      c'.getPositionAtTime (knot [0, 1, 3] 1 - knot [0, 1, 3] 0) = .ok 5 := by
  obtain ⟨S⟩ := solver_exists (K := ℚ)
  obtain ⟨s, hx, h⟩ := C116_velocities (o := .o3) [0, 1, 3] [2, 5, 4] (by simp) (by simp) rfl
    (by decide +kernel) (1 : ℚ) 0 (by simp [Order.deg])
  obtain ⟨c', e, hn, -⟩ := h S 0 (fun i hi => by
    rw [S.exact _ _ _ _ hx i hi]
    simp) c
  obtain ⟨p, hp, hq⟩ := hn.knots 1 (by simp)
  refine ⟨S, c', e, ?_⟩
  rw [hp, sub_eq_zero.mp (abs_nonpos_iff.mp hq)]
  rfl

example (c : Container .o5 ℚ) : ∃ s : Sys ℚ, (∃ x, Solves s.rows s.cols s.A s.b x) ∧
    ∀ S : RawSolver ℚ, Misses (1 / 100) s.rows s.cols s.A s.b (S.solve s.rows s.cols s.A s.b) →
      ∃ c', setDataAcc S [0, 1] [2, 5] 1 0 0 0 c = .ok (true, c') ∧
        ∃ p, c'.getPositionAtTime (knot [0, 1] 0 - knot [0, 1] 0) = .ok p ∧ |p - 2| ≤ 1 / 100 := by
  obtain ⟨s, hx, h⟩ := C116_accelerations (o := .o5) [0, 1] [2, 5] (by simp) (by simp) rfl
    (by decide +kernel) (1 : ℚ) 0 0 0 (Or.inl rfl)
  refine ⟨s, hx, fun S hm => ?_⟩
  obtain ⟨c', e, hn, -⟩ := h S _ hm c
  obtain ⟨p, hp, hq⟩ := hn.knots 0 (by simp)
  exact ⟨c', e, p, hp, hq⟩

end Verif.Container

import Mathlib.Analysis.Calculus.Deriv.Polynomial
import Verif.Spline.Lemmas

/-!
# Properties C16 - C19: a single polynomial spline
-/

set_option linter.unusedSectionVars false
set_option linter.dupNamespace false

namespace Verif.Spline

open Polynomial

variable {K : Type} [Field K] [LinearOrder K] [IsStrictOrderedRing K]

/-- Specification: `P` meets the boundary conditions that a spline of order `o` is documented to
honour ("Map initial pos, ... to spline coefficients"). -/
structure Meets (o : Order) (p : Options K) (P : K[X]) : Prop where
  pos0 : P.eval 0 = p.pos0
  posT : P.eval p.tf = p.posT
  vel0 : 2 ≤ o.deg → P.derivative.eval 0 = p.vel0
  velT : 3 ≤ o.deg → P.derivative.eval p.tf = p.velT
  acc0 : 4 ≤ o.deg → P.derivative.derivative.eval 0 = p.acc0
  accT : 5 ≤ o.deg → P.derivative.derivative.eval p.tf = p.accT

/-- Reading the coefficients of a polynomial into an array of the spline. -/
theorem toPoly_coeff {o : Order} (P : K[X]) (h : P.natDegree ≤ o.deg) :
    toPoly (fun i : Fin o.count => P.coeff (o.deg - (i : ℕ))) = P := by
  have e := P.as_sum_range_C_mul_X_pow' (n := o.deg + 1) (by omega)
  conv_rhs => rw [e]
  unfold toPoly
  rw [← Finset.sum_range (f := fun i => C (P.coeff (o.deg - i)) * X ^ (o.deg - i))]
  exact Finset.sum_range_reflect (fun i => C (P.coeff i) * X ^ i) (o.deg + 1)

/-- The computed coefficients satisfy the equations of the order. -/
theorem compute_meets (S : Solver K) (o : Order) (p : Options K) (h : 0 < p.tf) :
    Meets o p (toPoly (compute S o p)) := by
  have h' : p.tf ≠ 0 := h.ne'
  cases o
  · constructor <;> simp only [eval_toPoly, eval_toPoly', eval_toPoly''] <;>
      simp [Order.deg, compute, inner, tau, sum_o1, h']
  · constructor <;> simp only [eval_toPoly, eval_toPoly', eval_toPoly''] <;>
      simp [Order.deg, compute, inner, tau, dtau, sum_o2, h']
  · have k := solveRows_exact S (o := .o3)
      [(tauZero .o3, p.pos0), (dtauZero .o3, p.vel0), (tau .o3 p.tf, p.posT),
       (dtau .o3 p.tf, p.velT)] (cubic p.tf p.pos0 p.vel0 p.posT p.velT) (by
        have := cubic_spec h' p.pos0 p.vel0 p.posT p.velT
        simp [this.1, this.2.1, this.2.2.1, this.2.2.2.1])
    simp only [List.forall_mem_cons] at k
    obtain ⟨k1, k2, k3, k4, -⟩ := k
    constructor <;> simp only [eval_toPoly, eval_toPoly', compute, tau_zero, dtau_zero] <;>
      first | assumption | (intro; assumption) | simp [Order.deg]
  · have k := solveRows_exact S (o := .o4)
      [(tauZero .o4, p.pos0), (dtauZero .o4, p.vel0), (ddtauZero .o4, p.acc0),
       (tau .o4 p.tf, p.posT), (dtau .o4 p.tf, p.velT)]
       (quartic p.tf p.pos0 p.vel0 p.acc0 p.posT p.velT) (by
        have := quartic_spec h' p.pos0 p.vel0 p.acc0 p.posT p.velT
        simp [this.1, this.2.1, this.2.2.1, this.2.2.2.1, this.2.2.2.2.1])
    simp only [List.forall_mem_cons] at k
    obtain ⟨k1, k2, k3, k4, k5, -⟩ := k
    constructor <;> simp only [eval_toPoly, eval_toPoly', eval_toPoly'', compute, tau_zero, dtau_zero,
      ddtau_zero] <;> first | assumption | (intro; assumption) | simp [Order.deg]
  · have k := solveRows_exact S (o := .o5)
      [(tauZero .o5, p.pos0), (dtauZero .o5, p.vel0), (ddtauZero .o5, p.acc0),
       (tau .o5 p.tf, p.posT), (dtau .o5 p.tf, p.velT), (ddtau .o5 p.tf, p.accT)]
       (quintic p.tf p.pos0 p.vel0 p.acc0 p.posT p.velT p.accT) (by
        have := quintic_spec h' p.pos0 p.vel0 p.acc0 p.posT p.velT p.accT
        simp [this.1, this.2.1, this.2.2.1, this.2.2.2.1, this.2.2.2.2.1, this.2.2.2.2.2])
    simp only [List.forall_mem_cons] at k
    obtain ⟨k1, k2, k3, k4, k5, k6, -⟩ := k
    constructor <;> simp only [eval_toPoly, eval_toPoly', eval_toPoly'', compute, tau_zero, dtau_zero,
      ddtau_zero] <;> first | assumption | (intro; assumption) | simp [Order.deg]

/-- Two coefficient arrays with the same boundary values are equal. -/
theorem meets_unique (o : Order) (p : Options K) (h : 0 < p.tf) (c d : Vec o K)
    (hc : Meets o p (toPoly c)) (hd : Meets o p (toPoly d)) : c = d := by
  have h' : p.tf ≠ 0 := h.ne'
  obtain ⟨a1, a2, a3, a4, a5, a6⟩ := hc
  obtain ⟨b1, b2, b3, b4, b5, b6⟩ := hd
  simp only [eval_toPoly, eval_toPoly', eval_toPoly''] at *
  cases o
  · simp [inner, tau, sum_o1] at *
    have e1 : c 1 = d 1 := a1.trans b1.symm
    have e0 : c 0 = d 0 := mul_right_cancel₀ h' (by linear_combination a2 - b2 - e1)
    funext i; fin_cases i <;> assumption
  · simp [inner, tau, dtau, sum_o2, Order.deg] at *
    have e2 : c 2 = d 2 := a1.trans b1.symm
    have e1 : c 1 = d 1 := a3.trans b3.symm
    have e0 : c 0 = d 0 := mul_right_cancel₀ (pow_ne_zero 2 h')
      (by linear_combination a2 - b2 - e2 - p.tf * e1)
    funext i; fin_cases i <;> assumption
  · simp [inner, tau, dtau, sum_o3, Order.deg] at *
    have e3 : c 3 = d 3 := a1.trans b1.symm
    have e2 : c 2 = d 2 := a3.trans b3.symm
    have e0 : c 0 = d 0 := mul_right_cancel₀ (pow_ne_zero 3 h')
      (by linear_combination -2 * (a2 - b2 - e3 - p.tf * e2) + p.tf * (a4 - b4 - e2))
    have e1 : c 1 = d 1 := mul_right_cancel₀ (pow_ne_zero 2 h')
      (by linear_combination (a2 - b2 - e3 - p.tf * e2 - p.tf ^ 3 * e0))
    funext i; fin_cases i <;> assumption
  · simp [inner, tau, dtau, ddtau, sum_o4, Order.deg] at *
    have e4 : c 4 = d 4 := a1.trans b1.symm
    have e3 : c 3 = d 3 := a3.trans b3.symm
    have e2 : c 2 = d 2 := mul_right_cancel₀ (two_ne_zero (α := K)) (a5.trans b5.symm)
    have e0 : c 0 = d 0 := mul_right_cancel₀ (pow_ne_zero 4 h')
      (by linear_combination -3 * (a2 - b2 - e4 - p.tf * e3 - p.tf ^ 2 * e2) +
            p.tf * (a4 - b4 - e3 - 2 * p.tf * e2))
    have e1 : c 1 = d 1 := mul_right_cancel₀ (pow_ne_zero 3 h')
      (by linear_combination (a2 - b2 - e4 - p.tf * e3 - p.tf ^ 2 * e2 - p.tf ^ 4 * e0))
    funext i; fin_cases i <;> assumption
  · simp [inner, tau, dtau, ddtau, sum_o5, Order.deg] at *
    have e5 : c 5 = d 5 := a1.trans b1.symm
    have e4 : c 4 = d 4 := a3.trans b3.symm
    have e3 : c 3 = d 3 := mul_right_cancel₀ (two_ne_zero (α := K)) (a5.trans b5.symm)
    have f1 : c 0 * p.tf ^ 5 + c 1 * p.tf ^ 4 + c 2 * p.tf ^ 3 =
        d 0 * p.tf ^ 5 + d 1 * p.tf ^ 4 + d 2 * p.tf ^ 3 := by
      linear_combination a2 - b2 - e5 - p.tf * e4 - p.tf ^ 2 * e3
    have f2 : 5 * c 0 * p.tf ^ 4 + 4 * c 1 * p.tf ^ 3 + 3 * c 2 * p.tf ^ 2 =
        5 * d 0 * p.tf ^ 4 + 4 * d 1 * p.tf ^ 3 + 3 * d 2 * p.tf ^ 2 := by
      linear_combination a4 - b4 - e4 - 2 * p.tf * e3
    have f3 : 20 * c 0 * p.tf ^ 3 + 12 * c 1 * p.tf ^ 2 + 6 * c 2 * p.tf =
        20 * d 0 * p.tf ^ 3 + 12 * d 1 * p.tf ^ 2 + 6 * d 2 * p.tf := by
      linear_combination a6 - b6 - 2 * e3
    have e0 : c 0 = d 0 := mul_right_cancel₀ (mul_ne_zero (two_ne_zero (α := K)) (pow_ne_zero 5 h'))
      (by linear_combination 12 * f1 - 6 * p.tf * f2 + p.tf ^ 2 * f3)
    have e1 : c 1 = d 1 := mul_right_cancel₀ (pow_ne_zero 4 h')
      (by linear_combination p.tf * f2 - 3 * f1 - 2 * p.tf ^ 5 * e0)
    have e2 : c 2 = d 2 := mul_right_cancel₀ (pow_ne_zero 3 h')
      (by linear_combination f1 - p.tf ^ 5 * e0 - p.tf ^ 4 * e1)
    funext i; fin_cases i <;> assumption

/-- **C16.** For `tf > 0` and every previous content `s0` of the object, `computeCoefficients`
returns `true`, the spline has duration `tf` and the requested start and end values of its order. -/
theorem C16_boundary (S : Solver K) (o : Order) (p : Options K) (h : 0 < p.tf) (s0 : Spline o K) :
    ∃ s, s0.computeCoefficients S p = (true, s) ∧ s.duration = p.tf ∧
      s.getPositionAtTime 0 = p.pos0 ∧ s.getPositionAtTime p.tf = p.posT ∧
      (2 ≤ o.deg → s.getVelocityAtTime 0 = p.vel0) ∧
      (3 ≤ o.deg → s.getVelocityAtTime p.tf = p.velT) ∧
      (4 ≤ o.deg → s.getAccelerationAtTime 0 = p.acc0) ∧
      (5 ≤ o.deg → s.getAccelerationAtTime p.tf = p.accT) := by
  obtain ⟨k1, k2, k3, k4, k5, k6⟩ := compute_meets S o p h
  simp only [eval_toPoly, eval_toPoly', eval_toPoly''] at *
  refine ⟨_, rfl, rfl, ?_⟩
  simp only [Spline.getPositionAtTime, Spline.getVelocityAtTime, Spline.getAccelerationAtTime,
    clamp_inside le_rfl h.le, clamp_inside h.le le_rfl]
  exact ⟨k1, k2, k3, k4, k5, k6⟩

/-- **C16, uniqueness.** Any polynomial of degree at most the order meeting the same conditions is
the computed spline: position, velocity and acceleration agree over the whole duration. -/
theorem C16_unique (S : Solver K) (o : Order) (p : Options K) (h : 0 < p.tf) (s0 : Spline o K)
    (P : K[X]) (hP : P.natDegree ≤ o.deg) (hm : Meets o p P) :
    ∀ t, 0 ≤ t → t ≤ p.tf →
      (s0.computeCoefficients S p).2.getPositionAtTime t = P.eval t ∧
      (s0.computeCoefficients S p).2.getVelocityAtTime t = P.derivative.eval t ∧
      (s0.computeCoefficients S p).2.getAccelerationAtTime t = P.derivative.derivative.eval t := by
  intro t h0 h1
  have e := toPoly_coeff P hP
  rw [← e] at hm
  have := meets_unique o p h _ _ (compute_meets S o p h) hm
  have e2 : toPoly (compute S o p) = P := by rw [this, e]
  simp only [Spline.computeCoefficients, Spline.getPositionAtTime, Spline.getVelocityAtTime,
    Spline.getAccelerationAtTime, clamp_inside h0 h1, ← eval_toPoly, ← eval_toPoly', ← eval_toPoly'',
    e2, and_self]

/-- The hypotheses of `C16_unique` are met by a non-trivial polynomial: `t^2` is the quadratic from
0 to 9 in 3 seconds starting at rest. -/
example : Meets .o2 (⟨3, 0, 9, 0, 0, 0, 0⟩ : Options ℚ) (X ^ 2) ∧
    (X ^ 2 : ℚ[X]).natDegree ≤ Order.deg .o2 := by
  constructor
  · constructor <;> simp [Order.deg] <;> norm_num
  · simp [Order.deg]

/-- Evaluation over the duration is evaluation of the polynomial. -/
theorem getPosition_eq {o : Order} (s : Spline o K) (t : K) (h0 : 0 ≤ t) (h1 : t ≤ s.duration) :
    s.getPositionAtTime t = (toPoly s.coeffs).eval t := by
  rw [Spline.getPositionAtTime, clamp_inside h0 h1, eval_toPoly]

theorem getVelocity_eq {o : Order} (s : Spline o K) (t : K) (h0 : 0 ≤ t) (h1 : t ≤ s.duration) :
    s.getVelocityAtTime t = (toPoly s.coeffs).derivative.eval t := by
  rw [Spline.getVelocityAtTime, clamp_inside h0 h1, eval_toPoly']

theorem getAcceleration_eq {o : Order} (s : Spline o K) (t : K) (h0 : 0 ≤ t)
    (h1 : t ≤ s.duration) :
    s.getAccelerationAtTime t = (toPoly s.coeffs).derivative.derivative.eval t := by
  rw [Spline.getAccelerationAtTime, clamp_inside h0 h1, eval_toPoly'']

/-- **C17.** Strictly inside the duration, velocity is the derivative of position and acceleration
the derivative of velocity, for every order and every coefficient array. -/
theorem C17_derivatives (o : Order) (s : Spline o ℝ) (t : ℝ) (h0 : 0 < t) (h1 : t < s.duration) :
    HasDerivAt s.getPositionAtTime (s.getVelocityAtTime t) t ∧
      HasDerivAt s.getVelocityAtTime (s.getAccelerationAtTime t) t := by
  have hev : ∀ᶠ u in nhds t, 0 < u ∧ u < s.duration := Ioo_mem_nhds h0 h1
  rw [getVelocity_eq s t h0.le h1.le, getAcceleration_eq s t h0.le h1.le]
  constructor
  · refine ((toPoly s.coeffs).hasDerivAt t).congr_of_eventuallyEq ?_
    filter_upwards [hev] with u hu using getPosition_eq s u hu.1.le hu.2.le
  · refine ((toPoly s.coeffs).derivative.hasDerivAt t).congr_of_eventuallyEq ?_
    filter_upwards [hev] with u hu using getVelocity_eq s u hu.1.le hu.2.le

/-- A case of C17 that is not constant: the cubic `t^3` on `[0,2]` has velocity 3 at time 1. -/
example : (⟨![1, 0, 0, 0], 2⟩ : Spline .o3 ℝ).getVelocityAtTime 1 = 3 := by
  rw [getVelocity_eq _ _ (by norm_num) (by norm_num), toPoly_o3]; simp; norm_num

/-- **C18.** With a non-negative duration evaluation saturates at both ends. -/
theorem C18_saturates (o : Order) (s : Spline o K) (hd : 0 ≤ s.duration) (t : K) :
    (t ≤ 0 → s.getPositionAtTime t = s.getPositionAtTime 0 ∧
      s.getVelocityAtTime t = s.getVelocityAtTime 0 ∧
      s.getAccelerationAtTime t = s.getAccelerationAtTime 0) ∧
    (s.duration ≤ t → s.getPositionAtTime t = s.getPositionAtTime s.duration ∧
      s.getVelocityAtTime t = s.getVelocityAtTime s.duration ∧
      s.getAccelerationAtTime t = s.getAccelerationAtTime s.duration) := by
  simp only [Spline.getPositionAtTime, Spline.getVelocityAtTime, Spline.getAccelerationAtTime]
  refine ⟨fun h => ?_, fun h => ?_⟩
  · simp [clamp_below hd h, clamp_below hd (le_refl (0 : K))]
  · simp [clamp_above hd h, clamp_above hd (le_refl s.duration)]

/-- C18 pins the values down together with this: at 0 and at the duration evaluation is the
polynomial's value there. -/
theorem C18_ends (o : Order) (s : Spline o K) (hd : 0 ≤ s.duration) :
    s.getPositionAtTime 0 = (toPoly s.coeffs).eval 0 ∧
      s.getPositionAtTime s.duration = (toPoly s.coeffs).eval s.duration ∧
      s.getVelocityAtTime 0 = (toPoly s.coeffs).derivative.eval 0 ∧
      s.getVelocityAtTime s.duration = (toPoly s.coeffs).derivative.eval s.duration ∧
      s.getAccelerationAtTime 0 = (toPoly s.coeffs).derivative.derivative.eval 0 ∧
      s.getAccelerationAtTime s.duration =
        (toPoly s.coeffs).derivative.derivative.eval s.duration :=
  ⟨getPosition_eq s 0 le_rfl hd, getPosition_eq s _ hd le_rfl, getVelocity_eq s 0 le_rfl hd,
    getVelocity_eq s _ hd le_rfl, getAcceleration_eq s 0 le_rfl hd,
    getAcceleration_eq s _ hd le_rfl⟩

/-- **C18, splines given by their coefficients.** After `setCoefficientsAndDuration` with the coefficients
of a polynomial `P` (highest power first) and a duration `d ≥ 0`, whatever the spline was before,
position, velocity and acceleration are those of `P`, at the time moved into `[0, d]`. -/
theorem C18_set (o : Order) (s0 : Spline o K) (P : K[X]) (hP : P.natDegree ≤ o.deg) (d : K) (hd : 0 ≤ d)
    (t : K) :
    ∃ u, (0 ≤ t → t ≤ d → u = t) ∧ (t ≤ 0 → u = 0) ∧ (d ≤ t → u = d) ∧
      (s0.setCoefficientsAndDuration (fun i : Fin o.count => P.coeff (o.deg - (i : ℕ))) d).getPositionAtTime t =
        P.eval u ∧
      (s0.setCoefficientsAndDuration (fun i : Fin o.count => P.coeff (o.deg - (i : ℕ))) d).getVelocityAtTime t =
        P.derivative.eval u ∧
      (s0.setCoefficientsAndDuration (fun i : Fin o.count => P.coeff (o.deg - (i : ℕ)))
        d).getAccelerationAtTime t = P.derivative.derivative.eval u := by
  refine ⟨clamp t d, fun a b => clamp_inside a b, fun a => clamp_below hd a, fun a => clamp_above hd a, ?_⟩
  have e := toPoly_coeff P hP
  simp only [Spline.setCoefficientsAndDuration, Spline.getPositionAtTime, Spline.getVelocityAtTime,
    Spline.getAccelerationAtTime, ← eval_toPoly, ← eval_toPoly', ← eval_toPoly'', e, and_self]

example : (X ^ 2 : ℚ[X]).natDegree ≤ Order.deg .o3 ∧ (0 : ℚ) ≤ 2 := by
  simp [Order.deg]

example : (⟨![1, 0, 0, 0], 2⟩ : Spline .o3 ℚ).getPositionAtTime 5 = 8 := by
  rw [((C18_saturates _ _ (by norm_num) 5).2 (by norm_num)).1, getPosition_eq _ _ (by norm_num) le_rfl,
    toPoly_o3]; simp; norm_num

/-- **C19 (partial).** Every row-vector helper except `getDDiffTimeVector` gives, times the
coefficients, the polynomial (or its first, second derivative) at the time asked for; the `add...`
variants add that row to the caller's; the constants for time 0 are the vectors at time 0. Missing:
`getDDiffTimeVector`, see `C19_refuted`. -/
theorem C19_time_vectors_partial (o : Order) (c v : Vec o K) (t : K) :
    inner c (getTimeVector o t) = (toPoly c).eval t ∧
    inner c (addTimeVector o v t) = inner c v + (toPoly c).eval t ∧
    inner c (getDTimeVector o t) = (toPoly c).derivative.eval t ∧
    inner c (getDiffTimeVector o t) = (toPoly c).derivative.eval t ∧
    inner c (addDiffTimeVector o v t) = inner c v + (toPoly c).derivative.eval t ∧
    inner c (getDDTimeVector o t) = (toPoly c).derivative.derivative.eval t ∧
    inner c (addDDiffTimeVector o v t) = inner c v + (toPoly c).derivative.derivative.eval t ∧
    inner c (getTimeVectorAtZero o) = (toPoly c).eval 0 ∧
    inner c (addTimeVectorAtZero o v) = inner c v + (toPoly c).eval 0 ∧
    inner c (getDTimeVectorAtZero o) = (toPoly c).derivative.eval 0 ∧
    inner c (getDiffTimeVectorAtZero o) = (toPoly c).derivative.eval 0 ∧
    inner c (addDiffTimeVectorAtZero o v) = inner c v + (toPoly c).derivative.eval 0 ∧
    inner c (getDDTimeVectorAtZero o) = (toPoly c).derivative.derivative.eval 0 ∧
    inner c (getDDiffTimeVectorAtZero o) = (toPoly c).derivative.derivative.eval 0 ∧
    inner c (addDDiffTimeVectorAtZero o v) =
      inner c v + (toPoly c).derivative.derivative.eval 0 := by
  have hadd : ∀ a b : Vec o K, inner c (a + b) = inner c a + inner c b := by
    intro a b; simp [inner, mul_add, Finset.sum_add_distrib]
  simp only [eval_toPoly, eval_toPoly', eval_toPoly'', getTimeVector, addTimeVector, getDTimeVector,
    getDiffTimeVector, addDiffTimeVector, getDDTimeVector, addDDiffTimeVector, getTimeVectorAtZero,
    addTimeVectorAtZero, getDTimeVectorAtZero, getDiffTimeVectorAtZero, addDiffTimeVectorAtZero,
    getDDTimeVectorAtZero, getDDiffTimeVectorAtZero, addDDiffTimeVectorAtZero, hadd, tau_zero,
    dtau_zero, ddtau_zero, and_self]

/-- `getDDiffTimeVector` returns the row of the first derivative, for every order, coefficients and
time. -/
theorem C19_ddiff_is_first_derivative (o : Order) (c : Vec o K) (t : K) :
    inner c (getDDiffTimeVector o t) = (toPoly c).derivative.eval t := by
  rw [getDDiffTimeVector, eval_toPoly']

/-- **C19 is false of the code**: for every order and every time there are coefficients for which
`getDDiffTimeVector` is not the second derivative (the straight line `s(t) = t`). -/
theorem C19_refuted (o : Order) (t : K) :
    ∃ c : Vec o K, inner c (getDDiffTimeVector o t) ≠ (toPoly c).derivative.derivative.eval t := by
  refine ⟨dtauZero o, ?_⟩
  rw [eval_toPoly'', getDDiffTimeVector]
  cases o <;> simp [inner, sum_o1, sum_o2, sum_o3, sum_o4, sum_o5, dtauZero, dtau, ddtau]

end Verif.Spline

import Mathlib.Tactic.Ring
import Mathlib.Tactic.FieldSimp
import Mathlib.Tactic.LinearCombination
import Mathlib.Tactic.Linarith
import Mathlib.Tactic.Positivity
import Mathlib.Algebra.Polynomial.Derivative
import Mathlib.Algebra.Polynomial.Eval.Degree
import Mathlib.Algebra.Polynomial.BigOperators
import Verif.Spline.Model

/-! # Lemmas about the single-spline model -/

set_option linter.unusedSectionVars false
set_option linter.dupNamespace false

namespace Verif.Spline

open Polynomial

variable {K : Type} [Field K] [LinearOrder K] [IsStrictOrderedRing K]

theorem clamp_inside {t d : K} (h0 : 0 ≤ t) (h1 : t ≤ d) : clamp t d = t := by
  unfold clamp
  simp only [not_lt.mpr h1, if_false]
  split
  · rfl
  · linarith

theorem clamp_below {t d : K} (hd : 0 ≤ d) (h : t ≤ 0) : clamp t d = 0 := by
  unfold clamp
  simp only [not_lt.mpr (h.trans hd), if_false]
  split
  · linarith
  · rfl

theorem clamp_above {t d : K} (hd : 0 ≤ d) (h : d ≤ t) : clamp t d = d := by
  unfold clamp
  by_cases h2 : d < t
  · simp only [h2, if_true]
    split
    · rfl
    · linarith
  · have : t = d := le_antisymm (not_lt.mp h2) h
    subst this
    simp only [lt_irrefl, if_false]
    split
    · rfl
    · linarith

theorem tau_zero (o : Order) : tau o (0 : K) = tauZero o := by
  cases o <;> simp [tau, tauZero]

theorem dtau_zero (o : Order) : dtau o (0 : K) = dtauZero o := by
  cases o <;> simp [dtau, dtauZero]

theorem ddtau_zero (o : Order) : ddtau o (0 : K) = ddtauZero o := by
  cases o <;> simp [ddtau, ddtauZero]


section sums
variable {M : Type} [AddCommMonoid M]
theorem sum_o1 (f : Fin (Order.count .o1) → M) : ∑ i, f i = f 0 + f 1 := Fin.sum_univ_two f
theorem sum_o2 (f : Fin (Order.count .o2) → M) : ∑ i, f i = f 0 + f 1 + f 2 := Fin.sum_univ_three f
theorem sum_o3 (f : Fin (Order.count .o3) → M) : ∑ i, f i = f 0 + f 1 + f 2 + f 3 :=
  Fin.sum_univ_four f
theorem sum_o4 (f : Fin (Order.count .o4) → M) : ∑ i, f i = f 0 + f 1 + f 2 + f 3 + f 4 :=
  Fin.sum_univ_five f
theorem sum_o5 (f : Fin (Order.count .o5) → M) : ∑ i, f i = f 0 + f 1 + f 2 + f 3 + f 4 + f 5 :=
  Fin.sum_univ_six f
end sums

/-- The polynomial a coefficient array stands for: `an*t^n + ... + a1*t + a0`
(the documentation comment of the class, PolynomialSpline.hpp:22-33). -/
noncomputable def toPoly {o : Order} (c : Vec o K) : K[X] :=
  ∑ i : Fin o.count, C (c i) * X ^ (o.deg - (i : ℕ))

theorem toPoly_o1 (c : Vec .o1 K) : toPoly c = C (c 0) * X ^ 1 + C (c 1) * X ^ 0 := by
  simp only [toPoly, sum_o1]; rfl
theorem toPoly_o2 (c : Vec .o2 K) :
    toPoly c = C (c 0) * X ^ 2 + C (c 1) * X ^ 1 + C (c 2) * X ^ 0 := by
  simp only [toPoly, sum_o2]; rfl
theorem toPoly_o3 (c : Vec .o3 K) :
    toPoly c = C (c 0) * X ^ 3 + C (c 1) * X ^ 2 + C (c 2) * X ^ 1 + C (c 3) * X ^ 0 := by
  simp only [toPoly, sum_o3]; rfl
theorem toPoly_o4 (c : Vec .o4 K) :
    toPoly c = C (c 0) * X ^ 4 + C (c 1) * X ^ 3 + C (c 2) * X ^ 2 + C (c 3) * X ^ 1 +
      C (c 4) * X ^ 0 := by
  simp only [toPoly, sum_o4]; rfl
theorem toPoly_o5 (c : Vec .o5 K) :
    toPoly c = C (c 0) * X ^ 5 + C (c 1) * X ^ 4 + C (c 2) * X ^ 3 + C (c 3) * X ^ 2 +
      C (c 4) * X ^ 1 + C (c 5) * X ^ 0 := by
  simp only [toPoly, sum_o5]; rfl

theorem eval_toPoly {o : Order} (c : Vec o K) (t : K) : (toPoly c).eval t = inner c (tau o t) := by
  cases o <;> simp [toPoly_o1, toPoly_o2, toPoly_o3, toPoly_o4, toPoly_o5, inner, tau, sum_o1,
    sum_o2, sum_o3, sum_o4, sum_o5]

theorem eval_toPoly' {o : Order} (c : Vec o K) (t : K) :
    (toPoly c).derivative.eval t = inner c (dtau o t) := by
  cases o <;> simp [toPoly_o1, toPoly_o2, toPoly_o3, toPoly_o4, toPoly_o5, inner, dtau, sum_o1,
    sum_o2, sum_o3, sum_o4, sum_o5, -mul_eq_mul_left_iff, -mul_eq_mul_right_iff] <;> ring

theorem eval_toPoly'' {o : Order} (c : Vec o K) (t : K) :
    (toPoly c).derivative.derivative.eval t = inner c (ddtau o t) := by
  cases o <;> simp [toPoly_o1, toPoly_o2, toPoly_o3, toPoly_o4, toPoly_o5, inner, ddtau, sum_o1,
    sum_o2, sum_o3, sum_o4, sum_o5, -mul_eq_mul_left_iff, -mul_eq_mul_right_iff] <;> ring

theorem sum_row {o : Order} (v : Vec o K) (x : ℕ → K) :
    ∑ c ∈ Finset.range o.count, row v c * x c = inner (fun i : Fin o.count => x i) v := by
  rw [Finset.sum_range]
  unfold inner row
  refine Finset.sum_congr rfl fun i _ => ?_
  simp [i.2, mul_comm]

theorem solveRows_exact (S : Solver K) {o : Order} (rows : List (Vec o K × K)) (c : Vec o K)
    (h : ∀ p ∈ rows, inner c p.1 = p.2) : ∀ p ∈ rows, inner (solveRows S rows) p.1 = p.2 := by
  have key := S.exact rows.length o.count (fun r c => ((rows[r]?).map (fun p => row p.1 c)).getD 0)
    (fun r => ((rows[r]?).map Prod.snd).getD 0) ⟨fun i => if h : i < o.count then c ⟨i, h⟩ else 0, ?_⟩
  · intro p hp
    obtain ⟨r, hr, rfl⟩ := List.getElem_of_mem hp
    have := key r hr
    simp only [List.getElem?_eq_getElem hr, Option.map_some, Option.getD_some] at this
    rw [sum_row] at this
    exact this
  · intro r hr
    simp only [List.getElem?_eq_getElem hr, Option.map_some, Option.getD_some]
    rw [sum_row, ← h _ (List.getElem_mem hr)]
    unfold inner
    refine Finset.sum_congr rfl fun i _ => ?_
    simp [i.2]

/-- The cubic with given end positions and velocities. -/
def cubic (T p v q w : K) : Vec .o3 K :=
  ![-2 * (q - p) / T ^ 3 + (v + w) / T ^ 2, 3 * (q - p) / T ^ 2 - (2 * v + w) / T, v, p]

/-- The quartic with given start position, velocity, acceleration and end position, velocity. -/
def quartic (T p v a q w : K) : Vec .o4 K :=
  ![((w - v - a * T) * T - 3 * (q - p - v * T - a * T ^ 2 / 2)) / T ^ 4,
    (4 * (q - p - v * T - a * T ^ 2 / 2) - (w - v - a * T) * T) / T ^ 3, a / 2, v, p]

/-- The quintic with given end positions, velocities and accelerations. -/
def quintic (T p v a q w e : K) : Vec .o5 K :=
  ![(12 * (q - p) - 6 * (w + v) * T - (a - e) * T ^ 2) / (2 * T ^ 5),
    (-30 * (q - p) + (14 * w + 16 * v) * T + (3 * a - 2 * e) * T ^ 2) / (2 * T ^ 4),
    (20 * (q - p) - (8 * w + 12 * v) * T - (3 * a - e) * T ^ 2) / (2 * T ^ 3), a / 2, v, p]

section herm
variable {T : K} (hT : T ≠ 0) (p v a q w e : K)
include hT

theorem cubic_spec : inner (cubic T p v q w) (tauZero .o3) = p ∧
    inner (cubic T p v q w) (dtauZero .o3) = v ∧ inner (cubic T p v q w) (tau .o3 T) = q ∧
    inner (cubic T p v q w) (dtau .o3 T) = w ∧
    inner (cubic T p v q w) (ddtauZero .o3) = 6 * (q - p) / T ^ 2 - (4 * v + 2 * w) / T ∧
    inner (cubic T p v q w) (ddtau .o3 T) = -6 * (q - p) / T ^ 2 + (2 * v + 4 * w) / T := by
  refine ⟨?_, ?_, ?_, ?_, ?_, ?_⟩ <;>
    simp [cubic, inner, sum_o3, tauZero, dtauZero, ddtauZero, tau, dtau, ddtau] <;> field_simp <;> ring

theorem quartic_spec : inner (quartic T p v a q w) (tauZero .o4) = p ∧
    inner (quartic T p v a q w) (dtauZero .o4) = v ∧
    inner (quartic T p v a q w) (ddtauZero .o4) = a ∧
    inner (quartic T p v a q w) (tau .o4 T) = q ∧
    inner (quartic T p v a q w) (dtau .o4 T) = w ∧
    inner (quartic T p v a q w) (ddtau .o4 T) = a + 6 * (v + w) / T - 12 * (q - p) / T ^ 2 := by
  refine ⟨?_, ?_, ?_, ?_, ?_, ?_⟩ <;>
    simp [quartic, inner, sum_o4, tauZero, dtauZero, ddtauZero, tau, dtau, ddtau] <;>
    field_simp <;> ring

theorem quintic_spec : inner (quintic T p v a q w e) (tauZero .o5) = p ∧
    inner (quintic T p v a q w e) (dtauZero .o5) = v ∧
    inner (quintic T p v a q w e) (ddtauZero .o5) = a ∧
    inner (quintic T p v a q w e) (tau .o5 T) = q ∧
    inner (quintic T p v a q w e) (dtau .o5 T) = w ∧
    inner (quintic T p v a q w e) (ddtau .o5 T) = e := by
  refine ⟨?_, ?_, ?_, ?_, ?_, ?_⟩ <;>
    simp [quintic, inner, sum_o5, tauZero, dtauZero, ddtauZero, tau, dtau, ddtau] <;>
    field_simp <;> ring
end herm

end Verif.Spline

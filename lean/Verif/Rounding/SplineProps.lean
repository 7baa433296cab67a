import Verif.Rounding.SplineLemmas

/-!
# Property C114: rounding errors when a segment is evaluated
-/

set_option linter.unusedSectionVars false
set_option linter.dupNamespace false

namespace Verif.Rounding

open Verif.Spline (Order Vec Spline)

section
variable {K : Type} [Field K] [LinearOrder K] [IsStrictOrderedRing K] {R : Rounding K} {u : K}

/-- With exact arithmetic any order of multiplications gives the power. -/
theorem isPow_exact {x : K} {n : ℕ} {y : K} (h : IsPow (exact K) x n y) : y = x ^ n := by
  induction h with
  | one => simp
  | mul _ _ ha hb => rw [pow_add, ← ha, ← hb]; rfl

theorem pow_exact (P : Pow (exact K)) (x : K) {n : ℕ} (h : 1 ≤ n) : P.pow n x = x ^ n := isPow_exact (P.mult n x h)

theorem fold_exact {ι : Type} (x : ι → K) : ∀ (l : List ι) (acc : K),
    l.foldl (fun s i => (exact K).rnd (s + x i)) acc = acc + (l.map x).sum
  | [], acc => by simp
  | i :: l, acc => by
    rw [List.foldl_cons, fold_exact x l, List.map_cons, List.sum_cons, ← add_assoc]
    rfl

theorem link_inner {n : ℕ} (a b : Fin n → K) : inner (exact K) a b = Spline.inner a b := by
  have := fold_exact (fun i => a i * b i) (List.finRange n) 0
  rw [← List.ofFn_eq_map, List.sum_ofFn, zero_add] at this
  exact this

theorem link_tau (P : Pow (exact K)) (o : Order) (t : K) : tau (exact K) P o t = Spline.tau o t := by
  cases o <;> simp [tau, Spline.tau, pow_exact P t]

theorem link_dtau (P : Pow (exact K)) (o : Order) (t : K) : dtau (exact K) P o t = Spline.dtau o t := by
  cases o <;> simp [dtau, Spline.dtau, pow_exact P t, exact]

theorem link_ddtau (P : Pow (exact K)) (o : Order) (t : K) : ddtau (exact K) P o t = Spline.ddtau o t := by
  cases o <;> simp [ddtau, Spline.ddtau, pow_exact P t, exact]

/-- With exact arithmetic the evaluation is that of `Verif/Spline/Model.lean`. -/
theorem link_spline (P : Pow (exact K)) {o : Order} (s : Spline o K) (t : K) :
    position (exact K) P s t = s.getPositionAtTime t ∧ velocity (exact K) P s t = s.getVelocityAtTime t ∧
      acceleration (exact K) P s t = s.getAccelerationAtTime t := by
  simp only [position, velocity, acceleration, link_inner, link_tau, link_dtau, link_ddtau]
  exact ⟨rfl, rfl, rfl⟩

theorem tau_near (hP : Precise R u) (hu : 0 ≤ u) (P : Pow R) (o : Order) (t : K) :
    ∀ i, Within u 4 (tau R P o t i) (Spline.tau o t i) := by
  have h : ∀ n, 1 ≤ n → n ≤ 5 → Within u 4 (P.pow n t) (t ^ n) := fun n h1 h5 =>
    (within_pow hP hu (P.mult n t h1)).2.mono hu (by omega)
  have h0 : ∀ x : K, Within u 4 x x := fun x => (within_zero x).mono hu (by omega)
  cases o <;> intro i <;> simp only [Order.count, Order.deg] at i <;> fin_cases i <;>
    first
    | exact h0 _
    | exact h _ (by omega) (by omega)

theorem dtau_near (hP : Precise R u) (hu : 0 ≤ u) (P : Pow R) (o : Order) (t : K) :
    ∀ i, Within u 4 (dtau R P o t i) (Spline.dtau o t i) := by
  have h : ∀ (c : K) n, 1 ≤ n → n ≤ 4 → Within u 4 (R.rnd (c * P.pow n t)) (c * t ^ n) := fun c n h1 h5 =>
    (((within_zero c).mul (within_pow hP hu (P.mult n t h1)).2).rnd hP hu).mono hu (by omega)
  have h' : ∀ (c : K), Within u 4 (R.rnd (c * t)) (c * t) := fun c => ((within_zero _).rnd hP hu).mono hu (by omega)
  have h0 : ∀ x : K, Within u 4 x x := fun x => (within_zero x).mono hu (by omega)
  cases o <;> intro i <;> simp only [Order.count, Order.deg] at i <;> fin_cases i <;>
    first
    | exact h0 _
    | exact h' _
    | exact h _ _ (by omega) (by omega)

theorem ddtau_near (hP : Precise R u) (hu : 0 ≤ u) (P : Pow R) (o : Order) (t : K) :
    ∀ i, Within u 4 (ddtau R P o t i) (Spline.ddtau o t i) := by
  have h : ∀ (c : K) n, 1 ≤ n → n ≤ 4 → Within u 4 (R.rnd (c * P.pow n t)) (c * t ^ n) := fun c n h1 h5 =>
    (((within_zero c).mul (within_pow hP hu (P.mult n t h1)).2).rnd hP hu).mono hu (by omega)
  have h' : ∀ (c : K), Within u 4 (R.rnd (c * t)) (c * t) := fun c => ((within_zero _).rnd hP hu).mono hu (by omega)
  have h0 : ∀ x : K, Within u 4 x x := fun x => (within_zero x).mono hu (by omega)
  cases o <;> intro i <;> simp only [Order.count, Order.deg] at i <;> fin_cases i <;>
    first
    | exact h0 _
    | exact h' _
    | exact h _ _ (by omega) (by omega)

theorem inner_double [FloorRing K] {o : Order} (a b' b : Vec o K) (h : ∀ i, Within (1 / 2 ^ 53) 4 (b' i) (b i)) :
    |inner (double K) a b' - Spline.inner a b| ≤ (∑ i, |a i * b i|) / 2 ^ 49 := by
  have h1 := inner_near (precise_double (K := K)) (by positivity) a b' b h
  have h2 : (1 + 1 / 2 ^ 53 : K) ^ (4 + 1 + o.count) ≤ (1 + 1 / 2 ^ 53) ^ 11 :=
    pow_mono (by positivity) (by cases o <;> simp [Order.count, Order.deg])
  have h3 := pow_eleven (K := K)
  have h4 : 0 ≤ ∑ i, |a i * b i| := Finset.sum_nonneg fun i _ => abs_nonneg _
  refine h1.trans ((mul_le_mul_of_nonneg_right (show _ ≤ (1 / 2 ^ 49 : K) by linarith) h4).trans (le_of_eq ?_))
  ring

/-- **C114**. In `double` a segment of any order is evaluated, at any time, with an error of at most the fraction
2⁻⁴⁹ of the sum of the absolute values of the terms of the polynomial; the same for velocity and acceleration. -/
theorem C114_segment [FloorRing K] (P : Pow (double K)) {o : Order} (s : Spline o K) (t : K) :
    |position (double K) P s t - s.getPositionAtTime t| ≤
        (∑ i, |s.coeffs i * Spline.tau o (max 0 (min t s.duration)) i|) / 2 ^ 49 ∧
      |velocity (double K) P s t - s.getVelocityAtTime t| ≤
        (∑ i, |s.coeffs i * Spline.dtau o (max 0 (min t s.duration)) i|) / 2 ^ 49 ∧
      |acceleration (double K) P s t - s.getAccelerationAtTime t| ≤
        (∑ i, |s.coeffs i * Spline.ddtau o (max 0 (min t s.duration)) i|) / 2 ^ 49 := by
  have hc : max 0 (min t s.duration) = clamp t s.duration := by
    rw [clamp]
    by_cases h : s.duration < t
    · rw [if_pos h, min_eq_right h.le]
      by_cases h' : 0 < s.duration
      · rw [if_pos h', max_eq_right h'.le]
      · rw [if_neg h', max_eq_left (not_lt.1 h')]
    · rw [if_neg h, min_eq_left (not_lt.1 h)]
      by_cases h' : 0 < t
      · rw [if_pos h', max_eq_right h'.le]
      · rw [if_neg h', max_eq_left (not_lt.1 h')]
  rw [hc]
  exact ⟨inner_double _ _ _ (tau_near precise_double (by positivity) P o _),
    inner_double _ _ _ (dtau_near precise_double (by positivity) P o _),
    inner_double _ _ _ (ddtau_near precise_double (by positivity) P o _)⟩

/-- The order in which boost multiplies: `base * power * power` or `power * power`. -/
def boostPow (R : Rounding K) : ℕ → K → K
  | 2, x => R.rnd (x * x)
  | 3, x => R.rnd (R.rnd (x * x) * x)
  | 4, x => R.rnd (R.rnd (x * x) * R.rnd (x * x))
  | 5, x => R.rnd (R.rnd (x * R.rnd (x * x)) * R.rnd (x * x))
  | 0, x => x
  | 1, x => x
  | n + 2, x => R.rnd (boostPow R (n + 1) x * x)

def boost (R : Rounding K) : Pow R where
  pow := boostPow R
  mult n x h := by
    have h2 : IsPow R x 2 (R.rnd (x * x)) := .mul (m := 1) (n := 1) .one .one
    induction n with
    | zero => omega
    | succ n ih =>
      match n, ih with
      | 0, _ => exact .one
      | 1, _ => exact h2
      | 2, _ => exact .mul (m := 2) (n := 1) h2 .one
      | 3, _ => exact .mul (m := 2) (n := 2) h2 h2
      | 4, _ => exact .mul (m := 3) (n := 2) (.mul (m := 1) (n := 2) .one h2) h2
      | n + 5, ih => exact .mul (m := n + 5) (n := 1) (ih (by omega)) .one

end

/-- An evaluation of `C114_segment` with an error: `x^2 + x` at 1/49. -/
example : position (double ℚ) (boost _) (⟨![1, 1, 0], 1⟩ : Spline .o2 ℚ) (1 / 49) ≠
    (⟨![1, 1, 0], 1⟩ : Spline .o2 ℚ).getPositionAtTime (1 / 49) := by
  decide +kernel

end Verif.Rounding

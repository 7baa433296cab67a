import Verif.Rounding.SplineModel
import Verif.Rounding.ErrorLemmas
import Verif.Rounding.Link
import Mathlib.Algebra.BigOperators.Fin

/-!
# Rounding errors of sums of products
-/

set_option linter.unusedSectionVars false
set_option linter.dupNamespace false

namespace Verif.Rounding

open Verif.Spline (Order Vec Spline)

variable {K : Type} [Field K] [LinearOrder K] [IsStrictOrderedRing K] {R : Rounding K} {u : K}

/-- `x'` is `x` up to `k` roundings. -/
def Within (u : K) (k : ℕ) (x' x : K) : Prop := |x' - x| ≤ ((1 + u) ^ k - 1) * |x|

theorem pow_mono (hu : 0 ≤ u) {j k : ℕ} (h : j ≤ k) : (1 + u) ^ j ≤ (1 + u) ^ k := pow_le_pow_right₀ (by linarith) h

theorem one_le_pow' (hu : 0 ≤ u) (k : ℕ) : 1 ≤ (1 + u) ^ k := one_le_pow₀ (by linarith)

theorem within_zero (x : K) : Within u 0 x x := by simp [Within]

theorem Within.mono (hu : 0 ≤ u) {j k : ℕ} {x' x : K} (h : Within u j x' x) (hjk : j ≤ k) : Within u k x' x :=
  h.trans (mul_le_mul_of_nonneg_right (by linarith [pow_mono hu hjk]) (abs_nonneg _))

theorem Within.rnd (hP : Precise R u) (hu : 0 ≤ u) {k : ℕ} {x' x : K} (h : Within u k x' x) :
    Within u (k + 1) (R.rnd x') x := by
  refine (rnd_near hP hu h le_rfl).trans (le_of_eq ?_)
  ring

theorem Within.mul {j k : ℕ} {x' x y' y : K} (h : Within u j x' x) (h' : Within u k y' y) :
    Within u (j + k) (x' * y') (x * y) := by
  refine (mul_near h h' le_rfl le_rfl).trans (le_of_eq ?_)
  rw [abs_mul]
  ring

theorem within_pow (hP : Precise R u) (hu : 0 ≤ u) {x : K} {n : ℕ} {y : K} (h : IsPow R x n y) :
    1 ≤ n ∧ Within u (n - 1) y (x ^ n) := by
  induction h with
  | one => simp [within_zero]
  | mul ha hb iha ihb =>
    refine ⟨by omega, ?_⟩
    rw [pow_add]
    refine ((iha.2.mul ihb.2).rnd hP hu).mono hu ?_
    have := iha.1
    have := ihb.1
    omega

/-- Adding numbers one after the other. -/
theorem fold_near (hP : Precise R u) (hu : 0 ≤ u) {ι : Type} (x' x : ι → K) {j : ℕ} : ∀ (l : List ι) (m : ℕ) (acc' acc B : K),
    j ≤ m → |acc' - acc| ≤ ((1 + u) ^ m - 1) * B → |acc| ≤ B → (∀ i ∈ l, Within u j (x' i) (x i)) →
    |l.foldl (fun s i => R.rnd (s + x' i)) acc' - (acc + (l.map x).sum)| ≤
      ((1 + u) ^ (m + l.length) - 1) * (B + (l.map fun i => |x i|).sum)
  | [], m, acc', acc, B, _, h, _, _ => by simpa using h
  | i :: l, m, acc', acc, B, hm, h, hB, hx => by
    have h1 : |acc' + x' i - (acc + x i)| ≤ ((1 + u) ^ m - 1) * (B + |x i|) := by
      have := add_near h ((hx i (by simp)).mono hu hm)
      rw [mul_add]
      exact this
    have h2 : |acc + x i| ≤ B + |x i| := (abs_add_le _ _).trans (by linarith)
    have h3 := rnd_near hP hu h1 h2
    have := fold_near hP hu x' x l (m + 1) (R.rnd (acc' + x' i)) (acc + x i) (B + |x i|) (by omega)
      (h3.trans (le_of_eq (by ring))) h2 fun k hk => hx k (by simp [hk])
    simp only [List.foldl_cons, List.map_cons, List.sum_cons, List.length_cons]
    rw [show m + (l.length + 1) = m + 1 + l.length by omega, ← add_assoc acc, ← add_assoc B]
    exact this

theorem inner_near (hP : Precise R u) (hu : 0 ≤ u) {n k : ℕ} (a b' b : Fin n → K) (h : ∀ i, Within u k (b' i) (b i)) :
    |inner R a b' - ∑ i, a i * b i| ≤ ((1 + u) ^ (k + 1 + n) - 1) * ∑ i, |a i * b i| := by
  have := fold_near hP hu (fun i => R.rnd (a i * b' i)) (fun i => a i * b i) (j := k + 1) (List.finRange n) (k + 1) 0 0 0 le_rfl
    (by simp) (by simp) fun i _ => by
      have := ((within_zero (a i)).mul (h i)).rnd hP hu
      rwa [Nat.zero_add] at this
  simp only [zero_add, List.length_finRange] at this
  rw [← List.ofFn_eq_map, ← List.ofFn_eq_map, List.sum_ofFn, List.sum_ofFn] at this
  exact this

theorem pow_le_linear (hu : 0 ≤ u) : ∀ n : ℕ, 2 * (n : K) * u ≤ 1 → (1 + u) ^ n ≤ 1 + 2 * n * u
  | 0, _ => by simp
  | n + 1, h => by
    push_cast at h ⊢
    have hn : 2 * (n : K) * u ≤ 1 := by linarith
    have ih := pow_le_linear hu n hn
    have h1 := mul_le_mul_of_nonneg_right ih (show 0 ≤ 1 + u by linarith)
    have h2 := mul_le_mul_of_nonneg_right hn hu
    rw [pow_succ]
    linarith

theorem pow_eleven : (1 + 1 / 2 ^ 53 : K) ^ 11 - 1 ≤ 1 / 2 ^ 49 := by norm_num

end Verif.Rounding

import Verif.Rounding.IeeeModel
import Verif.Rounding.ErrorLemmas

/-!
# Rounding with gradual underflow is a `Rounding`
-/

set_option linter.unusedSectionVars false
set_option linter.dupNamespace false

namespace Verif.Rounding

variable {K : Type} [Field K] [LinearOrder K] [IsStrictOrderedRing K] [FloorRing K]

theorem quantum_scale : ((2 ^ 52 : ℤ) : K) * 2 ^ (-1074 : ℤ) = 2 ^ (-1022 : ℤ) := by
  have := unit_low (K := K) (-1022)
  norm_num at this ⊢
  exact this

theorem toIeee_small {x : K} (h : |x| < 2 ^ (-1022 : ℤ)) :
    toIeee x = roundEven (x / 2 ^ (-1074 : ℤ)) * 2 ^ (-1074 : ℤ) := if_pos h

theorem toIeee_large {x : K} (h : 2 ^ (-1022 : ℤ) ≤ |x|) : toIeee x = toDouble x := if_neg (not_lt.2 h)

/-- A number below the threshold, in units of the smallest number. -/
theorem small_bounds {x : K} (h : |x| < 2 ^ (-1022 : ℤ)) :
    -(2 ^ 52) ≤ roundEven (x / 2 ^ (-1074 : ℤ)) ∧ roundEven (x / 2 ^ (-1074 : ℤ)) ≤ 2 ^ 52 := by
  have hq := two_zpow_pos (K := K) (-1074)
  rw [← quantum_scale, abs_lt] at h
  constructor
  · rw [← roundEven_int (K := K) (-(2 ^ 52))]
    refine roundEven_mono ?_
    rw [le_div_iff₀ hq]
    push_cast at h ⊢
    linarith
  · rw [← roundEven_int (K := K) (2 ^ 52)]
    refine roundEven_mono ?_
    rw [div_le_iff₀ hq]
    exact h.2.le

theorem toDouble_threshold : toDouble (2 ^ (-1022 : ℤ) : K) = 2 ^ (-1022 : ℤ) := by
  rw [toDouble_pos (two_zpow_pos _)]
  have := roundPos_repr (K := K) (m := 1) (by norm_num) (by norm_num) (-1022)
  simpa using this

theorem toDouble_neg_threshold : toDouble (-2 ^ (-1022 : ℤ) : K) = -2 ^ (-1022 : ℤ) := by
  have hp := two_zpow_pos (K := K) (-1022)
  rw [toDouble_neg (by linarith), neg_neg, ← toDouble_pos hp, toDouble_threshold]

/-- Numbers at or above the threshold stay there. -/
theorem large_abs {x : K} (h : 2 ^ (-1022 : ℤ) ≤ |x|) : 2 ^ (-1022 : ℤ) ≤ |toDouble x| := by
  rcases le_abs'.1 h with h | h
  · have := (double K).mono h
    change toDouble x ≤ toDouble _ at this
    rw [toDouble_neg_threshold] at this
    exact le_abs'.2 (Or.inl this)
  · have := (double K).mono h
    change toDouble _ ≤ toDouble x at this
    rw [toDouble_threshold] at this
    exact le_abs'.2 (Or.inr this)

/-- Whatever is representable is a multiple of the smallest number. -/
theorem toIeee_multiple (x : K) : ∃ n : ℤ, toIeee x = n * 2 ^ (-1074 : ℤ) := by
  have h2 : (2 : K) ≠ 0 := by norm_num
  by_cases h : |x| < 2 ^ (-1022 : ℤ)
  · exact ⟨_, toIeee_small h⟩
  · rw [toIeee_large (not_lt.1 h)]
    have key : ∀ y : K, 0 < y → 2 ^ (-1022 : ℤ) ≤ y → ∃ n : ℤ, roundPos y = n * 2 ^ (-1074 : ℤ) := by
      intro y hy hy'
      have hl : -1022 ≤ Int.log 2 y := by
        have := (log_bounds hy).2
        have := (zpow_lt_zpow_iff_right₀ (by norm_num : (1 : K) < 2)).1 (lt_of_le_of_lt hy' this)
        omega
      obtain ⟨d, hd⟩ : ∃ d : ℕ, Int.log 2 y - 52 = -1074 + d := ⟨(Int.log 2 y + 1022).toNat, by omega⟩
      refine ⟨roundEven (y / 2 ^ (Int.log 2 y - 52)) * 2 ^ d, ?_⟩
      rw [roundPos, hd, zpow_add₀ h2, zpow_natCast]
      push_cast
      ring
    have hx := not_lt.1 h
    rcases lt_or_ge x 0 with hn | hn
    · rw [abs_of_neg hn] at hx
      obtain ⟨n, e⟩ := key (-x) (by linarith) hx
      exact ⟨-n, by rw [toDouble_neg hn, e]; push_cast; ring⟩
    · rw [abs_of_nonneg hn] at hx
      have hp := lt_of_lt_of_le (two_zpow_pos _) hx
      obtain ⟨n, e⟩ := key x hp hx
      exact ⟨n, by rw [toDouble_pos hp, e]⟩

/-- A small multiple of the smallest number is representable. -/
theorem toIeee_of_multiple {n : ℤ} (h : |(n : K) * 2 ^ (-1074 : ℤ)| < 2 ^ (-1022 : ℤ)) :
    toIeee ((n : K) * 2 ^ (-1074 : ℤ)) = n * 2 ^ (-1074 : ℤ) := by
  rw [toIeee_small h, mul_div_assoc, div_self (two_zpow_pos (K := K) (-1074)).ne', mul_one, roundEven_int]

theorem toIeee_mono {x y : K} (h : x ≤ y) : toIeee x ≤ toIeee y := by
  have hq := two_zpow_pos (K := K) (-1074)
  have hp := two_zpow_pos (K := K) (-1022)
  have upper : ∀ z : K, |z| < 2 ^ (-1022 : ℤ) → toIeee z ≤ 2 ^ (-1022 : ℤ) := fun z hz => by
    rw [toIeee_small hz, ← quantum_scale]
    exact mul_le_mul_of_nonneg_right (Int.cast_le.2 (small_bounds hz).2) hq.le
  have lower : ∀ z : K, |z| < 2 ^ (-1022 : ℤ) → -2 ^ (-1022 : ℤ) ≤ toIeee z := fun z hz => by
    rw [toIeee_small hz, ← quantum_scale, ← neg_mul]
    refine mul_le_mul_of_nonneg_right ?_ hq.le
    exact_mod_cast (small_bounds hz).1
  by_cases hx : |x| < 2 ^ (-1022 : ℤ)
  · by_cases hy : |y| < 2 ^ (-1022 : ℤ)
    · rw [toIeee_small hx, toIeee_small hy]
      exact mul_le_mul_of_nonneg_right (Int.cast_le.2 (roundEven_mono (div_le_div_of_nonneg_right h hq.le))) hq.le
    · refine (upper x hx).trans ?_
      rw [toIeee_large (not_lt.1 hy), ← toDouble_threshold]
      refine (double K).mono ?_
      rcases le_abs'.1 (not_lt.1 hy) with h' | h'
      · have := (abs_lt.1 hx).1; linarith
      · exact h'
  · by_cases hy : |y| < 2 ^ (-1022 : ℤ)
    · refine le_trans ?_ (lower y hy)
      rw [toIeee_large (not_lt.1 hx), ← toDouble_neg_threshold]
      refine (double K).mono ?_
      rcases le_abs'.1 (not_lt.1 hx) with h' | h'
      · exact h'
      · have := (abs_lt.1 hy).2; linarith
    · rw [toIeee_large (not_lt.1 hx), toIeee_large (not_lt.1 hy)]
      exact (double K).mono h

theorem toIeee_idem (x : K) : toIeee (toIeee x) = toIeee x := by
  by_cases hx : |x| < 2 ^ (-1022 : ℤ)
  · obtain ⟨n, e⟩ := toIeee_multiple x
    rw [e]
    by_cases hn : |(n : K) * 2 ^ (-1074 : ℤ)| < 2 ^ (-1022 : ℤ)
    · exact toIeee_of_multiple hn
    · have hq := two_zpow_pos (K := K) (-1074)
      rw [toIeee_large (not_lt.1 hn), ← e, toIeee_small hx]
      rw [← e, toIeee_small hx] at hn
      obtain ⟨b1, b2⟩ := small_bounds hx
      generalize roundEven (x / 2 ^ (-1074 : ℤ)) = m at *
      have hm : m = 2 ^ 52 ∨ m = -(2 ^ 52) := by
        by_contra hc
        apply hn
        rw [abs_mul, abs_of_pos hq, ← quantum_scale]
        refine mul_lt_mul_of_pos_right ?_ hq
        rw [← Int.cast_abs, Int.cast_lt, abs_lt]
        omega
      rcases hm with rfl | rfl
      · rw [quantum_scale, toDouble_threshold]
      · rw [Int.cast_neg, neg_mul, quantum_scale, toDouble_neg_threshold]
  · have h := not_lt.1 hx
    rw [toIeee_large h, toIeee_large (large_abs h)]
    exact (double K).idem x

/-- Differences that are not as large as the threshold are exact. -/
theorem toIeee_sub_exact {x y : K} (hx : toIeee x = x) (hy : toIeee y = y) (h : |x - y| < 2 ^ (-1022 : ℤ)) :
    toIeee (x - y) = x - y := by
  obtain ⟨m, e1⟩ := toIeee_multiple x
  obtain ⟨n, e2⟩ := toIeee_multiple y
  rw [hx] at e1
  rw [hy] at e2
  have e : x - y = ((m - n : ℤ) : K) * 2 ^ (-1074 : ℤ) := by rw [e1, e2]; push_cast; ring
  rw [e] at h ⊢
  exact toIeee_of_multiple h

/-- IEEE `double` with subnormal numbers (without overflow). -/
def ieee (K : Type) [Field K] [LinearOrder K] [IsStrictOrderedRing K] [FloorRing K] : Rounding K where
  rnd := toIeee
  mono := toIeee_mono
  idem := toIeee_idem
  int := by
    intro n hn
    by_cases h0 : n = 0
    · subst h0
      have := toIeee_of_multiple (K := K) (n := 0) (by simp)
      simpa using this
    · rw [toIeee_large]
      · exact (double K).int n hn
      · have h1 : (1 : ℤ) ≤ |n| := Int.one_le_abs h0
        have h2 : (1 : K) ≤ |(n : K)| := by rw [← Int.cast_abs]; exact_mod_cast h1
        exact (zpow_le_one_of_nonpos₀ (by norm_num) (by norm_num)).trans h2
  sub_ne := by
    intro x y hx hy h
    by_cases hs : |x - y| < 2 ^ (-1022 : ℤ)
    · rw [toIeee_sub_exact hx hy hs] at h
      exact sub_eq_zero.1 h
    · have hs' := large_abs (not_lt.1 hs)
      rw [toIeee_large (not_lt.1 hs)] at h
      rw [h, abs_zero] at hs'
      exact absurd hs' (not_le.2 (two_zpow_pos _))

end Verif.Rounding

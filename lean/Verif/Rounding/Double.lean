import Verif.Rounding.Model

/-!
# Rounding to 53 bits is a `Rounding`
-/

set_option linter.unusedSectionVars false
set_option linter.dupNamespace false

namespace Verif.Rounding

variable {K : Type} [Field K] [LinearOrder K] [IsStrictOrderedRing K] [FloorRing K]

theorem floor_le_roundEven (y : K) : ⌊y⌋ ≤ roundEven y := by
  rw [roundEven]; split_ifs <;> omega

theorem roundEven_le_floor (y : K) : roundEven y ≤ ⌊y⌋ + 1 := by
  rw [roundEven]; split_ifs <;> omega

theorem roundEven_int (n : ℤ) : roundEven (n : K) = n := by
  rw [roundEven, Int.floor_intCast, if_pos (by rw [sub_self]; norm_num)]

theorem roundEven_mono {x y : K} (h : x ≤ y) : roundEven x ≤ roundEven y := by
  rcases (Int.floor_mono h).lt_or_eq with hlt | he
  · have h1 := roundEven_le_floor x
    have h2 := floor_le_roundEven y
    omega
  · have hs : x - ⌊x⌋ ≤ y - ⌊y⌋ := by rw [he]; linarith
    rw [roundEven, roundEven, he] at *
    split_ifs <;> first | omega | (exfalso; linarith)

theorem two_zpow_pos (k : ℤ) : (0 : K) < 2 ^ k := zpow_pos (by norm_num) k

/-- A positive number and its exponent. -/
theorem log_bounds {x : K} (hx : 0 < x) : (2 : K) ^ Int.log 2 x ≤ x ∧ x < 2 ^ (Int.log 2 x + 1) :=
  ⟨by simpa using Int.zpow_log_le_self (b := 2) (by norm_num) hx,
    by simpa using Int.lt_zpow_succ_log_self (b := 2) (by norm_num) x⟩

theorem log_unique {x : K} {e : ℤ} (h1 : (2 : K) ^ e ≤ x) (h2 : x < 2 ^ (e + 1)) : Int.log 2 x = e := by
  have hx : 0 < x := lt_of_lt_of_le (two_zpow_pos e) h1
  obtain ⟨b1, b2⟩ := log_bounds hx
  have one : (1 : K) < 2 := by norm_num
  have e1 := (zpow_lt_zpow_iff_right₀ one).1 (lt_of_le_of_lt b1 h2)
  have e2 := (zpow_lt_zpow_iff_right₀ one).1 (lt_of_le_of_lt h1 b2)
  omega

theorem unit_low (e : ℤ) : ((2 ^ 52 : ℤ) : K) * 2 ^ (e - 52) = 2 ^ e := by
  rw [zpow_sub₀ (by norm_num : (2 : K) ≠ 0)]
  norm_num
  ring

theorem unit_high (e : ℤ) : ((2 ^ 53 : ℤ) : K) * 2 ^ (e - 52) = 2 ^ (e + 1) := by
  rw [zpow_sub₀ (by norm_num : (2 : K) ≠ 0), zpow_add₀ (by norm_num : (2 : K) ≠ 0)]
  norm_num
  ring

/-- A positive number in units of its last place has 53 bits. -/
theorem scaled_bounds {x : K} (hx : 0 < x) :
    ((2 ^ 52 : ℤ) : K) ≤ x / 2 ^ (Int.log 2 x - 52) ∧ x / 2 ^ (Int.log 2 x - 52) < ((2 ^ 53 : ℤ) : K) := by
  obtain ⟨b1, b2⟩ := log_bounds hx
  have h2 : (2 : K) ≠ 0 := by norm_num
  constructor
  · rw [le_div_iff₀ (two_zpow_pos _)]
    exact le_trans (le_of_eq (unit_low _)) b1
  · rw [div_lt_iff₀ (two_zpow_pos _)]
    exact lt_of_lt_of_le b2 (le_of_eq (unit_high _).symm)

theorem roundEven_bounds {x : K} (hx : 0 < x) :
    2 ^ 52 ≤ roundEven (x / 2 ^ (Int.log 2 x - 52)) ∧ roundEven (x / 2 ^ (Int.log 2 x - 52)) ≤ 2 ^ 53 := by
  obtain ⟨b1, b2⟩ := scaled_bounds hx
  constructor
  · rw [← roundEven_int (K := K) (2 ^ 52)]
    exact roundEven_mono b1
  · rw [← roundEven_int (K := K) (2 ^ 53)]
    exact roundEven_mono b2.le

/-- The rounded number is between the powers of two around the number. -/
theorem roundPos_bounds {x : K} (hx : 0 < x) :
    (2 : K) ^ Int.log 2 x ≤ roundPos x ∧ roundPos x ≤ 2 ^ (Int.log 2 x + 1) := by
  obtain ⟨b1, b2⟩ := roundEven_bounds hx
  have h2 : (2 : K) ≠ 0 := by norm_num
  have hp := two_zpow_pos (K := K) (Int.log 2 x - 52)
  constructor
  · rw [← unit_low, roundPos]
    exact mul_le_mul_of_nonneg_right (Int.cast_le.2 b1) hp.le
  · rw [← unit_high, roundPos]
    exact mul_le_mul_of_nonneg_right (Int.cast_le.2 b2) hp.le

theorem roundPos_pos {x : K} (hx : 0 < x) : 0 < roundPos x :=
  lt_of_lt_of_le (two_zpow_pos _) (roundPos_bounds hx).1

theorem roundPos_mono {x y : K} (hx : 0 < x) (h : x ≤ y) : roundPos x ≤ roundPos y := by
  have hy := lt_of_lt_of_le hx h
  have hl : Int.log 2 x ≤ Int.log 2 y := Int.log_mono_right hx h
  rcases hl.lt_or_eq with hlt | he
  · refine le_trans (roundPos_bounds hx).2 (le_trans ?_ (roundPos_bounds hy).1)
    exact zpow_le_zpow_right₀ (by norm_num) (by omega)
  · rw [roundPos, roundPos, he]
    have hp := two_zpow_pos (K := K) (Int.log 2 y - 52)
    refine mul_le_mul_of_nonneg_right (Int.cast_le.2 (roundEven_mono ?_)) hp.le
    exact div_le_div_of_nonneg_right h hp.le

/-- Numbers of at most 53 bits are representable. -/
theorem roundPos_repr {m : ℕ} (hm : 0 < m) (hm' : m ≤ 2 ^ 53) (k : ℤ) :
    roundPos ((m : K) * 2 ^ k) = m * 2 ^ k := by
  have h2 : (2 : K) ≠ 0 := by norm_num
  have one : (1 : K) < 2 := by norm_num
  -- reduce to fewer than 2^53
  have key : ∀ (n : ℕ) (j : ℤ), 0 < n → n < 2 ^ 53 → roundPos ((n : K) * 2 ^ j) = n * 2 ^ j := by
    intro n j hn hn'
    have hpos : 0 < (n : K) * 2 ^ j := mul_pos (Nat.cast_pos.2 hn) (two_zpow_pos j)
    obtain ⟨b1, b2⟩ := log_bounds hpos
    have hlt : Int.log 2 ((n : K) * 2 ^ j) < 53 + j := by
      refine (zpow_lt_zpow_iff_right₀ one).1 (lt_of_le_of_lt b1 ?_)
      rw [zpow_add₀ h2]
      refine mul_lt_mul_of_pos_right ?_ (two_zpow_pos j)
      exact_mod_cast hn'
    set e := Int.log 2 ((n : K) * 2 ^ j) with he
    obtain ⟨d, hd⟩ : ∃ d : ℕ, j = (e - 52) + d := ⟨(j - (e - 52)).toNat, by omega⟩
    have hq : (n : K) * 2 ^ j / 2 ^ (e - 52) = ((n * 2 ^ d : ℤ) : K) := by
      rw [hd, zpow_add₀ h2]
      have := (two_zpow_pos (K := K) (e - 52)).ne'
      push_cast
      rw [zpow_natCast]
      field_simp
    rw [roundPos, ← he, hq, roundEven_int, ← hq]
    exact div_mul_cancel₀ _ (two_zpow_pos (K := K) (e - 52)).ne'
  rcases hm'.lt_or_eq with hlt | he
  · exact key m k hm hlt
  · have : (m : K) * 2 ^ k = ((1 : ℕ) : K) * 2 ^ (53 + k) := by
      rw [he, zpow_add₀ h2]
      push_cast
      norm_num
    rw [this]
    exact key 1 _ (by norm_num) (by norm_num)

theorem roundPos_idem {x : K} (hx : 0 < x) : roundPos (roundPos x) = roundPos x := by
  obtain ⟨b1, b2⟩ := roundEven_bounds hx
  obtain ⟨m, hm⟩ : ∃ m : ℕ, roundEven (x / 2 ^ (Int.log 2 x - 52)) = m :=
    ⟨(roundEven (x / 2 ^ (Int.log 2 x - 52))).toNat, by omega⟩
  have e : roundPos x = (m : K) * 2 ^ (Int.log 2 x - 52) := by rw [roundPos, hm, Int.cast_natCast]
  rw [e]
  exact roundPos_repr (by omega) (by omega) _

theorem toDouble_zero : toDouble (0 : K) = 0 := by simp [toDouble]

theorem toDouble_pos {x : K} (hx : 0 < x) : toDouble x = roundPos x := by
  rw [toDouble, if_neg (not_lt.2 hx.le), if_neg hx.ne']

theorem toDouble_neg {x : K} (hx : x < 0) : toDouble x = -roundPos (-x) := by rw [toDouble, if_pos hx]

/-- IEEE `double` (without overflow and underflow). -/
def double (K : Type) [Field K] [LinearOrder K] [IsStrictOrderedRing K] [FloorRing K] : Rounding K where
  rnd := toDouble
  mono := by
    intro x y h
    rcases lt_trichotomy x 0 with hx | rfl | hx
    · rcases lt_trichotomy y 0 with hy | rfl | hy
      · rw [toDouble_neg hx, toDouble_neg hy]
        exact neg_le_neg (roundPos_mono (by linarith) (by linarith))
      · rw [toDouble_neg hx, toDouble_zero]
        have := roundPos_pos (x := -x) (by linarith)
        linarith
      · rw [toDouble_neg hx, toDouble_pos hy]
        have := roundPos_pos (x := -x) (by linarith)
        have := roundPos_pos hy
        linarith
    · rcases h.lt_or_eq with hy | rfl
      · rw [toDouble_zero, toDouble_pos hy]
        exact (roundPos_pos hy).le
      · exact le_rfl
    · rw [toDouble_pos hx, toDouble_pos (lt_of_lt_of_le hx h)]
      exact roundPos_mono hx h
  idem := by
    intro x
    rcases lt_trichotomy x 0 with hx | rfl | hx
    · have hp := roundPos_pos (x := -x) (by linarith)
      rw [toDouble_neg hx, toDouble_neg (by linarith), neg_neg, roundPos_idem (by linarith)]
    · rw [toDouble_zero, toDouble_zero]
    · rw [toDouble_pos hx, toDouble_pos (roundPos_pos hx), roundPos_idem hx]
  int := by
    intro n hn
    have key : ∀ m : ℕ, 0 < m → m ≤ 2 ^ 53 → roundPos (m : K) = m := by
      intro m h1 h2
      have := roundPos_repr (K := K) h1 h2 0
      simpa using this
    rcases lt_trichotomy n 0 with h | rfl | h
    · obtain ⟨m, hm⟩ : ∃ m : ℕ, n = -(m : ℤ) := ⟨n.natAbs, by omega⟩
      subst hm
      have hm : 0 < m := by omega
      have hm' : m ≤ 2 ^ 53 := by
        rw [abs_neg, Nat.abs_cast] at hn
        exact_mod_cast hn
      have hc : (0 : K) < m := Nat.cast_pos.2 hm
      push_cast
      rw [toDouble_neg (by linarith), neg_neg, key m hm hm']
    · simp [toDouble_zero]
    · obtain ⟨m, rfl⟩ : ∃ m : ℕ, n = (m : ℤ) := ⟨n.natAbs, by omega⟩
      have hm : 0 < m := by omega
      have hm' : m ≤ 2 ^ 53 := by
        rw [Nat.abs_cast] at hn
        exact_mod_cast hn
      have hc : (0 : K) < m := Nat.cast_pos.2 hm
      push_cast
      rw [toDouble_pos hc, key m hm hm']
  sub_ne := by
    intro x y _ _ h
    rcases lt_trichotomy (x - y) 0 with h' | h' | h'
    · rw [toDouble_neg h'] at h
      have := roundPos_pos (x := -(x - y)) (by linarith)
      linarith
    · linarith
    · rw [toDouble_pos h'] at h
      have := roundPos_pos h'
      linarith

end Verif.Rounding

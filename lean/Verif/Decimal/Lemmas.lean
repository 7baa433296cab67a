import Verif.Decimal.Model
import Verif.Rounding.Double
import Mathlib.Tactic.Ring
import Mathlib.Tactic.Linarith
import Mathlib.Tactic.IntervalCases
import Mathlib.Data.List.TakeWhile

/-!
# Printing and reading decimal numbers
-/

set_option linter.unusedSectionVars false
set_option linter.dupNamespace false

namespace Verif.Decimal

open Verif.Csv Verif.Rounding

theorem digit_toNat (d : ℕ) : (digit d).toNat = 48 + d % 10 := by
  rw [digit]
  have : d % 10 < 10 := Nat.mod_lt _ (by norm_num)
  interval_cases d % 10 <;> rfl

theorem isDigit_digit (d : ℕ) : isDigit (digit d) = true := by
  rw [isDigit, digit_toNat]
  have : d % 10 < 10 := Nat.mod_lt _ (by norm_num)
  simp
  omega

/-- A string of digits. -/
def Digits (s : Str) : Prop := ∀ c ∈ s, isDigit c = true

theorem digits_pad (w n : ℕ) : Digits (pad w n) := by
  induction w generalizing n with
  | zero => simp [pad, Digits]
  | succ w ih =>
    intro c hc
    rw [pad, List.mem_append, List.mem_singleton] at hc
    rcases hc with hc | rfl
    · exact ih _ c hc
    · exact isDigit_digit n

theorem pad_length (w n : ℕ) : (pad w n).length = w := by
  induction w generalizing n with
  | zero => rfl
  | succ w ih => simp [pad, ih]

theorem value_snoc (s : Str) (c : Char) : value (s ++ [c]) = 10 * value s + (c.toNat - 48) := by
  simp [value, List.foldl_append]

theorem value_append (s t : Str) : value (s ++ t) = value s * 10 ^ t.length + value t := by
  induction t using List.reverseRecOn with
  | nil => simp [value]
  | append_singleton t c ih =>
    rw [← List.append_assoc, value_snoc, value_snoc, ih, List.length_append, List.length_singleton, pow_succ]
    ring

theorem value_pad (w n : ℕ) : value (pad w n) = n % 10 ^ w := by
  induction w generalizing n with
  | zero => simp [pad, value, Nat.mod_one]
  | succ w ih =>
    rw [pad, value_snoc, ih, digit_toNat, pow_succ', Nat.mod_mul]
    omega

theorem value_pad_lt {w n : ℕ} (h : n < 10 ^ w) : value (pad w n) = n := by
  rw [value_pad, Nat.mod_eq_of_lt h]

theorem value_nat (n : ℕ) : value (nat n) = n :=
  value_pad_lt (Nat.lt_pow_succ_log_self (by norm_num) n)

theorem digits_nat (n : ℕ) : Digits (nat n) := digits_pad _ n

theorem nat_ne (n : ℕ) : nat n ≠ [] := by
  intro h
  have := congrArg List.length h
  rw [nat, pad_length] at this
  simp at this

theorem value_zeros (k : ℕ) : value (List.replicate k '0') = 0 := by
  induction k with
  | zero => rfl
  | succ k ih => rw [List.replicate_succ', value_snoc, ih]; rfl

/-- The zeros `strip` takes away. -/
theorem strip_spec (s : Str) : ∃ k, s = strip s ++ List.replicate k '0' := by
  refine ⟨(s.reverse.takeWhile (· = '0')).length, ?_⟩
  have h1 : (s.reverse.takeWhile (· = '0')) = List.replicate (s.reverse.takeWhile (· = '0')).length '0' := by
    rw [List.eq_replicate_iff]
    refine ⟨rfl, fun c hc => ?_⟩
    simpa using List.mem_takeWhile_imp hc
  have h2 := List.takeWhile_append_dropWhile (p := fun c => decide (c = '0')) (l := s.reverse)
  have h3 := congrArg List.reverse h2
  rw [List.reverse_append, List.reverse_reverse, h1, List.reverse_replicate] at h3
  rw [strip]
  exact h3.symm

theorem digits_strip {s : Str} (h : Digits s) : Digits (strip s) := by
  obtain ⟨k, hk⟩ := strip_spec s
  intro c hc
  exact h c (by rw [hk]; exact List.mem_append_left _ hc)

theorem takeWhile_digits {s r : Str} (h : Digits s) (hr : ∀ c, r.head? = some c → isDigit c = false) :
    (s ++ r).takeWhile isDigit = s ∧ (s ++ r).dropWhile isDigit = r := by
  have h1 : r.takeWhile isDigit = [] ∧ r.dropWhile isDigit = r := by
    cases r with
    | nil => exact ⟨rfl, rfl⟩
    | cons c r => simp [hr c rfl]
  rw [List.takeWhile_append_of_pos h, List.dropWhile_append_of_pos h, h1.1, h1.2, List.append_nil]
  exact ⟨rfl, rfl⟩

/-- What may follow the digits of a number as `%g` prints it. -/
def Tail (r : Str) : Prop := r = [] ∨ ∃ r', r = 'e' :: r'

theorem Tail.head {r : Str} (h : Tail r) : ∀ c, r.head? = some c → isDigit c = false := by
  rcases h with rfl | ⟨r', rfl⟩
  · simp
  · intro c hc
    simp only [List.head?_cons, Option.some.injEq] at hc
    subst hc
    decide

theorem splitFrac_tail {r : Str} (h : Tail r) : splitFrac r = ([], r) := by
  rcases h with rfl | ⟨r', rfl⟩ <;> rfl

theorem frac_head {F r : Str} (hr : Tail r) : ∀ c, (frac F ++ r).head? = some c → isDigit c = false := by
  intro c
  rw [frac]
  split_ifs
  · exact hr.head c
  · intro h
    simp only [List.cons_append, List.head?_cons, Option.some.injEq] at h
    subst h
    decide

theorem splitFrac_frac {F r : Str} (hF : Digits F) (hr : Tail r) : splitFrac (frac F ++ r) = (strip F, r) := by
  rw [frac]
  split_ifs with h
  · rw [h, List.nil_append, splitFrac_tail hr]
  · obtain ⟨h1, h2⟩ := takeWhile_digits (digits_strip hF) hr.head
    rw [List.cons_append, splitFrac, h1, h2]

variable {K : Type} [Field K] [LinearOrder K] [IsStrictOrderedRing K]

theorem ten_ne : (10 : K) ≠ 0 := by norm_num

/-- A number printed with a fraction. -/
theorem unsigned_frac {I F r : Str} (hI : Digits I) (hF : Digits F) (hr : Tail r) :
    (unsigned (I ++ (frac F ++ r)) : K) = (value (I ++ F) : K) * 10 ^ (exponent r - (F.length : ℤ)) := by
  obtain ⟨h1, h2⟩ := takeWhile_digits hI (frac_head (F := F) hr)
  rw [unsigned, h1, h2]
  simp only [splitFrac_frac hF hr]
  obtain ⟨k, hk⟩ := strip_spec F
  have h3 : value (I ++ F) = value (I ++ strip F) * 10 ^ k := by
    conv_lhs => rw [hk]
    rw [← List.append_assoc, value_append, value_zeros, List.length_replicate, add_zero]
  have h4 : F.length = (strip F).length + k := by
    conv_lhs => rw [hk]
    simp
  rw [h3, h4]
  push_cast
  rw [mul_assoc, ← zpow_natCast (10 : K) k, ← zpow_add₀ ten_ne]
  congr 2
  ring

/-- A number printed with a point and all its decimals. -/
theorem unsigned_point {I F : Str} (hI : Digits I) (hF : Digits F) :
    (unsigned (I ++ '.' :: F) : K) = (value (I ++ F) : K) / 10 ^ F.length := by
  obtain ⟨h1, h2⟩ := takeWhile_digits (r := '.' :: F) hI (by
    intro c hc
    simp only [List.head?_cons, Option.some.injEq] at hc
    subst hc
    decide)
  obtain ⟨h3, h4⟩ := takeWhile_digits (r := []) hF (by simp)
  rw [List.append_nil] at h3 h4
  rw [unsigned, h1, h2]
  simp only [splitFrac, h3, h4, exponent, zero_sub, zpow_neg, zpow_natCast]
  rw [div_eq_mul_inv]

theorem decimal_sign {x : K} {s : Str} (hs : ∃ c r, s = c :: r ∧ isDigit c = true) :
    (decimal (sign x ++ s) : K) = if x < 0 then -unsigned s else unsigned s := by
  obtain ⟨c, r, rfl, hc⟩ := hs
  rw [sign]
  by_cases hx : x < 0
  · rw [if_pos hx, if_pos hx]
    rfl
  · rw [if_neg hx, if_neg hx, List.nil_append]
    have h1 : c ≠ '-' := by rintro rfl; exact absurd hc (by decide)
    have h2 : c ≠ '+' := by rintro rfl; exact absurd hc (by decide)
    rw [decimal]
    · rintro s ⟨⟩
      exact h1 rfl
    · rintro s ⟨⟩
      exact h2 rfl

theorem head_digit {s : Str} (hd : Digits s) (hne : s ≠ []) (r : Str) : ∃ c q, s ++ r = c :: q ∧ isDigit c = true := by
  cases s with
  | nil => exact absurd rfl hne
  | cons c s => exact ⟨c, s ++ r, rfl, hd c (by simp)⟩

theorem exponent_e (e : ℤ) : exponent ('e' :: (if e < 0 then '-' else '+') ::
    pad (max 2 (Nat.log 10 e.natAbs + 1)) e.natAbs) = e := by
  have hlt : e.natAbs < 10 ^ max 2 (Nat.log 10 e.natAbs + 1) :=
    lt_of_lt_of_le (Nat.lt_pow_succ_log_self (by norm_num) _)
      (Nat.pow_le_pow_right (by norm_num) (le_max_right _ _))
  obtain ⟨h, -⟩ := takeWhile_digits (r := []) (digits_pad (max 2 (Nat.log 10 e.natAbs + 1)) e.natAbs) (by simp)
  rw [List.append_nil] at h
  by_cases he : e < 0
  · rw [if_pos he, exponent, h, value_pad_lt hlt]
    omega
  · rw [if_neg he, exponent, h, value_pad_lt hlt]
    omega

theorem layout_head (m : ℕ) (e : ℤ) : ∃ c q, layout m e = c :: q ∧ isDigit c = true := by
  have ht : ∀ k, Digits ((pad 6 m).take k) := fun k c hc => digits_pad 6 m c (List.mem_of_mem_take hc)
  have hne : ∀ k, (pad 6 m).take (k + 1) ≠ [] := by
    intro k h
    have := congrArg List.length h
    rw [List.length_take, pad_length] at this
    simp at this
  rw [layout]
  by_cases h1 : e < -4 ∨ 6 ≤ e
  · rw [if_pos h1, List.append_assoc]
    exact head_digit (ht 1) (hne 0) _
  rw [if_neg h1]
  by_cases h2 : e < 0
  · rw [if_pos h2]
    exact ⟨_, _, rfl, by decide⟩
  · rw [if_neg h2]
    exact head_digit (ht _) (hne _) _

/-- What `%g` prints is the number with these digits and this exponent. -/
theorem unsigned_layout {m : ℕ} (hm : m < 10 ^ 6) (e : ℤ) : (unsigned (layout m e) : K) = m * 10 ^ (e - 5) := by
  have ht : ∀ k, Digits ((pad 6 m).take k) := fun k c hc => digits_pad 6 m c (List.mem_of_mem_take hc)
  have hd : ∀ k, Digits ((pad 6 m).drop k) := fun k c hc => digits_pad 6 m c (List.mem_of_mem_drop hc)
  have hv : ∀ k, value ((pad 6 m).take k ++ (pad 6 m).drop k) = m := fun k => by
    rw [List.take_append_drop, value_pad_lt hm]
  rw [layout]
  by_cases h1 : e < -4 ∨ 6 ≤ e
  · rw [if_pos h1, List.append_assoc, unsigned_frac (ht 1) (hd 1) (Or.inr ⟨_, rfl⟩), hv, List.length_drop, pad_length]
    congr 2
    have := exponent_e e
    rw [this]
    norm_num
  rw [if_neg h1]
  by_cases h2 : e < 0
  · rw [if_pos h2]
    have hr : Digits (List.replicate (-1 - e).toNat '0' ++ pad 6 m) := by
      intro c hc
      rcases List.mem_append.1 hc with hc | hc
      · rw [List.eq_of_mem_replicate hc]
        decide
      · exact digits_pad 6 m c hc
    have := unsigned_frac (K := K) (I := ['0']) (r := []) (by intro c hc; simp at hc; subst hc; decide) hr
      (Or.inl rfl)
    rw [List.append_nil, List.singleton_append] at this
    rw [this]
    have h3 : value (['0'] ++ (List.replicate (-1 - e).toNat '0' ++ pad 6 m)) = m := by
      rw [← List.append_assoc, value_append, List.singleton_append, ← List.replicate_succ, value_zeros,
        value_pad_lt hm]
      simp
    rw [h3, List.length_append, List.length_replicate, pad_length]
    congr 2
    simp only [exponent]
    push_cast
    omega
  · rw [if_neg h2]
    have := unsigned_frac (K := K) (r := []) (ht (e.toNat + 1)) (hd (e.toNat + 1)) (Or.inl rfl)
    rw [List.append_nil] at this
    rw [this, hv, List.length_drop, pad_length]
    congr 2
    simp only [exponent]
    push Not at h1
    have := h1.2
    omega

variable [FloorRing K]

/-! ## Rounding -/

theorem roundEven_near (y : K) : |(roundEven y : K) - y| ≤ 1 / 2 := by
  have h1 := Int.floor_le y
  have h2 := Int.lt_floor_add_one y
  rw [roundEven, abs_le]
  split_ifs <;> push_cast <;> constructor <;> linarith

theorem roundEven_unique {y : K} {n : ℤ} (h : |y - n| < 1 / 2) : roundEven y = n := by
  have h1 := roundEven_near y
  rw [abs_lt] at h
  rw [abs_le] at h1
  have a : ((roundEven y - n : ℤ) : K) < 1 := by push_cast; linarith
  have b : (-1 : K) < ((roundEven y - n : ℤ) : K) := by push_cast; linarith
  have a' : roundEven y - n < 1 := by exact_mod_cast a
  have b' : -1 < roundEven y - n := by exact_mod_cast b
  omega

theorem roundEven_nonneg {y : K} (h : 0 ≤ y) : 0 ≤ roundEven y := by
  have := roundEven_mono h
  rwa [show (0 : K) = ((0 : ℤ) : K) by simp, roundEven_int] at this

/-- `%lf` prints the nearest multiple of a millionth. -/
theorem decimal_fixed (x : K) : (decimal (fixed x) : K) =
    if x < 0 then -((roundEven (|x| * 10 ^ 6) : K) / 10 ^ 6) else (roundEven (|x| * 10 ^ 6) : K) / 10 ^ 6 := by
  have h0 : (0 : K) ≤ |x| * 10 ^ 6 := mul_nonneg (abs_nonneg x) (by norm_num)
  have hn := roundEven_nonneg h0
  rw [fixed]
  rw [decimal_sign (head_digit (digits_nat _) (nat_ne _) _), unsigned_point (digits_nat _) (digits_pad _ _),
    pad_length, value_append, pad_length, value_nat, value_pad, mul_comm, Nat.div_add_mod]
  congr 4 <;> exact_mod_cast congrArg (Int.cast : ℤ → K) (Int.toNat_of_nonneg hn)

theorem ten_zpow_pos (k : ℤ) : (0 : K) < 10 ^ k := zpow_pos (by norm_num) k

theorem log_bounds10 {x : K} (hx : 0 < x) : (10 : K) ^ Int.log 10 x ≤ x ∧ x < 10 ^ (Int.log 10 x + 1) :=
  ⟨by simpa using Int.zpow_log_le_self (b := 10) (by norm_num) hx,
    by simpa using Int.lt_zpow_succ_log_self (b := 10) (by norm_num) x⟩

theorem log_unique10 {x : K} {e : ℤ} (h1 : (10 : K) ^ e ≤ x) (h2 : x < 10 ^ (e + 1)) : Int.log 10 x = e := by
  have hx : 0 < x := lt_of_lt_of_le (ten_zpow_pos e) h1
  obtain ⟨b1, b2⟩ := log_bounds10 hx
  have one : (1 : K) < 10 := by norm_num
  have e1 := (zpow_lt_zpow_iff_right₀ one).1 (lt_of_le_of_lt b1 h2)
  have e2 := (zpow_lt_zpow_iff_right₀ one).1 (lt_of_le_of_lt h1 b2)
  omega

theorem unit10 (e k : ℤ) (n : ℕ) (h : k + n = e) : ((10 ^ n : ℕ) : K) * 10 ^ k = 10 ^ e := by
  rw [← h, zpow_add₀ ten_ne, zpow_natCast]
  push_cast
  ring

/-- The nearest number with six significant digits, of a positive number. -/
def sixPos (x : K) : K := roundEven (x / 10 ^ (Int.log 10 x - 5)) * 10 ^ (Int.log 10 x - 5)

theorem scaled_bounds10 {x : K} (hx : 0 < x) :
    ((10 ^ 5 : ℕ) : K) ≤ x / 10 ^ (Int.log 10 x - 5) ∧ x / 10 ^ (Int.log 10 x - 5) < ((10 ^ 6 : ℕ) : K) := by
  obtain ⟨b1, b2⟩ := log_bounds10 hx
  constructor
  · rw [le_div_iff₀ (ten_zpow_pos _), unit10 (Int.log 10 x) _ 5 (by norm_num)]
    exact b1
  · rw [div_lt_iff₀ (ten_zpow_pos _), unit10 (Int.log 10 x + 1) _ 6 (by push_cast; ring)]
    exact b2

theorem roundEven_bounds10 {x : K} (hx : 0 < x) :
    10 ^ 5 ≤ roundEven (x / 10 ^ (Int.log 10 x - 5)) ∧ roundEven (x / 10 ^ (Int.log 10 x - 5)) ≤ 10 ^ 6 := by
  obtain ⟨h1, h2⟩ := scaled_bounds10 hx
  have a := roundEven_mono h1
  have b := roundEven_mono h2.le
  rw [show ((10 ^ 5 : ℕ) : K) = ((10 ^ 5 : ℤ) : K) by push_cast; rfl, roundEven_int] at a
  rw [show ((10 ^ 6 : ℕ) : K) = ((10 ^ 6 : ℤ) : K) by push_cast; rfl, roundEven_int] at b
  exact ⟨a, b⟩

theorem sci_spec {x : K} (hx : 0 < x) :
    10 ^ 5 ≤ (sci x).1 ∧ (sci x).1 < 10 ^ 6 ∧ ((sci x).1 : K) * 10 ^ ((sci x).2 - 5) = sixPos x := by
  obtain ⟨h1, h2⟩ := roundEven_bounds10 hx
  have hz : ((roundEven (x / 10 ^ (Int.log 10 x - 5))).toNat : ℤ) = roundEven (x / 10 ^ (Int.log 10 x - 5)) :=
    Int.toNat_of_nonneg (le_trans (by norm_num) h1)
  rw [sci]
  by_cases h : (roundEven (x / 10 ^ (Int.log 10 x - 5))).toNat = 10 ^ 6
  · rw [if_pos h]
    refine ⟨le_rfl, by norm_num, ?_⟩
    rw [sixPos, ← hz, h]
    simp only
    rw [unit10 (Int.log 10 x + 1) (Int.log 10 x + 1 - 5) 5 (by push_cast; ring), Int.cast_natCast,
      unit10 (Int.log 10 x + 1) _ 6 (by push_cast; ring)]
  · rw [if_neg h]
    refine ⟨by simp only; omega, by simp only; omega, ?_⟩
    rw [sixPos]
    congr 1
    exact_mod_cast congrArg (Int.cast : ℤ → K) hz

theorem sixPos_bounds {x : K} (hx : 0 < x) :
    (10 : K) ^ Int.log 10 x ≤ sixPos x ∧ sixPos x ≤ 10 ^ (Int.log 10 x + 1) := by
  obtain ⟨h1, h2⟩ := roundEven_bounds10 hx
  have a : ((10 ^ 5 : ℕ) : K) ≤ (roundEven (x / 10 ^ (Int.log 10 x - 5)) : K) := by exact_mod_cast h1
  have b : (roundEven (x / 10 ^ (Int.log 10 x - 5)) : K) ≤ ((10 ^ 6 : ℕ) : K) := by exact_mod_cast h2
  have hp := ten_zpow_pos (K := K) (Int.log 10 x - 5)
  constructor
  · rw [sixPos, ← unit10 (Int.log 10 x) (Int.log 10 x - 5) 5 (by norm_num)]
    exact mul_le_mul_of_nonneg_right a hp.le
  · rw [sixPos, ← unit10 (Int.log 10 x + 1) (Int.log 10 x - 5) 6 (by push_cast; ring)]
    exact mul_le_mul_of_nonneg_right b hp.le

theorem sixPos_mono {x y : K} (hx : 0 < x) (h : x ≤ y) : sixPos x ≤ sixPos y := by
  have hy := lt_of_lt_of_le hx h
  have hl : Int.log 10 x ≤ Int.log 10 y := Int.log_mono_right hx h
  rcases hl.lt_or_eq with hl | hl
  · refine (sixPos_bounds hx).2.trans (le_trans ?_ (sixPos_bounds hy).1)
    exact zpow_le_zpow_right₀ (by norm_num) (by omega)
  · rw [sixPos, sixPos, hl]
    have hp := ten_zpow_pos (K := K) (Int.log 10 y - 5)
    have := roundEven_mono (div_le_div_of_nonneg_right h hp.le)
    exact mul_le_mul_of_nonneg_right (by exact_mod_cast this) hp.le

/-- The relative error of six significant digits. -/
theorem sixPos_near {x : K} (hx : 0 < x) : |sixPos x - x| ≤ x / (2 * 10 ^ 5) := by
  have hp := ten_zpow_pos (K := K) (Int.log 10 x - 5)
  have h1 := roundEven_near (x / 10 ^ (Int.log 10 x - 5))
  have h2 : sixPos x - x = ((roundEven (x / 10 ^ (Int.log 10 x - 5)) : K) - x / 10 ^ (Int.log 10 x - 5)) *
      10 ^ (Int.log 10 x - 5) := by
    rw [sub_mul, div_mul_cancel₀ _ hp.ne', sixPos]
  have h3 := (scaled_bounds10 hx).1
  rw [le_div_iff₀ hp] at h3
  push_cast at h3
  rw [h2, abs_mul, abs_of_pos hp, le_div_iff₀ (by norm_num)]
  have h4 := mul_le_mul_of_nonneg_right h1 hp.le
  linarith

/-- Close to a number with six significant digits these are the digits. -/
theorem sci_near {x : K} {m : ℕ} (hm : 10 ^ 5 ≤ m) (hm' : m < 10 ^ 6) {e : ℤ}
    (h : |x - m * 10 ^ (e - 5)| < 10 ^ (e - 6) / 2) : sci x = (m, e) := by
  rw [abs_lt] at h
  have hp := ten_zpow_pos (K := K) (e - 6)
  have hu : (10 : K) ^ (e - 5) = 10 * 10 ^ (e - 6) := by
    rw [show e - 5 = e - 6 + 1 by ring, zpow_add_one₀ ten_ne]; ring
  have hu' : (10 : K) ^ e = 10 ^ 6 * 10 ^ (e - 6) := by
    have := unit10 (K := K) e (e - 6) 6 (by push_cast; ring)
    rw [← this]
    norm_num
  have hu'' : (10 : K) ^ (e + 1) = 10 ^ 7 * 10 ^ (e - 6) := by
    have := unit10 (K := K) (e + 1) (e - 6) 7 (by push_cast; ring)
    rw [← this]
    norm_num
  have c1 : (10 : K) ^ 5 ≤ m := by exact_mod_cast hm
  have c2 : (m : K) + 1 ≤ 10 ^ 6 := by exact_mod_cast hm'
  rw [hu] at h
  by_cases hx : (10 : K) ^ e ≤ x
  · have hl : Int.log 10 x = e := by
      refine log_unique10 hx ?_
      rw [hu'']
      nlinarith
    have hr : roundEven (x / 10 ^ (Int.log 10 x - 5)) = (m : ℤ) := by
      refine roundEven_unique ?_
      rw [hl, hu]
      have : x / (10 * 10 ^ (e - 6)) - ((m : ℤ) : K) = (x - m * (10 * 10 ^ (e - 6))) / (10 * 10 ^ (e - 6)) := by
        field_simp
        push_cast
        ring
      rw [this, abs_div, abs_of_pos (show (0 : K) < 10 * 10 ^ (e - 6) by positivity),
        div_lt_iff₀ (by positivity), abs_lt]
      constructor <;> linarith
    rw [sci]
    simp only [hr, Int.toNat_natCast]
    rw [if_neg (by omega), hl]
  · push Not at hx
    have hme : m = 10 ^ 5 := by
      by_contra hne
      have : (10 : K) ^ 5 + 1 ≤ m := by exact_mod_cast (show 10 ^ 5 + 1 ≤ m by omega)
      rw [hu'] at hx
      nlinarith
    subst hme
    push_cast at h
    have hl : Int.log 10 x = e - 1 := by
      refine log_unique10 ?_ (by simpa using hx)
      have : (10 : K) ^ (e - 1) = 10 ^ 5 * 10 ^ (e - 6) := by
        have := unit10 (K := K) (e - 1) (e - 6) 5 (by push_cast; ring)
        rw [← this]
        norm_num
      rw [this]
      nlinarith
    have hr : roundEven (x / 10 ^ (Int.log 10 x - 5)) = ((10 ^ 6 : ℕ) : ℤ) := by
      refine roundEven_unique ?_
      rw [hl, show e - 1 - 5 = e - 6 by ring]
      have : x / 10 ^ (e - 6) - (((10 ^ 6 : ℕ) : ℤ) : K) = (x - 10 ^ 6 * 10 ^ (e - 6)) / 10 ^ (e - 6) := by
        field_simp
        push_cast
        ring
      rw [this, abs_div, abs_of_pos hp, div_lt_iff₀ hp, abs_lt]
      constructor <;> linarith
    rw [sci]
    simp only [hr, Int.toNat_natCast, if_true]
    rw [hl, sub_add_cancel]

/-- All numbers in the upper half of a cell have the same six digits. -/
theorem sci_cell {x : K} {m : ℕ} (hm : 10 ^ 5 ≤ m) (hm' : m < 10 ^ 6) {e : ℤ} (h1 : m * 10 ^ (e - 5) ≤ x)
    (h2 : x < m * 10 ^ (e - 5) + 10 ^ (e - 5) / 2) : sci x = (m, e) := by
  have hp := ten_zpow_pos (K := K) (e - 5)
  have c1 : ((10 ^ 5 : ℕ) : K) ≤ m := by exact_mod_cast hm
  have c2 : (m : K) + 1 ≤ 10 ^ 6 := by exact_mod_cast hm'
  have hl : Int.log 10 x = e := by
    refine log_unique10 ?_ ?_
    · rw [← unit10 e (e - 5) 5 (by norm_num)]
      exact (mul_le_mul_of_nonneg_right c1 hp.le).trans h1
    · rw [← unit10 (e + 1) (e - 5) 6 (by push_cast; ring)]
      push_cast
      nlinarith
  have hr : roundEven (x / 10 ^ (Int.log 10 x - 5)) = (m : ℤ) := by
    refine roundEven_unique ?_
    rw [hl]
    have : x / 10 ^ (e - 5) - ((m : ℤ) : K) = (x - m * 10 ^ (e - 5)) / 10 ^ (e - 5) := by
      field_simp
      push_cast
      ring
    rw [this, abs_div, abs_of_pos hp, div_lt_iff₀ hp, abs_lt]
    constructor <;> linarith
  rw [sci]
  simp only [hr, Int.toNat_natCast]
  rw [if_neg (by omega), hl]

/-- What `ostringstream` prints is the nearest number with six significant digits. -/
theorem decimal_general (x : K) : (decimal (general x) : K) =
    if x < 0 then -sixPos (-x) else if x = 0 then 0 else sixPos x := by
  rw [general]
  by_cases h0 : x = 0
  · subst h0
    rw [if_pos rfl, if_neg (lt_irrefl _), if_pos rfl]
    simp [decimal, unsigned, value, splitFrac, isDigit]
  · rw [if_neg h0, decimal_sign (layout_head _ _)]
    by_cases hx : x < 0
    · obtain ⟨-, h2, h3⟩ := sci_spec (x := |x|) (abs_pos.2 h0)
      rw [if_pos hx, if_pos hx, unsigned_layout h2, h3, abs_of_neg hx]
    · obtain ⟨-, h2, h3⟩ := sci_spec (x := |x|) (abs_pos.2 h0)
      rw [if_neg hx, if_neg hx, if_neg h0, unsigned_layout h2, h3, abs_of_nonneg (not_lt.1 hx)]

end Verif.Decimal

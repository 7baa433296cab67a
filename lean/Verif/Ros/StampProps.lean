import Verif.Ros.StampModel
import Verif.Ros.Props
import Verif.Decimal.Props
import Verif.Container.FitProps

/-!
# Property C104: time stamps of ROS messages
-/

set_option linter.unusedSectionVars false
set_option linter.dupNamespace false

namespace Verif.Ros

open Verif.Rounding Verif.Spline Verif.PolyCurve

/-- A stamp as ROS normalises it. -/
def Stamp.Valid (d : Stamp) : Prop := d.nsec < 10 ^ 9

/-- The order of stamps. -/
def Stamp.Before (a b : Stamp) : Prop := a.sec < b.sec ∨ a.sec = b.sec ∧ a.nsec < b.nsec

section
variable {K : Type} [Field K] [LinearOrder K] [IsStrictOrderedRing K] [FloorRing K]

/-- The error of rounding a number below `2^(k+1)`. -/
theorem toDouble_near {x : K} (hx : 0 ≤ x) {k : ℤ} (h : x < 2 ^ (k + 1)) : |toDouble x - x| ≤ 2 ^ (k - 53) := by
  rcases hx.eq_or_lt with rfl | hx
  · rw [toDouble_zero]
    simpa using (two_zpow_pos (K := K) (k - 53)).le
  · rw [toDouble_pos hx]
    have hp := two_zpow_pos (K := K) (Int.log 2 x - 52)
    have h1 := Decimal.roundEven_near (x / 2 ^ (Int.log 2 x - 52))
    have h2 : roundPos x - x = ((roundEven (x / 2 ^ (Int.log 2 x - 52)) : K) - x / 2 ^ (Int.log 2 x - 52)) *
        2 ^ (Int.log 2 x - 52) := by
      rw [sub_mul, div_mul_cancel₀ _ hp.ne', roundPos]
    have hl : Int.log 2 x ≤ k := by
      have := lt_of_le_of_lt (log_bounds hx).1 h
      have := (zpow_lt_zpow_iff_right₀ (by norm_num : (1 : K) < 2)).1 this
      omega
    have h3 : (2 : K) ^ (Int.log 2 x - 52) ≤ 2 ^ (k - 52) := zpow_le_zpow_right₀ (by norm_num) (by omega)
    have h4 : (2 : K) ^ (k - 52) = 2 * 2 ^ (k - 53) := by
      rw [show k - 52 = k - 53 + 1 by ring, zpow_add_one₀ (by norm_num)]
      ring
    rw [h2, abs_mul, abs_of_pos hp]
    have h5 := mul_le_mul_of_nonneg_right h1 hp.le
    linarith

theorem nano : (0 : K) < toDouble (1 / 10 ^ 9) ∧ |toDouble (1 / 10 ^ 9 : K) - 1 / 10 ^ 9| ≤ 1 / 10 ^ 9 / 2 ^ 53 := by
  have h : (0 : K) < 1 / 10 ^ 9 := by norm_num
  rw [toDouble_pos h]
  exact ⟨roundPos_pos h, Decimal.roundPos_near h⟩

/-- The nanoseconds as the code computes them. -/
theorem nanos {n : ℕ} (h : n < 10 ^ 9) : 0 ≤ toDouble (toDouble (1 / 10 ^ 9 : K) * (n : K)) ∧
    toDouble (toDouble (1 / 10 ^ 9 : K) * (n : K)) ≤ 1 ∧
    |toDouble (toDouble (1 / 10 ^ 9 : K) * (n : K)) - n / 10 ^ 9| ≤ 1 / 2 ^ 52 := by
  obtain ⟨h0, h1⟩ := nano (K := K)
  have hn : (n : K) + 1 ≤ 10 ^ 9 := by exact_mod_cast h
  have hn0 : (0 : K) ≤ n := Nat.cast_nonneg n
  generalize toDouble (1 / 10 ^ 9 : K) = c at h0 h1
  have hc : 0 ≤ c * n := mul_nonneg h0.le hn0
  have h3 : |c * n - n / 10 ^ 9| ≤ 1 / 2 ^ 53 := by
    have : c * n - n / 10 ^ 9 = (c - 1 / 10 ^ 9) * n := by ring
    rw [this, abs_mul, abs_of_nonneg hn0]
    calc |c - 1 / 10 ^ 9| * (n : K) ≤ 1 / 10 ^ 9 / 2 ^ 53 * 10 ^ 9 :=
          mul_le_mul h1 (by linarith) hn0 (by norm_num)
      _ = 1 / 2 ^ 53 := by norm_num
  have h4 : c * n < 2 ^ ((-1 : ℤ) + 1) := by
    rw [abs_le] at h3
    norm_num at h3 hn ⊢
    linarith [h3.2]
  have h5 := toDouble_near hc h4
  have e1 : (2 : K) ^ ((-1 : ℤ) - 53) = 1 / 2 ^ 54 := by norm_num
  rw [e1] at h5
  refine ⟨?_, ?_, ?_⟩
  · have := (double K).mono hc
    rw [show (double K).rnd 0 = 0 from toDouble_zero] at this
    exact this
  · have := (double K).mono (show c * n ≤ 1 by simpa using h4.le)
    have h6 : (double K).rnd 1 = 1 := by simpa using (double K).int 1 (by norm_num)
    rw [h6] at this
    exact this
  · rw [abs_le] at h3 h5 ⊢
    norm_num at h3 h5 ⊢
    constructor <;> linarith [h3.1, h3.2, h5.1, h5.2]

/-- **C104**, order: earlier stamps never become later times, in `double`. -/
theorem C104_order {a b : Stamp} (ha : a.Valid) (hb : b.Valid) (h : a.Before b) :
    toSec (double K) a ≤ toSec (double K) b := by
  refine (double K).mono ?_
  change (a.sec : K) + toDouble (toDouble (1 / 10 ^ 9 : K) * (a.nsec : K)) ≤
    b.sec + toDouble (toDouble (1 / 10 ^ 9 : K) * (b.nsec : K))
  rcases h with h | ⟨h, h'⟩
  · have : (a.sec : K) + 1 ≤ b.sec := by exact_mod_cast h
    linarith [(nanos (K := K) ha).2.1, (nanos (K := K) hb).1]
  · rw [h]
    have : toDouble (1 / 10 ^ 9 : K) * (a.nsec : K) ≤ toDouble (1 / 10 ^ 9 : K) * (b.nsec : K) :=
      mul_le_mul_of_nonneg_left (by exact_mod_cast h'.le) (nano (K := K)).1.le
    have := (double K).mono this
    change toDouble _ ≤ toDouble _ at this
    linarith

/-- **C104 (partial).** Below 2^23 seconds (97 days), earlier stamps become earlier times, in `double`. Missing: longer
durations, see `C104_refuted`. -/
theorem C104_strict_partial {a b : Stamp} (ha : a.Valid) (hb : b.Valid) (h : a.Before b) (h0 : 0 ≤ a.sec)
    (h1 : b.sec < 2 ^ 23) : toSec (double K) a < toSec (double K) b := by
  obtain ⟨a0, a1, a2⟩ := nanos (K := K) ha
  obtain ⟨b0, b1, b2⟩ := nanos (K := K) hb
  change toDouble ((a.sec : K) + toDouble (toDouble (1 / 10 ^ 9 : K) * (a.nsec : K))) <
    toDouble (b.sec + toDouble (toDouble (1 / 10 ^ 9 : K) * (b.nsec : K)))
  generalize toDouble (toDouble (1 / 10 ^ 9 : K) * (a.nsec : K)) = x at *
  generalize toDouble (toDouble (1 / 10 ^ 9 : K) * (b.nsec : K)) = y at *
  have hs : a.sec ≤ b.sec := by
    rcases h with h | h
    · exact h.le
    · exact h.1.le
  have c0 : (0 : K) ≤ a.sec := by exact_mod_cast h0
  have c1 : (a.sec : K) ≤ b.sec := by exact_mod_cast hs
  have c2 : (b.sec : K) + 1 ≤ 2 ^ 23 := by exact_mod_cast h1
  have ka : (a.nsec : K) + 1 ≤ 10 ^ 9 := by exact_mod_cast ha
  have kb : (b.nsec : K) + 1 ≤ 10 ^ 9 := by exact_mod_cast hb
  have gap : (a.sec : K) + a.nsec / 10 ^ 9 + 1 / 10 ^ 9 ≤ b.sec + b.nsec / 10 ^ 9 := by
    rcases h with h | ⟨h, h'⟩
    · have : (a.sec : K) + 1 ≤ b.sec := by exact_mod_cast h
      have : (0 : K) ≤ b.nsec := Nat.cast_nonneg _
      linarith
    · have : (a.nsec : K) + 1 ≤ b.nsec := by exact_mod_cast h'
      rw [h]
      linarith
  have small : ∀ z n : K, n + 1 ≤ 10 ^ 9 → |z - n / 10 ^ 9| ≤ 1 / 2 ^ 52 → z < 1 := by
    intro z n hn hz
    rw [abs_le] at hz
    norm_num at hz hn ⊢
    linarith [hz.2]
  have lx := small x _ ka a2
  have ly := small y _ kb b2
  have e23 : (2 : K) ^ ((22 : ℤ) + 1) = 2 ^ 23 := by norm_num
  have e31 : (2 : K) ^ ((22 : ℤ) - 53) = 1 / 2 ^ 31 := by norm_num
  have d1 := toDouble_near (x := (a.sec : K) + x) (by linarith) (k := 22) (by rw [e23]; linarith)
  have d2 := toDouble_near (x := (b.sec : K) + y) (by linarith) (k := 22) (by rw [e23]; linarith)
  rw [e31] at d1 d2
  rw [abs_le] at d1 d2 a2 b2
  norm_num at d1 d2 a2 b2 gap ⊢
  linarith [d1.2, d2.1, a2.2, b2.1]

/-- **C104 (partial), import.** A joint trajectory with at least two points whose stamps increase and stay below 2^23
seconds is imported to a curve through its positions, at the converted stamps. (Fitting is modelled without
rounding.) -/
theorem C104_import_partial (S : Solver K) {m : Msg Stamp K} {name : String} {pre post : List String}
    (hm : m.names = pre ++ name :: post) (h : name ∉ pre) {vals : List K}
    (hv : m.points.map (fun p => p.2[pre.length]?) = vals.map some) (h2 : 2 ≤ m.points.length)
    (hb : m.points.length ≤ 2 ^ 28) (hinc : (m.points.map (·.1)).Pairwise Stamp.Before)
    (hr : ∀ p ∈ m.points, p.1.Valid ∧ 0 ≤ p.1.sec ∧ p.1.sec < 2 ^ 23) (c : ScalarCurve .o5 K) :
    ∃ c', scalarFromMessage S (m.seconds (double K)) name c = .ok (true, c') ∧
      ∀ (i : ℕ) (hi : i < m.points.length) (hi' : i < vals.length),
        c'.evaluate (toSec (double K) m.points[i].1) = .ok vals[i] := by
  obtain ⟨c', e, -, -, hev⟩ := C47_scalar S (m := m.seconds (double K)) hm h (vals := vals)
    (by rw [← hv]; simp [Msg.seconds, Function.comp_def]) (by simpa [Msg.seconds] using h2)
    (by simpa [Msg.seconds] using hb) (by
      simp only [Msg.seconds, List.map_map, List.pairwise_map] at hinc ⊢
      refine hinc.imp_of_mem fun {a b} ha hb hab => ?_
      exact C104_strict_partial (hr a ha).1 (hr b hb).1 hab (hr a ha).2.1 (hr b hb).2.2) c
  refine ⟨c', e, fun i hi hi' => ?_⟩
  have := hev i (by simpa [Msg.seconds] using hi) hi'
  simpa [Msg.seconds] using this

/-- Whenever two neighbouring stamps become the same time, `fromMessage` returns `true` and leaves a curve that
is 0 everywhere, whatever the positions and the rounding. -/
theorem C104_lost (R : Rounding K) (S : Solver K) {m : Msg Stamp K} {name : String} {pre post : List String}
    (hm : m.names = pre ++ name :: post) (h : name ∉ pre) {vals : List K}
    (hv : m.points.map (fun p => p.2[pre.length]?) = vals.map some) (hb : m.points.length ≤ 2 ^ 28)
    (i : ℕ) (hi : i + 1 < m.points.length)
    (hbad : toSec R m.points[i + 1].1 ≤ toSec R m.points[i].1) (c : ScalarCurve .o5 K) :
    ∃ c', scalarFromMessage S (m.seconds R) name c = .ok (true, c') ∧ ∀ t, c'.evaluate t = .ok 0 := by
  obtain ⟨d, e, -, -, -, h0⟩ := Verif.Container.C24_failed_partial S
    ((m.seconds R).points.map (·.1)) vals (by simpa [Msg.seconds] using hb) (Or.inr (Or.inr rfl)) i
    (by simpa [Msg.seconds] using hi) (by simpa [Msg.seconds] using hbad) 0 0 0 0 c.container _ (Or.inr rfl)
  have hne : ∃ t0, ((m.seconds R).points.map (·.1)).head? = some t0 := by
    cases hp : m.points with
    | nil => rw [hp] at hi; simp at hi
    | cons p ps => exact ⟨toSec R p.1, by simp [Msg.seconds, hp]⟩
  obtain ⟨t0, ht0⟩ := hne
  refine ⟨⟨d, t0⟩, ?_, fun t => h0 _⟩
  rw [scalarFromMessage, C47_known _ (m := m.seconds R) hm h (vals := vals)
    (by rw [← hv]; simp [Msg.seconds, Function.comp_def])]
  simp only [ScalarCurve.fitCurve, ScalarCurve.fitCurveWith, e, Outcome.ok_bind, ht0, Outcome.deref]

/-- Rounding, given the exponent and the nearest integer in units of the last place. -/
theorem toDouble_of_close {x : K} {e m : ℤ} (h1 : (2 : K) ^ e ≤ x) (h2 : x < 2 ^ (e + 1))
    (h : |x / 2 ^ (e - 52) - m| < 1 / 2) : toDouble x = m * 2 ^ (e - 52) := by
  rw [toDouble_pos (lt_of_lt_of_le (two_zpow_pos e) h1), roundPos, log_unique h1 h2, Decimal.roundEven_unique h]

/-- A second after `2^23` and the nanoseconds 0, 1, 2: the number of units to round up by, `d`. -/
theorem collide {s : ℤ} {e d : ℕ} {x : K} (he : e ≤ 31) (h1 : (2 : ℤ) ^ e ≤ s) (h2 : s < 2 ^ (e + 1))
    (hx : 0 ≤ x) (hx1 : x < 1) (h : |x * 2 ^ (52 - e) - d| < 1 / 2) :
    toDouble ((s : K) + x) = ((s * 2 ^ (52 - e) + d : ℤ) : K) * 2 ^ ((e : ℤ) - 52) := by
  have k1 : (2 : K) ^ e ≤ s := by exact_mod_cast h1
  have k2 : (s : K) + 1 ≤ 2 ^ (e + 1) := by exact_mod_cast h2
  have e1 : (2 : K) ^ ((e : ℤ) - 52) = (2 ^ (52 - e))⁻¹ := by
    rw [show (e : ℤ) - 52 = -((52 - e : ℕ) : ℤ) by omega, zpow_neg, zpow_natCast]
  refine toDouble_of_close (by rw [zpow_natCast]; linarith) ?_ ?_
  · rw [show (e : ℤ) + 1 = ((e + 1 : ℕ) : ℤ) by push_cast; ring, zpow_natCast]
    linarith
  · rw [e1, div_inv_eq_mul]
    push_cast
    rwa [show ((s : K) + x) * 2 ^ (52 - e) - (s * 2 ^ (52 - e) + d) = x * 2 ^ (52 - e) - d by ring]

/-- **C104 is false of the code**: in every second from 2^23 (97 days) on, two stamps a nanosecond apart become the
same `double`. (`sec` is an `int32`.) -/
theorem C104_refuted {s : ℤ} (h1 : 2 ^ 23 ≤ s) (h2 : s < 2 ^ 31) : ∃ n : ℕ, n ≤ 1 ∧
    toSec (double K) ⟨s, n⟩ = toSec (double K) ⟨s, n + 1⟩ := by
  have hnano : ∀ n : ℕ, n ≤ 2 → 0 ≤ toDouble (toDouble (1 / 10 ^ 9 : K) * (n : K)) ∧
      |toDouble (toDouble (1 / 10 ^ 9 : K) * (n : K)) - n / 10 ^ 9| ≤ 1 / 2 ^ 52 := fun n hn =>
    ⟨(nanos (K := K) (n := n) (by omega)).1, (nanos (K := K) (n := n) (by omega)).2.2⟩
  have main : ∀ (e d n : ℕ), e ≤ 31 → (2 : ℤ) ^ e ≤ s → s < 2 ^ (e + 1) → n ≤ 2 →
      |(n : K) / 10 ^ 9 * 2 ^ (52 - e) - d| < 1 / 2 - 1 / 2 ^ 22 → 21 ≤ 52 - e → 52 - e ≤ 29 →
      toSec (double K) ⟨s, n⟩ = ((s * 2 ^ (52 - e) + d : ℤ) : K) * 2 ^ ((e : ℤ) - 52) := by
    intro e d n he a b hn hd l1 l2
    obtain ⟨g0, g1⟩ := hnano n hn
    have hn2 : (n : K) ≤ 2 := by exact_mod_cast hn
    change toDouble ((s : K) + toDouble (toDouble (1 / 10 ^ 9 : K) * (n : K))) = _
    generalize toDouble (toDouble (1 / 10 ^ 9 : K) * (n : K)) = x at g0 g1
    refine collide he a b g0 ?_ ?_
    · rw [abs_le] at g1
      norm_num at g1 ⊢
      linarith [g1.2]
    · have hq : (2 : K) ^ (52 - e) ≤ 2 ^ 29 := pow_le_pow_right₀ (by norm_num) l2
      have hq0 : (0 : K) < 2 ^ (52 - e) := by positivity
      have : |(x - n / 10 ^ 9) * 2 ^ (52 - e)| ≤ 1 / 2 ^ 23 := by
        rw [abs_mul, abs_of_pos hq0]
        calc _ ≤ 1 / 2 ^ 52 * 2 ^ 29 := mul_le_mul g1 hq hq0.le (by norm_num)
          _ = _ := by norm_num
      generalize (2 : K) ^ (52 - e) = q at *
      rw [abs_le] at this
      rw [abs_lt] at hd ⊢
      norm_num at this hd ⊢
      constructor <;> nlinarith [this.1, this.2, hd.1, hd.2]
  obtain ⟨e, he1, he2⟩ : ∃ e : ℕ, (2 : ℤ) ^ e ≤ s ∧ s < 2 ^ (e + 1) := by
    have hs : s.toNat ≠ 0 := by omega
    refine ⟨Nat.log 2 s.toNat, ?_, ?_⟩
    · have := Nat.pow_log_le_self 2 hs
      zify at this
      rwa [Int.toNat_of_nonneg (by omega)] at this
    · have := Nat.lt_pow_succ_log_self (b := 2) (by norm_num) s.toNat
      zify at this
      rwa [Int.toNat_of_nonneg (by omega)] at this
  have l1 : 23 ≤ e := by
    by_contra hc
    have : (2 : ℤ) ^ (e + 1) ≤ 2 ^ 23 := pow_le_pow_right₀ (by norm_num) (by omega)
    omega
  have l2 : e < 31 := (pow_lt_pow_iff_right₀ (by norm_num : (1 : ℤ) < 2)).1 (lt_of_le_of_lt he1 h2)
  rcases l1.eq_or_lt with rfl | l1
  · refine ⟨1, le_rfl, ?_⟩
    rw [main 23 1 1 (by norm_num) he1 he2 (by norm_num) (by rw [abs_lt]; norm_num) (by norm_num) (by norm_num),
      main 23 1 2 (by norm_num) he1 he2 (by norm_num) (by rw [abs_lt]; norm_num) (by norm_num) (by norm_num)]
  · refine ⟨0, by norm_num, ?_⟩
    have hq : (2 : K) ^ (52 - e) ≤ 2 ^ 28 := pow_le_pow_right₀ (by norm_num) (by omega)
    have hq0 : (0 : K) < 2 ^ (52 - e) := by positivity
    rw [main e 0 0 (by omega) he1 he2 (by norm_num) (by norm_num) (by omega) (by omega),
      main e 0 1 (by omega) he1 he2 (by norm_num) (by
        generalize (2 : K) ^ (52 - e) = q at *
        rw [abs_lt]
        norm_num at hq ⊢
        constructor <;> linarith) (by omega) (by omega)]

/-- … and such a message is accepted, whatever the positions: the curve is 0 everywhere. -/
theorem C104_lost_refuted {s : ℤ} (h1 : 2 ^ 23 ≤ s) (h2 : s < 2 ^ 31) : ∃ a b : Stamp, a.Valid ∧ b.Valid ∧ a.Before b ∧
    a.sec = s ∧ b.sec = s ∧ ∀ (S : Solver K) (x y : K) (c : ScalarCurve .o5 K), ∃ c',
      scalarFromMessage S (Msg.seconds (double K) ⟨["hip"], [(a, [x]), (b, [y])]⟩) "hip" c = .ok (true, c') ∧
      ∀ t, c'.evaluate t = .ok 0 := by
  obtain ⟨n, hn, e⟩ := C104_refuted (K := K) h1 h2
  refine ⟨⟨s, n⟩, ⟨s, n + 1⟩, ?_, ?_, Or.inr ⟨rfl, Nat.lt_succ_self n⟩, rfl, rfl, fun S x y c => ?_⟩
  · simp only [Stamp.Valid]; omega
  · simp only [Stamp.Valid]; omega
  · exact C104_lost (double K) S (m := ⟨["hip"], [(⟨s, n⟩, [x]), (⟨s, n + 1⟩, [y])]⟩) (pre := []) (post := [])
      rfl (by simp) (vals := [x, y]) rfl (by simp) 0 (by simp) e.ge c

end

/-- Hypotheses of `C104_refuted` met: a hundred days. -/
example : ∃ n : ℕ, n ≤ 1 ∧ toSec (double ℚ) ⟨8640000, n⟩ = toSec (double ℚ) ⟨8640000, n + 1⟩ :=
  C104_refuted (by norm_num) (by norm_num)

/-- Hypotheses of `C104_order` met: a negative duration. -/
example : toSec (double ℚ) ⟨-3, 999999999⟩ ≤ toSec (double ℚ) ⟨-2, 0⟩ :=
  C104_order (by simp [Stamp.Valid]) (by simp [Stamp.Valid]) (Or.inl (by norm_num))

/-- Hypotheses of `C104_import_partial` met: two points, a nanosecond apart. -/
example (S : Solver ℚ) (c : ScalarCurve .o5 ℚ) : ∃ c',
    scalarFromMessage S (Msg.seconds (double ℚ) ⟨["hip"], [(⟨8000000, 0⟩, [5]), (⟨8000000, 1⟩, [7])]⟩) "hip" c =
      .ok (true, c') ∧ c'.evaluate (toSec (double ℚ) ⟨8000000, 1⟩) = .ok 7 := by
  obtain ⟨c', e, h⟩ := C104_import_partial S (m := ⟨["hip"], [(⟨8000000, 0⟩, [5]), (⟨8000000, 1⟩, [7])]⟩)
    (name := "hip") (pre := []) (post := []) rfl (by simp) (vals := [5, 7]) rfl (by simp) (by simp)
    (by simp [Stamp.Before]) (by simp [Stamp.Valid]) c
  exact ⟨c', e, h 1 (by simp) (by simp)⟩

end Verif.Ros

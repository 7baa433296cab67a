import Verif.Rounding.GradualLemmas

/-!
# Property C159: `double` with subnormal numbers

Everything that is proved for every `Rounding` holds for `ieee`. Here: what this rounding does, in terms of the numbers that
a `double` can hold, and the errors of C106 again.
-/

set_option linter.unusedSectionVars false
set_option linter.dupNamespace false

namespace Verif.Rounding

section
variable {K : Type} [Field K] [LinearOrder K] [IsStrictOrderedRing K] [FloorRing K]

open Verif.Manager Verif.Hermite

/-- The numbers a `double` can hold, but for the largest exponent: integers of at most 53 bits times a power of two that is
at least 2⁻¹⁰⁷⁴. -/
def Representable (y : K) : Prop := ∃ m e : ℤ, |m| ≤ 2 ^ 53 ∧ -1074 ≤ e ∧ y = m * 2 ^ e

theorem roundEven_nearest (z : K) (n : ℤ) : |(roundEven z : K) - z| ≤ |(n : K) - z| := by
  have h := Decimal.roundEven_near z
  by_cases e : n = roundEven z
  · rw [e]
  · have h1 : (1 : K) ≤ |(n : K) - roundEven z| := by
      rw [← Int.cast_sub, ← Int.cast_abs]
      exact_mod_cast Int.one_le_abs (sub_ne_zero.2 e)
    have h2 := abs_sub_le (n : K) z (roundEven z)
    rw [abs_sub_comm z] at h2
    linarith

/-- Rounding to a grid is rounding to the nearest point of the grid. -/
theorem grid_nearest (x : K) (E n : ℤ) :
    |(roundEven (x / 2 ^ E) : K) * 2 ^ E - x| ≤ |(n : K) * 2 ^ E - x| := by
  have hq := two_zpow_pos (K := K) E
  have h := mul_le_mul_of_nonneg_right (roundEven_nearest (x / 2 ^ E) n) hq.le
  rw [← abs_of_pos hq, ← abs_mul, ← abs_mul, abs_of_pos hq, sub_mul, sub_mul, div_mul_cancel₀ _ hq.ne'] at h
  exact h

theorem on_grid {m e E : ℤ} (h : E ≤ e) : ∃ n : ℤ, (m : K) * 2 ^ e = n * 2 ^ E := by
  obtain ⟨d, hd⟩ : ∃ d : ℕ, e = E + d := ⟨(e - E).toNat, by omega⟩
  refine ⟨m * 2 ^ d, ?_⟩
  rw [hd, zpow_add₀ (by norm_num : (2 : K) ≠ 0), zpow_natCast]
  push_cast
  ring

theorem roundPos_nearest {x y : K} (hx : 0 < x) (hy : Representable y) :
    |roundPos x - x| ≤ |y - x| := by
  obtain ⟨m, e, hm, he, rfl⟩ := hy
  by_cases h : Int.log 2 x - 52 ≤ e
  · obtain ⟨n, hn⟩ := on_grid (K := K) (m := m) h
    rw [hn]
    exact grid_nearest x _ n
  · have h1 := (log_bounds hx).1
    have h2 : (m : K) * 2 ^ e ≤ 2 ^ Int.log 2 x := by
      have h3 : (m : K) ≤ 2 ^ 53 := by exact_mod_cast (le_abs_self m).trans hm
      calc (m : K) * 2 ^ e ≤ 2 ^ 53 * 2 ^ e := mul_le_mul_of_nonneg_right h3 (two_zpow_pos e).le
        _ = 2 ^ (53 + e) := by rw [zpow_add₀ (by norm_num : (2 : K) ≠ 0)]; norm_num
        _ ≤ _ := zpow_le_zpow_right₀ (by norm_num) (by omega)
    have h3 := grid_nearest x (Int.log 2 x - 52) (2 ^ 52)
    rw [unit_low, abs_of_nonpos (show (2 : K) ^ Int.log 2 x - x ≤ 0 by linarith)] at h3
    rw [abs_of_nonpos (show (m : K) * 2 ^ e - x ≤ 0 by linarith)]
    exact h3.trans (by linarith)

theorem representable_neg {y : K} (h : Representable y) : Representable (-y) := by
  obtain ⟨m, e, hm, he, rfl⟩ := h
  exact ⟨-m, e, by rwa [abs_neg], he, by push_cast; ring⟩

theorem representable_roundPos {x : K} (hx : 0 < x) (hl : 2 ^ (-1022 : ℤ) ≤ x) : Representable (roundPos x) := by
  obtain ⟨b1, b2⟩ := roundEven_bounds hx
  have h : -1022 ≤ Int.log 2 x := by
    have := (zpow_lt_zpow_iff_right₀ (by norm_num : (1 : K) < 2)).1 (lt_of_le_of_lt hl (log_bounds hx).2)
    omega
  exact ⟨_, Int.log 2 x - 52, by rw [abs_of_nonneg (by omega)]; exact b2, by omega, rfl⟩

/-- **C159.** Whatever is rounded becomes a representable number, and none is nearer. -/
theorem C159_nearest (x : K) :
    Representable ((ieee K).rnd x) ∧ ∀ y, Representable y → |(ieee K).rnd x - x| ≤ |y - x| := by
  change Representable (toIeee x) ∧ ∀ y, Representable y → |toIeee x - x| ≤ |y - x|
  by_cases h : |x| < 2 ^ (-1022 : ℤ)
  · rw [toIeee_small h]
    obtain ⟨b1, b2⟩ := small_bounds h
    refine ⟨⟨_, -1074, abs_le.2 ⟨by omega, by omega⟩, le_rfl, rfl⟩, ?_⟩
    rintro y ⟨m, e, -, he, rfl⟩
    obtain ⟨n, hn⟩ := on_grid (K := K) (m := m) he
    rw [hn]
    exact grid_nearest x _ n
  · have h' := not_lt.1 h
    rw [toIeee_large h']
    rcases lt_or_ge x 0 with hn | hn
    · rw [abs_of_neg hn] at h'
      have hp : 0 < -x := by linarith
      rw [toDouble_neg hn]
      refine ⟨representable_neg (representable_roundPos hp h'), fun y hy => ?_⟩
      have := roundPos_nearest hp (representable_neg hy)
      rw [← abs_neg, show -(-roundPos (-x) - x) = roundPos (-x) - -x by ring, ← abs_neg (y - x),
        show -(y - x) = -y - -x by ring]
      exact this
    · rw [abs_of_nonneg hn] at h'
      have hp := lt_of_lt_of_le (two_zpow_pos _) h'
      rw [toDouble_pos hp]
      exact ⟨representable_roundPos hp h', fun y hy => roundPos_nearest hp hy⟩

/-- **C159**: the numbers that rounding keeps are the representable ones. -/
theorem C159_representable (y : K) : (ieee K).rnd y = y ↔ Representable y := by
  constructor
  · intro h
    rw [← h]
    exact (C159_nearest y).1
  · intro h
    have := (C159_nearest y).2 y h
    rw [sub_self, abs_zero] at this
    exact sub_eq_zero.1 (abs_nonpos_iff.1 this)

/-- **C159**: where the model without a smallest exponent is the same: at zero and from 2⁻¹⁰²² on. Below that, differences of
representable numbers are exact, so that underflow never loses a difference of times. -/
theorem C159_agrees (x y : K) :
    (x = 0 ∨ 2 ^ (-1022 : ℤ) ≤ |x| → (ieee K).rnd x = (double K).rnd x) ∧
    (Representable x → Representable y → |x - y| < 2 ^ (-1022 : ℤ) → (ieee K).rnd (x - y) = x - y) := by
  refine ⟨?_, fun hx hy h => toIeee_sub_exact ((C159_representable x).2 hx) ((C159_representable y).2 hy) h⟩
  rintro (rfl | h)
  · rw [rnd_zero, rnd_zero]
  · exact toIeee_large h

/-- Subnormal numbers: the smallest one, and half of it, which is rounded to 0. -/
example : Representable ((2 : ℚ) ^ (-1074 : ℤ)) ∧ (ieee ℚ).rnd (2 ^ (-1075 : ℤ)) = 0 ∧
    (double ℚ).rnd (2 ^ (-1075 : ℤ)) ≠ 0 :=
  ⟨⟨1, -1074, by norm_num, le_rfl, by norm_num⟩, by decide +kernel, by decide +kernel⟩

/-- **C159**, positions, as `C106_position`: to the bound there is to be added a multiple of the smallest number, which is
(3 + N) 2⁻¹⁰⁷³ if `N` is the largest velocity. -/
theorem C159_position {c : E3 K (Vec3 K)} (hr : Manager.Reachable c) (hc : c.w.calls + 1 < 2 ^ 64)
    (hd : ∀ n ∈ c.m.knots, Stored (ieee K) n) {ta tb : K} {A B : Knot (Vec3 K)} (ha : (ta, A) ∈ c.m.knots)
    (hb : (tb, B) ∈ c.m.knots) (hlt : ta < tb) (hno : ∀ s k, (s, k) ∈ c.m.knots → ¬(ta < s ∧ s < tb)) {t : K}
    (ht : Representable t) (h0 : ta ≤ t) (h1 : t ≤ tb) :
    ∃ p q, evaluate (ieee K) t c.m = .ok (some p) ∧ E3.evaluate t c = .ok (some q) ∧
      ∀ x M N, |A.position x| ≤ M → |B.position x| ≤ M → |A.velocity x| ≤ N → |B.velocity x| ≤ N →
        |p x - q x| ≤ (M + N * (tb - ta)) / 2 ^ 45 + (3 + N) * 2 ^ (-1073 : ℤ) := by
  obtain ⟨a, b, rfl, rfl, rfl, rfl, e1, e2, -, -⟩ :=
    near_of_segments (hr.WF hc).sorted hd ha hb hlt hno h0 h1
  refine ⟨_, _, e1, e2, fun x M N hA hB hA' hB' => ?_⟩
  have hN : 0 ≤ N := (abs_nonneg _).trans hA'
  have hh : (2 : K) ^ (-1073 : ℤ) = 4 * 2 ^ (-1075 : ℤ) := by
    rw [show (-1073 : ℤ) = 2 + -1075 by norm_num, zpow_add₀ (by norm_num : (2 : K) ≠ 0)]
    norm_num
  have hs : (2 : K) ^ (-1075 : ℤ) ≤ 1 / 2 ^ 53 / 1048576 := by
    rw [show (1 : K) / 2 ^ 53 / 1048576 = 2 ^ (-73 : ℤ) by norm_num]
    exact zpow_le_zpow_right₀ (by norm_num) (by norm_num)
  have hp := two_zpow_pos (K := K) (-1075)
  have := interpolate_nearG gradual_ieee (by positivity) (by norm_num) hs (hd _ ha).1 (hd _ hb).1
    ((C159_representable t).2 ht) hlt h0 h1 hA hB hA' hB'
  refine this.trans ?_
  rw [hh]
  have hn := mul_nonneg hp.le hN
  generalize (2 : K) ^ (-1075 : ℤ) = η at *
  have e : 256 * (1 / 2 ^ 53) * (M + N * (b.time - a.time)) = (M + N * (b.time - a.time)) / 2 ^ 45 := by ring
  rw [e]
  linarith

/-- **C159**, velocities, as `C106_velocity`, for knots at most 2¹⁰⁰⁰ apart: 2⁻¹⁰⁷² is to be added. -/
theorem C159_velocity {c : E3 K (Vec3 K)} (hr : Manager.Reachable c) (hc : c.w.calls + 1 < 2 ^ 64)
    (hd : ∀ n ∈ c.m.knots, Stored (ieee K) n) {ta tb : K} {A B : Knot (Vec3 K)} (ha : (ta, A) ∈ c.m.knots)
    (hb : (tb, B) ∈ c.m.knots) (hlt : ta < tb) (hfar : tb - ta ≤ 2 ^ (1000 : ℤ))
    (hno : ∀ s k, (s, k) ∈ c.m.knots → ¬(ta < s ∧ s < tb)) {t : K} (ht : Representable t) (h0 : ta ≤ t) (h1 : t ≤ tb) :
    ∃ p q, evaluateVelocity (ieee K) t c.m = .ok (some p) ∧ E3.evaluateDerivative t 1 c = .ok (some q) ∧
      ∀ x M N, |A.position x| ≤ M → |B.position x| ≤ M → |A.velocity x| ≤ N → |B.velocity x| ≤ N →
        |p x - q x| ≤ (M / (tb - ta) + N) / 2 ^ 45 + 2 ^ (-1072 : ℤ) := by
  obtain ⟨a, b, rfl, rfl, rfl, rfl, -, -, e1, e2⟩ :=
    near_of_segments (hr.WF hc).sorted hd ha hb hlt hno h0 h1
  refine ⟨_, _, e1, e2, fun x M N hA hB hA' hB' => ?_⟩
  have hD : 0 < b.time - a.time := sub_pos.2 hlt
  have hh : (2 : K) ^ (-1072 : ℤ) = 8 * 2 ^ (-1075 : ℤ) := by
    rw [show (-1072 : ℤ) = 3 + -1075 by norm_num, zpow_add₀ (by norm_num : (2 : K) ≠ 0)]
    norm_num
  have e73 : (1 : K) / 2 ^ 53 / 1048576 = 2 ^ (-73 : ℤ) := by norm_num
  have hs : (2 : K) ^ (-1075 : ℤ) ≤ 1 / 2 ^ 53 / 1048576 := by
    rw [e73]
    exact zpow_le_zpow_right₀ (by norm_num) (by norm_num)
  have hs' : (2 : K) ^ (-1075 : ℤ) ≤ 1 / 2 ^ 53 * (1 / (b.time - a.time)) / 1048576 := by
    rw [show (1 : K) / 2 ^ 53 * (1 / (b.time - a.time)) / 1048576 = 1 / 2 ^ 53 / 1048576 / (b.time - a.time) by ring, e73,
      le_div_iff₀ hD]
    calc (2 : K) ^ (-1075 : ℤ) * (b.time - a.time) ≤ 2 ^ (-1075 : ℤ) * 2 ^ (1000 : ℤ) :=
          mul_le_mul_of_nonneg_left hfar (two_zpow_pos _).le
      _ = 2 ^ (-75 : ℤ) := by rw [← zpow_add₀ (by norm_num : (2 : K) ≠ 0)]; norm_num
      _ ≤ _ := zpow_le_zpow_right₀ (by norm_num) (by norm_num)
  have := velocity_nearG gradual_ieee (by positivity) (by norm_num) hs (hd _ ha).1 (hd _ hb).1
    ((C159_representable t).2 ht) hlt h0 h1 hs' hA hB hA' hB'
  refine this.trans (le_of_eq ?_)
  rw [hh]
  ring

end

/-- A curve that stays at the smallest positive `double` for a second. -/
def tiny : Manager.St ℚ (Hermite.Knot (Vec3 ℚ)) :=
  ⟨⟨2, 2⟩, ⟨[⟨0, 0, 1, ⟨fun _ => 2 ^ (-1074 : ℤ), fun _ => 0⟩⟩, ⟨1, 1, 2, ⟨fun _ => 2 ^ (-1074 : ℤ), fun _ => 0⟩⟩],
    [(1, 0), (2, 1)]⟩⟩

open Verif.Manager in
theorem tiny_reachable : Manager.Reachable tiny := by
  refine ⟨⟨0, 0⟩, [.insert 0 ⟨fun _ => 2 ^ (-1074 : ℤ), fun _ => 0⟩, .insert 1 ⟨fun _ => 2 ^ (-1074 : ℤ), fun _ => 0⟩],
    by simp [SafeRun, SafeOp], ?_⟩
  simp [Manager.run, Manager.step, Mgr.insertCoefficient, Mgr.empty, scanAtTime, getNextKey, newAddr, mapInsert,
    kmSet, tiny]
  norm_num

theorem tiny_stored : ∀ n ∈ tiny.m.knots, Stored (ieee ℚ) n := by
  have h : (ieee ℚ).rnd (2 ^ (-1074 : ℤ)) = 2 ^ (-1074 : ℤ) :=
    (C159_representable _).2 ⟨1, -1074, by norm_num, le_rfl, by norm_num⟩
  intro n hn
  have : n = (0, ⟨fun _ => 2 ^ (-1074 : ℤ), fun _ => 0⟩) ∨ n = (1, ⟨fun _ => 2 ^ (-1074 : ℤ), fun _ => 0⟩) := by
    simpa only [tiny, Manager.Mgr.knots, List.map_cons, List.map_nil, List.mem_cons, List.not_mem_nil, or_false] using hn
  rcases this with rfl | rfl
  · exact ⟨rnd_zero _, fun _ => h, fun _ => rnd_zero _⟩
  · exact ⟨rnd_one _, fun _ => h, fun _ => rnd_zero _⟩

theorem tiny_neighbours : ∀ s k, (s, k) ∈ tiny.m.knots → ¬(0 < s ∧ s < 1) := by
  intro s k hk hs
  have : (s, k) = (0, ⟨fun _ => 2 ^ (-1074 : ℤ), fun _ => 0⟩) ∨ (s, k) = (1, ⟨fun _ => 2 ^ (-1074 : ℤ), fun _ => 0⟩) := by
    simpa only [tiny, Manager.Mgr.knots, List.map_cons, List.map_nil, List.mem_cons, List.not_mem_nil, or_false] using hk
  rcases this with h | h
  · exact hs.1.ne (congrArg Prod.fst h).symm
  · exact hs.2.ne (congrArg Prod.fst h)

/-- Hypotheses of `C159_position` and `C159_velocity` met: the curve `tiny` at time 1/2. -/
example : ∃ p q, evaluate (ieee ℚ) (1 / 2) tiny.m = .ok (some p) ∧ Hermite.E3.evaluate (1 / 2) tiny = .ok (some q) ∧
    |p 0 - q 0| ≤ (2 ^ (-1074 : ℤ) + 0 * (1 - 0)) / 2 ^ 45 + (3 + 0) * 2 ^ (-1073 : ℤ) := by
  obtain ⟨p, q, e1, e2, h⟩ := C159_position tiny_reachable (by decide) tiny_stored (ta := 0) (tb := 1)
    (List.mem_cons_self) (List.mem_cons_of_mem _ List.mem_cons_self) (by norm_num) tiny_neighbours (t := 1 / 2)
    ⟨1, -1, by norm_num, by norm_num, by norm_num⟩ (by norm_num) (by norm_num)
  have k : |(2 : ℚ) ^ (-1074 : ℤ)| ≤ 2 ^ (-1074 : ℤ) := (abs_of_pos (two_zpow_pos _)).le
  exact ⟨p, q, e1, e2, h 0 _ 0 k k (abs_zero (α := ℚ)).le (abs_zero (α := ℚ)).le⟩

/-- **C159**: near zero the bounds of C106 are false, and nothing is left of a relative precision: in the middle the curve
`tiny`, which is constant and not zero, is computed to be 0. -/
theorem C159_refuted : ∃ p q, evaluate (ieee ℚ) (1 / 2) tiny.m = .ok (some p) ∧
    Hermite.E3.evaluate (1 / 2) tiny = .ok (some q) ∧ p 0 = 0 ∧ q 0 = 2 ^ (-1074 : ℤ) ∧
    ¬|p 0 - q 0| ≤ (2 ^ (-1074 : ℤ) + 0 * (1 - 0)) / 2 ^ 45 := by
  obtain ⟨a, b, a1, a2, b1, b2, e1, e2, -, -⟩ := near_of_segments (R := ieee ℚ) (tiny_reachable.WF (by decide)).sorted
    tiny_stored (ta := 0) (tb := 1) (List.mem_cons_self) (List.mem_cons_of_mem _ List.mem_cons_self) (by norm_num)
    tiny_neighbours (t := 1 / 2) (by norm_num) (by norm_num)
  have hp : interpolate (ieee ℚ) a b (1 / 2) 0 = 0 := by
    have : interpolate (ieee ℚ) a b (1 / 2) 0 = interpolate (ieee ℚ) ⟨0, 0, 1, ⟨fun _ => 2 ^ (-1074 : ℤ), fun _ => 0⟩⟩
        ⟨1, 1, 2, ⟨fun _ => 2 ^ (-1074 : ℤ), fun _ => 0⟩⟩ (1 / 2) 0 := by
      simp only [interpolate, a1, a2, b1, b2]
    rw [this]
    decide +kernel
  have hq : Hermite.E3.interpolate a b (1 / 2) 0 = 2 ^ (-1074 : ℤ) := by
    rw [← link_interpolate]
    simp only [interpolate, alpha, exact, a1, a2, b1, b2]
    ring
  refine ⟨_, _, e1, e2, hp, hq, ?_⟩
  have h := two_zpow_pos (K := ℚ) (-1074)
  rw [hp, hq, zero_sub, abs_neg, abs_of_pos h]
  generalize (2 : ℚ) ^ (-1074 : ℤ) = d at *
  intro hc
  linarith

end Verif.Rounding

import Verif.Rounding.OverLemmas

/-!
# Property C160: overflow

`CubicHermiteE3Curve` computed in `double` with its largest number: where no operation of an evaluation or of a fit
overflows, and what happens when one does.
-/

set_option linter.unusedSectionVars false
set_option linter.dupNamespace false

namespace Verif.Rounding

section
variable {K : Type} [Field K] [LinearOrder K] [IsStrictOrderedRing K] [FloorRing K]

open Verif.Manager Verif.Hermite Fl

theorem pow_split (n k : ℕ) : (2 : K) ^ (k + n) = 2 ^ k * 2 ^ n := pow_add _ _ _

theorem split15 : (2 : K) ^ 1024 = 512 * 2 ^ 1015 := by
  rw [show (1024 : ℕ) = 9 + 1015 from rfl, pow_split]
  norm_num

theorem split12 : (2 : K) ^ 1024 = 4096 * 2 ^ 1012 ∧ (2 : K) ^ 1015 = 8 * 2 ^ 1012 := by
  rw [show (1024 : ℕ) = 12 + 1012 from rfl, show (1015 : ℕ) = 3 + 1012 from rfl, pow_split, pow_split]
  norm_num

theorem split09 : (2 : K) ^ 1024 = 32768 * 2 ^ 1009 ∧ (2 : K) ^ 1015 = 64 * 2 ^ 1009 := by
  rw [show (1024 : ℕ) = 15 + 1009 from rfl, show (1015 : ℕ) = 6 + 1009 from rfl, pow_split, pow_split]
  norm_num

theorem one_le_pow2 (n : ℕ) : (1 : K) ≤ 2 ^ n := one_le_pow₀ (by norm_num)

theorem hundred : (100 : K) < 2 ^ 1024 := by
  rw [split15]
  have g := one_le_pow2 (K := K) 1015
  generalize (2 : K) ^ 1015 = w at *
  linarith

theorem ieee_dbl (x : K) : |(ieee K).rnd x| ≤ 2 * |x| := by
  have h := (C159_nearest x).2 0 ⟨0, 0, by norm_num, by norm_num, by norm_num⟩
  rw [zero_sub, abs_neg] at h
  have := abs_add_le ((ieee K).rnd x - x) x
  rw [sub_add_cancel] at this
  linarith

theorem ieee_recip {a b : K} (ha : (ieee K).rnd a = a) (hb : (ieee K).rnd b = b) (h : a < b) :
    |1 / (ieee K).rnd (b - a)| ≤ 2 * (1 / (b - a)) := by
  have hD : 0 < b - a := sub_pos.2 h
  have h1 := gradual_ieee.sub hb ha
  rw [abs_of_pos hD] at h1
  have h2 : (b - a) / 2 ≤ (ieee K).rnd (b - a) := by
    have := (abs_le.1 h1).1
    norm_num at this
    linarith
  have h3 : 0 < (b - a) / 2 := by linarith
  rw [abs_of_pos (one_div_pos.2 (lt_of_lt_of_le h3 h2))]
  refine (one_div_le_one_div_of_le h3 h2).trans (le_of_eq ?_)
  field_simp

/-- What is known of the two knots that are used. -/
theorem segment_facts {c : E3 K (Vec3 K)} (hr : Manager.Reachable c) (hc : c.w.calls + 1 < 2 ^ 64)
    (hrep : ∀ n ∈ c.m.knots, Representable n.1) {t : K} {a b : Node K (Knot (Vec3 K))}
    (e : c.m.getCoefficientsAt t = some (a, b)) :
    (a.time, a.coef) ∈ c.m.knots ∧ (b.time, b.coef) ∈ c.m.knots ∧ a.time < b.time ∧ a.time ≤ t ∧ t ≤ b.time ∧
      (ieee K).rnd a.time = a.time ∧ (ieee K).rnd b.time = b.time ∧ (ieee K).rnd (b.time - a.time) ≠ 0 := by
  have hs := (hr.WF hc).sorted
  obtain ⟨pre, post, hm, ht⟩ := getAt_some e
  have hlt : a.time < b.time := by
    rw [hm] at hs
    simp only [Sorted, List.pairwise_append, List.pairwise_cons] at hs
    exact hs.2.1.1 b (by simp)
  have ha : (a.time, a.coef) ∈ c.m.knots := by simp [Mgr.knots, hm]
  have hb : (b.time, b.coef) ∈ c.m.knots := by simp [Mgr.knots, hm]
  have ra := (C159_representable _).2 (hrep _ ha)
  have rb := (C159_representable _).2 (hrep _ hb)
  refine ⟨ha, hb, hlt, ?_, ?_, ra, rb, fun h => hlt.ne' ((ieee K).sub_ne rb ra h)⟩ <;>
    rcases ht with ⟨rfl, -⟩ | ⟨h0, h1⟩
  · exact hlt.le
  · exact h0
  · exact le_rfl
  · exact h1.le

theorem head_conv (m : Mgr K (Knot (Vec3 K))) (f : Knot (Vec3 K) → Vec3 K) (g : Knot (Vec3 (Fl K)) → Vec3 (Fl K))
    (h : ∀ k, g (numKnot k) = nums (f k)) :
    (Outcome.deref (m.conv numKnot).nodes.head? >>= fun n => Outcome.ok (some (g n.coef))) =
      ((Outcome.deref m.nodes.head? >>= fun n => Outcome.ok (some (f n.coef))) >>= fun o => .ok (o.map nums)) := by
  rw [Mgr.conv, List.head?_map]
  cases m.nodes.head? with
  | none => rfl
  | some n => exact congrArg (fun x => Outcome.ok (some x)) (h n.coef)

/-- **C160 (partial)**, positions. Nothing overflows, and the result is that of C106 and C159, if positions are at most 2¹⁰¹⁵,
two knots are at most 2¹⁰¹⁵ apart, and so is the way made between them at the velocities of the two. Missing: larger
numbers, see `C160_refuted`. -/
theorem C160_position_partial {c : E3 K (Vec3 K)} (hr : Manager.Reachable c) (hc : c.w.calls + 1 < 2 ^ 64)
    (hrep : ∀ n ∈ c.m.knots, Representable n.1) (hp : ∀ n ∈ c.m.knots, ∀ x, |n.2.position x| ≤ 2 ^ 1015)
    (hd : ∀ n ∈ c.m.knots, ∀ n' ∈ c.m.knots, |n'.1 - n.1| ≤ 2 ^ 1015 ∧ ∀ x, |n.2.velocity x| * |n'.1 - n.1| ≤ 2 ^ 1015)
    (t : K) :
    evaluateO (ieee K) (2 ^ 1024) t (c.m.conv numKnot) = (evaluate (ieee K) t c.m >>= fun o => .ok (o.map nums)) := by
  simp only [evaluateO, evaluate, getMinTime_conv, getMaxTime_conv, getCoefficientsAt_conv]
  split
  · exact head_conv c.m Knot.position Knot.position fun _ => rfl
  · cases e : c.m.getCoefficientsAt t with
    | none => rfl
    | some p =>
      obtain ⟨a, b⟩ := p
      obtain ⟨ha, hb, hlt, h0, h1, ra, rb, hne⟩ := segment_facts hr hc hrep e
      have := interpolateO_nums (R := ieee K) (Ω := 2 ^ 1024) ieee_dbl (M := 2 ^ 1015) (N := 2 ^ 1015)
        hundred hne h0 h1 le_rfl
        (by have : |b.time - a.time| ≤ 2 ^ 1015 := (hd _ ha _ hb).1; rw [split15]; have g := one_le_pow2 (K := K) 1015; generalize (2 : K) ^ 1015 = w at *; linarith) (hp _ ha) (hp _ hb)
        (hd _ ha _ hb).2 (fun x => by rw [abs_sub_comm]; exact (hd _ hb _ ha).2 x)
        (by rw [split15]; have g := one_le_pow2 (K := K) 1015; generalize (2 : K) ^ 1015 = w at *; linarith)
      simp only [Option.map_some, this]
      rfl

/-- **C160 (partial)**, velocities. Nothing overflows if velocities are at most 2¹⁰¹², positions at most 2¹⁰¹² times the
distance of two knots, and this is between 2⁻¹⁰¹² and 2¹⁰¹⁵. -/
theorem C160_velocity_partial {c : E3 K (Vec3 K)} (hr : Manager.Reachable c) (hc : c.w.calls + 1 < 2 ^ 64)
    (hrep : ∀ n ∈ c.m.knots, Representable n.1) (hv : ∀ n ∈ c.m.knots, ∀ x, |n.2.velocity x| ≤ 2 ^ 1012)
    (hd : ∀ n ∈ c.m.knots, ∀ n' ∈ c.m.knots, n.1 ≠ n'.1 → 1 ≤ 2 ^ 1012 * |n'.1 - n.1| ∧ |n'.1 - n.1| ≤ 2 ^ 1015 ∧
      ∀ x, |n.2.position x| ≤ 2 ^ 1012 * |n'.1 - n.1|) (t : K) :
    evaluateVelocityO (ieee K) (2 ^ 1024) t (c.m.conv numKnot) =
      (evaluateVelocity (ieee K) t c.m >>= fun o => .ok (o.map nums)) := by
  simp only [evaluateVelocityO, evaluateVelocity, getMinTime_conv, getMaxTime_conv, getCoefficientsAt_conv]
  split
  · exact head_conv c.m Knot.velocity Knot.velocity fun _ => rfl
  · cases e : c.m.getCoefficientsAt t with
    | none => rfl
    | some p =>
      obtain ⟨a, b⟩ := p
      obtain ⟨ha, hb, hlt, h0, h1, ra, rb, hne⟩ := segment_facts hr hc hrep e
      obtain ⟨d1, d2, d3⟩ := hd _ ha _ hb hlt.ne
      obtain ⟨-, -, d4⟩ := hd _ hb _ ha hlt.ne'
      have hD : 0 < b.time - a.time := sub_pos.2 hlt
      have hI : 1 / (b.time - a.time) ≤ 2 ^ 1012 := by
        rw [div_le_iff₀ hD]
        rwa [abs_of_pos hD] at d1
      have := interpolateVelocityO_nums (R := ieee K) (Ω := 2 ^ 1024) ieee_dbl (A := 2 ^ 1012) (V := 2 ^ 1012)
        hundred hne h0 h1 le_rfl (by rw [split12.2] at d2; rw [split12.1]; have g := one_le_pow2 (K := K) 1012; generalize (2 : K) ^ 1012 = w at *; linarith) (ieee_recip ra rb hlt)
        (by rw [split12.1]; have g := one_le_pow2 (K := K) 1012; generalize (2 : K) ^ 1012 = w at *; linarith)
        (fun x => by rw [mul_one_div, div_le_iff₀ hD, ← abs_of_pos hD]; exact d3 x)
        (fun x => by rw [mul_one_div, div_le_iff₀ hD, ← abs_of_pos hD, abs_sub_comm b.time]; exact d4 x)
        (hv _ ha) (hv _ hb) (by rw [split12.1]; have g := one_le_pow2 (K := K) 1012; generalize (2 : K) ^ 1012 = w at *; linarith)
      simp only [Option.map_some, this]
      rfl

/-- **C160 (partial)**, accelerations. Nothing overflows if velocities are at most 2¹⁰⁰⁹ times the distance of two knots,
positions at most 2¹⁰⁰⁹ times this distance and its square, and the distance is between 2⁻¹⁰⁰⁹ and 2¹⁰¹⁵. -/
theorem C160_acceleration_partial {c : E3 K (Vec3 K)} (hr : Manager.Reachable c) (hc : c.w.calls + 1 < 2 ^ 64)
    (hrep : ∀ n ∈ c.m.knots, Representable n.1)
    (hd : ∀ n ∈ c.m.knots, ∀ n' ∈ c.m.knots, n.1 ≠ n'.1 → 1 ≤ 2 ^ 1009 * |n'.1 - n.1| ∧ |n'.1 - n.1| ≤ 2 ^ 1015 ∧
      ∀ x, |n.2.position x| ≤ 2 ^ 1009 * |n'.1 - n.1| ∧ |n.2.position x| ≤ 2 ^ 1009 * (n'.1 - n.1) ^ 2 ∧
        |n.2.velocity x| ≤ 2 ^ 1009 * |n'.1 - n.1|) (t : K) :
    evaluateAccelerationO (ieee K) (2 ^ 1024) t (c.m.conv numKnot) =
      (evaluateAcceleration (ieee K) t c.m >>= fun o => .ok (o.map nums)) := by
  simp only [evaluateAccelerationO, evaluateAcceleration, getCoefficientsAt_conv]
  cases e : c.m.getCoefficientsAt t with
  | none => rfl
  | some p =>
    obtain ⟨a, b⟩ := p
    obtain ⟨ha, hb, hlt, h0, h1, ra, rb, hne⟩ := segment_facts hr hc hrep e
    obtain ⟨d1, d2, d3⟩ := hd _ ha _ hb hlt.ne
    obtain ⟨-, -, d4⟩ := hd _ hb _ ha hlt.ne'
    have hD : 0 < b.time - a.time := sub_pos.2 hlt
    have hI : 1 / (b.time - a.time) ≤ 2 ^ 1009 := by
      rw [div_le_iff₀ hD]
      rwa [abs_of_pos hD] at d1
    have k1 : min (2 ^ 1009) (2 ^ 1009 * (b.time - a.time)) ≤ (2 : K) ^ 1009 := min_le_left _ _
    have key : min (2 ^ 1009) (2 ^ 1009 * (b.time - a.time)) * (1 / (b.time - a.time)) ≤ (2 : K) ^ 1009 := by
      rw [mul_one_div, div_le_iff₀ hD]
      exact min_le_right _ _
    have := interpolateAccelerationO_nums (R := ieee K) (Ω := 2 ^ 1024) ieee_dbl
      (A := min (2 ^ 1009) (2 ^ 1009 * (b.time - a.time))) (V := 2 ^ 1009)
      hundred hne h0 h1 le_rfl (by rw [split09.2] at d2; rw [split09.1]; have g := one_le_pow2 (K := K) 1009; generalize (2 : K) ^ 1009 = w at *; linarith) (ieee_recip ra rb hlt)
      (by rw [split09.1]; have g := one_le_pow2 (K := K) 1009; generalize (2 : K) ^ 1009 = w at *; linarith)
      (fun x => by
        obtain ⟨p1, p2, -⟩ := d3 x
        rw [mul_one_div, div_le_iff₀ hD, min_mul_of_nonneg _ _ hD.le]
        rw [abs_of_pos hD] at p1
        exact le_min p1 (by rw [mul_assoc, ← sq]; exact p2))
      (fun x => by
        obtain ⟨p1, p2, -⟩ := d4 x
        rw [mul_one_div, div_le_iff₀ hD, min_mul_of_nonneg _ _ hD.le]
        rw [abs_sub_comm, abs_of_pos hD] at p1
        exact le_min p1 (by rw [mul_assoc, ← sq, show (b.time - a.time) ^ 2 = (a.time - b.time) ^ 2 by ring]; exact p2))
      (fun x => by rw [mul_one_div, div_le_iff₀ hD, ← abs_of_pos hD]; exact (d3 x).2.2)
      (fun x => by rw [mul_one_div, div_le_iff₀ hD, ← abs_of_pos hD, abs_sub_comm b.time]; exact (d4 x).2.2)
      (by rw [split09.1]; have g := one_le_pow2 (K := K) 1009; generalize (2 : K) ^ 1009 = w at *; linarith) (by rw [split09.1]; have g := one_le_pow2 (K := K) 1009; generalize (2 : K) ^ 1009 = w at *; linarith)
    simp only [Option.map_some, this]
    rfl

/-- **C160 (partial)**, for orders of magnitude that occur: if no position and no velocity exceeds 2³⁰⁰ (about 10⁹⁰) and any two
knots are between 2⁻³⁰⁰ and 2³⁰⁰ apart, then no operation of an evaluation overflows. -/
theorem C160_evaluate_partial {c : E3 K (Vec3 K)} (hr : Manager.Reachable c) (hc : c.w.calls + 1 < 2 ^ 64)
    (hrep : ∀ n ∈ c.m.knots, Representable n.1)
    (hn : ∀ n ∈ c.m.knots, ∀ x, |n.2.position x| ≤ 2 ^ 300 ∧ |n.2.velocity x| ≤ 2 ^ 300)
    (hd : ∀ n ∈ c.m.knots, ∀ n' ∈ c.m.knots, n.1 ≠ n'.1 → 1 ≤ 2 ^ 300 * |n'.1 - n.1| ∧ |n'.1 - n.1| ≤ 2 ^ 300) (t : K) :
    evaluateO (ieee K) (2 ^ 1024) t (c.m.conv numKnot) = (evaluate (ieee K) t c.m >>= fun o => .ok (o.map nums)) ∧
    evaluateVelocityO (ieee K) (2 ^ 1024) t (c.m.conv numKnot) =
      (evaluateVelocity (ieee K) t c.m >>= fun o => .ok (o.map nums)) ∧
    evaluateAccelerationO (ieee K) (2 ^ 1024) t (c.m.conv numKnot) =
      (evaluateAcceleration (ieee K) t c.m >>= fun o => .ok (o.map nums)) := by
  have mon : ∀ {m n : ℕ}, m ≤ n → (2 : K) ^ m ≤ 2 ^ n := fun h => pow_le_pow_right₀ (by norm_num) h
  have up : ∀ n ∈ c.m.knots, ∀ n' ∈ c.m.knots, |n'.1 - n.1| ≤ 2 ^ 300 := by
    intro n h n' h'
    by_cases e : n.1 = n'.1
    · rw [e, sub_self, abs_zero]
      positivity
    · exact (hd n h n' h' e).2
  have lo : ∀ n ∈ c.m.knots, ∀ n' ∈ c.m.knots, n.1 ≠ n'.1 → ∀ k, 300 ≤ k → 1 ≤ 2 ^ k * |n'.1 - n.1| := by
    intro n h n' h' e k hk
    exact (hd n h n' h' e).1.trans (mul_le_mul_of_nonneg_right (mon hk) (abs_nonneg _))
  have p1 : ∀ n ∈ c.m.knots, ∀ n' ∈ c.m.knots, n.1 ≠ n'.1 → ∀ y : K, |y| ≤ 2 ^ 300 → ∀ k, 600 ≤ k →
      |y| ≤ 2 ^ k * |n'.1 - n.1| := by
    intro n h n' h' e y hy k hk
    calc |y| ≤ 2 ^ 300 * 1 := by rw [mul_one]; exact hy
      _ ≤ 2 ^ 300 * (2 ^ 300 * |n'.1 - n.1|) := mul_le_mul_of_nonneg_left (hd n h n' h' e).1 (by positivity)
      _ = 2 ^ 600 * |n'.1 - n.1| := by rw [← mul_assoc, ← pow_add]
      _ ≤ _ := mul_le_mul_of_nonneg_right (mon hk) (abs_nonneg _)
  refine ⟨?_, ?_, ?_⟩
  · refine C160_position_partial hr hc hrep (fun n h x => (hn n h x).1.trans (mon (by norm_num)))
      (fun n h n' h' => ⟨(up n h n' h').trans (mon (by norm_num)), fun x => ?_⟩) t
    refine (mul_le_mul (hn n h x).2 (up n h n' h') (abs_nonneg _) (by positivity)).trans ?_
    rw [← pow_add]
    exact mon (by norm_num)
  · exact C160_velocity_partial hr hc hrep (fun n h x => (hn n h x).2.trans (mon (by norm_num)))
      (fun n h n' h' e => ⟨lo n h n' h' e _ (by norm_num), (up n h n' h').trans (mon (by norm_num)), fun x =>
        p1 n h n' h' e _ (hn n h x).1 _ (by norm_num)⟩) t
  · refine C160_acceleration_partial hr hc hrep
      (fun n h n' h' e => ⟨lo n h n' h' e _ (by norm_num), (up n h n' h').trans (mon (by norm_num)), fun x =>
        ⟨p1 n h n' h' e _ (hn n h x).1 _ (by norm_num), ?_, p1 n h n' h' e _ (hn n h x).2 _ (by norm_num)⟩⟩) t
    calc |n.2.position x| ≤ 2 ^ 600 * |n'.1 - n.1| * 1 := by
          rw [mul_one]; exact p1 n h n' h' e _ (hn n h x).1 _ (by norm_num)
      _ ≤ 2 ^ 600 * |n'.1 - n.1| * (2 ^ 300 * |n'.1 - n.1|) :=
          mul_le_mul_of_nonneg_left (hd n h n' h' e).1 (by positivity)
      _ = 2 ^ 900 * (|n'.1 - n.1| * |n'.1 - n.1|) := by
          rw [mul_mul_mul_comm, ← pow_add]
      _ = 2 ^ 900 * (n'.1 - n.1) ^ 2 := by rw [← sq, sq_abs]
      _ ≤ _ := mul_le_mul_of_nonneg_right (mon (by norm_num)) (sq_nonneg _)

/-- **C160 (partial)**, fits: nothing overflows if the values are at most 2¹⁰¹⁵ and at most 2¹⁰¹² times the distance of any two
of the times, and this is between 2⁻¹⁰¹² and 2¹⁰¹⁵. -/
theorem C160_fit_partial (debug : Bool) {ts : List K} (hinc : ts.Pairwise (· < ·)) (hrep : ∀ t ∈ ts, Representable t)
    (hd : ∀ s ∈ ts, ∀ t ∈ ts, s < t → 1 ≤ 2 ^ 1012 * (t - s) ∧ t - s ≤ 2 ^ 1015) (vs : List (Vec3 K))
    (hv : ∀ v ∈ vs, ∀ x, |v x| ≤ 2 ^ 1015 ∧ ∀ s ∈ ts, ∀ t ∈ ts, s < t → |v x| ≤ 2 ^ 1012 * (t - s)) (d0 dT : Vec3 K)
    (c : E3 K (Vec3 K)) :
    fitWithDerivativesO (ieee K) (2 ^ 1024) debug ts (vs.map nums) (nums d0) (nums dT) ⟨c.w, c.m.conv numKnot⟩ =
      (fitCurveWithDerivatives (ieee K) debug ts vs d0 dT c >>= fun r => .ok (⟨r.1.w, r.1.m.conv numKnot⟩, r.2)) := by
  refine fitO_nums debug (fun i ta tb va vb ha hb ha' hb' => ?_) d0 dT c
  obtain ⟨i1, rfl⟩ := List.getElem?_eq_some_iff.1 ha
  obtain ⟨i2, rfl⟩ := List.getElem?_eq_some_iff.1 hb
  have hlt : ts[i] < ts[i + 2] := List.pairwise_iff_getElem.1 hinc _ _ _ _ (by omega)
  have ma := List.getElem_mem i1
  have mb := List.getElem_mem i2
  have ra := (C159_representable _).2 (hrep _ ma)
  have rb := (C159_representable _).2 (hrep _ mb)
  have mva := List.mem_of_getElem? ha'
  have mvb := List.mem_of_getElem? hb'
  generalize ts[i] = ta at *
  generalize ts[i + 2] = tb at *
  obtain ⟨d1, d2⟩ := hd _ ma _ mb hlt
  have hD : 0 < tb - ta := sub_pos.2 hlt
  have hI : 1 / (tb - ta) ≤ 2 ^ 1012 := by rwa [div_le_iff₀ hD]
  have k1 : min (2 ^ 1015) (2 ^ 1012 * (tb - ta)) ≤ (2 : K) ^ 1015 := min_le_left _ _
  have key : min (2 ^ 1015) (2 ^ 1012 * (tb - ta)) * (1 / (tb - ta)) ≤ (2 : K) ^ 1012 := by
    rw [mul_one_div, div_le_iff₀ hD]
    exact min_le_right _ _
  refine slopeO_nums ieee_dbl (M := min (2 ^ 1015) (2 ^ 1012 * (tb - ta))) (fun h => hlt.ne' ((ieee K).sub_ne rb ra h)) le_rfl
    ?_ (ieee_recip ra rb hlt) ?_
    (fun x => le_min (hv _ mva x).1 ((hv _ mva x).2 _ ma _ mb hlt))
    (fun x => le_min (hv _ mvb x).1 ((hv _ mvb x).2 _ ma _ mb hlt)) ?_ ?_
  · rw [abs_of_pos hD, split15]
    have g := one_le_pow2 (K := K) 1015
    generalize (2 : K) ^ 1015 = w at *
    linarith
  · rw [split12.1]
    have g := one_le_pow2 (K := K) 1012
    generalize (2 : K) ^ 1012 = w at *
    linarith
  · rw [split15]
    have g := one_le_pow2 (K := K) 1015
    generalize min (2 ^ 1015) (2 ^ 1012 * (tb - ta)) = m at *
    generalize (2 : K) ^ 1015 = w at *
    linarith
  · rw [split12.1]
    have g := one_le_pow2 (K := K) 1012
    generalize min (2 ^ 1015) (2 ^ 1012 * (tb - ta)) * (1 / (tb - ta)) = m at *
    generalize (2 : K) ^ 1012 = w at *
    linarith

/-- **C160 is false of two knots that are at most 2⁻¹⁰²⁴ apart** (as subnormal times can be), whatever the curve, even at rest:
1 / dt overflows, and between the two neither the velocity nor the acceleration is a number in any coordinate. -/
theorem C160_short_refuted {c : E3s K} (hr : Manager.Reachable c) (hc : c.w.calls + 1 < 2 ^ 64)
    (hrep : ∀ n ∈ c.m.knots, Representable n.1) {ta tb : K} {A B : Knot (Vec3 (Fl K))} (ha : (ta, A) ∈ c.m.knots)
    (hb : (tb, B) ∈ c.m.knots) (hlt : ta < tb) (hno : ∀ s k, (s, k) ∈ c.m.knots → ¬(ta < s ∧ s < tb))
    (hd : tb - ta ≤ 2 ^ (-1024 : ℤ)) {t : K} (h0 : ta ≤ t) (h1 : t < tb) :
    ∃ v w, evaluateVelocityO (ieee K) (2 ^ 1024) t c.m = .ok (some v) ∧
      evaluateAccelerationO (ieee K) (2 ^ 1024) t c.m = .ok (some w) ∧ ∀ x y, v x ≠ num y ∧ w x ≠ num y := by
  obtain ⟨pre, a, b, post, hm, rfl, rfl, rfl, rfl⟩ := exists_segment (hr.WF hc).sorted ha hb hlt hno
  have hg := Manager.getAt_interior (hr.WF hc).sorted hm h0 h1
  have hne : ¬(c.m.getMaxTime = t ∧ c.m.getMinTime = t) := by
    rintro ⟨e1, e2⟩
    cases e : c.m.nodes.getLast? with
    | none => simp [hm] at e
    | some l =>
      have := (getLast?_max (hr.WF hc).sorted e).2 b (by simp [hm])
      simp only [Mgr.getMaxTime, e] at e1
      rw [e1] at this
      exact absurd h1 (not_lt.2 this)
  refine ⟨_, _, by rw [evaluateVelocityO, if_neg hne, hg], by rw [evaluateAccelerationO, hg], fun x y => ?_⟩
  have hD : 0 < b.time - a.time := sub_pos.2 hlt
  have rb := (C159_representable b.time).2 (hrep _ hb)
  have ra := (C159_representable a.time).2 (hrep _ ha)
  have hlt' : (2 : K) ^ (-1024 : ℤ) < 2 ^ (-1022 : ℤ) := zpow_lt_zpow_right₀ (by norm_num) (by norm_num)
  have e1 : (ieee K).rnd (b.time - a.time) = b.time - a.time :=
    toIeee_sub_exact rb ra (by rw [abs_of_pos hD]; exact lt_of_le_of_lt hd hlt')
  have e2 : (2 : K) ^ 1024 ≤ 1 / (b.time - a.time) := by
    rw [le_div_iff₀ hD]
    refine (mul_le_mul_of_nonneg_left hd (by positivity)).trans (le_of_eq ?_)
    rw [← zpow_natCast, ← zpow_add₀ (by norm_num : (2 : K) ≠ 0)]
    norm_num
  have e3 : (2 : K) ^ 1024 ≤ (ieee K).rnd (1 / (b.time - a.time)) := by
    have : (ieee K).rnd (2 ^ 1024) = 2 ^ 1024 :=
      (C159_representable _).2 ⟨1, 1024, by norm_num, by norm_num, by rw [Int.cast_one, one_mul, ← zpow_natCast]; rfl⟩
    rw [← this]
    exact (ieee K).mono e2
  have hs : subO (ieee K) (2 ^ 1024) (num b.time) (num a.time) = num (b.time - a.time) := by
    rw [subO_fin, fin_num, e1]
    rw [e1, abs_of_pos hD]
    refine lt_of_le_of_lt hd (lt_of_lt_of_le ?_ (one_le_pow2 1024))
    exact zpow_lt_one_of_neg₀ (by norm_num) (by norm_num)
  have ho : divO (ieee K) (2 ^ 1024) (num 1) (num (b.time - a.time)) = inf false := by
    rw [divO_fin _ hD.ne', fin, if_neg (not_lt.2 (e3.trans (le_abs_self _)))]
    simp [hlt.le]
  constructor
  · simp only [interpolateVelocityO, hs, ho]
    exact addO_left (addO_left (addO_left (mulO_right (mulO_right (by simp)))))  y
  · simp only [interpolateAccelerationO, hs, ho]
    exact addO_left (addO_left (addO_left (mulO_right (by simp)))) y

end

/-! ## Curves -/

open Verif.Manager Verif.Hermite Fl

/-- Two knots at 0 and 16 with the same position 0 and the same velocity 2¹⁰²³. -/
def fast : Manager.St ℚ (Hermite.Knot (Vec3 (Fl ℚ))) :=
  ⟨⟨2, 2⟩, ⟨[⟨0, 0, 1, ⟨fun _ => num 0, fun _ => num (2 ^ 1023)⟩⟩, ⟨1, 16, 2, ⟨fun _ => num 0, fun _ => num (2 ^ 1023)⟩⟩],
    [(1, 0), (2, 1)]⟩⟩

theorem fast_reachable : Manager.Reachable fast := by
  refine ⟨⟨0, 0⟩, [.insert 0 ⟨fun _ => num 0, fun _ => num (2 ^ 1023)⟩,
    .insert 16 ⟨fun _ => num 0, fun _ => num (2 ^ 1023)⟩], by simp [SafeRun, SafeOp], ?_⟩
  simp [Manager.run, Manager.step, Mgr.insertCoefficient, Mgr.empty, scanAtTime, getNextKey, newAddr, mapInsert,
    kmSet, fast]
  norm_num

/-- Three points on a line, at 0, 2 and 4 seconds, from -2¹⁰²³ to 2¹⁰²³. -/
def wide : Outcome (E3s ℚ × List Key) :=
  fitWithDerivativesO (ieee ℚ) (2 ^ 1024) true [0, 2, 4] [nums fun _ => -2 ^ 1023, nums fun _ => 0, nums fun _ => 2 ^ 1023]
    (nums fun _ => 0) (nums fun _ => 0) ⟨⟨0, 0⟩, Mgr.empty⟩

deriving instance DecidableEq for Manager.World, Manager.St

/-- **C160 is false of numbers that are large**, although inputs and exact results are within range: the curve `fast` is at 0
after half of the time and computed to be NaN; the straight line `wide` has the slope 2¹⁰²², but the slope stored at its
second knot is infinite, and at this knot the position of the curve, which is stored as 0, is computed to be NaN. -/
theorem C160_refuted :
    evaluateO (ieee ℚ) (2 ^ 1024) 8 fast.m = .ok (some fun _ => nan) ∧
    (∃ c ks, wide = .ok (c, ks) ∧ c.m.knots = [(0, ⟨nums fun _ => -2 ^ 1023, nums fun _ => 0⟩),
        (2, ⟨nums fun _ => 0, fun _ => inf false⟩), (4, ⟨nums fun _ => 2 ^ 1023, nums fun _ => 0⟩)] ∧
      evaluateO (ieee ℚ) (2 ^ 1024) 2 c.m = .ok (some fun _ => nan)) := by
  refine ⟨by decide +kernel,
    ⟨⟨3, 3⟩, ⟨[⟨0, 0, 1, ⟨nums fun _ => -2 ^ 1023, nums fun _ => 0⟩⟩, ⟨1, 2, 2, ⟨nums fun _ => 0, fun _ => inf false⟩⟩,
      ⟨2, 4, 3, ⟨nums fun _ => 2 ^ 1023, nums fun _ => 0⟩⟩], [(1, 0), (2, 1), (3, 2)]⟩⟩, [1, 2, 3], ?_, rfl, ?_⟩
  · decide +kernel
  · decide +kernel

/-- Two knots at 0 and 1 with large positions and velocities. -/
def large : Manager.St ℚ (Hermite.Knot (Vec3 ℚ)) :=
  ⟨⟨2, 2⟩, ⟨[⟨0, 0, 1, ⟨fun _ => 2 ^ 1009, fun _ => -2 ^ 1009⟩⟩, ⟨1, 1, 2, ⟨fun _ => -2 ^ 1009, fun _ => 2 ^ 1009⟩⟩],
    [(1, 0), (2, 1)]⟩⟩

theorem large_reachable : Manager.Reachable large := by
  refine ⟨⟨0, 0⟩, [.insert 0 ⟨fun _ => 2 ^ 1009, fun _ => -2 ^ 1009⟩, .insert 1 ⟨fun _ => -2 ^ 1009, fun _ => 2 ^ 1009⟩],
    by simp [SafeRun, SafeOp], ?_⟩
  simp [Manager.run, Manager.step, Mgr.insertCoefficient, Mgr.empty, scanAtTime, getNextKey, newAddr, mapInsert,
    kmSet, large]
  norm_num

theorem large_times : ∀ n ∈ large.m.knots, Representable n.1 := by
  intro n hn
  have : n = (0, ⟨fun _ => 2 ^ 1009, fun _ => -2 ^ 1009⟩) ∨ n = (1, ⟨fun _ => -2 ^ 1009, fun _ => 2 ^ 1009⟩) := by
    simpa only [large, Mgr.knots, List.map_cons, List.map_nil, List.mem_cons, List.not_mem_nil, or_false] using hn
  rcases this with rfl | rfl
  · exact ⟨0, 0, by norm_num, by norm_num, by norm_num⟩
  · exact ⟨1, 0, by norm_num, by norm_num, by norm_num⟩

/-- Hypotheses of `C160_position_partial`, `C160_velocity_partial` and `C160_acceleration_partial` met: the curve `large`,
at whatever time. -/
example (t : ℚ) :
    evaluateO (ieee ℚ) (2 ^ 1024) t (large.m.conv numKnot) = (evaluate (ieee ℚ) t large.m >>= fun o => .ok (o.map nums)) ∧
    evaluateVelocityO (ieee ℚ) (2 ^ 1024) t (large.m.conv numKnot) =
      (evaluateVelocity (ieee ℚ) t large.m >>= fun o => .ok (o.map nums)) ∧
    evaluateAccelerationO (ieee ℚ) (2 ^ 1024) t (large.m.conv numKnot) =
      (evaluateAcceleration (ieee ℚ) t large.m >>= fun o => .ok (o.map nums)) :=
  ⟨C160_position_partial large_reachable (by decide) large_times (by decide +kernel) (by decide +kernel) t,
    C160_velocity_partial large_reachable (by decide) large_times (by decide +kernel) (by decide +kernel) t,
    C160_acceleration_partial large_reachable (by decide) large_times (by decide +kernel) t⟩

/-- Hypotheses of `C160_evaluate_partial` met: the curve `demo`. -/
example (t : ℚ) : evaluateO (ieee ℚ) (2 ^ 1024) t (demo.m.conv numKnot) =
    (evaluate (ieee ℚ) t demo.m >>= fun o => .ok (o.map nums)) := by
  refine (C160_evaluate_partial demo_reachable (by decide) ?_ (by decide +kernel) (by decide +kernel) t).1
  intro n hn
  have : n = (0, ⟨fun _ => toDouble (1 / 10), fun _ => 1⟩) ∨ n = (1 / 2, ⟨fun _ => toDouble (1 / 5), fun _ => 0⟩) := by
    simpa [demo, Manager.Mgr.knots] using hn
  rcases this with rfl | rfl
  · exact ⟨0, 0, by norm_num, by norm_num, by norm_num⟩
  · exact ⟨1, -1, by norm_num, by norm_num, by norm_num⟩

/-- Hypotheses of `C160_fit_partial` met: three large values, seconds apart. -/
example : fitWithDerivativesO (ieee ℚ) (2 ^ 1024) true [0, 1, 2] [nums fun _ => 2 ^ 1000, nums fun _ => 0,
      nums fun _ => -2 ^ 1000] (nums fun _ => 0) (nums fun _ => 0) ⟨⟨0, 0⟩, Mgr.conv numKnot Mgr.empty⟩ =
    (fitCurveWithDerivatives (ieee ℚ) true [0, 1, 2] [fun _ => 2 ^ 1000, fun _ => 0, fun _ => -2 ^ 1000] (fun _ => 0)
      (fun _ => 0) (E3.fresh ⟨0, 0⟩) >>= fun r => .ok (⟨r.1.w, r.1.m.conv numKnot⟩, r.2)) := by
  refine C160_fit_partial (K := ℚ) true (ts := [0, 1, 2]) (by decide +kernel) (fun t ht => ?_)
    (by decide +kernel) [fun _ => 2 ^ 1000, fun _ => 0, fun _ => -2 ^ 1000] (by decide +kernel) (fun _ => 0) (fun _ => 0)
    (E3.fresh ⟨0, 0⟩)
  have : t = ((0 : ℤ) : ℚ) ∨ t = ((1 : ℤ) : ℚ) ∨ t = ((2 : ℤ) : ℚ) := by simpa using ht
  rcases this with rfl | rfl | rfl
  · exact ⟨0, 0, by norm_num, by norm_num, by norm_num⟩
  · exact ⟨1, 0, by norm_num, by norm_num, by norm_num⟩
  · exact ⟨2, 0, by norm_num, by norm_num, by norm_num⟩

/-- At rest at 0, with knots 2⁻¹⁰³⁰ apart. -/
def still : Manager.St ℚ (Hermite.Knot (Vec3 (Fl ℚ))) :=
  ⟨⟨2, 2⟩, ⟨[⟨0, 0, 1, ⟨fun _ => num 0, fun _ => num 0⟩⟩, ⟨1, 2 ^ (-1030 : ℤ), 2, ⟨fun _ => num 0, fun _ => num 0⟩⟩],
    [(1, 0), (2, 1)]⟩⟩

theorem still_reachable : Manager.Reachable still := by
  refine ⟨⟨0, 0⟩, [.insert 0 ⟨fun _ => num 0, fun _ => num 0⟩, .insert (2 ^ (-1030 : ℤ)) ⟨fun _ => num 0, fun _ => num 0⟩],
    by simp [SafeRun, SafeOp], ?_⟩
  decide +kernel

/-- Hypotheses of `C160_short_refuted` met: the curve `still`. Its velocity at time 0 is not a number. -/
example : ∃ v, evaluateVelocityO (ieee ℚ) (2 ^ 1024) 0 still.m = .ok (some v) ∧ ∀ x y, v x ≠ num y := by
  obtain ⟨v, w, e1, -, h⟩ := C160_short_refuted (c := still) still_reachable (by decide)
    (by
      intro n hn
      have : n = (0, ⟨fun _ => num 0, fun _ => num 0⟩) ∨ n = (2 ^ (-1030 : ℤ), ⟨fun _ => num 0, fun _ => num 0⟩) := by
        simpa only [still, Mgr.knots, List.map_cons, List.map_nil, List.mem_cons, List.not_mem_nil, or_false] using hn
      rcases this with rfl | rfl
      · exact ⟨0, 0, by norm_num, by norm_num, by norm_num⟩
      · exact ⟨1, -1030, by norm_num, by norm_num, by rw [Int.cast_one, one_mul]⟩)
    (ta := 0) (tb := 2 ^ (-1030 : ℤ)) List.mem_cons_self (List.mem_cons_of_mem _ List.mem_cons_self) (two_zpow_pos _)
    (by
      intro s k hk hs
      have : (s, k) = (0, ⟨fun _ => num 0, fun _ => num 0⟩) ∨
          (s, k) = (2 ^ (-1030 : ℤ), ⟨fun _ => num 0, fun _ => num 0⟩) := by
        simpa only [still, Mgr.knots, List.map_cons, List.map_nil, List.mem_cons, List.not_mem_nil, or_false] using hk
      rcases this with h | h
      · exact hs.1.ne (congrArg Prod.fst h).symm
      · exact hs.2.ne (congrArg Prod.fst h))
    (by rw [sub_zero]; exact zpow_le_zpow_right₀ (by norm_num) (by norm_num)) (t := 0) le_rfl (two_zpow_pos _)
  exact ⟨v, e1, fun x y => (h x y).1⟩

end Verif.Rounding

import Verif.Rounding.LineModel
import Verif.Rounding.ContainerErrorProps
import Verif.Rounding.ErrorProps

/-!
# Property C146: a straight-line fit with rounded arithmetic, from the knots to the value read
-/

set_option linter.unusedSectionVars false
set_option linter.dupNamespace false

namespace Verif.Rounding

open Verif.Spline (Order Vec Spline)
open Verif.Container (Container start total)

variable {K : Type} [Field K] [LinearOrder K] [IsStrictOrderedRing K] {R : Rounding K} {u : K} {o : Order}

/-! ## With exact arithmetic it is the model of `Verif/Container/Model.lean` -/

theorem link_lineLoop (ts ps : List K) : ∀ k i (c : Container o K),
    lineLoop (exact K) ts ps k i (toBox c) = (c.linearLoop ts ps k i >>= fun r => .ok (r.1, toBox r.2)) := by
  intro k
  induction k with
  | zero => intro i c; rfl
  | succ k ih =>
    intro i c
    rw [lineLoop, Container.Container.linearLoop]
    cases hb : ts[i + 1]? with
    | none => rfl
    | some b =>
    cases ha : ts[i]? with
    | none => rfl
    | some a =>
      simp only [Outcome.deref_some, Outcome.ok_bind]
      have he : (exact K).rnd (b - a) = b - a := rfl
      rw [he]
      by_cases h : b - a ≤ 0
      · rw [if_pos h, if_pos h]; rfl
      · rw [if_neg h, if_neg h]
        cases hp : ps[i]? with
        | none => rfl
        | some p =>
        cases hq : ps[i + 1]? with
        | none => rfl
        | some q =>
          simp only [Outcome.deref_some, Outcome.ok_bind]
          exact ih (i + 1) (c.addSpline ⟨fun m => if (m : ℕ) = o.count - 1 then p else if (m : ℕ) = o.count - 2 then
            (q - p) / (b - a) else 0, b - a⟩)

theorem link_setDataLinear (ts ps : List K) (c : Container o K) :
    setDataLinear (exact K) ts ps (toBox c) = (c.setDataLinear ts ps >>= fun r => .ok (r.1, toBox r.2)) := by
  rw [setDataLinear, Container.Container.setDataLinear]
  by_cases h : (ts.length : ℤ) - 1 < 1
  · rw [if_pos h, if_pos h]; rfl
  · rw [if_neg h, if_neg h]
    exact link_lineLoop ts ps _ 0 c.reset

/-! ## The segment -/

/-- The terms of higher order do not matter: whatever the order, the segment reads as a straight one. -/
theorem position_line (P : Pow R) (a b p q t : K) :
    position R P (lineSpline R o a b p q) t = linePosition R (line R a b p q) t ∧
      velocity R P (lineSpline R o a b p q) t = (line R a b p q).2.1 := by
  cases o <;>
    simp [position, velocity, inner, List.finRange_succ, lineSpline, linePosition, line, tau, dtau, Order.count, Order.deg,
      rnd_zero, R.idem]


theorem linePosition_eq {a b p q : K} (hp : R.rnd p = p) (t : K) :
    linePosition R (line R a b p q) t =
      R.rnd (R.rnd (R.rnd (R.rnd (q - p) / R.rnd (b - a)) * clamp t (R.rnd (b - a))) + p) := by
  rw [linePosition, zero_add, R.idem, mul_one]
  simp only [line, hp]

theorem clamp_nonneg (t d : K) : 0 ≤ clamp t d := by
  rw [clamp]
  split <;> split <;> first | exact le_rfl | (rename_i h; exact h.le)

theorem clamp_le {t d : K} (h : 0 ≤ d) : clamp t d ≤ d := by
  rw [clamp]
  split
  · split
    · exact le_rfl
    · exact h
  · rename_i h'
    split
    · exact not_lt.1 h'
    · exact h

theorem clamp_mono {t t' d : K} (h : t ≤ t') : clamp t d ≤ clamp t' d := by
  have e : ∀ t, clamp t d = max 0 (min t d) := by
    intro t
    rw [clamp]
    by_cases h : d < t
    · rw [if_pos h, min_eq_right h.le]
      by_cases h' : 0 < d
      · rw [if_pos h', max_eq_right h'.le]
      · rw [if_neg h', max_eq_left (not_lt.1 h')]
    · rw [if_neg h, min_eq_left (not_lt.1 h)]
      by_cases h' : 0 < t
      · rw [if_pos h', max_eq_right h'.le]
      · rw [if_neg h', max_eq_left (not_lt.1 h')]
  rw [e, e]
  exact max_le_max le_rfl (min_le_min h le_rfl)

/-- **C146**, with any rounding: a segment between two values reads the first one until it begins, moves towards the
second one and never turns back, and a segment between equal values reads that value at every time. -/
theorem C146_monotone (P : Pow R) {a b p q : K} (ha : R.rnd a = a) (hb : R.rnd b = b) (hp : R.rnd p = p) (hab : a < b)
    {t t' : K} (htt : t ≤ t') :
    (t ≤ 0 → position R P (lineSpline R o a b p q) t = p) ∧
    (p ≤ q → p ≤ position R P (lineSpline R o a b p q) t ∧
      position R P (lineSpline R o a b p q) t ≤ position R P (lineSpline R o a b p q) t') ∧
    (q ≤ p → position R P (lineSpline R o a b p q) t ≤ p ∧
      position R P (lineSpline R o a b p q) t' ≤ position R P (lineSpline R o a b p q) t) ∧
    (p = q → position R P (lineSpline R o a b p q) t = p) := by
  have hD : 0 < R.rnd (b - a) := (sub_pos_iff R ha hb).2 hab
  simp only [(position_line P a b p q _).1, linePosition_eq hp]
  set D := R.rnd (b - a)
  have hc := clamp_nonneg t D
  have hcc := clamp_mono (d := D) htt
  have up : p ≤ q → 0 ≤ R.rnd (R.rnd (q - p) / D) := fun h =>
    rnd_nonneg R (div_nonneg (rnd_nonneg R (sub_nonneg.2 h)) hD.le)
  have down : q ≤ p → R.rnd (R.rnd (q - p) / D) ≤ 0 := fun h => by
    have h0 : ∀ x : K, x ≤ 0 → R.rnd x ≤ 0 := fun x hx => by
      have := R.mono hx
      rwa [rnd_zero] at this
    exact h0 _ (div_nonpos_of_nonpos_of_nonneg (h0 _ (sub_nonpos.2 h)) hD.le)
  have hup : p ≤ q → p ≤ R.rnd (R.rnd (R.rnd (R.rnd (q - p) / D) * clamp t D) + p) := fun h => by
    have h1 : 0 ≤ R.rnd (R.rnd (R.rnd (q - p) / D) * clamp t D) := rnd_nonneg R (mul_nonneg (up h) hc)
    have := R.mono (show p ≤ R.rnd (R.rnd (R.rnd (q - p) / D) * clamp t D) + p by linarith)
    rwa [hp] at this
  have hdown : q ≤ p → R.rnd (R.rnd (R.rnd (R.rnd (q - p) / D) * clamp t D) + p) ≤ p := fun h => by
    have h1 : R.rnd (R.rnd (R.rnd (q - p) / D) * clamp t D) ≤ 0 := by
      have := R.mono (mul_nonpos_of_nonpos_of_nonneg (down h) hc)
      rwa [rnd_zero] at this
    have := R.mono (show R.rnd (R.rnd (R.rnd (q - p) / D) * clamp t D) + p ≤ p by linarith)
    rwa [hp] at this
  refine ⟨fun h => ?_, fun h => ⟨hup h, ?_⟩, fun h => ⟨hdown h, ?_⟩, fun h => le_antisymm (hdown h.ge) (hup h.le)⟩
  · have : clamp t D = 0 := by
      rw [clamp, if_neg (not_lt.2 (h.trans hD.le)), if_neg (not_lt.2 h)]
    rw [this, mul_zero, rnd_zero, zero_add, hp]
  · have := R.mono (mul_le_mul_of_nonneg_left hcc (up h))
    exact R.mono (by linarith)
  · have := R.mono (mul_le_mul_of_nonpos_left hcc (down h))
    exact R.mono (by linarith)

theorem clamp_near {d d' : K} (hd : 0 < d) (hd' : 0 < d') (t : K) : |clamp t d - clamp t d'| ≤ |d' - d| := by
  rw [clamp, clamp]
  by_cases h0 : 0 < t
  · by_cases h1 : d < t <;> by_cases h2 : d' < t
    · rw [if_pos h1, if_pos hd, if_pos h2, if_pos hd', abs_sub_comm]
    · rw [if_pos h1, if_pos hd, if_neg h2, if_pos h0, abs_sub_comm, abs_of_pos (sub_pos.2 h1),
        abs_of_pos (sub_pos.2 (h1.trans_le (not_lt.1 h2)))]
      linarith
    · rw [if_neg h1, if_pos h0, if_pos h2, if_pos hd', abs_sub_comm d', abs_of_pos (sub_pos.2 h2),
        abs_of_pos (sub_pos.2 (h2.trans_le (not_lt.1 h1)))]
      linarith
    · rw [if_neg h1, if_pos h0, if_neg h2, if_pos h0, sub_self, abs_zero]
      exact abs_nonneg _
  · rw [if_neg (fun h => h0 (hd.trans h)), if_neg h0, if_neg (fun h => h0 (hd'.trans h)), if_neg h0, sub_self, abs_zero]
    exact abs_nonneg _

/-- The fraction of the segment that has passed. -/
theorem fraction_near {D D' : K} (hD : 0 < D) (hD' : 0 < D') (h : |D' - D| ≤ u * D) (t : K) :
    |clamp t D' / D' - clamp t D / D| ≤ u := by
  have hb := abs_le.1 h
  have hu : 0 ≤ u := by
    by_contra hc
    have := (abs_nonneg _).trans h
    have := mul_neg_of_neg_of_pos (not_le.1 hc) hD
    linarith
  rw [div_sub_div _ _ hD'.ne' hD.ne', abs_div, abs_of_pos (mul_pos hD' hD), div_le_iff₀ (mul_pos hD' hD)]
  have huD : 0 ≤ u * D := mul_nonneg hu hD.le
  rw [clamp, clamp]
  by_cases h0 : 0 < t
  · by_cases h1 : D' < t <;> by_cases h2 : D < t
    · rw [if_pos h1, if_pos hD', if_pos h2, if_pos hD, sub_self, abs_zero]
      exact mul_nonneg hu (mul_pos hD' hD).le
    · rw [if_pos h1, if_pos hD', if_neg h2, if_pos h0, ← mul_sub, abs_mul, abs_of_pos hD']
      rw [abs_of_nonneg (sub_nonneg.2 (not_lt.1 h2))]
      have : D - t ≤ u * D := by linarith
      linarith [mul_le_mul_of_nonneg_left this hD'.le]
    · rw [if_neg h1, if_pos h0, if_pos h2, if_pos hD]
      rw [show t * D - D' * D = -(D * (D' - t)) by ring, abs_neg, abs_mul, abs_of_pos hD,
        abs_of_nonneg (sub_nonneg.2 (not_lt.1 h1))]
      have h3 : D' - t ≤ u * D := by linarith
      have h4 : u * D ≤ u * D' := mul_le_mul_of_nonneg_left (h2.le.trans (not_lt.1 h1)) hu
      linarith [mul_le_mul_of_nonneg_left (h3.trans h4) hD.le]
    · rw [if_neg h1, if_pos h0, if_neg h2, if_pos h0]
      rw [show t * D - D' * t = -(t * (D' - D)) by ring, abs_neg, abs_mul, abs_of_pos h0]
      have h3 := mul_le_mul_of_nonneg_left h h0.le
      have h4 := mul_le_mul_of_nonneg_right (not_lt.1 h1) huD
      linarith
  · rw [if_neg (fun h => h0 (hD'.trans h)), if_neg h0, if_neg (fun h => h0 (hD.trans h)), if_neg h0]
    simp only [zero_mul, mul_zero, sub_self, abs_zero]
    exact mul_nonneg hu (mul_pos hD' hD).le

theorem line_near (hP : Precise R u) (hu : 0 ≤ u) (hu1 : u ≤ 1 / 2 ^ 20) {a b p q : K} (hab : a < b) (hp : R.rnd p = p)
    (t : K) :
    |linePosition R (line R a b p q) t - (p + (q - p) * (clamp t (b - a) / (b - a)))| ≤
      5 * u * |q - p| + u * max |p| |q| := by
  have hD : 0 < b - a := sub_pos.2 hab
  have hDn := hP (b - a)
  rw [abs_of_pos hD] at hDn
  have hD' : 0 < R.rnd (b - a) := by
    have := abs_le.1 hDn
    have : u * (b - a) ≤ 1 / 2 ^ 20 * (b - a) := mul_le_mul_of_nonneg_right hu1 hD.le
    linarith
  have hf := fraction_near hD hD' hDn t
  rw [linePosition_eq hp]
  set D' := R.rnd (b - a)
  set α := clamp t (b - a) / (b - a) with hα
  set α' := clamp t D' / D' with hα'
  have ht' : clamp t D' = α' * D' := by rw [hα']; field_simp
  have α0 : 0 ≤ α := div_nonneg (clamp_nonneg _ _) hD.le
  have α1 : α ≤ 1 := (div_le_one hD).2 (clamp_le hD.le)
  have α0' : 0 ≤ α' := div_nonneg (clamp_nonneg _ _) hD'.le
  have α1' : α' ≤ 1 := (div_le_one hD').2 (clamp_le hD'.le)
  set Δ := q - p with hΔ
  set A := R.rnd Δ
  set S := R.rnd (A / D')
  have hA : |A - Δ| ≤ u * |Δ| := hP Δ
  have hA' : |A| ≤ (1 + u) * |Δ| := by
    have := abs_add_le (A - Δ) Δ
    rw [sub_add_cancel] at this
    linarith
  have d0 := abs_nonneg Δ
  have h1 : |S * clamp t D' - A * α'| ≤ u * ((1 + u) * |Δ|) := by
    have e : S * clamp t D' - A * α' = (S - A / D') * clamp t D' := by
      rw [ht']; field_simp
    rw [e, abs_mul, abs_of_nonneg (clamp_nonneg t D'), ht']
    have h := hP (A / D')
    rw [abs_div, abs_of_pos hD'] at h
    have h2 := mul_le_mul_of_nonneg_right h (mul_nonneg α0' hD'.le)
    have e2 : u * (|A| / D') * (α' * D') = u * |A| * α' := by field_simp
    rw [e2] at h2
    have h3 : u * |A| * α' ≤ u * |A| := mul_le_of_le_one_right (mul_nonneg hu (abs_nonneg _)) α1'
    exact h2.trans (h3.trans (mul_le_mul_of_nonneg_left hA' hu))
  have h2 : |A * α' - Δ * α| ≤ u * |Δ| + u * |Δ| := by
    rw [show A * α' - Δ * α = (A - Δ) * α' + Δ * (α' - α) by ring]
    refine (abs_add_le _ _).trans (add_le_add ?_ ?_)
    · rw [abs_mul, abs_of_nonneg α0']
      exact (mul_le_of_le_one_right (abs_nonneg _) α1').trans hA
    · rw [abs_mul, mul_comm]
      exact mul_le_mul_of_nonneg_right hf d0
  have h3 : |S * clamp t D' - Δ * α| ≤ 3 * (u * |Δ|) + u * (u * |Δ|) := by
    have := abs_add_le (S * clamp t D' - A * α') (A * α' - Δ * α)
    rw [sub_add_sub_cancel] at this
    linarith
  have hX : |Δ * α| ≤ |Δ| := by
    rw [abs_mul, abs_of_nonneg α0]
    exact mul_le_of_le_one_right d0 α1
  have h4 := rnd_near hP hu h3 hX
  set X := R.rnd (S * clamp t D')
  have hud : 0 ≤ u * |Δ| := mul_nonneg hu d0
  have huu : u * (u * |Δ|) ≤ 1 / 2 ^ 20 * (u * |Δ|) := mul_le_mul_of_nonneg_right hu1 hud
  have huuu : u * (u * (u * |Δ|)) ≤ 1 / 2 ^ 20 * (u * |Δ|) :=
    (mul_le_mul_of_nonneg_right hu1 (mul_nonneg hu hud)).trans
      (mul_le_mul_of_nonneg_left (huu.trans (by linarith)) (by norm_num))
  have h5 : |X - Δ * α| ≤ 9 / 2 * (u * |Δ|) := by
    linarith
  have hM : |p + Δ * α| ≤ max |p| |q| := by
    have e : p + Δ * α = (1 - α) * p + α * q := by rw [hΔ]; ring
    rw [e]
    refine (abs_add_le _ _).trans ?_
    rw [abs_mul, abs_mul, abs_of_nonneg α0, abs_of_nonneg (sub_nonneg.2 α1)]
    have b1 := mul_le_mul_of_nonneg_left (le_max_left |p| |q|) (sub_nonneg.2 α1)
    have b2 := mul_le_mul_of_nonneg_left (le_max_right |p| |q|) α0
    linarith
  have h6 : |X + p - (p + Δ * α)| ≤ 9 / 2 * (u * |Δ|) := by
    rw [show X + p - (p + Δ * α) = X - Δ * α by ring]
    exact h5
  have h7 := rnd_near hP hu h6 hM
  linarith

theorem lineSlope_near (hP : Precise R u) (hu : 0 ≤ u) (hu1 : u ≤ 1 / 2 ^ 20) {a b p q : K} (hab : a < b) :
    |(line R a b p q).2.1 - (q - p) / (b - a)| ≤ 4 * u * |(q - p) / (b - a)| := by
  have hD : 0 < b - a := sub_pos.2 hab
  have hDn := hP (b - a)
  rw [abs_of_pos hD] at hDn
  have hlow : 9 / 10 * (b - a) ≤ R.rnd (b - a) := by
    have := abs_le.1 hDn
    have : u * (b - a) ≤ 1 / 2 ^ 20 * (b - a) := mul_le_mul_of_nonneg_right hu1 hD.le
    linarith
  have hD' : 0 < R.rnd (b - a) := by linarith
  have hA := hP (q - p)
  rw [line]
  set D' := R.rnd (b - a)
  set D := b - a
  set Δ := q - p
  set A := R.rnd Δ
  have h1 : |A / D' - Δ / D| ≤ 5 / 2 * (u * |Δ / D|) := by
    rw [div_sub_div _ _ hD'.ne' hD.ne', abs_div, abs_of_pos (mul_pos hD' hD), div_le_iff₀ (mul_pos hD' hD), abs_div,
      abs_of_pos hD]
    have e : 5 / 2 * (u * (|Δ| / D)) * (D' * D) = 5 / 2 * (u * |Δ| * D') := by field_simp
    rw [e, show A * D - D' * Δ = (A - Δ) * D - Δ * (D' - D) by ring]
    have h := abs_sub ((A - Δ) * D) (Δ * (D' - D))
    rw [abs_mul, abs_mul, abs_of_pos hD] at h
    have b1 := mul_le_mul_of_nonneg_right hA hD.le
    have b2 := mul_le_mul_of_nonneg_left hDn (abs_nonneg Δ)
    have b3 := mul_le_mul_of_nonneg_left hlow (mul_nonneg hu (abs_nonneg Δ))
    have b4 : 0 ≤ u * |Δ| * D := mul_nonneg (mul_nonneg hu (abs_nonneg Δ)) hD.le
    linarith
  have h2 := rnd_near hP hu h1 le_rfl
  have hud : 0 ≤ u * |Δ / D| := mul_nonneg hu (abs_nonneg _)
  have huu : u * (u * |Δ / D|) ≤ 1 / 2 ^ 20 * (u * |Δ / D|) := mul_le_mul_of_nonneg_right hu1 hud
  show |R.rnd (A / D') - Δ / D| ≤ _
  linarith

/-- **C146**, one segment in `double`: at every time the value read differs from the straight line between the two knots
by at most five units of rounding (2⁻⁵³) of the change and one of the value, and the velocity by at most four units of
the slope. -/
theorem C146_segment [FloorRing K] (P : Pow (double K)) {a b p q : K} (hab : a < b) (hp : (double K).rnd p = p) (t : K) :
    |position (double K) P (lineSpline (double K) o a b p q) t -
        (p + (q - p) * (max 0 (min t (b - a)) / (b - a)))| ≤ (5 * |q - p| + max |p| |q|) / 2 ^ 53 ∧
      |velocity (double K) P (lineSpline (double K) o a b p q) t - (q - p) / (b - a)| ≤
        4 * |(q - p) / (b - a)| / 2 ^ 53 := by
  have hc : max 0 (min t (b - a)) = clamp t (b - a) := by
    rw [clamp]
    by_cases h : b - a < t
    · rw [if_pos h, min_eq_right h.le, if_pos (sub_pos.2 hab), max_eq_right (sub_pos.2 hab).le]
    · rw [if_neg h, min_eq_left (not_lt.1 h)]
      by_cases h' : 0 < t
      · rw [if_pos h', max_eq_right h'.le]
      · rw [if_neg h', max_eq_left (not_lt.1 h')]
  rw [(position_line P a b p q t).1, (position_line P a b p q t).2, hc]
  have h1 := line_near (precise_double (K := K)) (by positivity) (by norm_num) (q := q) hab hp t
  have h2 := lineSlope_near (precise_double (K := K)) (by positivity) (by norm_num) (p := p) (q := q) hab
  constructor
  · refine h1.trans (le_of_eq ?_); ring
  · refine h2.trans (le_of_eq ?_); ring

/-! ## The container -/

/-- The segments a straight-line fit makes. -/
def lines (R : Rounding K) (o : Order) (ts ps : List K) : List (Spline o K) :=
  (List.range (ts.length - 1)).map fun j =>
    lineSpline R o (ts.getD j 0) (ts.getD (j + 1) 0) (ps.getD j 0) (ps.getD (j + 1) 0)

theorem lineLoop_spec {ts ps : List K} (hd : ∀ t ∈ ts, R.rnd t = t) (hinc : ts.Pairwise (· < ·))
    (hl : ps.length = ts.length) : ∀ k i (c : Box (Spline o K) K), i + k + 1 = ts.length →
    ∃ c', lineLoop R ts ps k i c = .ok (true, c') ∧ c'.offset = c.offset ∧ c'.time = c.time ∧ c'.idx = c.idx ∧
      c'.splines = c.splines ++ (List.range' i k).map fun j =>
        lineSpline R o (ts.getD j 0) (ts.getD (j + 1) 0) (ps.getD j 0) (ps.getD (j + 1) 0) := by
  intro k
  induction k with
  | zero => intro i c _; exact ⟨c, rfl, rfl, rfl, rfl, by simp⟩
  | succ k ih =>
    intro i c h
    have h1 : i + 1 < ts.length := by omega
    have h0 : i < ts.length := by omega
    have hlt : ts[i] < ts[i + 1] := List.pairwise_iff_getElem.1 hinc i (i + 1) h0 h1 (by omega)
    have hpos := (sub_pos_iff R (hd _ (List.getElem_mem h0)) (hd _ (List.getElem_mem h1))).2 hlt
    rw [lineLoop, List.getElem?_eq_getElem h1, List.getElem?_eq_getElem h0, List.getElem?_eq_getElem (l := ps) (by omega),
      List.getElem?_eq_getElem (l := ps) (by omega)]
    simp only [Outcome.deref_some, Outcome.ok_bind]
    rw [if_neg (not_le.2 hpos)]
    obtain ⟨c', e, h2, h3, h4, h5⟩ := ih (i + 1) (c.addSpline R.arith Spline.duration
      (lineSpline R o ts[i] ts[i + 1] (ps[i]'(by omega)) (ps[i + 1]'(by omega)))) (by omega)
    refine ⟨c', e, h2, h3, h4, ?_⟩
    rw [h5, Box.addSpline, List.range'_succ, List.map_cons, List.append_assoc]
    simp only [List.getD, List.getElem?_eq_getElem h1, List.getElem?_eq_getElem h0,
      List.getElem?_eq_getElem (l := ps) (show i < ps.length by omega),
      List.getElem?_eq_getElem (l := ps) (show i + 1 < ps.length by omega), Option.getD_some]
    rfl

/-- **C146**, the fit: for strictly increasing times it succeeds, whatever was in the container, and makes one segment for
each pair of neighbouring knots. -/
theorem C146_fit {ts ps : List K} (hd : ∀ t ∈ ts, R.rnd t = t) (hinc : ts.Pairwise (· < ·))
    (hl : ps.length = ts.length) (h2 : 2 ≤ ts.length) (c : Box (Spline o K) K) :
    ∃ c', setDataLinear R ts ps c = .ok (true, c') ∧ c'.offset = 0 ∧ c'.time = 0 ∧ c'.idx = 0 ∧
      c'.splines = lines R o ts ps := by
  rw [setDataLinear, if_neg (by omega)]
  obtain ⟨c', e, h1, h2, h3, h4⟩ := lineLoop_spec (o := o) hd hinc hl (ts.length - 1) 0 (c.reset R.arith) (by omega)
  refine ⟨c', e, h1, h2, h3, ?_⟩
  rw [h4, lines, List.range_eq_range']
  rfl

theorem lines_length (ts ps : List K) : (lines R o ts ps).length = ts.length - 1 := by simp [lines]

theorem lines_get (ts ps : List K) {j : ℕ} (hj : j < (lines R o ts ps).length) : (lines R o ts ps)[j] =
    lineSpline R o (ts.getD j 0) (ts.getD (j + 1) 0) (ps.getD j 0) (ps.getD (j + 1) 0) := by
  simp [lines]

theorem getD_lt {ts : List K} (hinc : ts.Pairwise (· < ·)) {i j : ℕ} (hij : i < j) (hj : j < ts.length) :
    ts.getD i 0 < ts.getD j 0 := by
  have := List.pairwise_iff_getElem.1 hinc i j (by omega) hj hij
  simpa [List.getD, List.getElem?_eq_getElem hj, List.getElem?_eq_getElem (show i < ts.length by omega)] using this

theorem lines_start (hP : Precise R u) {ts ps : List K} (hinc : ts.Pairwise (· < ·)) : ∀ k, k + 1 ≤ ts.length →
    |start (lines R o ts ps) k - (ts.getD k 0 - ts.getD 0 0)| ≤ u * (ts.getD k 0 - ts.getD 0 0)
  | 0, _ => by simp [start]
  | k + 1, h => by
    have ih := lines_start hP (ps := ps) hinc k (by omega)
    have hk : k < (lines R o ts ps).length := by rw [lines_length]; omega
    rw [Container.start_succ _ _ _ (List.getElem?_eq_getElem hk), lines_get]
    have h1 := hP (ts.getD (k + 1) 0 - ts.getD k 0)
    rw [abs_of_pos (sub_pos.2 (getD_lt hinc (Nat.lt_succ_self k) (by omega)))] at h1
    have := add_near ih h1
    have e : ts.getD k 0 - ts.getD 0 0 + (ts.getD (k + 1) 0 - ts.getD k 0) = ts.getD (k + 1) 0 - ts.getD 0 0 := by ring
    rw [e] at this
    refine this.trans (le_of_eq ?_)
    ring

/-- **C146**, from the knots to the value read, in `double`: a container fitted with straight lines to `n + 1` knots answers
a query at any time `t` with a point of the exact polygon through the knots whose time is off by at most `(n + 1) / 2⁵²`
of the total time, up to five units of rounding of the change between the two knots and one of the value. -/
theorem C146_container [FloorRing K] (P : Pow (double K)) {ts ps : List K} (hd : ∀ t ∈ ts, (double K).rnd t = t)
    (hdp : ∀ p ∈ ps, (double K).rnd p = p) (hinc : ts.Pairwise (· < ·)) (hl : ps.length = ts.length) {n : ℕ}
    (hn : ts.length = n + 1) (hn0 : 1 ≤ n) (hn31 : n < 2 ^ 31) (c : Box (Spline o K) K) {t : K} (h0 : 0 ≤ t) :
    ∃ c', setDataLinear (double K) ts ps c = .ok (true, c') ∧
      (t ≤ (c'.splines.map Spline.duration).sum →
      ∃ r, c'.atTime (double K).arith Spline.duration (position (double K) P) 0 t = .ok r ∧
      ∃ (k : ℕ) (x : K), k < n ∧ 0 ≤ x ∧ x ≤ ts.getD (k + 1) 0 - ts.getD k 0 ∧
        |ts.getD k 0 - ts.getD 0 0 + x - t| ≤ (n + 1) * (ts.getD n 0 - ts.getD 0 0) / 2 ^ 52 ∧
        |r - (ps.getD k 0 + (ps.getD (k + 1) 0 - ps.getD k 0) * (x / (ts.getD (k + 1) 0 - ts.getD k 0)))| ≤
          (5 * |ps.getD (k + 1) 0 - ps.getD k 0| + max |ps.getD k 0| |ps.getD (k + 1) 0|) / 2 ^ 53) := by
  obtain ⟨c', e, -, -, -, hs⟩ := C146_fit (o := o) hd hinc hl (by omega) c
  refine ⟨c', e, fun h1 => ?_⟩
  have hlen : (lines (double K) o ts ps).length = n := by rw [lines_length]; omega
  have hne : c'.splines ≠ [] := by
    rw [hs]; intro h
    rw [h] at hlen
    simp at hlen
    omega
  have hpos : ∀ s ∈ lines (double K) o ts ps, 0 < s.duration := by
    intro s hsm
    obtain ⟨j, hj, rfl⟩ := List.mem_iff_getElem.1 hsm
    rw [lines_get]
    have hjn : j + 1 < ts.length := by omega
    have hlt := getD_lt hinc (Nat.lt_succ_self j) hjn
    refine (sub_pos_iff (double K) ?_ ?_).2 hlt
    · rw [List.getD, List.getElem?_eq_getElem (by omega)]
      exact hd _ (List.getElem_mem _)
    · rw [List.getD, List.getElem?_eq_getElem hjn]
      exact hd _ (List.getElem_mem _)
  obtain ⟨k, hk, ea, hb, hh⟩ := Box.activeAt_spec (double K).arith Spline.duration t (double K).arith.zero c' hne
  have hans : c'.atTime (double K).arith Spline.duration (position (double K) P) 0 t = .ok (position (double K) P c'.splines[k]
      ((double K).rnd (t - Box.startOf (double K).arith Spline.duration c'.splines k))) := by
    rw [Box.atTime, ea]
    simp only
    rw [if_neg (by omega), if_neg (by omega), toSize_nat]
    simp only [List.getElem?_eq_getElem hk]
    rfl
  have hbefore : ∀ j (hj : j < c'.splines.length), j < k →
      ¬(double K).rnd (t - Box.startOf (double K).arith Spline.duration c'.splines j) < c'.splines[j].duration :=
    fun j hj hjk => of_decide_eq_false (hb j hj hjk)
  have hhere : k + 1 < c'.splines.length →
      (double K).rnd (t - Box.startOf (double K).arith Spline.duration c'.splines k) < c'.splines[k].duration :=
    fun h => of_decide_eq_true (hh hk h)
  have hnK : 2 * (n : K) * (1 / 2 ^ 53) ≤ 1 / 2 ^ 20 := by
    have : (n : K) ≤ 2 ^ 31 := by exact_mod_cast hn31.le
    linarith
  rw [hans]
  refine ⟨_, rfl, ?_⟩
  obtain ⟨sp, off, tm, du, ix⟩ := c'
  simp only at hs h1 hk hbefore hhere ⊢
  subst hs
  have hkn : k < n := by omega
  obtain ⟨hE, hx0, hx1, -⟩ := time_near precise_double (by positivity) hpos
    (by rw [hlen]; exact hnK.trans (by norm_num)) hk h0 h1 hbefore hhere
  rw [lines_get] at hE hx0 hx1 ⊢
  set y := (double K).rnd (t - Box.startOf (double K).arith Spline.duration (lines (double K) o ts ps) k)
  have hlt := getD_lt hinc (Nat.lt_succ_self k) (by omega)
  have hget : ∀ j, j < ts.length → (double K).rnd (ts.getD j 0) = ts.getD j 0 := fun j hj => by
    rw [List.getD, List.getElem?_eq_getElem hj]
    exact hd _ (List.getElem_mem _)
  have hp : (double K).rnd (ps.getD k 0) = ps.getD k 0 := by
    rw [List.getD, List.getElem?_eq_getElem (by omega)]
    exact hdp _ (List.getElem_mem _)
  have hseg := line_near (precise_double (K := K)) (by positivity) (by norm_num) (q := ps.getD (k + 1) 0) hlt hp y
  rw [← (position_line (o := o) P _ _ _ _ y).1] at hseg
  have hD : 0 < ts.getD (k + 1) 0 - ts.getD k 0 := sub_pos.2 hlt
  refine ⟨k, clamp y (ts.getD (k + 1) 0 - ts.getD k 0), hkn, clamp_nonneg _ _, clamp_le hD.le, ?_,
    hseg.trans (le_of_eq (by ring))⟩
  have hDn := (precise_double (K := K)) (ts.getD (k + 1) 0 - ts.getD k 0)
  rw [abs_of_pos hD] at hDn
  have hcl : |clamp y (ts.getD (k + 1) 0 - ts.getD k 0) -
      clamp y ((double K).rnd (ts.getD (k + 1) 0 - ts.getD k 0))| ≤ 1 / 2 ^ 53 * (ts.getD (k + 1) 0 - ts.getD k 0) :=
    (clamp_near hD ((sub_pos_iff (double K) (hget _ (by omega)) (hget _ (by omega))).2 hlt) y).trans hDn
  have hst := lines_start (o := o) (precise_double (K := K)) (ps := ps) hinc k (by omega)
  have hst' := lines_start (o := o) (precise_double (K := K)) (ps := ps) hinc n (by omega)
  have htot : total (lines (double K) o ts ps) = start (lines (double K) o ts ps) n := by
    rw [← hlen, Container.start_length]
  rw [htot, hlen] at hE
  have hTk : ts.getD (k + 1) 0 ≤ ts.getD n 0 := by
    rcases Nat.lt_or_ge (k + 1) n with h | h
    · exact (getD_lt hinc h (by omega)).le
    · rw [show k + 1 = n by omega]
  have hT0 : 0 ≤ ts.getD k 0 - ts.getD 0 0 := by
    rcases Nat.eq_zero_or_pos k with h | h
    · rw [h, sub_self]
    · exact (sub_pos.2 (getD_lt hinc h (by omega))).le
  change |start (lines (double K) o ts ps) k + clamp y ((double K).rnd (ts.getD (k + 1) 0 - ts.getD k 0)) - t| ≤ _ at hE
  generalize clamp y (ts.getD (k + 1) 0 - ts.getD k 0) = x at *
  generalize clamp y ((double K).rnd (ts.getD (k + 1) 0 - ts.getD k 0)) = x' at *
  generalize start (lines (double K) o ts ps) k = s at *
  generalize start (lines (double K) o ts ps) n = s' at *
  have hT : 0 ≤ ts.getD n 0 - ts.getD 0 0 := by linarith
  have hs' : s' ≤ (1 + 1 / 2 ^ 53) * (ts.getD n 0 - ts.getD 0 0) := by
    have := (abs_le.1 hst').2
    linarith
  have hE2 : 2 * (n : K) * (1 / 2 ^ 53) * s' ≤
      2 * (n : K) * (1 / 2 ^ 53) * ((1 + 1 / 2 ^ 53) * (ts.getD n 0 - ts.getD 0 0)) :=
    mul_le_mul_of_nonneg_left hs' (by positivity)
  have hE3 : 2 * (n : K) * (1 / 2 ^ 53) * (1 / 2 ^ 53 * (ts.getD n 0 - ts.getD 0 0)) ≤
      1 / 2 ^ 20 * (1 / 2 ^ 53 * (ts.getD n 0 - ts.getD 0 0)) := mul_le_mul_of_nonneg_right hnK (by positivity)
  have a1 := abs_le.1 hE
  have a2 := abs_le.1 hst
  have a3 := abs_le.1 hcl
  rw [abs_le]
  constructor <;> linarith

/-- A container of order 5 fitted to three knots of `double`s at uneven times. -/
example : ∃ c', setDataLinear (double ℚ) [0, 49, 50] [0, 1, 3] (Box.fresh (double ℚ).arith : Box (Spline .o5 ℚ) ℚ) =
    .ok (true, c') ∧ (30 ≤ (c'.splines.map Spline.duration).sum →
      ∃ r, c'.atTime (double ℚ).arith Spline.duration (position (double ℚ) (boost (double ℚ))) 0 30 =
        .ok r) := by
  have hi : ∀ n : ℤ, |n| ≤ 2 ^ 53 → (double ℚ).rnd (n : ℚ) = n := (double ℚ).int
  obtain ⟨c', e, h⟩ := C146_container (o := .o5) (K := ℚ) (boost (double ℚ))
    (ts := [0, 49, 50]) (ps := [0, 1, 3])
    (by simpa using ⟨hi 0 (by norm_num), hi 49 (by norm_num), hi 50 (by norm_num)⟩)
    (by simpa using ⟨hi 0 (by norm_num), hi 1 (by norm_num), hi 3 (by norm_num)⟩)
    (by simp; norm_num) rfl (n := 2) rfl (by omega) (by omega) (Box.fresh (double ℚ).arith) (t := 30) (by norm_num)
  exact ⟨c', e, fun h' => let ⟨r, hr, _⟩ := h h'; ⟨r, hr⟩⟩

example := C146_monotone (o := .o3) (K := ℚ) (boost (double ℚ)) (a := 0) (b := 49) (p := 0) (q := 1)
  (by simpa using (double ℚ).int 0 (by norm_num)) (by simpa using (double ℚ).int 49 (by norm_num))
  (by simpa using (double ℚ).int 0 (by norm_num)) (by norm_num) (t := 3) (t' := 1000) (by norm_num)

/-- At the end of a segment the value read is not the value of the knot; it is within the bound. -/
example : position (double ℚ) (boost _) (lineSpline (double ℚ) .o3 0 49 0 1) 49 ≠ 1 ∧
    |position (double ℚ) (boost _) (lineSpline (double ℚ) .o3 0 49 0 1) 49 - (0 + (1 - 0) * (max 0 (min 49 (49 - 0)) / (49 - 0)))| ≤
      (5 * |(1 : ℚ) - 0| + max |0| |1|) / 2 ^ 53 :=
  ⟨by decide +kernel, (C146_segment (o := .o3) (K := ℚ) (boost _) (by norm_num)
    (by simpa using (double ℚ).int 0 (by norm_num)) 49).1⟩

/-- The total is 50, and the value at 49 seconds is not 1 but within the bounds. -/
example : (setDataLinear (double ℚ) [0, 49, 50] [0, 1, 3] (Box.fresh (double ℚ).arith : Box (Spline .o1 ℚ) ℚ) >>= fun r =>
    .ok ((r.2.splines.map Spline.duration).sum == 50)) = .ok true := by decide +kernel

end Verif.Rounding

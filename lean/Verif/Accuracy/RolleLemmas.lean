import Verif.Energy.Lemmas

/-!
# A motion that vanishes at both ends is bounded by its acceleration
-/

set_option linter.unusedSectionVars false
set_option linter.dupNamespace false

namespace Verif.Accuracy

open MeasureTheory Set Verif.Energy

/-- Cauchy-Schwarz. -/
theorem integral_sq_le {a b : ℝ} (hab : a ≤ b) {f : ℝ → ℝ} (hf : IntervalIntegrable f volume a b)
    (hf2 : IntervalIntegrable (fun t => ‖f t‖ ^ 2) volume a b) :
    (∫ t in a..b, f t) ^ 2 ≤ (b - a) * ∫ t in a..b, ‖f t‖ ^ 2 := by
  rcases hab.eq_or_lt with rfl | h
  · simp
  set I := ∫ t in a..b, f t with hI
  set m := I / (b - a) with hm
  have hne : b - a ≠ 0 := by linarith
  have key : (0 : ℝ) ≤ ∫ t in a..b, (‖f t‖ ^ 2 - 2 * m * f t + m ^ 2) := by
    refine intervalIntegral.integral_nonneg hab fun t _ => ?_
    rw [Real.norm_eq_abs, sq_abs]
    nlinarith [sq_nonneg (f t - m)]
  rw [intervalIntegral.integral_add (hf2.sub (hf.const_mul _)) (by simp), intervalIntegral.integral_sub hf2 (hf.const_mul _),
    intervalIntegral.integral_const_mul, intervalIntegral.integral_const, smul_eq_mul, ← hI] at key
  have h1 : m * (b - a) = I := by rw [hm]; field_simp
  have h2 := mul_nonneg (sub_pos.2 h).le key
  have h3 : (b - a) * (((∫ t in a..b, ‖f t‖ ^ 2) - 2 * m * I) + (b - a) * m ^ 2) =
      (b - a) * (∫ t in a..b, ‖f t‖ ^ 2) - I ^ 2 := by
    rw [← h1]; ring
  linarith

theorem motion_ftc {k : ℕ} {b e : ℝ} (hbe : b ≤ e) {d : ℕ → ℝ → ℝ} (h : Motion k b e d) {j : ℕ} (hj : j < k) :
    ∫ t in b..e, d (j + 1) t = d j e - d j b := by
  obtain ⟨s, hs, hs'⟩ := h.deriv
  refine integral_eq_of_hasDerivAt_off_countable_of_le _ _ hbe hs (h.cont j hj) (hs' j hj) ?_
  rcases Nat.lt_or_ge (j + 1) k with h1 | h1
  · exact (sq_of_cont hbe (h.cont _ h1)).1
  · rw [show j + 1 = k by omega]; exact h.int

/-- How much the velocity can change. -/
theorem vel_change {b e : ℝ} {d : ℕ → ℝ → ℝ} (h : Motion 2 b e d) {s t : ℝ} (hs : s ∈ Icc b e) (ht : t ∈ Icc b e) :
    (d 1 t - d 1 s) ^ 2 ≤ (e - b) * ∫ u in b..e, ‖d 2 u‖ ^ 2 := by
  wlog hst : s ≤ t generalizing s t
  · have := this ht hs (le_of_not_ge hst)
    linarith [this, show (d 1 t - d 1 s) ^ 2 = (d 1 s - d 1 t) ^ 2 by ring]
  have hm := h.mono hs.1 hst ht.2
  rw [← motion_ftc hst hm (show 1 < 2 by omega)]
  refine (integral_sq_le hst hm.int hm.sq).trans ?_
  have h1 : ∫ u in s..t, ‖d 2 u‖ ^ 2 ≤ ∫ u in b..e, ‖d 2 u‖ ^ 2 :=
    intervalIntegral.integral_mono_interval hs.1 hst ht.2 (Filter.Eventually.of_forall fun u => sq_nonneg _) h.sq
  have h0 : 0 ≤ ∫ u in s..t, ‖d 2 u‖ ^ 2 := intervalIntegral.integral_nonneg hst fun u _ => sq_nonneg _
  exact mul_le_mul (by have := hs.1; have := ht.2; linarith) h1 h0 (by have := hs.1; have := hs.2; linarith)

/-- A motion that is at `0` at both ends. -/
theorem rolle {b e : ℝ} (hbe : b < e) {d : ℕ → ℝ → ℝ} (h : Motion 2 b e d) (hb : d 0 b = 0) (he : d 0 e = 0) {t : ℝ}
    (ht : t ∈ Icc b e) :
    d 1 t ^ 2 ≤ (e - b) * (∫ u in b..e, ‖d 2 u‖ ^ 2) ∧ d 0 t ^ 2 ≤ (e - b) ^ 3 / 4 * ∫ u in b..e, ‖d 2 u‖ ^ 2 := by
  set Q := (e - b) * ∫ u in b..e, ‖d 2 u‖ ^ 2 with hQ
  have hc := h.cont 1 (by omega)
  have hz : ∫ u in b..e, d 1 u = 0 := by
    rw [motion_ftc hbe.le h (show 0 < 2 by omega), hb, he, sub_zero]
  obtain ⟨ξ, hξ, hξ0⟩ : ∃ ξ ∈ Icc b e, d 1 ξ = 0 := by
    by_contra hno
    push Not at hno
    have hint := (sq_of_cont hbe.le hc).1
    have sub : ∀ s ∈ Icc b e, Icc b s ⊆ Icc b e := fun s hs => Icc_subset_Icc le_rfl hs.2
    rcases lt_or_gt_of_ne (hno b (left_mem_Icc.2 hbe.le)) with h0 | h0
    · have hneg : ∀ s ∈ Ioo b e, 0 < -d 1 s := by
        intro s hs
        have hs' : s ∈ Icc b e := ⟨hs.1.le, hs.2.le⟩
        by_contra hcon
        obtain ⟨x, hx, hx0⟩ := intermediate_value_Icc hs.1.le (hc.mono (sub s hs')) ⟨h0.le, (by linarith : (0 : ℝ) ≤ d 1 s)⟩
        exact hno x (sub s hs' hx) hx0
      have := intervalIntegral.intervalIntegral_pos_of_pos_on hint.neg hneg hbe
      simp only [Pi.neg_apply, intervalIntegral.integral_neg, hz, neg_zero, lt_self_iff_false] at this
    · have hpos : ∀ s ∈ Ioo b e, 0 < d 1 s := by
        intro s hs
        have hs' : s ∈ Icc b e := ⟨hs.1.le, hs.2.le⟩
        by_contra hcon
        obtain ⟨x, hx, hx0⟩ := intermediate_value_Icc' hs.1.le (hc.mono (sub s hs')) ⟨(by linarith : d 1 s ≤ 0), h0.le⟩
        exact hno x (sub s hs' hx) hx0
      have := intervalIntegral.intervalIntegral_pos_of_pos_on hint hpos hbe
      rw [hz] at this
      exact lt_irrefl _ this
  have hv : ∀ s ∈ Icc b e, d 1 s ^ 2 ≤ Q := fun s hs => by
    have := vel_change h hξ hs
    rwa [hξ0, sub_zero] at this
  refine ⟨hv t ht, ?_⟩
  have hQ0 : 0 ≤ Q := (sq_nonneg _).trans (hv t ht)
  have hva : ∀ s ∈ Icc b e, ‖d 1 s‖ ≤ Real.sqrt Q := fun s hs => by
    rw [Real.norm_eq_abs]; exact Real.abs_le_sqrt (hv s hs)
  have h1 : |d 0 t| ≤ Real.sqrt Q * (t - b) := by
    have := intervalIntegral.norm_integral_le_of_norm_le_const (a := b) (b := t) (f := d 1) (C := Real.sqrt Q) (fun s hs => by
      rw [uIoc_of_le ht.1] at hs
      exact hva s ⟨hs.1.le, hs.2.trans ht.2⟩)
    rwa [motion_ftc ht.1 (h.mono le_rfl ht.1 ht.2) (show 0 < 2 by omega), hb, sub_zero, Real.norm_eq_abs,
      abs_of_nonneg (sub_nonneg.2 ht.1)] at this
  have h2 : |d 0 t| ≤ Real.sqrt Q * (e - t) := by
    have := intervalIntegral.norm_integral_le_of_norm_le_const (a := t) (b := e) (f := d 1) (C := Real.sqrt Q) (fun s hs => by
      rw [uIoc_of_le ht.2] at hs
      exact hva s ⟨ht.1.trans hs.1.le, hs.2⟩)
    rwa [motion_ftc ht.2 (h.mono ht.1 ht.2 le_rfl) (show 0 < 2 by omega), he, zero_sub, norm_neg, Real.norm_eq_abs,
      abs_of_nonneg (sub_nonneg.2 ht.2)] at this
  have h3 : |d 0 t| ≤ Real.sqrt Q * ((e - b) / 2) := by linarith
  have h4 : d 0 t ^ 2 ≤ (Real.sqrt Q * ((e - b) / 2)) ^ 2 := by
    rw [← sq_abs (d 0 t)]
    exact pow_le_pow_left₀ (abs_nonneg _) h3 2
  rw [mul_pow, Real.sq_sqrt hQ0, hQ] at h4
  linarith [h4]

end Verif.Accuracy

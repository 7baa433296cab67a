import Mathlib.MeasureTheory.Integral.DivergenceTheorem
import Mathlib.Analysis.InnerProductSpace.Calculus
import Mathlib.MeasureTheory.Function.L2Space
import Mathlib.Analysis.Calculus.Deriv.Add

/-!
# Motions of least energy

Integration by parts for motions that need not have a derivative at countably many times, and the principle behind
C109-C111: among the motions that meet given conditions at given times, one whose `k`-th derivative is, between
these times, a polynomial of degree less than `k` has the smallest integral of the squared `k`-th derivative.
-/

set_option linter.unusedSectionVars false
set_option linter.dupNamespace false

namespace Verif.Energy

open MeasureTheory Set
open scoped RealInnerProductSpace

variable {E : Type} [NormedAddCommGroup E] [InnerProductSpace ℝ E]

/-- `d 0` is a motion from time `b` to time `e`, with derivatives `d 1`, ..., `d k`: the first `k` are continuous, each
is the derivative of the one before except possibly at countably many times, and the last one has a finite
integral of its square. -/
structure Motion (k : ℕ) (b e : ℝ) (d : ℕ → ℝ → E) : Prop where
  cont : ∀ j < k, ContinuousOn (d j) (Icc b e)
  deriv : ∃ s : Set ℝ, s.Countable ∧ ∀ j < k, ∀ t ∈ Ioo b e \ s, HasDerivAt (d j) (d (j + 1) t) t
  int : IntervalIntegrable (d k) volume b e
  sq : IntervalIntegrable (fun t => ‖d k t‖ ^ 2) volume b e

theorem inner_integrable {b e : ℝ} {f g : ℝ → E} (hf : IntervalIntegrable f volume b e)
    (hg : IntervalIntegrable g volume b e) (hf2 : IntervalIntegrable (fun t => ‖f t‖ ^ 2) volume b e)
    (hg2 : IntervalIntegrable (fun t => ‖g t‖ ^ 2) volume b e) :
    IntervalIntegrable (fun t => ⟪f t, g t⟫) volume b e := by
  have h : IntervalIntegrable (fun t => (‖f t‖ ^ 2 + ‖g t‖ ^ 2)) volume b e := hf2.add hg2
  rw [intervalIntegrable_iff] at *
  refine Integrable.mono' h (hf.1.inner hg.1) (Filter.Eventually.of_forall fun t => ?_)
  have h1 := abs_real_inner_le_norm (f t) (g t)
  rw [Real.norm_eq_abs]
  nlinarith [sq_nonneg (‖f t‖ - ‖g t‖), sq_nonneg (‖f t‖), sq_nonneg (‖g t‖)]

theorem sq_of_cont {b e : ℝ} (h : b ≤ e) {f : ℝ → E} (hf : ContinuousOn f (Icc b e)) :
    IntervalIntegrable f volume b e ∧ IntervalIntegrable (fun t => ‖f t‖ ^ 2) volume b e := by
  rw [← uIcc_of_le h] at hf
  exact ⟨hf.intervalIntegrable, (hf.norm.pow 2).intervalIntegrable⟩

theorem parts {b e : ℝ} (h : b ≤ e) {u u' v v' : ℝ → E} (hu : ContinuousOn u (Icc b e)) {s : Set ℝ} (hs : s.Countable)
    (hu' : ∀ t ∈ Ioo b e \ s, HasDerivAt u (u' t) t) (hi : IntervalIntegrable u' volume b e)
    (h2 : IntervalIntegrable (fun t => ‖u' t‖ ^ 2) volume b e) (hv : ∀ t, HasDerivAt v (v' t) t) (hv' : Continuous v') :
    ∫ t in b..e, ⟪u' t, v t⟫ = ⟪u e, v e⟫ - ⟪u b, v b⟫ - ∫ t in b..e, ⟪u t, v' t⟫ := by
  have hvc : Continuous v := continuous_iff_continuousAt.2 fun t => (hv t).continuousAt
  have i1 : IntervalIntegrable (fun t => ⟪u' t, v t⟫) volume b e :=
    inner_integrable hi (sq_of_cont h hvc.continuousOn).1 h2 (sq_of_cont h hvc.continuousOn).2
  have i2 : IntervalIntegrable (fun t => ⟪u t, v' t⟫) volume b e :=
    inner_integrable (sq_of_cont h hu).1 (sq_of_cont h hv'.continuousOn).1 (sq_of_cont h hu).2
      (sq_of_cont h hv'.continuousOn).2
  have key := integral_eq_of_hasDerivAt_off_countable_of_le (fun t => ⟪u t, v t⟫) (fun t => ⟪u t, v' t⟫ + ⟪u' t, v t⟫) h hs
    (hu.inner hvc.continuousOn) (fun t ht => (hu' t ht).inner ℝ (hv t)) (i2.add i1)
  rw [intervalIntegral.integral_add i2 i1] at key
  linarith

/-- A motion that rests at both ends is orthogonal to polynomials of degree less than `k`. -/
theorem orth_zero : ∀ (k : ℕ) {b e : ℝ} (_ : b ≤ e) {d q : ℕ → ℝ → E} (_ : Motion k b e d)
    (_ : ∀ j t, HasDerivAt (q j) (q (j + 1) t) t) (_ : ∀ t, q k t = 0) (_ : ∀ j < k, d j b = 0 ∧ d j e = 0),
    ∫ t in b..e, ⟪d k t, q 0 t⟫ = 0
  | 0, b, e, h, d, q, hd, hq, hk, h0 => by simp [hk]
  | k + 1, b, e, h, d, q, hd, hq, hk, h0 => by
    obtain ⟨s, hs, hs'⟩ := hd.deriv
    have hqc : Continuous (q 1) := continuous_iff_continuousAt.2 fun t => (hq 1 t).continuousAt
    rw [parts h (hd.cont k (Nat.lt_succ_self k)) hs (hs' k (Nat.lt_succ_self k)) hd.int hd.sq (hq 0) hqc,
      (h0 k (Nat.lt_succ_self k)).1, (h0 k (Nat.lt_succ_self k)).2, inner_zero_left, inner_zero_left]
    have hc := sq_of_cont h (hd.cont k (Nat.lt_succ_self k))
    have := orth_zero k h (d := d) (q := fun j => q (j + 1))
      ⟨fun j hj => hd.cont j (by omega), ⟨s, hs, fun j hj => hs' j (by omega)⟩, hc.1, hc.2⟩ (fun j t => hq (j + 1) t) hk
      (fun j hj => h0 j (by omega))
    simp only [Nat.zero_add] at this
    rw [this]
    simp

/-- The same when the derivative next to the last does not vanish at the ends. -/
theorem orth_top (k : ℕ) {b e : ℝ} (h : b ≤ e) {d q : ℕ → ℝ → E} (hd : Motion (k + 1) b e d)
    (hq : ∀ j t, HasDerivAt (q j) (q (j + 1) t) t) (hk : ∀ t, q (k + 1) t = 0) (h0 : ∀ j < k, d j b = 0 ∧ d j e = 0) :
    ∫ t in b..e, ⟪d (k + 1) t, q 0 t⟫ = ⟪d k e, q 0 e⟫ - ⟪d k b, q 0 b⟫ := by
  obtain ⟨s, hs, hs'⟩ := hd.deriv
  have hqc : Continuous (q 1) := continuous_iff_continuousAt.2 fun t => (hq 1 t).continuousAt
  rw [parts h (hd.cont k (Nat.lt_succ_self k)) hs (hs' k (Nat.lt_succ_self k)) hd.int hd.sq (hq 0) hqc]
  have hc := sq_of_cont h (hd.cont k (Nat.lt_succ_self k))
  have := orth_zero k h (d := d) (q := fun j => q (j + 1))
    ⟨fun j hj => hd.cont j (by omega), ⟨s, hs, fun j hj => hs' j (by omega)⟩, hc.1, hc.2⟩ (fun j t => hq (j + 1) t) hk h0
  simp only [Nat.zero_add] at this
  rw [this, sub_zero]

theorem Motion.mono {k : ℕ} {b e b' e' : ℝ} {d : ℕ → ℝ → E} (hd : Motion k b e d) (h1 : b ≤ b') (h2 : b' ≤ e')
    (h3 : e' ≤ e) : Motion k b' e' d := by
  obtain ⟨s, hs, hs'⟩ := hd.deriv
  have hsub : uIcc b' e' ⊆ uIcc b e := by
    rw [uIcc_of_le h2, uIcc_of_le (h1.trans (h2.trans h3))]
    exact Icc_subset_Icc h1 h3
  exact ⟨fun j hj => (hd.cont j hj).mono (Icc_subset_Icc h1 h3),
    ⟨s, hs, fun j hj t ht => hs' j hj t ⟨Ioo_subset_Ioo h1 h3 ht.1, ht.2⟩⟩, hd.int.mono_set hsub, hd.sq.mono_set hsub⟩

theorem Motion.sub {k : ℕ} {b e : ℝ} {d d' : ℕ → ℝ → E} (hd : Motion k b e d) (hd' : Motion k b e d') :
    Motion k b e fun j t => d j t - d' j t := by
  obtain ⟨s, hs, h⟩ := hd.deriv
  obtain ⟨s', hs', h'⟩ := hd'.deriv
  refine ⟨fun j hj => (hd.cont j hj).sub (hd'.cont j hj), ⟨s ∪ s', hs.union hs', fun j hj t ht => ?_⟩,
    hd.int.sub hd'.int, ?_⟩
  · exact (h j hj t ⟨ht.1, fun x => ht.2 (.inl x)⟩).fun_sub (h' j hj t ⟨ht.1, fun x => ht.2 (.inr x)⟩)
  · have hi := inner_integrable hd.int hd'.int hd.sq hd'.sq
    have : (fun t => ‖d k t - d' k t‖ ^ 2) = fun t => ‖d k t‖ ^ 2 - 2 * ⟪d k t, d' k t⟫ + ‖d' k t‖ ^ 2 :=
      funext fun t => norm_sub_sq_real _ _
    rw [this]
    exact (hd.sq.sub (hi.const_mul 2)).add hd'.sq

theorem mono_of_steps {n : ℕ} {τ : ℕ → ℝ} (hτ : ∀ i < n, τ i ≤ τ (i + 1)) : ∀ i j, i ≤ j → j ≤ n → τ i ≤ τ j := by
  intro i j hij hj
  induction j, hij using Nat.le_induction with
  | base => exact le_rfl
  | succ j _ ih => exact (ih (by omega)).trans (hτ j (by omega))

/-- The principle: `g` agrees with `s` at the times `τ 0`, ..., `τ n` up to the derivative number `k - 1`, at the first and
last time also in the derivative number `k`; at each of the others `g` and `s` agree in that derivative or the next
derivative of `s` has no jump. Then the energies differ by the energy of the difference. -/
theorem least {k n : ℕ} {τ : ℕ → ℝ} (hτ : ∀ i < n, τ i ≤ τ (i + 1)) {s g : ℕ → ℝ → E} {q : ℕ → ℕ → ℝ → E}
    (hs : Motion (k + 1) (τ 0) (τ n) s) (hg : Motion (k + 1) (τ 0) (τ n) g)
    (hq : ∀ i < n, ∀ j t, HasDerivAt (q i j) (q i (j + 1) t) t) (hk : ∀ i < n, ∀ t, q i (k + 1) t = 0)
    (hsq : ∀ i < n, ∀ t ∈ Ioo (τ i) (τ (i + 1)), s (k + 1) t = q i 0 t)
    (h0 : ∀ i ≤ n, ∀ j < k, g j (τ i) = s j (τ i)) (hb : g k (τ 0) = s k (τ 0)) (he : g k (τ n) = s k (τ n))
    (hj : ∀ i, i + 1 < n → g k (τ (i + 1)) = s k (τ (i + 1)) ∨ q i 0 (τ (i + 1)) = q (i + 1) 0 (τ (i + 1))) :
    ∫ t in τ 0..τ n, ‖g (k + 1) t‖ ^ 2 =
      (∫ t in τ 0..τ n, ‖s (k + 1) t‖ ^ 2) + ∫ t in τ 0..τ n, ‖g (k + 1) t - s (k + 1) t‖ ^ 2 := by
  have hd := hg.sub hs
  have hmon := mono_of_steps hτ
  have hi := inner_integrable hd.int hs.int hd.sq hs.sq
  have horth : ∫ t in τ 0..τ n, ⟪g (k + 1) t - s (k + 1) t, s (k + 1) t⟫ = 0 := by
    have hseg : ∀ i < n, ∫ t in τ i..τ (i + 1), ⟪g (k + 1) t - s (k + 1) t, s (k + 1) t⟫ =
        ⟪g k (τ (i + 1)) - s k (τ (i + 1)), q i 0 (τ (i + 1))⟫ - ⟪g k (τ i) - s k (τ i), q i 0 (τ i)⟫ := by
      intro i hin
      rw [← orth_top k (hτ i hin) (hd.mono (hmon 0 i (by omega) (by omega)) (hτ i hin) (hmon (i + 1) n (by omega) le_rfl))
        (hq i hin) (hk i hin) (fun j hjk => ⟨sub_eq_zero.2 (h0 i (by omega) j hjk), sub_eq_zero.2 (h0 (i + 1) (by omega) j hjk)⟩)]
      exact intervalIntegral.integral_congr_Ioo_of_le (hτ i hin) fun t ht => by rw [hsq i hin t ht]
    rw [← intervalIntegral.sum_integral_adjacent_intervals (f := fun t => ⟪g (k + 1) t - s (k + 1) t, s (k + 1) t⟫) (a := τ)
      (n := n) fun i hin => hi.mono_set ?_, Finset.sum_congr rfl fun i hin => hseg i (Finset.mem_range.1 hin)]
    · have : ∀ m, m ≤ n → ∑ i ∈ Finset.range m, (⟪g k (τ (i + 1)) - s k (τ (i + 1)), q i 0 (τ (i + 1))⟫ -
          ⟪g k (τ i) - s k (τ i), q i 0 (τ i)⟫) = if m = n then 0 else ⟪g k (τ m) - s k (τ m), q m 0 (τ m)⟫ := by
        intro m
        induction m with
        | zero =>
          intro _
          simp [hb]
        | succ m ih =>
          intro hm
          rw [Finset.sum_range_succ, ih (by omega), if_neg (by omega)]
          by_cases hmn : m + 1 = n
          · rw [if_pos hmn, hmn, he]
            simp
          · rw [if_neg hmn]
            rcases hj m (by omega) with e | e
            · rw [e]; simp
            · rw [e]; abel
      rw [this n le_rfl, if_pos rfl]
    · rw [uIcc_of_le (hτ i hin), uIcc_of_le (hmon 0 n (by omega) le_rfl)]
      exact Icc_subset_Icc (hmon 0 i (by omega) (by omega)) (hmon (i + 1) n (by omega) le_rfl)
  have hexp : (fun t => ‖g (k + 1) t‖ ^ 2) = fun t => (‖s (k + 1) t‖ ^ 2 + ‖g (k + 1) t - s (k + 1) t‖ ^ 2) +
      2 * ⟪g (k + 1) t - s (k + 1) t, s (k + 1) t⟫ := by
    funext t
    have := norm_add_sq_real (g (k + 1) t - s (k + 1) t) (s (k + 1) t)
    rw [sub_add_cancel] at this
    rw [this]
    ring
  rw [hexp, intervalIntegral.integral_add (hs.sq.add hd.sq) (hi.const_mul 2), intervalIntegral.integral_const_mul, horth,
    intervalIntegral.integral_add hs.sq hd.sq]
  ring

/-- Equal energies only for equal motions. -/
theorem same_of_energy [CompleteSpace E] {k : ℕ} {b e : ℝ} (h : b ≤ e) {d : ℕ → ℝ → E} (hd : Motion k b e d)
    (h0 : ∀ j < k, d j b = 0) (hz : ∫ t in b..e, ‖d k t‖ ^ 2 = 0) : ∀ j < k, ∀ t ∈ Icc b e, d j t = 0 := by
  obtain ⟨s, hs, hs'⟩ := hd.deriv
  have hae : ∀ᵐ t ∂volume.restrict (Ioc b e), d k t = 0 := by
    have := (intervalIntegral.integral_eq_zero_iff_of_le_of_nonneg_ae h
      (Filter.Eventually.of_forall fun t => sq_nonneg ‖d k t‖) hd.sq).1 hz
    filter_upwards [this] with t ht
    simpa using ht
  have step : ∀ j < k, (∀ᵐ t ∂volume.restrict (Ioc b e), d (j + 1) t = 0) → ∀ t ∈ Icc b e, d j t = 0 := by
    intro j hj hz t ht
    have hint : IntervalIntegrable (d (j + 1)) volume b t := by
      rw [intervalIntegrable_iff_integrableOn_Ioc_of_le ht.1]
      have : d (j + 1) =ᵐ[volume.restrict (Ioc b t)] 0 := ae_mono (Measure.restrict_mono (Ioc_subset_Ioc_right ht.2) le_rfl) hz
      exact (integrable_congr this).2 (integrable_zero _ _ _)
    have key := integral_eq_of_hasDerivAt_off_countable_of_le (d j) (d (j + 1)) ht.1 hs
      ((hd.cont j hj).mono (Icc_subset_Icc_right ht.2)) (fun x hx => hs' j hj x ⟨Ioo_subset_Ioo_right ht.2 hx.1, hx.2⟩) hint
    rw [h0 j hj, sub_zero] at key
    rw [← key, intervalIntegral.integral_of_le ht.1]
    refine integral_eq_zero_of_ae ?_
    exact ae_mono (Measure.restrict_mono (Ioc_subset_Ioc_right ht.2) le_rfl) hz
  have down : ∀ m, ∀ j, j + m + 1 = k → ∀ t ∈ Icc b e, d j t = 0 := by
    intro m
    induction m with
    | zero =>
      intro j hj
      refine step j (by omega) ?_
      rw [show j + 1 = k by omega]
      exact hae
    | succ m ih =>
      intro j hj
      refine step j (by omega) ?_
      refine (ae_restrict_iff' measurableSet_Ioc).2 (Filter.Eventually.of_forall fun t ht => ?_)
      exact ih (j + 1) (by omega) t ⟨ht.1.le, ht.2⟩
  intro j hj
  exact down (k - j - 1) j (by omega)

end Verif.Energy

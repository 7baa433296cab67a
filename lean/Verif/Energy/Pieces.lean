import Verif.Energy.Lemmas

/-!
# Motions made of pieces
-/

set_option linter.unusedSectionVars false
set_option linter.dupNamespace false

namespace Verif.Energy

open MeasureTheory Set

variable {E : Type} [NormedAddCommGroup E] [InnerProductSpace ℝ E]

/-- Between the times `τ i` and `τ (i + 1)` the motion `f` is the smooth motion `p i`, with its first `k - 1` derivatives
also at these times; the derivative number `k` may jump there. -/
structure Pieces (k n : ℕ) (τ : ℕ → ℝ) (p : ℕ → ℕ → ℝ → E) (f : ℕ → ℝ → E) : Prop where
  step : ∀ i < n, τ i ≤ τ (i + 1)
  chain : ∀ i < n, ∀ j t, HasDerivAt (p i j) (p i (j + 1) t) t
  val : ∀ i < n, ∀ j < k, ∀ t ∈ Icc (τ i) (τ (i + 1)), f j t = p i j t
  top : ∀ i < n, ∀ t ∈ Ioo (τ i) (τ (i + 1)), f k t = p i k t

theorem Pieces.pcont {k n : ℕ} {τ : ℕ → ℝ} {p : ℕ → ℕ → ℝ → E} {f : ℕ → ℝ → E} (h : Pieces k n τ p f) {i : ℕ} (hi : i < n)
    (j : ℕ) : Continuous (p i j) := continuous_iff_continuousAt.2 fun t => (h.chain i hi j t).continuousAt

theorem exists_piece {n : ℕ} {τ : ℕ → ℝ} {t : ℝ} (h0 : τ 0 < t) (hn : t < τ n) (hs : ∀ i ≤ n, t ≠ τ i) :
    ∃ i < n, t ∈ Ioo (τ i) (τ (i + 1)) := by
  induction n with
  | zero => exact absurd (h0.trans hn) (lt_irrefl _)
  | succ n ih =>
    rcases lt_or_gt_of_ne (hs n (by omega)) with h | h
    · obtain ⟨i, hi, ht⟩ := ih h fun i hi => hs i (by omega)
      exact ⟨i, by omega, ht⟩
    · exact ⟨n, by omega, h, hn⟩

theorem Pieces.motion {k n : ℕ} {τ : ℕ → ℝ} {p : ℕ → ℕ → ℝ → E} {f : ℕ → ℝ → E} (h : Pieces k n τ p f) :
    Motion k (τ 0) (τ n) f := by
  have hmon := mono_of_steps h.step
  have hc : ∀ j < k, ∀ m ≤ n, ContinuousOn (f j) (Icc (τ 0) (τ m)) := by
    intro j hj m
    induction m with
    | zero =>
      intro _
      rw [Icc_self]
      exact continuousOn_singleton _ _
    | succ m ih =>
      intro hm
      rw [← Icc_union_Icc_eq_Icc (hmon 0 m (by omega) (by omega)) (h.step m (by omega))]
      exact (ih (by omega)).union_of_isClosed
        (((h.pcont (show m < n by omega) j).continuousOn).congr (h.val m (by omega) j hj)) isClosed_Icc isClosed_Icc
  have hev : ∀ i < n, ∀ t ∈ Ioo (τ i) (τ (i + 1)), ∀ j < k, HasDerivAt (f j) (f (j + 1) t) t := by
    intro i hi t ht j hj
    have e : f j =ᶠ[nhds t] p i j := by
      filter_upwards [isOpen_Ioo.mem_nhds ht] with u hu
      exact h.val i hi j hj u ⟨hu.1.le, hu.2.le⟩
    have e1 : f (j + 1) t = p i (j + 1) t := by
      rcases Nat.lt_or_ge (j + 1) k with hk | hk
      · exact h.val i hi (j + 1) hk t ⟨ht.1.le, ht.2.le⟩
      · rw [show j + 1 = k by omega]
        exact h.top i hi t ht
    rw [e1]
    exact (h.chain i hi j t).congr_of_eventuallyEq e
  refine ⟨fun j hj => hc j hj n le_rfl, ⟨τ '' (Finset.range (n + 1) : Set ℕ), (Finset.finite_toSet _ |>.image τ).countable, ?_⟩,
    IntervalIntegrable.trans_iterate fun i hi => ?_, IntervalIntegrable.trans_iterate fun i hi => ?_⟩
  · intro j hj t ht
    obtain ⟨i, hi, hti⟩ := exists_piece ht.1.1 ht.1.2 fun i hi e =>
      ht.2 ⟨i, by simpa using Nat.lt_succ_of_le hi, e.symm⟩
    exact hev i hi t hti j hj
  · refine ((h.pcont hi k).intervalIntegrable (μ := volume) _ _).congr_uIoo fun t ht => ?_
    rw [uIoo_of_le (h.step i hi)] at ht
    exact (h.top i hi t ht).symm
  · refine (((h.pcont hi k).norm.pow 2).intervalIntegrable (μ := volume) _ _).congr_uIoo fun t ht => ?_
    rw [uIoo_of_le (h.step i hi)] at ht
    show _ = ‖f k t‖ ^ 2
    rw [h.top i hi t ht]
    rfl

/-- The energies differ by the energy of the difference. -/
theorem Pieces.identity {k n : ℕ} {τ : ℕ → ℝ} {p : ℕ → ℕ → ℝ → E} {f g : ℕ → ℝ → E} (h : Pieces (k + 1) n τ p f)
    (hz : ∀ i < n, ∀ t, p i (2 * (k + 1)) t = 0) (hg : Motion (k + 1) (τ 0) (τ n) g)
    (h0 : ∀ i ≤ n, ∀ j < k, g j (τ i) = f j (τ i)) (hb : g k (τ 0) = f k (τ 0)) (he : g k (τ n) = f k (τ n))
    (hj : ∀ i, i + 1 < n → g k (τ (i + 1)) = f k (τ (i + 1)) ∨ p i (k + 1) (τ (i + 1)) = p (i + 1) (k + 1) (τ (i + 1))) :
    ∫ t in τ 0..τ n, ‖g (k + 1) t‖ ^ 2 =
      (∫ t in τ 0..τ n, ‖f (k + 1) t‖ ^ 2) + ∫ t in τ 0..τ n, ‖g (k + 1) t - f (k + 1) t‖ ^ 2 :=
  Energy.least h.step h.motion hg (q := fun i j => p i (k + 1 + j)) (fun i hi j t => h.chain i hi (k + 1 + j) t)
    (fun i hi t => by
      rw [show k + 1 + (k + 1) = 2 * (k + 1) by omega]
      exact hz i hi t) h.top h0 hb he hj

/-- The principle for motions made of polynomials of degree less than `2 (k + 1)`. -/
theorem Pieces.least [CompleteSpace E] {k n : ℕ} {τ : ℕ → ℝ} {p : ℕ → ℕ → ℝ → E} {f g : ℕ → ℝ → E} (h : Pieces (k + 1) n τ p f)
    (hz : ∀ i < n, ∀ t, p i (2 * (k + 1)) t = 0) (hg : Motion (k + 1) (τ 0) (τ n) g)
    (h0 : ∀ i ≤ n, ∀ j < k, g j (τ i) = f j (τ i)) (hb : g k (τ 0) = f k (τ 0)) (he : g k (τ n) = f k (τ n))
    (hj : ∀ i, i + 1 < n → g k (τ (i + 1)) = f k (τ (i + 1)) ∨ p i (k + 1) (τ (i + 1)) = p (i + 1) (k + 1) (τ (i + 1))) :
    ∫ t in τ 0..τ n, ‖f (k + 1) t‖ ^ 2 ≤ ∫ t in τ 0..τ n, ‖g (k + 1) t‖ ^ 2 ∧
      (∫ t in τ 0..τ n, ‖f (k + 1) t‖ ^ 2 = ∫ t in τ 0..τ n, ‖g (k + 1) t‖ ^ 2 →
        ∀ j ≤ k, ∀ t ∈ Icc (τ 0) (τ n), g j t = f j t) := by
  have hm := h.motion
  have hle : τ 0 ≤ τ n := mono_of_steps h.step 0 n (by omega) le_rfl
  have key := h.identity hz hg h0 hb he hj
  have hn : 0 ≤ ∫ t in τ 0..τ n, ‖g (k + 1) t - f (k + 1) t‖ ^ 2 :=
    intervalIntegral.integral_nonneg hle fun t _ => sq_nonneg _
  refine ⟨by linarith, fun heq j hj t ht => sub_eq_zero.1 ?_⟩
  refine same_of_energy hle (hg.sub hm) (fun j hj => sub_eq_zero.2 ?_) (by linarith) j (by omega) t ht
  rcases Nat.lt_or_ge j k with hjk | hjk
  · exact h0 0 (by omega) j hjk
  · obtain rfl : j = k := by omega
    exact hb

end Verif.Energy

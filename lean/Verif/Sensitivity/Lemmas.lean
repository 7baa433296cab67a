import Verif.Spline.Lemmas

/-! # How far a chain of cubic segments with small data can be from zero -/

set_option linter.unusedSectionVars false
set_option linter.dupNamespace false

namespace Verif.Sensitivity

open Verif.Spline

variable {K : Type} [Field K] [LinearOrder K] [IsStrictOrderedRing K]

/-- A cubic in terms of its end values and end slopes. -/
theorem cubic_hermite (c : Vec .o3 K) (T t : K) (hT : 0 < T) :
    inner c (tau .o3 t) =
      inner c (tauZero .o3) * ((1 - t / T) ^ 2 * (1 + 2 * (t / T))) +
      inner c (tau .o3 T) * ((t / T) ^ 2 * (3 - 2 * (t / T))) +
      inner c (dtauZero .o3) * (T * (t / T) * (1 - t / T) ^ 2) -
      inner c (dtau .o3 T) * (T * (t / T) ^ 2 * (1 - t / T)) ∧
    inner c (dtau .o3 t) =
      (inner c (tau .o3 T) - inner c (tauZero .o3)) * (6 * (t / T) * (1 - t / T) / T) +
      inner c (dtauZero .o3) * ((1 - t / T) * (1 - 3 * (t / T))) +
      inner c (dtau .o3 T) * (t / T * (3 * (t / T) - 2)) := by
  have := hT.ne'
  constructor <;> simp [inner, sum_o3, tauZero, dtauZero, tau, dtau] <;> field_simp <;> ring

/-- The end accelerations of a cubic in terms of its end values and end slopes. -/
theorem cubic_acc (c : Vec .o3 K) (T : K) (hT : 0 < T) :
    inner c (ddtau .o3 T) = -6 * (inner c (tau .o3 T) - inner c (tauZero .o3)) / T ^ 2 +
      (2 * inner c (dtauZero .o3) + 4 * inner c (dtau .o3 T)) / T ∧
    inner c (ddtauZero .o3) = 6 * (inner c (tau .o3 T) - inner c (tauZero .o3)) / T ^ 2 -
      (4 * inner c (dtauZero .o3) + 2 * inner c (dtau .o3 T)) / T := by
  have := hT.ne'
  constructor <;> simp [inner, sum_o3, tauZero, dtauZero, ddtauZero, tau, dtau, ddtau] <;>
    field_simp <;> ring

theorem abs_mul_le {a b A : K} (ha : |a| ≤ A) (hb : 0 ≤ b) : |a * b| ≤ A * b := by
  rw [abs_mul, abs_of_nonneg hb]
  exact mul_le_mul_of_nonneg_right ha hb

/-- Between its ends a cubic is no larger than its end values and a quarter of what its end slopes
reach; its velocity likewise. -/
theorem cubic_bound (c : Vec .o3 K) (T t ε M : K) (hT : 0 < T) (h0 : 0 ≤ t) (h1 : t ≤ T)
    (ha : |inner c (tauZero .o3)| ≤ ε) (hb : |inner c (tau .o3 T)| ≤ ε)
    (hu : |inner c (dtauZero .o3)| ≤ M) (hw : |inner c (dtau .o3 T)| ≤ M) :
    |inner c (tau .o3 t)| ≤ ε + T / 4 * M ∧ |inner c (dtau .o3 t)| ≤ 3 * ε / T + M := by
  obtain ⟨e1, e2⟩ := cubic_hermite c T t hT
  rw [e1, e2]
  have hs0 : 0 ≤ t / T := div_nonneg h0 hT.le
  have hs1 : t / T ≤ 1 := (div_le_one hT).mpr h1
  generalize t / T = s at hs0 hs1
  generalize inner c (tauZero .o3) = a at ha
  generalize inner c (tau .o3 T) = b at hb
  generalize inner c (dtauZero .o3) = u at hu
  generalize inner c (dtau .o3 T) = w at hw
  have hM : 0 ≤ M := (abs_nonneg _).trans hu
  have hε : 0 ≤ ε := (abs_nonneg _).trans ha
  have hr : 0 ≤ 1 - s := by linarith
  have hss : s * (1 - s) ≤ 1 / 4 := by nlinarith [sq_nonneg (2 * s - 1)]
  constructor
  · have k1 := abs_mul_le ha (show 0 ≤ (1 - s) ^ 2 * (1 + 2 * s) by positivity)
    have k2 := abs_mul_le hb (show 0 ≤ s ^ 2 * (3 - 2 * s) from
      mul_nonneg (by positivity) (by linarith))
    have k3 := abs_mul_le hu (show 0 ≤ T * s * (1 - s) ^ 2 by positivity)
    have k4 := abs_mul_le hw (show 0 ≤ T * s ^ 2 * (1 - s) by positivity)
    have tri := (abs_sub (a * ((1 - s) ^ 2 * (1 + 2 * s)) + b * (s ^ 2 * (3 - 2 * s)) +
      u * (T * s * (1 - s) ^ 2)) (w * (T * s ^ 2 * (1 - s)))).trans
      (add_le_add_left ((abs_add_le _ _).trans (add_le_add_left (abs_add_le _ _) _)) _)
    have key : ε * ((1 - s) ^ 2 * (1 + 2 * s)) + ε * (s ^ 2 * (3 - 2 * s)) +
        M * (T * s * (1 - s) ^ 2) + M * (T * s ^ 2 * (1 - s)) = ε + T * M * (s * (1 - s)) := by ring
    have : T * M * (s * (1 - s)) ≤ T * M * (1 / 4) :=
      mul_le_mul_of_nonneg_left hss (by positivity)
    linarith
  · have hba : |b - a| ≤ 2 * ε := by
      have := abs_le.mp ha
      have := abs_le.mp hb
      exact abs_le.mpr ⟨by linarith, by linarith⟩
    have k1 := abs_mul_le hba (show 0 ≤ 6 * s * (1 - s) / T by positivity)
    have k2 : |u * ((1 - s) * (1 - 3 * s)) + w * (s * (3 * s - 2))| ≤ M := by
      have l1 : |u * ((1 - s) * (1 - 3 * s))| ≤ M * |(1 - s) * (1 - 3 * s)| := by
        rw [abs_mul]; exact mul_le_mul_of_nonneg_right hu (abs_nonneg _)
      have l2 : |w * (s * (3 * s - 2))| ≤ M * |s * (3 * s - 2)| := by
        rw [abs_mul]; exact mul_le_mul_of_nonneg_right hw (abs_nonneg _)
      have l3 : |(1 - s) * (1 - 3 * s)| + |s * (3 * s - 2)| ≤ 1 := by
        have hq := mul_nonneg hs0 hr
        rcases abs_cases ((1 - s) * (1 - 3 * s)) with ⟨h, _⟩ | ⟨h, _⟩ <;>
        rcases abs_cases (s * (3 * s - 2)) with ⟨h', _⟩ | ⟨h', _⟩ <;>
        rw [h, h'] <;> linarith
      have l4 := (abs_add_le (u * ((1 - s) * (1 - 3 * s))) (w * (s * (3 * s - 2)))).trans
        (add_le_add l1 l2)
      have l5 : M * (|(1 - s) * (1 - 3 * s)| + |s * (3 * s - 2)|) ≤ M * 1 :=
        mul_le_mul_of_nonneg_left l3 hM
      linarith
    have k3 : 2 * ε * (6 * s * (1 - s) / T) ≤ 3 * ε / T := by
      rw [show 2 * ε * (6 * s * (1 - s) / T) = 12 * ε / T * (s * (1 - s)) by ring,
        show 3 * ε / T = 12 * ε / T * (1 / 4) by ring]
      exact mul_le_mul_of_nonneg_left hss (by positivity)
    have tri := abs_add_le ((b - a) * (6 * s * (1 - s) / T))
      (u * ((1 - s) * (1 - 3 * s)) + w * (s * (3 * s - 2)))
    rw [add_assoc]
    linarith

/-- The equation at one junction bounds the larger of the two slopes there: `u`, `w` are the slopes of
the segment before, `u'`, `w'` those of the segment after. -/
theorem junction_bound {h h' m H a b u w a' b' u' w' ε δ γ M : K} (hm : 0 < m) (h1 : m ≤ h)
    (h2 : m ≤ h') (h3 : h ≤ H) (h4 : h' ≤ H)
    (ha : |a| ≤ ε) (hb : |b| ≤ ε) (ha' : |a'| ≤ ε) (hb' : |b'| ≤ ε) (hu : |u| ≤ M) (hw' : |w'| ≤ M)
    (hv : |w - u'| ≤ δ)
    (hacc : |(-6 * (b - a) / h ^ 2 + (2 * u + 4 * w) / h) -
      (6 * (b' - a') / h' ^ 2 - (4 * u' + 2 * w') / h')| ≤ γ) (hM : |w| = M ∨ |u'| = M) :
    M ≤ 6 * ε / m + 2 * δ + H / 4 * γ := by
  have hh : 0 < h := hm.trans_le h1
  have hh' : 0 < h' := hm.trans_le h2
  have hε : 0 ≤ ε := (abs_nonneg _).trans ha
  have hδ : 0 ≤ δ := (abs_nonneg _).trans hv
  have hγ : 0 ≤ γ := (abs_nonneg _).trans hacc
  have hM0 : 0 ≤ M := (abs_nonneg _).trans hu
  -- clear denominators by writing `p = 1 / h`, `q = 1 / h'`
  obtain ⟨p, hp⟩ : ∃ p, p = 1 / h := ⟨_, rfl⟩
  obtain ⟨q, hq⟩ : ∃ q, q = 1 / h' := ⟨_, rfl⟩
  have hp0 : 0 < p := hp ▸ one_div_pos.mpr hh
  have hq0 : 0 < q := hq ▸ one_div_pos.mpr hh'
  have hpm : p ≤ 1 / m := hp ▸ one_div_le_one_div_of_le hm h1
  have hqm : q ≤ 1 / m := hq ▸ one_div_le_one_div_of_le hm h2
  have hpH : 1 ≤ H * p := by rw [hp, mul_one_div, le_div_iff₀ hh]; linarith
  have hqH : 1 ≤ H * q := by rw [hq, mul_one_div, le_div_iff₀ hh']; linarith
  have e : (-6 * (b - a) / h ^ 2 + (2 * u + 4 * w) / h) -
      (6 * (b' - a') / h' ^ 2 - (4 * u' + 2 * w') / h') =
      4 * w * p + 4 * u' * q + 2 * u * p + 2 * w' * q - 6 * (b - a) * (p * p) -
        6 * (b' - a') * (q * q) := by
    rw [hp, hq]; field_simp; ring
  rw [e] at hacc
  have hba : |b - a| ≤ 2 * ε := by
    have := abs_le.mp ha
    have := abs_le.mp hb
    exact abs_le.mpr ⟨by linarith, by linarith⟩
  have hba' : |b' - a'| ≤ 2 * ε := by
    have := abs_le.mp ha'
    have := abs_le.mp hb'
    exact abs_le.mpr ⟨by linarith, by linarith⟩
  have k1 := abs_le.mp (abs_mul_le hu hp0.le)
  have k2 := abs_le.mp (abs_mul_le hw' hq0.le)
  have k3 := abs_le.mp (abs_mul_le hba (mul_self_nonneg p))
  have k4 := abs_le.mp (abs_mul_le hba' (mul_self_nonneg q))
  have k5 := abs_le.mp (abs_mul_le hv hq0.le)
  have k6 := abs_le.mp (abs_mul_le hv hp0.le)
  have k0 := abs_le.mp hacc
  -- the sum of the two rates bounds everything
  have hpp : 2 * ε * (p * p) ≤ 2 * ε / m * p := by
    have := mul_le_mul_of_nonneg_left (mul_le_mul_of_nonneg_right hpm hp0.le)
      (show 0 ≤ 2 * ε by linarith)
    calc 2 * ε * (p * p) ≤ 2 * ε * (1 / m * p) := this
      _ = 2 * ε / m * p := by ring
  have hqq : 2 * ε * (q * q) ≤ 2 * ε / m * q := by
    have := mul_le_mul_of_nonneg_left (mul_le_mul_of_nonneg_right hqm hq0.le)
      (show 0 ≤ 2 * ε by linarith)
    calc 2 * ε * (q * q) ≤ 2 * ε * (1 / m * q) := this
      _ = 2 * ε / m * q := by ring
  have hgg : γ ≤ H * γ / 2 * (p + q) := by
    have := mul_le_mul_of_nonneg_right (add_le_add hpH hqH) (show 0 ≤ γ / 2 by linarith)
    calc γ = (1 + 1) * (γ / 2) := by ring
      _ ≤ _ := this
      _ = _ := by ring
  have hdp : 0 ≤ δ * p := mul_nonneg hδ hp0.le
  have hdq : 0 ≤ δ * q := mul_nonneg hδ hq0.le
  have hs : 0 < p + q := by linarith
  -- whichever slope is extreme, with either sign
  have fin : 4 * M * (p + q) ≤ 2 * M * (p + q) + 4 * δ * (p + q) + 6 * (2 * ε / m) * (p + q) +
      H * γ / 2 * (p + q) := by
    rcases hM with hM | hM
    · rcases abs_cases w with ⟨h5, _⟩ | ⟨h5, _⟩ <;> rw [← hM, h5] at k1 k2 ⊢ <;>
        linarith [k1.1, k1.2, k2.1, k2.2, k3.1, k3.2, k4.1, k4.2, k5.1, k5.2, k0.1, k0.2]
    · rcases abs_cases u' with ⟨h5, _⟩ | ⟨h5, _⟩ <;> rw [← hM, h5] at k1 k2 ⊢ <;>
        linarith [k1.1, k1.2, k2.1, k2.2, k3.1, k3.2, k4.1, k4.2, k6.1, k6.2, k0.1, k0.2]
  have : 4 * M ≤ 2 * M + 4 * δ + 6 * (2 * ε / m) + H * γ / 2 := by
    refine le_of_mul_le_mul_right ?_ hs
    linarith
  have e2 : 6 * ε / m = 6 * (2 * ε / m) / 2 := by ring
  linarith

/-- **Chain of cubic segments.** Segments of durations between `m` and `H`, end values at most `ε`,
jumps of slope at most `δ` and of acceleration at most `γ` at the junctions, slopes at most `η` at both
ends: the slopes at all junctions, and with them the whole chain, are bounded whatever the number of
segments. -/
theorem chain_bound (n : ℕ) (D : ℕ → K) (c : ℕ → Vec .o3 K) (m H ε δ γ η : K) (hm : 0 < m)
    (hn : 0 < n) (hD : ∀ j < n, m ≤ D j ∧ D j ≤ H)
    (hpos : ∀ j < n, |inner (c j) (tauZero .o3)| ≤ ε ∧ |inner (c j) (tau .o3 (D j))| ≤ ε)
    (hvel : ∀ j, j + 1 < n →
      |inner (c j) (dtau .o3 (D j)) - inner (c (j + 1)) (dtauZero .o3)| ≤ δ)
    (hacc : ∀ j, j + 1 < n →
      |inner (c j) (ddtau .o3 (D j)) - inner (c (j + 1)) (ddtauZero .o3)| ≤ γ)
    (h0 : |inner (c 0) (dtauZero .o3)| ≤ η)
    (hT : |inner (c (n - 1)) (dtau .o3 (D (n - 1)))| ≤ η) :
    ∀ j < n, |inner (c j) (dtauZero .o3)| ≤ max η (6 * ε / m + 2 * δ + H / 4 * γ) ∧
      |inner (c j) (dtau .o3 (D j))| ≤ max η (6 * ε / m + 2 * δ + H / 4 * γ) := by
  -- the largest slope
  obtain ⟨M, hM, hat⟩ : ∃ M, (∀ j < n, |inner (c j) (dtauZero .o3)| ≤ M ∧
      |inner (c j) (dtau .o3 (D j))| ≤ M) ∧ ∃ j < n, |inner (c j) (dtauZero .o3)| = M ∨
      |inner (c j) (dtau .o3 (D j))| = M := by
    obtain ⟨j, hj, hmax⟩ := Finset.exists_max_image (Finset.range n)
      (fun j => max |inner (c j) (dtauZero .o3)| |inner (c j) (dtau .o3 (D j))|)
      ⟨0, Finset.mem_range.mpr hn⟩
    refine ⟨_, fun i hi => ⟨(le_max_left _ _).trans (hmax i (Finset.mem_range.mpr hi)),
      (le_max_right _ _).trans (hmax i (Finset.mem_range.mpr hi))⟩, j, Finset.mem_range.mp hj, ?_⟩
    rcases max_choice |inner (c j) (dtauZero .o3)| |inner (c j) (dtau .o3 (D j))| with h | h <;>
      rw [h] <;> simp
  have key : ∀ j, j + 1 < n → (|inner (c j) (dtau .o3 (D j))| = M ∨
      |inner (c (j + 1)) (dtauZero .o3)| = M) → M ≤ 6 * ε / m + 2 * δ + H / 4 * γ := by
    intro j hj h
    have d1 := hD j (by omega)
    have d2 := hD (j + 1) hj
    have ha := hacc j hj
    rw [(cubic_acc (c j) (D j) (hm.trans_le d1.1)).1,
      (cubic_acc (c (j + 1)) (D (j + 1)) (hm.trans_le d2.1)).2] at ha
    exact junction_bound hm d1.1 d2.1 d1.2 d2.2 (hpos j (by omega)).1 (hpos j (by omega)).2
      (hpos (j + 1) hj).1 (hpos (j + 1) hj).2 (hM j (by omega)).1 (hM (j + 1) hj).2 (hvel j hj) ha h
  have hle : M ≤ max η (6 * ε / m + 2 * δ + H / 4 * γ) := by
    obtain ⟨j, hj, h | h⟩ := hat
    · cases j with
      | zero => exact le_max_of_le_left (h ▸ h0)
      | succ j => exact le_max_of_le_right (key j hj (Or.inr h))
    · by_cases hl : j + 1 < n
      · exact le_max_of_le_right (key j hl (Or.inl h))
      · obtain rfl : j = n - 1 := by omega
        exact le_max_of_le_left (h ▸ hT)
  exact fun j hj => ⟨(hM j hj).1.trans hle, (hM j hj).2.trans hle⟩

end Verif.Sensitivity

import Verif.Accuracy.Lemmas
import Verif.Accuracy.RolleLemmas
import Verif.Energy.HermiteProps

/-!
# Properties C112 and C113: containers fitted to samples of a motion
-/

set_option linter.unusedSectionVars false
set_option linter.dupNamespace false

namespace Verif.Accuracy

open MeasureTheory Set Polynomial Verif.Spline Verif.Container Verif.Container.Container Verif.Energy

variable {o : Order}

/-- **C112**, straight lines. `f` is a motion with velocity `v` and acceleration at most `M`, sampled at times at most `h`
apart. The fitted curve is within `M h^2 / 8` of the motion, and its velocity within `M h / 2`. -/
theorem C112_straight (S : Solver ℝ) (ts : List ℝ) (h2 : 2 ≤ ts.length) (hb : ts.length ≤ 2 ^ 28)
    (hinc : ts.Pairwise (· < ·)) (v0 a0 vT aT : ℝ) (c : Container o ℝ) (r : Outcome (Bool × Container o ℝ))
    {M h : ℝ} {f v : ℝ → ℝ} (hf : Gentle M ts[0] ts[ts.length - 1] f v)
    (hgap : ∀ (i : ℕ) (hi : i + 1 < ts.length), ts[i + 1] - ts[i] ≤ h)
    (hr : r = setDataLinear ts (ts.map f) c ∨ (o = .o1 ∨ o = .o2) ∧
      (r = setDataVel S ts (ts.map f) v0 vT c ∨ r = setDataAcc S ts (ts.map f) v0 a0 vT aT c)) :
    ∃ c', r = .ok (true, c') ∧ ∀ t, ts[0] ≤ t → t < ts[ts.length - 1] →
      ∃ p q, c'.getPositionAtTime (t - ts[0]) = .ok p ∧ c'.getVelocityAtTime (t - ts[0]) = .ok q ∧
        |p - f t| ≤ M / 8 * h ^ 2 ∧ |q - v t| ≤ M / 2 * h := by
  have hlt : ∀ i j (hi : i < ts.length) (hj : j < ts.length), i < j → ts[i] < ts[j] := List.pairwise_iff_getElem.1 hinc
  have hle : ∀ i j (hi : i < ts.length) (hj : j < ts.length), i ≤ j → ts[i] ≤ ts[j] := by
    intro i j hi hj hij
    rcases hij.eq_or_lt with rfl | e
    · exact le_rfl
    · exact (hlt i j hi hj e).le
  obtain ⟨c', e, key⟩ := C65_straight S ts (ts.map f) h2 hb (by simp) hinc v0 a0 vT aT c r hr
  refine ⟨c', e, fun t h0 hT => ?_⟩
  obtain ⟨i, hi, ht⟩ : ∃ i, ∃ hi : i + 1 < ts.length, ts[i] ≤ t ∧ t < ts[i + 1] := by
    have aux : ∀ m (hm : m < ts.length), t < ts[m] → ∃ i, ∃ hi : i + 1 < ts.length, ts[i] ≤ t ∧ t < ts[i + 1] := by
      intro m
      induction m with
      | zero => intro _ hh; exact absurd h0 (not_le.2 hh)
      | succ m ih =>
        intro hm hh
        rcases lt_or_ge t ts[m] with h1 | h1
        · exact ih (by omega) h1
        · exact ⟨m, hm, h1, hh⟩
    exact aux _ _ hT
  have k := key i hi (by simpa using hi) t ht.1
  have hG : Gentle M ts[i] ts[i + 1] f v :=
    hf.mono (hle 0 i (by omega) (by omega) (by omega)) (hle (i + 1) (ts.length - 1) hi (by omega) (by omega))
  have hi1 := hlt i (i + 1) (by omega) hi (by omega)
  have hM := hG.nonneg hi1
  have hg := hgap i hi
  refine ⟨_, _, k.1 ht.2.le, (k.2 ht.2).1, ?_, ?_⟩
  · have h1 := chord hi1 hG ⟨ht.1, ht.2.le⟩
    rw [smul_eq_mul, norm_sub_rev, Real.norm_eq_abs] at h1
    simp only [List.getElem_map]
    rw [mul_comm (f ts[i + 1] - f ts[i])]
    refine h1.trans ?_
    have h3 : (t - ts[i]) * (ts[i + 1] - t) ≤ h ^ 2 / 4 := by
      nlinarith [sq_nonneg ((t - ts[i]) - (ts[i + 1] - t))]
    have := mul_le_mul_of_nonneg_left h3 hM
    linarith
  · have h1 := slope_near hi1 hG ⟨ht.1, ht.2.le⟩
    rw [smul_eq_mul, Real.norm_eq_abs, one_div, inv_mul_eq_div] at h1
    simp only [List.getElem_map]
    refine h1.trans ?_
    have := mul_le_mul_of_nonneg_left hg hM
    linarith

/-- **C113**. `g 0` is a motion with velocity `g 1` and acceleration `g 2`, sampled at the times `ts`. The cubic fit with
the velocities of the motion at both ends stays near the motion, in position and in velocity, by bounds that go to
zero with the distance of the samples. -/
theorem C113_cubic (S : Solver ℝ) (ts : List ℝ) (h2 : 2 ≤ ts.length) (hb : ts.length ≤ 2 ^ 28)
    (hinc : ts.Pairwise (· < ·)) (a0 aT : ℝ) (c : Container .o3 ℝ) (r : Outcome (Bool × Container .o3 ℝ))
    (g : ℕ → ℝ → ℝ) (hg : Motion 2 ts[0] ts[ts.length - 1] g)
    (hr : r = setDataVel S ts (ts.map (g 0)) (g 1 ts[0]) (g 1 ts[ts.length - 1]) c ∨
      r = setDataAcc S ts (ts.map (g 0)) (g 1 ts[0]) a0 (g 1 ts[ts.length - 1]) aT c) :
    ∃ c', r = .ok (true, c') ∧ ∀ (i : ℕ) (hi : i + 1 < ts.length), ∀ t ∈ Icc ts[i] ts[i + 1],
      ∃ p q, c'.getPositionAtTime (t - ts[0]) = .ok p ∧ c'.getVelocityAtTime (t - ts[0]) = .ok q ∧
        (p - g 0 t) ^ 2 ≤ (ts[i + 1] - ts[i]) ^ 3 / 4 * ∫ u in ts[0]..ts[ts.length - 1], g 2 u ^ 2 ∧
        (q - g 1 t) ^ 2 ≤ (ts[i + 1] - ts[i]) * ∫ u in ts[0]..ts[ts.length - 1], g 2 u ^ 2 := by
  obtain ⟨c', pos, vel, acc, τ, p, n, hn, e, hp, hv, ha, P, hz, hτ, hpos, hv0, hvT, hj⟩ :=
    cubic_pieces S ts (ts.map (g 0)) h2 hb (by simp) hinc _ a0 _ aT c r hr
  refine ⟨c', e, fun i hi t ht => ⟨_, _, hp _, hv _, ?_⟩⟩
  have t0 : τ 0 = ts[0] - ts[0] := hτ 0 (by omega)
  have tn : τ n = ts[ts.length - 1] - ts[0] := by
    rw [hτ n (by omega)]
    simp [hn]
  have hs := Motion.shift hg ts[0]
  rw [← t0, ← tn] at hs
  have hk : ∀ m ≤ n, g 0 (τ m + ts[0]) = pos (τ m) := by
    intro m hm
    rw [hpos m (by omega), List.getElem_map, hτ m (by omega), sub_add_cancel]
  have key := P.identity (g := fun j t => g j (t + ts[0])) (k := 1) hz hs (fun m hm j hj => by
      obtain rfl : j = 0 := by omega
      exact hk m hm)
    (by show g 1 (τ 0 + ts[0]) = vel (τ 0); rw [hv0, t0]; simp)
    (by show g 1 (τ n + ts[0]) = vel (τ n); rw [hvT, tn]; simp)
    (fun i hi => Or.inr (hj i hi))
  have hd := hs.sub P.motion
  have hτi : τ i = ts[i] - ts[0] := hτ i (by omega)
  have hτi' : τ (i + 1) = ts[i + 1] - ts[0] := hτ (i + 1) hi
  have hmon := mono_of_steps P.step
  have hlt : ts[i] < ts[i + 1] := List.pairwise_iff_getElem.1 hinc i (i + 1) (by omega) hi (by omega)
  have h1 := hmon 0 i (by omega) (by omega)
  have h3 := hmon (i + 1) n (by omega) le_rfl
  have hlt' : τ i < τ (i + 1) := by rw [hτi, hτi']; linarith
  have ro := rolle hlt' (hd.mono h1 hlt'.le h3) (sub_eq_zero.2 (hk i (by omega))) (sub_eq_zero.2 (hk (i + 1) (by omega)))
    (t := t - ts[0]) ⟨by rw [hτi]; linarith [ht.1], by rw [hτi']; linarith [ht.2]⟩
  have hle : ∫ u in τ i..τ (i + 1), ‖g 2 (u + ts[0]) - curve pos vel acc 2 u‖ ^ 2 ≤ ∫ u in ts[0]..ts[ts.length - 1], g 2 u ^ 2 := by
    have a1 := intervalIntegral.integral_mono_interval (μ := volume) h1 hlt'.le h3
      (Filter.Eventually.of_forall fun u => sq_nonneg ‖g 2 (u + ts[0]) - curve pos vel acc 2 u‖) hd.sq
    have a2 : 0 ≤ ∫ t in τ 0..τ n, ‖curve pos vel acc 2 t‖ ^ 2 :=
      intervalIntegral.integral_nonneg (hmon 0 n (by omega) le_rfl) fun t _ => sq_nonneg _
    have a3 : ∫ t in τ 0..τ n, ‖g 2 (t + ts[0])‖ ^ 2 = ∫ u in ts[0]..ts[ts.length - 1], g 2 u ^ 2 := by
      rw [intervalIntegral.integral_comp_add_right (fun t => ‖g 2 t‖ ^ 2), t0, tn, sub_add_cancel, sub_add_cancel]
      simp only [Real.norm_eq_abs, sq_abs]
    have : (1 + 1 : ℕ) = 2 := rfl
    simp only [this] at key
    linarith
  have hgap : τ (i + 1) - τ i = ts[i + 1] - ts[i] := by rw [hτi, hτi']; ring
  rw [hgap, sub_add_cancel] at ro
  have hp0 : 0 ≤ ts[i + 1] - ts[i] := by linarith
  constructor
  · refine le_trans (le_of_eq ?_) (ro.2.trans (mul_le_mul_of_nonneg_left hle (by positivity)))
    show (pos _ - _) ^ 2 = (_ - pos _) ^ 2
    ring
  · refine le_trans (le_of_eq ?_) (ro.1.trans (mul_le_mul_of_nonneg_left hle hp0))
    show (vel _ - _) ^ 2 = (_ - vel _) ^ 2
    ring

/-- The motion `t^2` has the acceleration 2. -/
theorem square_gentle (b e : ℝ) : Gentle 2 b e (fun t : ℝ => t ^ 2) (fun t => 2 * t) :=
  ⟨fun t _ => by simpa using (hasDerivAt_pow 2 t).hasDerivWithinAt, fun s _ t _ h => by
    rw [← mul_sub, norm_mul, Real.norm_eq_abs (t - s), abs_of_nonneg (sub_nonneg.2 h)]
    norm_num⟩

/-- Hypotheses of `C112_straight` met: samples of `t^2` at the times 0, 1 and 2. -/
example (S : Solver ℝ) : ∃ c', setDataLinear [0, 1, 2] [0, 1, 4] (fresh : Container .o5 ℝ) = .ok (true, c') ∧
    ∃ p q, c'.getPositionAtTime (3 / 2) = .ok p ∧ c'.getVelocityAtTime (3 / 2) = .ok q ∧ |p - 9 / 4| ≤ 1 / 4 ∧ |q - 3| ≤ 1 := by
  obtain ⟨c', e, k⟩ := C112_straight S [0, 1, 2] (by simp) (by simp) (by norm_num) 0 0 0 0 (fresh : Container .o5 ℝ) _
    (M := 2) (h := 1) (square_gentle _ _) (fun i hi => by
      match i, hi with
      | 0, _ => norm_num
      | 1, _ => norm_num) (Or.inl rfl)
  have k1 := k (3 / 2) (by norm_num) (by norm_num)
  norm_num at e k1 ⊢
  exact ⟨c', e, k1⟩

/-- Hypotheses of `C113_cubic` met: samples of `t^4` at the times 0, 1 and 2. -/
example (S : Solver ℝ) : ∃ c', setDataVel S [0, 1, 2] [0, 1, 16] 0 32 (fresh : Container .o3 ℝ) = .ok (true, c') ∧
    ∃ p q, c'.getPositionAtTime (3 / 2) = .ok p ∧ c'.getVelocityAtTime (3 / 2) = .ok q ∧
      (p - 81 / 16) ^ 2 ≤ 1 / 4 * (∫ u in (0 : ℝ)..2, ders (X ^ 4) 2 u ^ 2) ∧
      (q - 27 / 2) ^ 2 ≤ ∫ u in (0 : ℝ)..2, ders (X ^ 4) 2 u ^ 2 := by
  obtain ⟨c', e, k⟩ := C113_cubic S [0, 1, 2] (by simp) (by simp) (by norm_num) 0 0 (fresh : Container .o3 ℝ) _
    (ders (X ^ 4)) (ders_motion _ _ (by norm_num)) (Or.inl rfl)
  have k1 := k 1 (by simp) (3 / 2) (by norm_num)
  have z : ders (X ^ 4) 0 = fun t : ℝ => t ^ 4 := by funext t; simp [ders]
  have z1 : ders (X ^ 4) 1 = fun t : ℝ => 4 * t ^ 3 := by funext t; norm_num [ders]
  simp only [z, z1] at e k1
  norm_num at e k1 ⊢
  exact ⟨c', e, k1⟩

end Verif.Accuracy

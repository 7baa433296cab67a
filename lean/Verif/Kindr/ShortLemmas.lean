import Verif.Hermite.SE3EquivLemmas

/-!
# Logarithms that return the shortest rotation
-/

set_option linter.unusedSectionVars false
set_option linter.dupNamespace false

namespace Verif.Kindr

open Quaternion

/-- The logarithm inverts the exponential for rotations by less than half a turn. -/
def LogMap.Near (L : LogMap) : Prop := ∀ v : Vec3, vecNorm v < Real.pi → L.log (exponentialMap v) = v

/-- The logarithm returns the shortest rotation, never more than half a turn. -/
def LogMap.Shortest (L : LogMap) : Prop := ∀ q : Quat, normSq q = 1 → vecNorm (L.log q) ≤ Real.pi

theorem vecNorm_nonneg (v : Vec3) : 0 ≤ vecNorm v := Real.sqrt_nonneg _

theorem vecNorm_smul (r : ℝ) (v : Vec3) : vecNorm (r • v) = |r| * vecNorm v := by
  rw [← norm_vec, vec_smul, norm_smul, norm_vec, Real.norm_eq_abs]

theorem re_exp (v : Vec3) : (exponentialMap v).re = Real.cos (vecNorm v / 2) := by
  unfold exponentialMap
  by_cases h : vecNorm v = 0
  · simp [h]
  · simp [h]

theorem imaginary_exp (v : Vec3) : imaginary (exponentialMap v) = (Real.sin (vecNorm v / 2) / vecNorm v) • v := by
  unfold exponentialMap
  by_cases h : vecNorm v = 0
  · simp only [h, if_true, div_zero, zero_smul]
    ext i; fin_cases i <;> simp [imaginary]
  · simp only [h, if_false]
    ext i; fin_cases i <;> simp [imaginary]

theorem exp_injective {v w : Vec3} (hv : vecNorm v < 2 * Real.pi) (hw : vecNorm w < 2 * Real.pi)
    (h : exponentialMap w = exponentialMap v) : w = v := by
  have h1 := congrArg (fun q : Quat => q.re) h
  simp only [re_exp] at h1
  have hn : vecNorm w = vecNorm v := by
    have := Real.injOn_cos ⟨by linarith [vecNorm_nonneg w], by linarith⟩
      ⟨by linarith [vecNorm_nonneg v], by linarith⟩ h1
    linarith
  have h2 := congrArg imaginary h
  rw [imaginary_exp, imaginary_exp, hn] at h2
  by_cases h0 : vecNorm v = 0
  · rw [vecNorm_eq_zero h0, vecNorm_eq_zero (hn.trans h0)]
  · have hpos : 0 < vecNorm v := lt_of_le_of_ne (vecNorm_nonneg v) (Ne.symm h0)
    have hsin : 0 < Real.sin (vecNorm v / 2) := Real.sin_pos_of_pos_of_lt_pi (by linarith) (by linarith)
    exact smul_right_injective Vec3 (r := Real.sin (vecNorm v / 2) / vecNorm v) (by positivity) h2

/-- The logarithm of a rotation by less than half a turn, whichever of its two quaternions is given. -/
theorem LogMap.Shortest.eq {L : LogMap} (h : L.Shortest) {v : Vec3} (hv : vecNorm v < Real.pi) {q : Quat}
    (hq : q = exponentialMap v ∨ q = -exponentialMap v) : L.log q = v := by
  have hpi := Real.pi_pos
  have hu : normSq q = 1 := by
    rcases hq with rfl | rfl
    · exact isUnit_exp v
    · exact isUnit_neg (isUnit_exp v)
  have hle := h q hu
  have key : ∀ w : Vec3, vecNorm w ≤ Real.pi → exponentialMap w = -exponentialMap v → False := by
    intro w hw he
    have h1 := congrArg (fun q : Quat => q.re) he
    simp only [re_neg, re_exp] at h1
    have h2 : 0 < Real.cos (vecNorm v / 2) :=
      Real.cos_pos_of_mem_Ioo ⟨by linarith [vecNorm_nonneg v], by linarith⟩
    have h3 : 0 ≤ Real.cos (vecNorm w / 2) :=
      Real.cos_nonneg_of_mem_Icc ⟨by linarith [vecNorm_nonneg w], by linarith⟩
    linarith
  rcases L.exp_log q hu with e | e <;> rcases hq with rfl | rfl
  · exact exp_injective (by linarith) (by linarith) e
  · exact (key _ hle e).elim
  · exact (key _ hle e).elim
  · rw [neg_neg] at e
    exact exp_injective (by linarith) (by linarith) e

theorem LogMap.Shortest.near {L : LogMap} (h : L.Shortest) : L.Near := fun _ hv => h.eq hv (Or.inl rfl)

theorem vecNorm_axisLog {q : Quat} (h : vecNorm (imaginary q) ≠ 0) : vecNorm (axisLog q) = 2 * Real.arccos q.re := by
  rw [axisLog, vecNorm_smul, abs_of_nonneg (by
    have := Real.arccos_nonneg q.re
    have := vecNorm_nonneg (imaginary q)
    positivity)]
  field_simp

/-- The shortest logarithm: `axisLog` of the quaternion with non-negative real part. -/
noncomputable def shortLogMap : LogMap where
  log q := if 0 ≤ q.re then axisLog q else axisLog (-q)
  exp_log q hq := by
    by_cases h : 0 ≤ q.re
    · simp only [h, if_true]
      exact axisLog_exp hq
    · simp only [h, if_false]
      have := axisLog_exp (q := -q) (by rw [normSq_neg, hq])
      rw [neg_neg] at this
      exact this.symm
  log_one := by
    rw [if_pos (show (0 : ℝ) ≤ (1 : Quat).re from zero_le_one)]
    exact axisLogMap.log_one

theorem shortLogMap_shortest : shortLogMap.Shortest := by
  have key : ∀ q : Quat, 0 ≤ q.re → vecNorm (axisLog q) ≤ Real.pi := by
    intro q hq
    by_cases h : vecNorm (imaginary q) = 0
    · rw [axisLog, vecNorm_eq_zero h, smul_zero]
      simp [vecNorm, Real.pi_pos.le]
    · rw [vecNorm_axisLog h]
      have := Real.arccos_le_pi_div_two.2 hq
      linarith
  intro q _
  show vecNorm (if 0 ≤ q.re then axisLog q else axisLog (-q)) ≤ Real.pi
  split
  · exact key q ‹_›
  · exact key (-q) (by rw [re_neg]; linarith)

/-- kindr's formula without the shortening inverts the exponential as well. -/
theorem axisLogMap_near : axisLogMap.Near := by
  intro v hv
  have hpi := Real.pi_pos
  rcases axisLogMap.exp_log (exponentialMap v) (isUnit_exp v) with e | e
  · refine exp_injective (by linarith) ?_ e
    show vecNorm (axisLog _) < _
    by_cases h : vecNorm (imaginary (exponentialMap v)) = 0
    · rw [axisLog, vecNorm_eq_zero h, smul_zero]
      simp [vecNorm, Real.pi_pos]
    · rw [vecNorm_axisLog h, re_exp, Real.arccos_cos (by linarith [vecNorm_nonneg v]) (by linarith)]
      linarith
  · exfalso
    by_cases h : vecNorm (imaginary (exponentialMap v)) = 0
    · have e1 : axisLogMap.log (exponentialMap v) = 0 := by
        show axisLog _ = 0
        rw [axisLog, vecNorm_eq_zero h, smul_zero]
      rw [e1, exponentialMap_zero] at e
      have h1 := congrArg (fun q : Quat => q.re) e
      simp only [re_neg, re_exp] at h1
      rw [show (1 : Quat).re = 1 from rfl] at h1
      have h2 : 0 < Real.cos (vecNorm v / 2) :=
        Real.cos_pos_of_mem_Ioo ⟨by linarith [vecNorm_nonneg v], by linarith⟩
      linarith
    · have h1 := congrArg (fun q : Quat => q.re) e
      simp only [re_neg, re_exp] at h1
      rw [show axisLogMap.log (exponentialMap v) = axisLog (exponentialMap v) from rfl, vecNorm_axisLog h, re_exp,
        Real.arccos_cos (by linarith [vecNorm_nonneg v]) (by linarith),
        show 2 * (vecNorm v / 2) / 2 = vecNorm v / 2 by ring] at h1
      have h2 : 0 < Real.cos (vecNorm v / 2) :=
        Real.cos_pos_of_mem_Ioo ⟨by linarith [vecNorm_nonneg v], by linarith⟩
      linarith

/-- Turning the axis conjugates the rotation. -/
theorem exp_inverseRotate {q : Quat} (hq : IsUnit' q) (v : Vec3) :
    exponentialMap (inverseRotate q v) = star q * exponentialMap v * q := by
  have hn : vecNorm (inverseRotate q v) = vecNorm v := by
    conv_rhs => rw [← rotate_inverseRotate hq v]
    rw [vecNorm_rotate hq]
  have hd : ∀ w : Vec3, exponentialMap w =
      ((Real.cos (vecNorm w / 2) : ℝ) : Quat) + (Real.sin (vecNorm w / 2) / vecNorm w) • vec w := by
    intro w
    have h1 := re_exp w
    have h2 := imaginary_exp w
    have h3 : ∀ i, imaginary (exponentialMap w) i = (Real.sin (vecNorm w / 2) / vecNorm w) * w i := by
      intro i; rw [h2]; simp
    have h30 := h3 0
    have h31 := h3 1
    have h32 := h3 2
    simp [imaginary] at h30 h31 h32
    ext <;> simp [h1, h30, h31, h32]
  rw [hd, hd, hn, vec_inverseRotate, mul_add, add_mul, ← coe_commutes, mul_assoc (_ : Quat) (star q) q,
    star_mul_self' hq, mul_one]
  simp

end Verif.Kindr

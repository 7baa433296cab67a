import Verif.Energy.PolyLemmas

/-!
# Property C109: single segments of least energy
-/

set_option linter.unusedSectionVars false
set_option linter.dupNamespace false

namespace Verif.Energy

open MeasureTheory Set Polynomial Verif.Spline

theorem ders_pos {o : Order} (s : Spline o ℝ) {t : ℝ} (h : t ∈ Icc 0 s.duration) :
    s.getPositionAtTime t = ders (toPoly s.coeffs) 0 t := getPosition_eq s t h.1 h.2

theorem ders_vel {o : Order} (s : Spline o ℝ) {t : ℝ} (h : t ∈ Icc 0 s.duration) :
    s.getVelocityAtTime t = ders (toPoly s.coeffs) 1 t := getVelocity_eq s t h.1 h.2

theorem ders_acc {o : Order} (s : Spline o ℝ) {t : ℝ} (h : t ∈ Icc 0 s.duration) :
    s.getAccelerationAtTime t = ders (toPoly s.coeffs) 2 t := getAcceleration_eq s t h.1 h.2

theorem ders_jerk {o : Order} (s : Spline o ℝ) {t : ℝ} (h : t ∈ Ioo 0 s.duration) :
    deriv s.getAccelerationAtTime t = ders (toPoly s.coeffs) 3 t := by
  have : s.getAccelerationAtTime =ᶠ[nhds t] ders (toPoly s.coeffs) 2 := by
    filter_upwards [isOpen_Ioo.mem_nhds h] with u hu
    exact ders_acc s ⟨hu.1.le, hu.2.le⟩
  rw [this.deriv_eq]
  exact (ders_deriv _ 2 t).deriv

/-- **C109**, order 1: the segment that `computeCoefficients` makes has the least integral of the squared velocity among
all motions between the same positions in the same time, and it is the only one. -/
theorem C109_line (S : Solver ℝ) (p : Options ℝ) (h : 0 < p.tf) (s0 : Spline .o1 ℝ) {d : ℕ → ℝ → ℝ}
    (hd : Motion 1 0 p.tf d) (h0 : d 0 0 = p.pos0) (hT : d 0 p.tf = p.posT) :
    ∃ s, s0.computeCoefficients S p = (true, s) ∧
      ∫ t in 0..p.tf, s.getVelocityAtTime t ^ 2 ≤ ∫ t in 0..p.tf, d 1 t ^ 2 ∧
      (∫ t in 0..p.tf, s.getVelocityAtTime t ^ 2 = ∫ t in 0..p.tf, d 1 t ^ 2 →
        ∀ t ∈ Icc 0 p.tf, d 0 t = s.getPositionAtTime t) := by
  obtain ⟨s, e, hdur, k1, k2, -⟩ := C16_boundary S .o1 p h s0
  refine ⟨s, e, ?_⟩
  rw [← hdur] at h hd hT k2 ⊢
  have c1 : ∫ t in 0..s.duration, s.getVelocityAtTime t ^ 2 = ∫ t in 0..s.duration, ders (toPoly s.coeffs) 1 t ^ 2 :=
    intervalIntegral.integral_congr fun t ht => by
      rw [uIcc_of_le h.le] at ht
      simp only [ders_vel s ht]
  rw [ders_pos s ⟨le_rfl, h.le⟩] at k1
  rw [ders_pos s ⟨h.le, le_rfl⟩] at k2
  obtain ⟨l1, l2⟩ := poly_least (k := 0) (P := toPoly s.coeffs) (by have := natDegree_toPoly s.coeffs; simp [Order.deg] at this; omega)
    h.le hd (fun j hj => by
      obtain rfl : j = 0 := by omega
      rw [h0, k1]) (fun j hj => by
      obtain rfl : j = 0 := by omega
      rw [hT, k2])
  rw [c1]
  exact ⟨l1, fun e t ht => by rw [ders_pos s ht]; exact l2 e 0 le_rfl t ht⟩

/-- **C109**, order 3: least integral of the squared acceleration among all motions with the same positions and
velocities at both ends. -/
theorem C109_cubic (S : Solver ℝ) (p : Options ℝ) (h : 0 < p.tf) (s0 : Spline .o3 ℝ) {d : ℕ → ℝ → ℝ}
    (hd : Motion 2 0 p.tf d) (h0 : d 0 0 = p.pos0 ∧ d 1 0 = p.vel0) (hT : d 0 p.tf = p.posT ∧ d 1 p.tf = p.velT) :
    ∃ s, s0.computeCoefficients S p = (true, s) ∧
      ∫ t in 0..p.tf, s.getAccelerationAtTime t ^ 2 ≤ ∫ t in 0..p.tf, d 2 t ^ 2 ∧
      (∫ t in 0..p.tf, s.getAccelerationAtTime t ^ 2 = ∫ t in 0..p.tf, d 2 t ^ 2 →
        ∀ t ∈ Icc 0 p.tf, d 0 t = s.getPositionAtTime t) := by
  obtain ⟨s, e, hdur, k1, k2, k3, k4, -⟩ := C16_boundary S .o3 p h s0
  refine ⟨s, e, ?_⟩
  replace k3 := k3 (by simp [Order.deg])
  replace k4 := k4 (by simp [Order.deg])
  rw [← hdur] at h hd hT k2 k4 ⊢
  have c1 : ∫ t in 0..s.duration, s.getAccelerationAtTime t ^ 2 = ∫ t in 0..s.duration, ders (toPoly s.coeffs) 2 t ^ 2 :=
    intervalIntegral.integral_congr fun t ht => by
      rw [uIcc_of_le h.le] at ht
      simp only [ders_acc s ht]
  rw [ders_pos s ⟨le_rfl, h.le⟩] at k1
  rw [ders_pos s ⟨h.le, le_rfl⟩] at k2
  rw [ders_vel s ⟨le_rfl, h.le⟩] at k3
  rw [ders_vel s ⟨h.le, le_rfl⟩] at k4
  obtain ⟨l1, l2⟩ := poly_least (k := 1) (P := toPoly s.coeffs) (by have := natDegree_toPoly s.coeffs; simp [Order.deg] at this; omega)
    h.le hd (fun j hj => by
      obtain rfl | rfl : j = 0 ∨ j = 1 := by omega
      · rw [h0.1, k1]
      · rw [h0.2, k3]) (fun j hj => by
      obtain rfl | rfl : j = 0 ∨ j = 1 := by omega
      · rw [hT.1, k2]
      · rw [hT.2, k4])
  rw [c1]
  exact ⟨l1, fun e t ht => by rw [ders_pos s ht]; exact l2 e 0 (by omega) t ht⟩

/-- **C109**, order 5: least integral of the squared jerk (the derivative of the acceleration) among all motions with
the same positions, velocities and accelerations at both ends. -/
theorem C109_quintic (S : Solver ℝ) (p : Options ℝ) (h : 0 < p.tf) (s0 : Spline .o5 ℝ) {d : ℕ → ℝ → ℝ}
    (hd : Motion 3 0 p.tf d) (h0 : d 0 0 = p.pos0 ∧ d 1 0 = p.vel0 ∧ d 2 0 = p.acc0)
    (hT : d 0 p.tf = p.posT ∧ d 1 p.tf = p.velT ∧ d 2 p.tf = p.accT) :
    ∃ s, s0.computeCoefficients S p = (true, s) ∧
      ∫ t in 0..p.tf, deriv s.getAccelerationAtTime t ^ 2 ≤ ∫ t in 0..p.tf, d 3 t ^ 2 ∧
      (∫ t in 0..p.tf, deriv s.getAccelerationAtTime t ^ 2 = ∫ t in 0..p.tf, d 3 t ^ 2 →
        ∀ t ∈ Icc 0 p.tf, d 0 t = s.getPositionAtTime t) := by
  obtain ⟨s, e, hdur, k1, k2, k3, k4, k5, k6⟩ := C16_boundary S .o5 p h s0
  refine ⟨s, e, ?_⟩
  replace k3 := k3 (by simp [Order.deg])
  replace k4 := k4 (by simp [Order.deg])
  replace k5 := k5 (by simp [Order.deg])
  replace k6 := k6 (by simp [Order.deg])
  rw [← hdur] at h hd hT k2 k4 k6 ⊢
  have c1 : ∫ t in 0..s.duration, deriv s.getAccelerationAtTime t ^ 2 =
      ∫ t in 0..s.duration, ders (toPoly s.coeffs) 3 t ^ 2 :=
    intervalIntegral.integral_congr_Ioo_of_le h.le fun t ht => by simp only [ders_jerk s ht]
  rw [ders_pos s ⟨le_rfl, h.le⟩] at k1
  rw [ders_pos s ⟨h.le, le_rfl⟩] at k2
  rw [ders_vel s ⟨le_rfl, h.le⟩] at k3
  rw [ders_vel s ⟨h.le, le_rfl⟩] at k4
  rw [ders_acc s ⟨le_rfl, h.le⟩] at k5
  rw [ders_acc s ⟨h.le, le_rfl⟩] at k6
  obtain ⟨l1, l2⟩ := poly_least (k := 2) (P := toPoly s.coeffs) (by have := natDegree_toPoly s.coeffs; simp [Order.deg] at this; omega)
    h.le hd (fun j hj => by
      obtain rfl | rfl | rfl : j = 0 ∨ j = 1 ∨ j = 2 := by omega
      · rw [h0.1, k1]
      · rw [h0.2.1, k3]
      · rw [h0.2.2, k5]) (fun j hj => by
      obtain rfl | rfl | rfl : j = 0 ∨ j = 1 ∨ j = 2 := by omega
      · rw [hT.1, k2]
      · rw [hT.2.1, k4]
      · rw [hT.2.2, k6])
  rw [c1]
  exact ⟨l1, fun e t ht => by rw [ders_pos s ht]; exact l2 e 0 (by omega) t ht⟩

/-- Hypotheses of `C109_line` met: `t^2` goes from 0 to 1 in one second as well; it needs more. -/
example (S : Solver ℝ) : ∃ s, (Spline.empty .o1 : Spline .o1 ℝ).computeCoefficients S ⟨1, 0, 1, 0, 0, 0, 0⟩ = (true, s) ∧
    ∫ t in (0 : ℝ)..1, s.getVelocityAtTime t ^ 2 ≤ ∫ t in (0 : ℝ)..1, ders (X ^ 2) 1 t ^ 2 := by
  obtain ⟨s, e, h, -⟩ := C109_line S ⟨1, 0, 1, 0, 0, 0, 0⟩ (by norm_num) (Spline.empty .o1) (d := ders (X ^ 2))
    (ders_motion _ _ (by norm_num)) (by simp [ders]) (by simp [ders])
  exact ⟨s, e, h⟩

/-- Hypotheses of `C109_cubic` met by `t^4`, from 0 to 1, with velocity 0 at the start and 4 at the end. -/
example (S : Solver ℝ) : ∃ s, (Spline.empty .o3 : Spline .o3 ℝ).computeCoefficients S ⟨1, 0, 1, 0, 4, 0, 0⟩ = (true, s) ∧
    ∫ t in (0 : ℝ)..1, s.getAccelerationAtTime t ^ 2 ≤ ∫ t in (0 : ℝ)..1, ders (X ^ 4) 2 t ^ 2 := by
  obtain ⟨s, e, h, -⟩ := C109_cubic S ⟨1, 0, 1, 0, 4, 0, 0⟩ (by norm_num) (Spline.empty .o3) (d := ders (X ^ 4))
    (ders_motion _ _ (by norm_num)) (by simp [ders]) (by norm_num [ders])
  exact ⟨s, e, h⟩

/-- Hypotheses of `C109_quintic` met by `t^6`. -/
example (S : Solver ℝ) : ∃ s, (Spline.empty .o5 : Spline .o5 ℝ).computeCoefficients S ⟨1, 0, 1, 0, 6, 0, 30⟩ = (true, s) ∧
    ∫ t in (0 : ℝ)..1, deriv s.getAccelerationAtTime t ^ 2 ≤ ∫ t in (0 : ℝ)..1, ders (X ^ 6) 3 t ^ 2 := by
  obtain ⟨s, e, h, -⟩ := C109_quintic S ⟨1, 0, 1, 0, 6, 0, 30⟩ (by norm_num) (Spline.empty .o5) (d := ders (X ^ 6))
    (ders_motion _ _ (by norm_num)) (by simp [ders]) (by norm_num [ders])
  exact ⟨s, e, h⟩

end Verif.Energy

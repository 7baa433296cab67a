import Verif.Kindr.ShortLemmas
import Verif.Hermite.TranslationProps

/-!
# Segments of an SE3 Hermite curve that turn about a fixed axis
-/

set_option linter.unusedSectionVars false
set_option linter.dupNamespace false

namespace Verif.Manager

section
variable {T C C' : Type} [LinearOrder T] [Zero T] {m : Mgr T C} {m' : Mgr T C'}

/-- Lookups in two tables with the same times. -/
theorem sameTimes_getAt (h : m'.knots.map Prod.fst = m.knots.map Prod.fst) (hs : Sorted m.nodes) (t : T) :
    m'.getMinTime = m.getMinTime ∧ m'.getMaxTime = m.getMaxTime ∧
    ((m.getCoefficientsAt t = none ∧ m'.getCoefficientsAt t = none) ∨
    ∃ a b a' b', m.getCoefficientsAt t = some (a, b) ∧ m'.getCoefficientsAt t = some (a', b') ∧
      a'.time = a.time ∧ b'.time = b.time) := by
  have hs' : Sorted m'.nodes := by rw [sorted_iff_knots, h]; exact sorted_iff_knots.1 hs
  have k1 := conv_knots (fun _ : C => ()) m
  have k2 : (m.conv (fun _ : C => ())).knots = m'.knots.map fun p => (p.1, ()) := by
    rw [k1]
    have : ∀ {D : Type} (l : List (T × D)), (l.map fun p => (p.1, ())) = (l.map Prod.fst).map fun t => (t, ()) := by
      intro D l; simp
    rw [this, this, h]
  refine ⟨(related_min (f := fun _ : C' => ()) k2).symm.trans (related_min (f := fun _ : C => ()) k1),
    (related_max (f := fun _ : C' => ()) k2).symm.trans (related_max (f := fun _ : C => ()) k1), ?_⟩
  rcases related_getAt (f := fun _ : C => ()) k1 hs t with ⟨e1, e2⟩ | ⟨a, b, x, y, e1, e2, h1, h2, -, -⟩ <;>
    rcases related_getAt (f := fun _ : C' => ()) k2 hs' t with ⟨e3, e4⟩ | ⟨a', b', x', y', e3, e4, h3, h4, -, -⟩
  · exact Or.inl ⟨e1, e3⟩
  · rw [e2] at e4; cases e4
  · rw [e2] at e4; cases e4
  · rw [e2] at e4
    cases e4
    exact Or.inr ⟨a, b, a', b', e1, e3, h3.symm.trans h1, h4.symm.trans h2⟩

end

end Verif.Manager

namespace Verif.Hermite.SE3

open Verif.Manager Verif.Kindr Quaternion

/-- `q` is the attitude `q0` turned by the angle `θ` about the axis `u` (of length 1). Of the two quaternions of an
attitude, the second is admitted if the logarithm treats both alike. -/
def Turned (L : LogMap) (u : Vec3) (q0 : Quat) (θ : ℝ) (q : Quat) : Prop :=
  q = exponentialMap (θ • u) * q0 ∨ L.Shortest ∧ q = -(exponentialMap (θ • u) * q0)

section
variable {L : LogMap} {u : Vec3} {q0 : Quat}

theorem Turned.isUnit {θ : ℝ} {q : Quat} (h0 : IsUnit' q0) (h : Turned L u q0 θ q) : IsUnit' q := by
  rcases h with rfl | ⟨-, rfl⟩
  · exact isUnit_mul (isUnit_exp _) h0
  · exact isUnit_neg (isUnit_mul (isUnit_exp _) h0)

/-- What `Turned` says of the rotation of vectors. -/
theorem Turned.rotate {θ : ℝ} {q : Quat} (h : Turned L u q0 θ q) (x : Vec3) :
    Kindr.rotate q x = Kindr.rotate (exponentialMap (θ • u)) (Kindr.rotate q0 x) := by
  rcases h with rfl | ⟨-, rfl⟩
  · rw [rotate_mul]
  · rw [rotate_neg, rotate_mul]

/-- The logarithm of a turn by less than half a turn. -/
theorem log_turn (hL : L.Near) {v : Vec3} (hv : vecNorm v < Real.pi) {q : Quat}
    (h : q = exponentialMap v ∨ L.Shortest ∧ q = -exponentialMap v) : L.log q = v := by
  rcases h with rfl | ⟨hs, rfl⟩
  · exact hL v hv
  · exact hs.eq hv (Or.inr rfl)

theorem exp_commutes (r s : ℝ) (v : Vec3) :
    exponentialMap (r • v) * vec (s • v) = vec (s • v) * exponentialMap (r • v) := by
  rw [exponentialMap_eq]
  refine Commute.exp_left ?_
  simp [Commute, SemiconjBy, vec_smul, smul_smul, mul_comm]

/-- The difference of two turns. -/
theorem boxMinus_turn (hL : L.Near) (h0 : IsUnit' q0) (hu : vecNorm u = 1) {a b : ℝ} {p q : Quat} (hp : Turned L u q0 a p)
    (hq : Turned L u q0 b q) (hab : |b - a| < Real.pi) : boxMinus L q p = (b - a) • u := by
  have h1 : exponentialMap (b • u) * q0 * star (exponentialMap (a • u) * q0) = exponentialMap ((b - a) • u) := by
    rw [star_mul, ← mul_assoc, mul_assoc _ q0 (star q0), self_mul_star' h0, mul_one, ← exponentialMap_neg, ← neg_smul,
      ← exponentialMap_add_smul]
    rfl
  have hv : vecNorm ((b - a) • u) < Real.pi := by rw [vecNorm_smul, hu, mul_one]; exact hab
  unfold boxMinus inverted
  refine log_turn hL hv ?_
  rcases hp with rfl | ⟨hs, rfl⟩ <;> rcases hq with rfl | ⟨hs, rfl⟩
  · exact Or.inl h1
  · exact Or.inr ⟨hs, by rw [neg_mul, h1]⟩
  · exact Or.inr ⟨hs, by rw [star_neg, mul_neg, h1]⟩
  · exact Or.inl (by rw [star_neg, neg_mul_neg, h1])

/-- An axis seen from an attitude that is turned about it. -/
theorem inverseRotate_turned {θ : ℝ} {q : Quat} (h : Turned L u q0 θ q) (r : ℝ) :
    inverseRotate q (r • u) = r • inverseRotate q0 u := by
  rw [← inverseRotate_smul]
  have key : inverseRotate (exponentialMap (θ • u) * q0) (r • u) = inverseRotate q0 (r • u) := by
    apply vec_injective
    rw [vec_inverseRotate, vec_inverseRotate, star_mul,
      show star q0 * star (exponentialMap (θ • u)) * vec (r • u) * (exponentialMap (θ • u) * q0) =
        star q0 * star (exponentialMap (θ • u)) * (vec (r • u) * exponentialMap (θ • u)) * q0 by noncomm_ring,
      ← exp_commutes, show star q0 * star (exponentialMap (θ • u)) * (exponentialMap (θ • u) * vec (r • u)) * q0 =
        star q0 * (star (exponentialMap (θ • u)) * exponentialMap (θ • u)) * vec (r • u) * q0 by noncomm_ring,
      star_mul_self' (isUnit_exp _), mul_one]
  rcases h with rfl | ⟨-, rfl⟩
  · exact key
  · rw [← key]
    simp [inverseRotate]

/-- The rotation of a segment whose ends are turned about the same axis. -/
theorem rotation_turned (hL : L.Near) (hu : vecNorm u = 1) (h0 : IsUnit' q0) {a b : Node ℝ HKnot}
    {θa θb ra rb : ℝ} (ha : Turned L u q0 θa a.coef.transformation.rotation)
    (hb : Turned L u q0 θb b.coef.transformation.rotation) (hra : a.coef.derivative.rotationalVelocity = ra • u)
    (hrb : b.coef.derivative.rotationalVelocity = rb • u)
    (hφ : |θb - θa - (b.time - a.time) / 3 * (ra + rb)| < Real.pi) :
    ∃ σ : ℝ, (σ = 1 ∨ L.Shortest ∧ σ = -1) ∧ ∀ (t : ℝ) (a' b' : Node ℝ (Knot ℝ)), a'.time = a.time → b'.time = b.time →
      a'.coef = ⟨θa, ra⟩ → b'.coef = ⟨θb, rb⟩ →
      (interpolate L a b t).rotation = σ • (exponentialMap (E3.interpolate a' b' t • u) * q0) := by
  set u' := inverseRotate q0 u with hu'
  have hpush : ∀ r : ℝ, exponentialMap (r • u') = star q0 * exponentialMap (r • u) * q0 := by
    intro r
    rw [hu', ← inverseRotate_smul, exp_inverseRotate h0]
  have hpull : ∀ r s : ℝ, exponentialMap (r • u) * q0 * exponentialMap (s • u') = exponentialMap ((r + s) • u) * q0 := by
    intro r s
    rw [hpush, show exponentialMap (r • u) * q0 * (star q0 * exponentialMap (s • u) * q0) =
      exponentialMap (r • u) * (q0 * star q0) * exponentialMap (s • u) * q0 by noncomm_ring, self_mul_star' h0, mul_one,
      exponentialMap_add_smul]
  have hnu : vecNorm u' = 1 := by
    rw [← hu, ← vecNorm_rotate h0 u', hu', rotate_inverseRotate h0]
  set dt := b.time - a.time with hdt
  have hw1 : inverseRotate a.coef.transformation.rotation ((dt / 3) • a.coef.derivative.rotationalVelocity) =
      (dt / 3 * ra) • u' := by
    rw [hra, smul_smul, inverseRotate_turned ha]
  have hw3 : inverseRotate b.coef.transformation.rotation ((dt / 3) • b.coef.derivative.rotationalVelocity) =
      (dt / 3 * rb) • u' := by
    rw [hrb, smul_smul, inverseRotate_turned hb]
  set φ := θb - θa - dt / 3 * (ra + rb) with hφ'
  have hstar : star (exponentialMap (θa • u) * q0) * (exponentialMap (θb • u) * q0) = exponentialMap ((θb - θa) • u') := by
    rw [hpush, star_mul, show star q0 * star (exponentialMap (θa • u)) * (exponentialMap (θb • u) * q0) =
      star q0 * (star (exponentialMap (θa • u)) * exponentialMap (θb • u)) * q0 by noncomm_ring, ← exponentialMap_neg,
      ← neg_smul, ← exponentialMap_add_smul, show -θa + θb = θb - θa by ring]
  have hmid : exponentialMap (-((dt / 3 * ra) • u')) * exponentialMap ((θb - θa) • u') *
      exponentialMap (-((dt / 3 * rb) • u')) = exponentialMap (φ • u') := by
    rw [← neg_smul, ← neg_smul, ← exponentialMap_add_smul, ← exponentialMap_add_smul]
    congr 2
    rw [hφ']; ring
  have hlog : L.log (exponentialMap (-((dt / 3 * ra) • u')) * star a.coef.transformation.rotation *
      b.coef.transformation.rotation * exponentialMap (-((dt / 3 * rb) • u'))) = φ • u' := by
    refine log_turn hL (by rw [vecNorm_smul, hnu, mul_one]; exact hφ) ?_
    rw [← hmid, mul_assoc (exponentialMap (-((dt / 3 * ra) • u'))) (star _)]
    rcases ha with ha | ⟨hs, ha⟩ <;> rcases hb with hb | ⟨hs, hb⟩ <;> rw [ha, hb]
    · exact Or.inl (by rw [hstar])
    · exact Or.inr ⟨hs, by rw [mul_neg, hstar]; simp⟩
    · exact Or.inr ⟨hs, by rw [star_neg, neg_mul, hstar]; simp⟩
    · exact Or.inl (by rw [star_neg, neg_mul_neg, hstar])
  have hcv : controlVectors L a b = ((dt / 3 * ra) • u', φ • u', (dt / 3 * rb) • u') := by
    simp only [controlVectors, ← hdt, hw1, hw3, inverted, hlog]
  have hmain : ∀ (t : ℝ) (a' b' : Node ℝ (Knot ℝ)), a'.time = a.time → b'.time = b.time → a'.coef = ⟨θa, ra⟩ →
      b'.coef = ⟨θb, rb⟩ → ∀ σ : ℝ, a.coef.transformation.rotation = σ • (exponentialMap (θa • u) * q0) →
      (interpolate L a b t).rotation = σ • (exponentialMap (E3.interpolate a' b' t • u) * q0) := by
    intro t a' b' h1 h2 h3 h4 σ hσ
    simp only [interpolate, hcv, hσ, smul_mul_assoc, smul_smul, hpull]
    congr 4
    simp only [E3.interpolate, h1, h2, h3, h4, hφ', ← hdt, smul_eq_mul]
    ring
  rcases ha with ha | ⟨hs, ha⟩
  · exact ⟨1, Or.inl rfl, fun t a' b' h1 h2 h3 h4 => hmain t a' b' h1 h2 h3 h4 1 (by rw [ha, one_smul])⟩
  · exact ⟨-1, Or.inr ⟨hs, rfl⟩, fun t a' b' h1 h2 h3 h4 => hmain t a' b' h1 h2 h3 h4 (-1) (by rw [ha, neg_one_smul])⟩

/-- Rotation and angular velocity of such a segment. -/
theorem segment_turned (hL : L.Near) (hu : vecNorm u = 1) (h0 : IsUnit' q0) {a b : Node ℝ HKnot} (hab : a.time < b.time)
    {θa θb ra rb : ℝ} (ha : Turned L u q0 θa a.coef.transformation.rotation)
    (hb : Turned L u q0 θb b.coef.transformation.rotation) (hra : a.coef.derivative.rotationalVelocity = ra • u)
    (hrb : b.coef.derivative.rotationalVelocity = rb • u)
    (hφ : |θb - θa - (b.time - a.time) / 3 * (ra + rb)| < Real.pi) (t : ℝ) {a' b' : Node ℝ (Knot ℝ)}
    (h1 : a'.time = a.time) (h2 : b'.time = b.time) (h3 : a'.coef = ⟨θa, ra⟩) (h4 : b'.coef = ⟨θb, rb⟩) :
    Turned L u q0 (E3.interpolate a' b' t) (interpolate L a b t).rotation ∧
    (interpolateTwist L a b t).rotationalVelocity = E3.interpolateVelocity a' b' t • u := by
  obtain ⟨σ, hσ, hr⟩ := rotation_turned hL hu h0 ha hb hra hrb hφ
  have hr' := fun s => hr s a' b' h1 h2 h3 h4
  have hσ2 : σ * σ = 1 := by rcases hσ with rfl | ⟨-, rfl⟩ <;> norm_num
  constructor
  · rw [hr']
    rcases hσ with rfl | ⟨hs, rfl⟩
    · exact Or.inl (one_smul _ _)
    · exact Or.inr ⟨hs, neg_one_smul _ _⟩
  · apply vec_injective
    rw [vec_angular (ha.isUnit h0)]
    have hd := hasDerivAt_rotation (L := L) hab t
    have hd' : HasDerivAt (fun s => (interpolate L a b s).rotation)
        (σ • (exponentialMap (E3.interpolate a' b' t • u) *
          ((1 / 2 : ℝ) • vec (E3.interpolateVelocity a' b' t • u)) * q0)) t := by
      have := ((hasDerivAt_exp (E3.hasDerivAt_interpolate a' b' (by rw [h1, h2]; exact hab) t) u).mul_const q0).const_smul σ
      refine this.congr_of_eventuallyEq (Filter.Eventually.of_forall hr')
    have hdiff : (interpolateDerivative L a b t).2 = σ • (exponentialMap (E3.interpolate a' b' t • u) *
          vec (E3.interpolateVelocity a' b' t • u) * q0) := by
      have he := hd.unique hd'
      have := congrArg (fun x : Quat => (2 : ℝ) • x) he
      simp only [smul_smul, mul_smul_comm, smul_mul_assoc] at this
      norm_num at this
      rw [this]
      congr 1
      ring
    rw [hdiff, hr', Quaternion.star_smul, star_mul, exp_commutes]
    simp only [smul_mul_assoc, mul_smul_comm, smul_smul, hσ2, one_smul]
    rw [show vec (E3.interpolateVelocity a' b' t • u) * exponentialMap (E3.interpolate a' b' t • u) * q0 *
      (star q0 * star (exponentialMap (E3.interpolate a' b' t • u))) = vec (E3.interpolateVelocity a' b' t • u) *
      (exponentialMap (E3.interpolate a' b' t • u) * (q0 * star q0) * star (exponentialMap (E3.interpolate a' b' t • u)))
      by noncomm_ring, self_mul_star' h0, mul_one, self_mul_star' (isUnit_exp _), mul_one]

end

end Verif.Hermite.SE3

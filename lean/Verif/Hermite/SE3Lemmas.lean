import Verif.Hermite.SE3History
import Verif.Hermite.E3Lemmas
import Verif.Manager.EvalLemmas
import Verif.Kindr.Lemmas

/-!
# Lemmas about `CubicHermiteSE3Curve`
-/

set_option linter.unusedSectionVars false
set_option linter.dupNamespace false

namespace Verif.Hermite

open Verif.Manager Verif.Kindr

namespace SE3

/-! ## Histories -/

theorem fitLoop_unit {L : LogMap} {ts : List ℝ} {vs : List Pose} {d0 dT : Twist}
    (hv : ∀ v ∈ vs, IsUnit' v.rotation) : ∀ {n i : Nat} {cs : List HKnot},
    fitLoop L ts vs d0 dT n i = .ok cs → ∀ k ∈ cs, IsUnit' k.transformation.rotation := by
  intro n
  induction n with
  | zero => intro i cs e; simp only [fitLoop] at e; cases e; simp
  | succ n ih =>
    intro i cs e
    obtain ⟨d, -, e⟩ := Outcome.bind_eq_ok.1 e
    obtain ⟨v, hv', e⟩ := Outcome.bind_eq_ok.1 e
    obtain ⟨r, hr, e⟩ := Outcome.bind_eq_ok.1 e
    cases e
    intro k hk
    rcases List.mem_cons.1 hk with rfl | hk
    · cases h : vs[i]? with
      | none => rw [h] at hv'; cases hv'
      | some x =>
        rw [h] at hv'; cases hv'
        exact hv _ (List.mem_of_getElem? h)
    · exact ih hr k hk

/-- What histories keep: sorted times and unit rotations. -/
def Good (c : SE3) : Prop :=
  Sorted c.m.nodes ∧ ∀ n ∈ c.m.nodes, IsUnit' n.coef.transformation.rotation

theorem fit_good {L : LogMap} {ts : List ℝ} {vs : List Pose} {d0 dT : Twist} {c c' : SE3}
    {ks : List Key} (hv : ∀ v ∈ vs, IsUnit' v.rotation)
    (e : fitCurveWithDerivatives L ts vs d0 dT c = .ok (c', ks)) : Good c' := by
  unfold fitCurveWithDerivatives at e
  split at e
  · cases e
  · obtain ⟨cs, h1, h2⟩ := Outcome.bind_eq_ok.1 e
    obtain ⟨⟨w, m, ks'⟩, h3, h4⟩ := Outcome.bind_eq_ok.1 h2
    cases h4
    refine ⟨insertCoefficients_sorted (by simp [clear, Mgr.clear, Sorted]) h3, ?_⟩
    exact insertCoefficients_forall (P := fun k => IsUnit' k.transformation.rotation)
      (by simp [clear, Mgr.clear]) (fitLoop_unit hv h1) h3

theorem insertCoefficients_one {T C : Type} [LinearOrder T] {w w' : World} {m m' : Mgr T C} {t : T} {c : C}
    {k : Key} (e : m.insertCoefficient w t c = .ok (w', m', k)) :
    m.insertCoefficients w [t] [c] = .ok (w', m', [k]) := by
  simp [Mgr.insertCoefficients, Mgr.insertLoop, e]

theorem insert_good {p p' : HPol} {c c' : SE3} {t : ℝ} {k : HKnot} (hs : Good c)
    (hk : IsUnit' k.transformation.rotation) (e : HPol.insert p c t k = .ok (p', c')) : Good c' := by
  obtain ⟨⟨w, m, key⟩, h1, h2⟩ := Outcome.bind_eq_ok.1 e
  cases h2
  have h1 := insertCoefficients_one h1
  exact ⟨insertCoefficients_sorted hs.1 h1,
    insertCoefficients_forall (P := fun k => IsUnit' k.transformation.rotation) hs.2 (by simpa using hk) h1⟩

theorem update_good {w : World} {m m' : Mgr ℝ HKnot} {key : Key} {k : HKnot} (hs : Good ⟨w, m⟩)
    (hk : IsUnit' k.transformation.rotation) (e : m.updateCoefficientByKey key k = .ok m') :
    Good ⟨w, m'⟩ := by
  unfold Mgr.updateCoefficientByKey at e
  split at e
  · cases e
  · next a _ =>
    split at e
    · cases e
    cases e
    refine ⟨?_, ?_⟩
    · have := hs.1
      simp only [sorted_iff_times] at this ⊢
      simpa using this
    · intro x hx
      simp only [setCoefAt, List.mem_map] at hx
      obtain ⟨y, hy, rfl⟩ := hx
      split
      · exact hk
      · exact hs.2 y hy

theorem remove_good {w : World} {m m' : Mgr ℝ HKnot} {t : ℝ} (hs : Good ⟨w, m⟩)
    (e : m.removeCoefficientAtTime t = .ok m') : Good ⟨w, m'⟩ := by
  unfold Mgr.removeCoefficientAtTime at e
  have key : m'.nodes.Sublist m.nodes := by
    split at e
    · cases e
    · split at e
      · cases e
      · cases e
        exact List.filter_sublist
  exact ⟨hs.1.sublist key, fun n hn => hs.2 n (key.subset hn)⟩

theorem deref_mem {A : Type} {l : List A} {a : A} (h : Outcome.deref l.head? = .ok a ∨
    Outcome.deref l.getLast? = .ok a) : a ∈ l := by
  rcases h with h | h
  · cases e : l.head? with
    | none => rw [e] at h; cases h
    | some b => rw [e] at h; cases h; exact List.mem_of_head? e
  · cases e : l.getLast? with
    | none => rw [e] at h; cases h
    | some b => rw [e] at h; cases h; exact List.mem_of_getLast? e

theorem deref_at {m : Mgr ℝ HKnot} {t : ℝ} {r : Node ℝ HKnot × Node ℝ HKnot}
    (h : Outcome.deref (m.getCoefficientsAt t) = .ok r) : r.1 ∈ m.nodes ∧ r.2 ∈ m.nodes := by
  cases e : m.getCoefficientsAt t with
  | none => rw [e] at h; cases h
  | some b =>
    rw [e] at h
    cases h
    obtain ⟨pre, post, hm, -⟩ := getAt_some (a := r.1) (b := r.2) e
    simp [hm]

theorem default_good {L : LogMap} {p p' : HPol} {c c' : SE3} {t : ℝ} {v : Pose} (hs : Good c)
    (hv : IsUnit' v.rotation) (e : HPol.defaultExtend L p c t v = .ok (p', c')) : Good c' := by
  unfold HPol.defaultExtend at e
  split at e
  · exact insert_good hs hv e
  · split at e
    · obtain ⟨n, hn, e⟩ := Outcome.bind_eq_ok.1 e
      obtain ⟨m, hm, e⟩ := Outcome.bind_eq_ok.1 e
      have hn' := deref_mem (.inl hn)
      exact insert_good (update_good (w := c.w) hs (by exact hs.2 n hn') hm) hv e
    · obtain ⟨n, hn, e⟩ := Outcome.bind_eq_ok.1 e
      obtain ⟨r, hr, e⟩ := Outcome.bind_eq_ok.1 e
      obtain ⟨m, hm, e⟩ := Outcome.bind_eq_ok.1 e
      exact insert_good (update_good (w := c.w) hs (by exact hs.2 _ (deref_at hr).2) hm) hv e

theorem extendOne_good {L : LogMap} {p p' : HPol} {c c' : SE3} {t : ℝ} {v : Pose} (hs : Good c)
    (hv : IsUnit' v.rotation) (e : HPol.extendOne L p c t v = .ok (p', c')) : Good c' := by
  unfold HPol.extendOne at e
  split at e
  · cases e
  · split at e
    · exact default_good hs hv e
    · split at e
      · obtain ⟨n, hn, e⟩ := Outcome.bind_eq_ok.1 e
        obtain ⟨m, hm, e⟩ := Outcome.bind_eq_ok.1 e
        exact default_good (remove_good (w := c.w) hs hm) hv e
      · unfold HPol.interpolationExtend at e
        split at e
        · obtain ⟨n, hn, e⟩ := Outcome.bind_eq_ok.1 e
          exact insert_good hs hv e
        · obtain ⟨n, hn, e⟩ := Outcome.bind_eq_ok.1 e
          obtain ⟨r, hr, e⟩ := Outcome.bind_eq_ok.1 e
          obtain ⟨m, hm, e⟩ := Outcome.bind_eq_ok.1 e
          split at e
          · cases e
          · exact insert_good (remove_good (w := c.w) hs hm) hv e

theorem extend_good {L : LogMap} (ts : List ℝ) : ∀ {vs : List Pose} {p p' : HPol} {c c' : SE3}, Good c →
    (∀ v ∈ vs, IsUnit' v.rotation) → HPol.extend L p c ts vs = .ok (p', c') → Good c' := by
  induction ts with
  | nil => intro vs p p' c c' hs _ e; simp only [HPol.extend] at e; cases e; exact hs
  | cons t ts ih =>
    intro vs p p' c c' hs hv e
    cases vs with
    | nil => simp only [HPol.extend] at e; cases e
    | cons v vs =>
      obtain ⟨⟨p1, c1⟩, h1, h2⟩ := Outcome.bind_eq_ok.1 e
      exact ih (extendOne_good hs (hv v (by simp)) h1) (fun x hx => hv x (by simp [hx])) h2

theorem step_good {L : LogMap} {c c' : SE3} {op : Op} (hs : Good c) (hv : op.UnitRotations)
    (e : step L c op = .ok c') : Good c' := by
  cases op with
  | fit ts vs =>
    obtain ⟨⟨c1, ks⟩, h1, h2⟩ := Outcome.bind_eq_ok.1 e
    cases h2; exact fit_good hv h1
  | fitDerivatives ts vs d0 dT =>
    obtain ⟨⟨c1, ks⟩, h1, h2⟩ := Outcome.bind_eq_ok.1 e
    cases h2; exact fit_good hv h1
  | fitPeriodic ts vs =>
    simp only [step, fitPeriodicCurve] at e
    split at e
    · cases e
    · obtain ⟨r, h1, h2⟩ := Outcome.bind_eq_ok.1 e
      obtain ⟨ta, -, h1⟩ := Outcome.bind_eq_ok.1 h1
      obtain ⟨tb, -, h1⟩ := Outcome.bind_eq_ok.1 h1
      obtain ⟨va, -, h1⟩ := Outcome.bind_eq_ok.1 h1
      obtain ⟨vb, -, h1⟩ := Outcome.bind_eq_ok.1 h1
      cases h2; exact fit_good hv h1
  | extend ts vs => simp only [step, extend] at e; cases e
  | extendWith p ts vs =>
    obtain ⟨⟨p1, c1⟩, h1, h2⟩ := Outcome.bind_eq_ok.1 e
    cases h2; exact extend_good ts hs hv h1
  | transform T => simp only [step, transformCurve] at e; cases e; exact hs
  | clear => cases e; simp [Good, clear, Mgr.clear, Sorted]

theorem Reachable.good {L : LogMap} {c : SE3} (h : Reachable L c) : Good c := by
  obtain ⟨w, ops, hv, e⟩ := h
  have : ∀ (ops : List Op) (c0 c : SE3), Good c0 → (∀ op ∈ ops, op.UnitRotations) →
      run L c0 ops = .ok c → Good c := by
    intro ops
    induction ops with
    | nil => intro c0 c hs _ e; simp only [run] at e; cases e; exact hs
    | cons op rest ih =>
      intro c0 c hs hv e
      obtain ⟨c1, h1, h2⟩ := Outcome.bind_eq_ok.1 e
      exact ih c1 c (step_good hs (hv op (by simp)) h1) (fun o ho => hv o (by simp [ho])) h2
  exact this ops _ c (by simp [Good, fresh, Mgr.empty, Sorted]) hv e

/-! ## The evaluators in the common shape -/

/-- The twist `evaluateDerivative` computes on a segment. -/
noncomputable def interpolateTwist (L : LogMap) (a b : Node ℝ HKnot) (t : ℝ) : Twist :=
  let d := interpolateDerivative L a b t
  let q := (interpolate L a b t).rotation
  ⟨d.1, rotate q (imaginary (inverted q * d.2))⟩

theorem evaluate_eq (L : LogMap) (t : ℝ) (c : SE3) :
    evaluate L t c = evalWith HKnot.transformation (interpolate L) t c.m := by
  unfold evaluate evalWith
  by_cases h : c.m.getMaxTime = t ∧ c.m.getMinTime = t
  · rw [if_pos h, if_pos h]
  · rw [if_neg h, if_neg h]
    cases c.m.getCoefficientsAt t <;> rfl

theorem evaluateDerivative_eq (L : LogMap) (t : ℝ) (c : SE3) :
    evaluateDerivative L t 1 c = evalWith HKnot.derivative (interpolateTwist L) t c.m := by
  rw [evaluateDerivative, if_pos rfl, evalWith]
  by_cases h : c.m.getMaxTime = t ∧ c.m.getMinTime = t
  · rw [if_pos h, if_pos h]
  · rw [if_neg h, if_neg h]
    cases e : c.m.getCoefficientsAt t with
    | none => rfl
    | some p =>
      obtain ⟨a, b⟩ := p
      simp only [evaluate, if_neg h, e, Outcome.ok_bind]
      rfl

/-! ## The translation part is that of the vector curve -/

/-- The translation part of a knot. -/
def translationPart (k : HKnot) : Knot Vec3 := ⟨k.transformation.position, k.derivative.translationalVelocity⟩

/-- The translation part of a node. -/
def tr (n : Node ℝ HKnot) : Node ℝ (Knot Vec3) := ⟨n.addr, n.time, n.key, translationPart n.coef⟩

theorem position_eq (L : LogMap) (a b : Node ℝ HKnot) (t : ℝ) :
    (interpolate L a b t).position = E3.interpolate (tr a) (tr b) t := rfl

theorem velocity_eq (L : LogMap) (a b : Node ℝ HKnot) (t : ℝ) :
    (interpolateTwist L a b t).translationalVelocity = E3.interpolateVelocity (tr a) (tr b) t := rfl

theorem acceleration_eq (a b : Node ℝ HKnot) (t : ℝ) :
    interpolateAcceleration a b t = E3.interpolateAcceleration (tr a) (tr b) t := rfl

/-! ## The rotation on a segment -/

section segment
variable {L : LogMap} {a b : Node ℝ HKnot}

theorem isUnit_interpolate (ha : IsUnit' a.coef.transformation.rotation) (t : ℝ) :
    IsUnit' (interpolate L a b t).rotation :=
  isUnit_mul (isUnit_mul (isUnit_mul ha (isUnit_exp _)) (isUnit_exp _)) (isUnit_exp _)

theorem interpolate_left (L : LogMap) (a b : Node ℝ HKnot) :
    interpolate L a b a.time = a.coef.transformation := by
  have h1 : (interpolate L a b a.time).position = a.coef.transformation.position := by
    rw [position_eq]
    exact E3.interpolate_left (tr a) (tr b)
  have h2 : (interpolate L a b a.time).rotation = a.coef.transformation.rotation := by
    simp [interpolate, exponentialMap_zero]
  generalize interpolate L a b a.time = x at h1 h2
  generalize a.coef.transformation = y at h1 h2
  cases x; cases y
  simp_all

theorem position_right (h : a.time < b.time) :
    (interpolate L a b b.time).position = b.coef.transformation.position :=
  E3.interpolate_right (a := tr a) (b := tr b) h

/-- `exp(w1) * exp(w2) * exp(w3)` takes the rotation of `a` to that of `b`, up to sign. -/
theorem control_product (ha : IsUnit' a.coef.transformation.rotation)
    (hb : IsUnit' b.coef.transformation.rotation) :
    let w := controlVectors L a b
    let q := a.coef.transformation.rotation * exponentialMap w.1 * exponentialMap w.2.1 *
      exponentialMap w.2.2
    q = b.coef.transformation.rotation ∨ q = -b.coef.transformation.rotation := by
  intro w q
  set qA := a.coef.transformation.rotation
  set qB := b.coef.transformation.rotation
  set x := exponentialMap (-w.1) * inverted qA * qB * exponentialMap (-w.2.2) with hx
  have hu : IsUnit' x := isUnit_mul (isUnit_mul (isUnit_mul (isUnit_exp _) (isUnit_star ha)) hb)
    (isUnit_exp _)
  have hw : w.2.1 = L.log x := rfl
  have hq : qA * exponentialMap w.1 * x * exponentialMap w.2.2 = qB := by
    have : qA * exponentialMap w.1 * x * exponentialMap w.2.2 =
        qA * (exponentialMap w.1 * exponentialMap (-w.1)) * star qA * qB *
          (exponentialMap (-w.2.2) * exponentialMap w.2.2) := by
      rw [hx, inverted]; noncomm_ring
    rw [this, exp_mul_neg, exp_neg_mul, mul_one, mul_one, self_mul_star' ha, one_mul]
  rcases L.exp_log x hu with h | h
  · left
    simp only [q, hw, h]
    exact hq
  · right
    simp only [q, hw, h, mul_neg, neg_mul]
    rw [← hq]

theorem rotation_right (h : a.time < b.time) (ha : IsUnit' a.coef.transformation.rotation)
    (hb : IsUnit' b.coef.transformation.rotation) :
    (interpolate L a b b.time).rotation = b.coef.transformation.rotation ∨
    (interpolate L a b b.time).rotation = -b.coef.transformation.rotation := by
  have hd : b.time - a.time ≠ 0 := (sub_pos.2 h).ne'
  have := control_product (L := L) ha hb
  simp only [interpolate, div_self hd]
  norm_num
  simpa using this

theorem rotate_right (h : a.time < b.time) (ha : IsUnit' a.coef.transformation.rotation)
    (hb : IsUnit' b.coef.transformation.rotation) (u : Vec3) :
    rotate (interpolate L a b b.time).rotation u = rotate b.coef.transformation.rotation u := by
  rcases rotation_right (L := L) h ha hb with e | e
  · rw [e]
  · rw [e, rotate_neg]

/-- The rotation on a segment, as `evaluateDerivative` writes it. -/
theorem rotation_eq (L : LogMap) (a b : Node ℝ HKnot) (t : ℝ) :
    let w := controlVectors L a b
    let al := (t - a.time) / (b.time - a.time)
    (interpolate L a b t).rotation = a.coef.transformation.rotation *
      exponentialMap ((1 - (1 - al) * ((1 - al) * (1 - al))) • w.1) *
      exponentialMap ((3 * (al * al) - 2 * (al * al * al)) • w.2.1) *
      exponentialMap ((al * al * al) • w.2.2) := by
  intro w al
  have e1 : 1 - (1 - al) * ((1 - al) * (1 - al)) = al * al * al - 3 * (al * al) + 3 * al := by ring
  have e2 : 3 * (al * al) - 2 * (al * al * al) = -2 * (al * al * al) + 3 * (al * al) := by ring
  rw [e1, e2]
  rfl

/-- `diff` is twice the derivative of the rotation. -/
theorem hasDerivAt_rotation (h : a.time < b.time) (t : ℝ) :
    HasDerivAt (fun s => (interpolate L a b s).rotation)
      ((1 / 2 : ℝ) • (interpolateDerivative L a b t).2) t := by
  have hd : b.time - a.time ≠ 0 := (sub_pos.2 h).ne'
  set dt := b.time - a.time with hdt
  have hα : HasDerivAt (fun s => (s - a.time) / dt) (1 / dt) t :=
    ((hasDerivAt_id t).sub_const _).div_const dt
  set α := (t - a.time) / dt with hα'
  have h2 : HasDerivAt (fun s => (s - a.time) / dt * ((s - a.time) / dt)) (2 * α * (1 / dt)) t :=
    (hα.mul hα).congr_deriv (by ring)
  have h3 : HasDerivAt (fun s => (s - a.time) / dt * ((s - a.time) / dt) * ((s - a.time) / dt))
      (3 * (α * α) * (1 / dt)) t := (h2.mul hα).congr_deriv (by ring)
  set w := controlVectors L a b with hw
  have b1 : HasDerivAt (fun s => 1 - (1 - (s - a.time) / dt) *
      ((1 - (s - a.time) / dt) * (1 - (s - a.time) / dt)))
      (1 / dt * (3 * ((1 - α) * (1 - α)))) t := by
    have h1 : HasDerivAt (fun s => 1 - (s - a.time) / dt) (-(1 / dt)) t := by
      exact ((hasDerivAt_const t (1 : ℝ)).sub hα).congr_deriv (by ring)
    have := (hasDerivAt_const t (1 : ℝ)).sub (h1.mul (h1.mul h1))
    refine this.congr_deriv ?_
    simp only [Pi.mul_apply, ← hα']
    ring
  have b2 : HasDerivAt (fun s => 3 * ((s - a.time) / dt * ((s - a.time) / dt)) -
      2 * ((s - a.time) / dt * ((s - a.time) / dt) * ((s - a.time) / dt)))
      (1 / dt * (6 * α * (1 - α))) t :=
    ((h2.const_mul 3).sub (h3.const_mul 2)).congr_deriv (by ring)
  have b3 : HasDerivAt (fun s => (s - a.time) / dt * ((s - a.time) / dt) * ((s - a.time) / dt))
      (1 / dt * (3 * (α * α))) t := h3.congr_deriv (by ring)
  have e1 := hasDerivAt_exp b1 w.1
  have e2 := hasDerivAt_exp b2 w.2.1
  have e3 := hasDerivAt_exp b3 w.2.2
  have key := (((hasDerivAt_const t a.coef.transformation.rotation).mul e1).mul e2).mul e3
  have hfun : (fun s => (interpolate L a b s).rotation) = fun s => a.coef.transformation.rotation *
      exponentialMap ((1 - (1 - (s - a.time) / dt) *
        ((1 - (s - a.time) / dt) * (1 - (s - a.time) / dt))) • w.1) *
      exponentialMap ((3 * ((s - a.time) / dt * ((s - a.time) / dt)) -
        2 * ((s - a.time) / dt * ((s - a.time) / dt) * ((s - a.time) / dt))) • w.2.1) *
      exponentialMap (((s - a.time) / dt * ((s - a.time) / dt) * ((s - a.time) / dt)) • w.2.2) := by
    funext s
    exact rotation_eq L a b s
  rw [hfun]
  refine key.congr_deriv ?_
  simp only [interpolateDerivative, ← hdt, ← hα', ← hw]
  have hq : ∀ (r : ℝ) (u : Vec3), vec ((1 / dt * r) • u) = (1 / dt) • quat 0 (r • u) := fun r u => by
    rw [mul_smul, vec_smul, vec]
  simp only [Pi.mul_apply, ← hα', hq]
  simp only [zero_mul, zero_add, smul_mul_assoc, mul_smul_comm, add_mul, smul_add, smul_smul, mul_assoc,
    mul_comm (1 / 2 : ℝ)]

/-- The inverse rotation times `diff` has no real part. -/
theorem diff_pure (ha : IsUnit' a.coef.transformation.rotation) (t : ℝ) :
    star (star (interpolate L a b t).rotation * (interpolateDerivative L a b t).2) =
      -(star (interpolate L a b t).rotation * (interpolateDerivative L a b t).2) := by
  rw [rotation_eq L a b t]
  simp only [interpolateDerivative]
  set w := controlVectors L a b
  set al := (t - a.time) / (b.time - a.time)
  set qA := a.coef.transformation.rotation
  generalize h1 : exponentialMap ((1 - (1 - al) * ((1 - al) * (1 - al))) • w.1) = e1
  generalize h2 : exponentialMap ((3 * (al * al) - 2 * (al * al * al)) • w.2.1) = e2
  generalize h3 : exponentialMap ((al * al * al) • w.2.2) = e3
  have u1 : star e1 * e1 = 1 := star_mul_self' (h1 ▸ isUnit_exp _)
  have u2 : star e2 * e2 = 1 := star_mul_self' (h2 ▸ isUnit_exp _)
  have u3 : star e3 * e3 = 1 := star_mul_self' (h3 ▸ isUnit_exp _)
  have uA : star qA * qA = 1 := star_mul_self' ha
  have p1 := star_vec ((3 * ((1 - al) * (1 - al))) • w.1)
  have p2 := star_vec ((6 * al * (1 - al)) • w.2.1)
  have p3 := star_vec ((3 * (al * al)) • w.2.2)
  simp only [vec] at p1 p2 p3
  generalize quat 0 ((3 * ((1 - al) * (1 - al))) • w.1) = x1 at p1 ⊢
  generalize quat 0 ((6 * al * (1 - al)) • w.2.1) = x2 at p2 ⊢
  generalize quat 0 ((3 * (al * al)) • w.2.2) = x3 at p3 ⊢
  have key : star (qA * e1 * e2 * e3) * (qA * e1 * x1 * e2 * e3 + qA * e1 * e2 * x2 * e3 +
      qA * e1 * e2 * e3 * x3) =
      star (e2 * e3) * x1 * (e2 * e3) + star e3 * x2 * e3 + x3 := by
    have hA : ∀ y, star qA * (qA * y) = y := fun y => by rw [← mul_assoc, uA, one_mul]
    have hB : ∀ y, star e1 * (e1 * y) = y := fun y => by rw [← mul_assoc, u1, one_mul]
    have hC : ∀ y, star e2 * (e2 * y) = y := fun y => by rw [← mul_assoc, u2, one_mul]
    have hD : ∀ y, star e3 * (e3 * y) = y := fun y => by rw [← mul_assoc, u3, one_mul]
    simp only [star_mul, mul_assoc, mul_add, hA, hB, hC, hD]
  rw [mul_smul_comm, key, Quaternion.star_smul, star_add, star_add, star_conj' p1, star_conj' p2, p3,
    ← smul_neg]
  congr 1
  abel

/-- The angular velocity reported on a segment, as a quaternion. -/
theorem vec_angular (ha : IsUnit' a.coef.transformation.rotation) (t : ℝ) :
    vec (interpolateTwist L a b t).rotationalVelocity =
      (interpolateDerivative L a b t).2 * star (interpolate L a b t).rotation := by
  have hu := isUnit_interpolate (L := L) (b := b) ha t
  simp only [interpolateTwist, inverted]
  rw [vec_rotate, vec_imaginary (diff_pure ha t), ← mul_assoc, self_mul_star' hu, one_mul]

theorem cross_commutator (u v : Vec3) :
    vec (crossProduct u v) = (1 / 2 : ℝ) • (vec u * vec v - vec v * vec u) := by
  ext <;> simp [crossProduct] <;> ring

/-- The reported angular velocity is the angular velocity of the rotation. -/
theorem hasDerivAt_rotate (h : a.time < b.time) (ha : IsUnit' a.coef.transformation.rotation) (u : Vec3)
    (t : ℝ) :
    HasDerivAt (fun s => rotate (interpolate L a b s).rotation u)
      (crossProduct (interpolateTwist L a b t).rotationalVelocity
        (rotate (interpolate L a b t).rotation u)) t := by
  have hq := hasDerivAt_rotation (L := L) h t
  have hu := isUnit_interpolate (L := L) (b := b) ha t
  have hs : HasDerivAt (fun s => star (interpolate L a b s).rotation)
      (star ((1 / 2 : ℝ) • (interpolateDerivative L a b t).2)) t := hasDerivAt_star hq
  have hprod := (hq.mul (hasDerivAt_const t (vec u))).mul hs
  have hL := (imaginaryL.hasFDerivAt.comp_hasDerivAt t hprod)
  have e : imaginary (((1 / 2 : ℝ) • (interpolateDerivative L a b t).2 * vec u +
      (interpolate L a b t).rotation * 0) * star (interpolate L a b t).rotation +
      (interpolate L a b t).rotation * vec u * star ((1 / 2 : ℝ) • (interpolateDerivative L a b t).2)) =
      crossProduct (interpolateTwist L a b t).rotationalVelocity
        (rotate (interpolate L a b t).rotation u) := by
    rw [← imaginary_vec (crossProduct _ _), cross_commutator, vec_angular ha, vec_rotate]
    congr 1
    set q := (interpolate L a b t).rotation
    set d := (interpolateDerivative L a b t).2
    have hp : star d * q = -(star q * d) := by
      have := diff_pure (L := L) (b := b) ha t
      rw [star_mul, star_star] at this
      exact this
    have h1 : star q * q = 1 := star_mul_self' hu
    have h2 : star d = -(star q * d * star q) := by
      have : star d * q * star q = -(star q * d) * star q := by rw [hp]
      rw [mul_assoc, self_mul_star' hu, mul_one] at this
      rw [this, neg_mul]
    rw [Quaternion.star_smul, h2, mul_zero, add_zero, smul_sub]
    have hC : ∀ y, star q * (q * y) = y := fun y => by rw [← mul_assoc, h1, one_mul]
    simp only [mul_assoc, smul_mul_assoc, mul_smul_comm, hC, mul_neg, smul_neg, sub_eq_add_neg]
  exact hL.congr_deriv e

theorem Twist.ext' {x y : Twist} (h1 : x.translationalVelocity = y.translationalVelocity)
    (h2 : x.rotationalVelocity = y.rotationalVelocity) : x = y := by
  cases x; cases y; simp_all

theorem twist_left (h : a.time < b.time) (ha : IsUnit' a.coef.transformation.rotation) :
    interpolateTwist L a b a.time = a.coef.derivative := by
  have hd : b.time - a.time ≠ 0 := (sub_pos.2 h).ne'
  refine Twist.ext' ?_ ?_
  · rw [velocity_eq]; exact E3.velocity_left (tr a) (tr b)
  · apply vec_injective
    rw [vec_angular ha, interpolate_left]
    have e : (interpolateDerivative L a b a.time).2 =
        a.coef.transformation.rotation * vec ((1 / (b.time - a.time) * 3) • (controlVectors L a b).1) := by
      have z2 : quat 0 0 = 0 := by ext <;> rfl
      simp only [interpolateDerivative, sub_self, zero_div, mul_zero, zero_mul, sub_zero, mul_one,
        zero_smul, exponentialMap_zero, z2, add_zero]
      rw [mul_smul (1 / (b.time - a.time)), vec_smul (1 / (b.time - a.time)), mul_smul_comm]
      rfl
    rw [e, ← vec_rotate]
    congr 1
    have e1 : (controlVectors L a b).1 = inverseRotate a.coef.transformation.rotation
        (((b.time - a.time) / 3) • a.coef.derivative.rotationalVelocity) := rfl
    rw [e1, rotate_smul, rotate_inverseRotate ha, smul_smul]
    have : 1 / (b.time - a.time) * 3 * ((b.time - a.time) / 3) = 1 := by field_simp
    rw [this, one_smul]

theorem twist_right (h : a.time < b.time) (ha : IsUnit' a.coef.transformation.rotation)
    (hb : IsUnit' b.coef.transformation.rotation) :
    interpolateTwist L a b b.time = b.coef.derivative := by
  have hd : b.time - a.time ≠ 0 := (sub_pos.2 h).ne'
  refine Twist.ext' ?_ ?_
  · rw [velocity_eq]; exact E3.velocity_right (a := tr a) (b := tr b) h
  · apply vec_injective
    rw [vec_angular ha]
    have e : (interpolateDerivative L a b b.time).2 = (interpolate L a b b.time).rotation *
        vec ((1 / (b.time - a.time) * 3) • (controlVectors L a b).2.2) := by
      have z2 : quat 0 0 = 0 := by ext <;> rfl
      rw [rotation_eq L a b b.time]
      simp only [interpolateDerivative, div_self hd, sub_self, zero_mul, mul_zero, zero_smul, z2, add_zero,
        zero_add, mul_one, sub_zero]
      rw [mul_smul (1 / (b.time - a.time)), vec_smul (1 / (b.time - a.time)), mul_smul_comm]
      rfl
    rw [e, ← vec_rotate, rotate_right h ha hb]
    congr 1
    have e1 : (controlVectors L a b).2.2 = inverseRotate b.coef.transformation.rotation
        (((b.time - a.time) / 3) • b.coef.derivative.rotationalVelocity) := rfl
    rw [e1, rotate_smul, rotate_inverseRotate hb, smul_smul]
    have : 1 / (b.time - a.time) * 3 * ((b.time - a.time) / 3) = 1 := by field_simp
    rw [this, one_smul]

theorem continuous_exp {β : ℝ → ℝ} (hβ : Continuous β) (w : Vec3) :
    Continuous (fun s => exponentialMap (β s • w)) := by
  have e : ∀ r : ℝ, exponentialMap (r • w) = exponentialMap ((id r : ℝ) • w) := fun _ => rfl
  have : Continuous (fun r : ℝ => exponentialMap (r • w)) :=
    continuous_iff_continuousAt.2 fun r => (hasDerivAt_exp (hasDerivAt_id r) w).continuousAt
  exact this.comp hβ

theorem continuous_rotation (h : a.time < b.time) : Continuous (fun s => (interpolate L a b s).rotation) :=
  continuous_iff_continuousAt.2 fun t => (hasDerivAt_rotation h t).continuousAt

theorem continuous_angular (h : a.time < b.time) (ha : IsUnit' a.coef.transformation.rotation) :
    Continuous (fun s => (interpolateTwist L a b s).rotationalVelocity) := by
  have e : (fun s => (interpolateTwist L a b s).rotationalVelocity) = fun s =>
      imaginary ((interpolateDerivative L a b s).2 * star (interpolate L a b s).rotation) := by
    funext s
    rw [← vec_angular ha, imaginary_vec]
  rw [e]
  have hα : Continuous (fun s : ℝ => (s - a.time) / (b.time - a.time)) := by fun_prop
  have hd : Continuous (fun s => (interpolateDerivative L a b s).2) := by
    have hv : ∀ (β : ℝ → ℝ) (w : Vec3), Continuous β → Continuous (fun s => quat 0 (β s • w)) := by
      intro β w hβ
      have : (fun s => quat 0 (β s • w)) = fun s => β s • vec w := by
        funext s; rw [← vec_smul]; rfl
      rw [this]
      fun_prop
    simp only [interpolateDerivative]
    have c1 := continuous_exp (β := fun s => 1 - (1 - (s - a.time) / (b.time - a.time)) *
      ((1 - (s - a.time) / (b.time - a.time)) * (1 - (s - a.time) / (b.time - a.time)))) (by fun_prop)
      (controlVectors L a b).1
    have c2 := continuous_exp (β := fun s => 3 * ((s - a.time) / (b.time - a.time) *
      ((s - a.time) / (b.time - a.time))) - 2 * ((s - a.time) / (b.time - a.time) *
      ((s - a.time) / (b.time - a.time)) * ((s - a.time) / (b.time - a.time)))) (by fun_prop)
      (controlVectors L a b).2.1
    have c3 := continuous_exp (β := fun s => (s - a.time) / (b.time - a.time) *
      ((s - a.time) / (b.time - a.time)) * ((s - a.time) / (b.time - a.time))) (by fun_prop)
      (controlVectors L a b).2.2
    have d1 := hv (fun s => 3 * ((1 - (s - a.time) / (b.time - a.time)) *
      (1 - (s - a.time) / (b.time - a.time)))) (controlVectors L a b).1 (by fun_prop)
    have d2 := hv (fun s => 6 * ((s - a.time) / (b.time - a.time)) *
      (1 - (s - a.time) / (b.time - a.time))) (controlVectors L a b).2.1 (by fun_prop)
    have d3 := hv (fun s => 3 * ((s - a.time) / (b.time - a.time) *
      ((s - a.time) / (b.time - a.time)))) (controlVectors L a b).2.2 (by fun_prop)
    have kA : Continuous (fun _ : ℝ => a.coef.transformation.rotation) := continuous_const
    have s1 := (((kA.mul c1).mul d1).mul c2).mul c3
    have s2 := (((kA.mul c1).mul c2).mul d2).mul c3
    have s3 := (((kA.mul c1).mul c2).mul c3).mul d3
    exact ((s1.add s2).add s3).const_smul (1 / (b.time - a.time))
  exact continuous_imaginary.comp (hd.mul (continuous_star'.comp (continuous_rotation h)))

end segment

/-! ## Fitting -/

theorem fitLoop_ok (L : LogMap) (ts : List ℝ) (vs : List Pose) (d0 dT : Twist)
    (hl : ts.length ≤ vs.length) :
    ∀ n i, ∀ _ : i + n = ts.length, ∃ cs, fitLoop L ts vs d0 dT n i = .ok cs ∧ ∃ hc : cs.length = n,
      ∀ j (hj : j < n), ∃ k : HKnot, cs[j] = k ∧
        k.transformation = vs[i + j]'(by omega) ∧ (i + j = 0 → k.derivative = d0) ∧
        (i + j ≠ 0 → i + j = ts.length - 1 → k.derivative = dT) ∧
        ∀ (_ : i + j ≠ 0) (_ : i + j ≠ ts.length - 1), k.derivative =
          calculateSlope L (ts[i + j - 1]'(by omega)) (ts[i + j + 1]'(by omega))
            (vs[i + j - 1]'(by omega)) (vs[i + j + 1]'(by omega)) := by
  intro n
  induction n with
  | zero => intro i _; exact ⟨[], rfl, rfl, fun j hj => absurd hj (by omega)⟩
  | succ n ih =>
    intro i hi
    obtain ⟨cs, e, hc, h⟩ := ih (i + 1) (by omega)
    have hk : ∃ d, knotDerivative L ts vs d0 dT i = .ok d ∧ (i = 0 → d = d0) ∧
        (i ≠ 0 → i = ts.length - 1 → d = dT) ∧ ∀ (_ : i ≠ 0) (_ : i ≠ ts.length - 1), d =
          calculateSlope L (ts[i - 1]'(by omega)) (ts[i + 1]'(by omega))
            (vs[i - 1]'(by omega)) (vs[i + 1]'(by omega)) := by
      unfold knotDerivative
      by_cases h0 : i = 0
      · exact ⟨d0, by rw [if_pos h0], fun _ => rfl, fun h => absurd h0 h, fun h => absurd h0 h⟩
      · by_cases h1 : i = ts.length - 1
        · exact ⟨dT, by rw [if_neg h0, if_pos h1], fun h => absurd h h0, fun _ _ => rfl,
            fun _ h => absurd h1 h⟩
        · refine ⟨calculateSlope L (ts[i - 1]'(by omega)) (ts[i + 1]'(by omega))
            (vs[i - 1]'(by omega)) (vs[i + 1]'(by omega)), ?_, fun h => absurd h h0,
            fun _ h => absurd h h1, fun _ _ => rfl⟩
          rw [if_neg h0, if_neg h1, List.getElem?_eq_getElem (by omega),
            List.getElem?_eq_getElem (by omega), List.getElem?_eq_getElem (by omega),
            List.getElem?_eq_getElem (by omega)]
          rfl
    obtain ⟨d, ed, k1, k2, k3⟩ := hk
    refine ⟨⟨vs[i]'(by omega), d⟩ :: cs, ?_, by simp [hc], ?_⟩
    · rw [fitLoop, ed, List.getElem?_eq_getElem (by omega : i < vs.length), e]
      rfl
    · intro j hj
      cases j with
      | zero => exact ⟨_, rfl, rfl, k1, k2, k3⟩
      | succ j =>
        obtain ⟨k, q1, q2, q3, q4, q5⟩ := h j (by omega)
        have hij : i + (j + 1) = i + 1 + j := by omega
        refine ⟨k, q1, ?_, ?_, ?_, ?_⟩
        · simp only [hij]; exact q2
        · simp only [hij]; exact q3
        · simp only [hij]; exact q4
        · simp only [hij]; exact q5

/-- What a fit does to any curve, for distinct times. -/
theorem fit_ok (L : LogMap) (ts : List ℝ) (vs : List Pose) (hl : ts.length = vs.length)
    (hd : ts.Nodup) (d0 dT : Twist) (c : SE3) :
    ∃ c' ks cs, fitCurveWithDerivatives L ts vs d0 dT c = .ok (c', ks) ∧
      fitLoop L ts vs d0 dT ts.length 0 = .ok cs ∧ cs.length = ts.length ∧
      Sorted c'.m.nodes ∧ c'.m.knots.Perm (ts.zip cs) := by
  obtain ⟨cs, e, hcs, h⟩ := fitLoop_ok L ts vs d0 dT hl.le ts.length 0 (by omega)
  obtain ⟨w, m, ks, e', hs, hp, -⟩ := fill_nodup c.w (cs := cs) (by omega) hd
  refine ⟨⟨w, m⟩, ks, cs, ?_, e, hcs, hs, hp⟩
  rw [fitCurveWithDerivatives, if_neg (by simp [hl]), e, Outcome.ok_bind]
  have : (clear c).m = Mgr.empty := rfl
  rw [this, show (clear c).w = c.w from rfl, e']
  rfl

end SE3

end Verif.Hermite

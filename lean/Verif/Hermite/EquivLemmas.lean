import Verif.Hermite.E3Lemmas
import Verif.Manager.RetimeLemmas

/-!
# Lemmas: cubic Hermite curves of transformed data
-/

set_option linter.unusedSectionVars false
set_option linter.dupNamespace false

namespace Verif.Hermite.E3

open Verif.Manager

variable {K V W : Type} [Field K] [LinearOrder K] [IsStrictOrderedRing K] [AddCommGroup V] [Module K V]
  [AddCommGroup W] [Module K W]

theorem evaluate_eq (t : K) (c : E3 K V) :
    evaluate t c = evalWith (fun k => k.position) interpolate t c.m := by
  unfold evaluate evalWith
  split
  · rfl
  · cases c.m.getCoefficientsAt t <;> rfl

theorem velocity_eq (t : K) (c : E3 K V) :
    evaluateDerivative t 1 c = evalWith (fun k => k.velocity) interpolateVelocity t c.m := by
  rw [evaluateDerivative, if_pos rfl, evalWith]
  split
  · rfl
  · cases c.m.getCoefficientsAt t <;> rfl

theorem acceleration_eq (t : K) (c : E3 K V) :
    evaluateDerivative t 2 c = evaluateLinearAcceleration t c := rfl

/-- The slopes of transformed data. -/
theorem fitLoop_map {φ : K → K} {G H : V → W} {ts : List K} {vs : List V} (d0 dT : V)
    (hsl : ∀ ta tb va vb, calculateSlope (φ ta) (φ tb) (G va) (G vb) = H (calculateSlope ta tb va vb)) :
    ∀ n i, fitLoop (ts.map φ) (vs.map G) (H d0) (H dT) n i =
      (fitLoop ts vs d0 dT n i >>= fun cs => .ok (cs.map fun k => ⟨G k.position, H k.velocity⟩)) := by
  have hk : ∀ i, knotDerivative (ts.map φ) (vs.map G) (H d0) (H dT) i =
      (knotDerivative ts vs d0 dT i >>= fun d => .ok (H d)) := by
    intro i
    unfold knotDerivative
    simp only [List.length_map]
    split
    · rfl
    · split
      · rfl
      · simp only [List.getElem?_map]
        cases ts[i - 1]? <;> cases ts[i + 1]? <;> cases vs[i - 1]? <;> cases vs[i + 1]? <;>
          simp [hsl]
  intro n
  induction n with
  | zero => intro i; rfl
  | succ n ih =>
    intro i
    rw [fitLoop, fitLoop, hk, ih, List.getElem?_map]
    cases knotDerivative ts vs d0 dT i <;> cases vs[i]? <;> cases fitLoop ts vs d0 dT n (i + 1) <;>
      simp

/-- What a fit of a new curve leaves behind. -/
theorem fit_fresh (debug : Bool) {ts : List K} {vs : List V} (hl : ts.length = vs.length)
    (hinc : ts.Pairwise (· < ·)) (d0 dT : V) (w : World) :
    ∃ c ks cs, fitCurveWithDerivatives debug ts vs d0 dT (fresh w) = .ok (c, ks) ∧
      fitLoop ts vs d0 dT ts.length 0 = .ok cs ∧ cs.length = ts.length ∧ Sorted c.m.nodes ∧
      c.m.knots = ts.zip cs := by
  obtain ⟨cs, e, hcs, -⟩ := fitLoop_ok ts vs d0 dT hl.le ts.length 0 (by omega)
  obtain ⟨w1, m1, ks1, e1, hs, hk1, -⟩ := fill_empty w (cs := cs) (by omega) hinc
  refine ⟨⟨w1, m1⟩, ks1, cs, ?_, e, hcs, hs, hk1⟩
  rw [fitCurveWithDerivatives, if_neg (by simp [hl]), e, Outcome.ok_bind, fresh, e1]
  rfl

theorem slope_affine (a b : K) (A : V →ₗ[K] W) (x : W) (ta tb : K) (va vb : V) :
    calculateSlope (a * ta + b) (a * tb + b) (A va + x) (A vb + x) =
      (1 / a) • A (calculateSlope ta tb va vb) := by
  simp only [calculateSlope]
  rw [map_smul, map_sub, smul_smul]
  congr 1
  · rw [show a * tb + b - (a * ta + b) = a * (tb - ta) by ring, ← one_div_mul_one_div]
  · abel

theorem slope_reversed (ta tb : K) (va vb : V) :
    calculateSlope (-tb) (-ta) vb va = -calculateSlope ta tb va vb := by
  simp only [calculateSlope]
  rw [show -ta - -tb = tb - ta by ring, ← smul_neg, neg_sub]

/-- The slopes of data in reverse order. -/
theorem fitLoop_reversed {ts : List K} {vs : List V} (hl : ts.length = vs.length) {d0 dT : V}
    (h1 : ts.length = 1 → dT = d0) {cs cs' : List (Knot V)}
    (e : fitLoop ts vs d0 dT ts.length 0 = .ok cs)
    (e' : fitLoop (ts.map (-·)).reverse vs.reverse (-dT) (-d0) ts.length 0 = .ok cs') :
    cs' = (cs.map fun k => (⟨k.position, -k.velocity⟩ : Knot V)).reverse := by
  obtain ⟨x, ex, hx, h⟩ := fitLoop_ok ts vs d0 dT hl.le ts.length 0 (by omega)
  obtain ⟨y, ey, hy, h'⟩ := fitLoop_ok (ts.map (-·)).reverse vs.reverse (-dT) (-d0) (by simp [hl])
    ts.length 0 (by simp)
  rw [ex] at e; cases e
  rw [ey] at e'; cases e'
  refine List.ext_getElem (by simp [hx, hy]) fun j hj _ => ?_
  rw [List.getElem_reverse, List.getElem_map]
  simp only [List.length_map, hx]
  rw [hy] at hj
  obtain ⟨k, k1, k2, k3, k4, k5⟩ := h (ts.length - 1 - j) (by omega)
  obtain ⟨k', q1, q2, q3, q4, q5⟩ := h' j hj
  rw [k1, q1]
  simp only [Nat.zero_add, List.length_reverse, List.length_map, List.getElem_reverse,
    List.getElem_map, ← hl] at k2 k3 k4 k5 q2 q3 q4 q5
  obtain ⟨p, v⟩ := k'
  simp only at q2 q3 q4 q5
  have hp : p = k.position := by rw [q2, k2]
  have hv : v = -k.velocity := by
    by_cases hj0 : j = 0
    · rw [q3 hj0]
      by_cases hn : ts.length = 1
      · rw [k3 (by omega), h1 hn]
      · rw [k4 (by omega) (by omega)]
    · by_cases hj1 : j = ts.length - 1
      · rw [q4 hj0 hj1, k3 (by omega)]
      · rw [q5 hj0 hj1, k5 (by omega) (by omega), ← slope_reversed]
        have i1 : ts.length - 1 - (j - 1) = ts.length - 1 - j + 1 := by omega
        have i2 : ts.length - 1 - (j + 1) = ts.length - 1 - j - 1 := by omega
        simp only [i1, i2]
  rw [hp, hv]

section formulas
variable {a b : K} (A : V →ₗ[K] W) (x : W) {p q : Node K (Knot V)} {p' q' : Node K (Knot W)}

theorem interpolate_affine (ha : a ≠ 0) (hpq : p.time < q.time) (t : K)
    (h1 : p'.time = a * p.time + b) (h2 : q'.time = a * q.time + b)
    (h3 : p'.coef = ⟨A p.coef.position + x, (1 / a) • A p.coef.velocity⟩)
    (h4 : q'.coef = ⟨A q.coef.position + x, (1 / a) • A q.coef.velocity⟩) :
    interpolate p' q' (a * t + b) = A (interpolate p q t) + x ∧
    interpolateVelocity p' q' (a * t + b) = (1 / a) • A (interpolateVelocity p q t) ∧
    interpolateAcceleration p' q' (a * t + b) = (1 / a ^ 2) • A (interpolateAcceleration p q t) := by
  have hd : q.time - p.time ≠ 0 := (sub_pos.2 hpq).ne'
  have e1 : a * q.time + b - (a * p.time + b) = a * (q.time - p.time) := by ring
  have e2 : a * t + b - (a * p.time + b) = a * (t - p.time) := by ring
  simp only [interpolate, interpolateVelocity, interpolateAcceleration, h1, h2, h3, h4, e1, e2,
    mul_div_mul_left _ _ ha]
  set α := (t - p.time) / (q.time - p.time)
  set d := q.time - p.time
  simp only [map_add, map_smul]
  refine ⟨?_, ?_, ?_⟩ <;> match_scalars <;> field_simp <;> ring

/-- A segment that runs backwards. -/
theorem interpolate_reversed (hpq : p.time < q.time) (t : K) {p' q' : Node K (Knot V)}
    (h1 : p'.time = -p.time) (h2 : q'.time = -q.time)
    (h3 : p'.coef = ⟨p.coef.position, -p.coef.velocity⟩)
    (h4 : q'.coef = ⟨q.coef.position, -q.coef.velocity⟩) :
    interpolate q' p' (-t) = interpolate p q t ∧
    interpolateVelocity q' p' (-t) = -interpolateVelocity p q t ∧
    interpolateAcceleration q' p' (-t) = interpolateAcceleration p q t := by
  have hd : q.time - p.time ≠ 0 := (sub_pos.2 hpq).ne'
  have e1 : -p.time - -q.time = q.time - p.time := by ring
  have e2 : (-t - -q.time) / (q.time - p.time) = 1 - (t - p.time) / (q.time - p.time) := by
    field_simp; ring
  simp only [interpolate, interpolateVelocity, interpolateAcceleration, h1, h2, h3, h4, e1, e2]
  set α := (t - p.time) / (q.time - p.time)
  set d := q.time - p.time
  refine ⟨by module, by module, by module⟩

end formulas

end Verif.Hermite.E3

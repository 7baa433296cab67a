import Verif.Rounding.AccelerationModel
import Verif.Rounding.SpecialModel
import Verif.Rounding.FitProps
import Verif.Manager.MapLemmas

/-!
# Lemmas on infinities and NaN
-/

set_option linter.unusedSectionVars false
set_option linter.dupNamespace false

namespace Verif.Manager

variable {T C C' : Type} [LinearOrder T]

theorem getMinTime_conv [Zero T] (F : C → C') (m : Mgr T C) : (m.conv F).getMinTime = m.getMinTime := by
  obtain ⟨ns, km⟩ := m
  cases ns <;> rfl

theorem getMaxTime_conv [Zero T] (F : C → C') (m : Mgr T C) : (m.conv F).getMaxTime = m.getMaxTime := by
  simp only [Mgr.getMaxTime, Mgr.conv, List.getLast?_map]
  cases m.nodes.getLast? <;> rfl

theorem upperSplit_conv (F : C → C') (t : T) (ns : List (Node T C)) :
    upperSplit t (ns.map (Node.conv F)) =
      ((upperSplit t ns).1.map (Node.conv F), (upperSplit t ns).2.map (Node.conv F)) := by
  induction ns with
  | nil => rfl
  | cons n ns ih =>
    simp only [List.map_cons, upperSplit, ih, show (n.conv F).time = n.time from rfl]
    split <;> rfl

theorem getCoefficientsAt_conv [Zero T] (F : C → C') (m : Mgr T C) (t : T) :
    (m.conv F).getCoefficientsAt t = (m.getCoefficientsAt t).map fun p => (p.1.conv F, p.2.conv F) := by
  have hmax := getMaxTime_conv F m
  obtain ⟨ns, km⟩ := m
  cases ns with
  | nil => rfl
  | cons n ns =>
    simp only [Mgr.getCoefficientsAt, hmax]
    have e : ((⟨n :: ns, km⟩ : Mgr T C).conv F).nodes = (n :: ns).map (Node.conv F) := rfl
    rw [e]
    simp only [List.map_cons]
    rw [← List.map_cons (f := Node.conv F), upperSplit_conv, ← List.map_dropLast, List.getLast?_map]
    split_ifs
    · simp only [List.getLast?_map]
      cases (n :: ns).dropLast.getLast? with
      | none => rfl
      | some a =>
        cases (n :: ns).getLast? <;> rfl
    · simp only [List.getLast?_map]
      cases (upperSplit t (n :: ns)).1.getLast? with
      | none => rfl
      | some a =>
        cases (upperSplit t (n :: ns)).2 <;> rfl

end Verif.Manager

namespace Verif.Rounding

variable {K : Type} [Field K] [LinearOrder K] [IsStrictOrderedRing K]

namespace Fl

variable (R : Rounding K)

@[simp] theorem add_num (x y : K) : add R (num x) (num y) = num (R.rnd (x + y)) := rfl
@[simp] theorem sub_num (x y : K) : sub R (num x) (num y) = num (R.rnd (x - y)) := rfl
@[simp] theorem mul_num (x y : K) : mul R (num x) (num y) = num (R.rnd (x * y)) := rfl

theorem div_num (x : K) {y : K} (h : y ≠ 0) : div R (num x) (num y) = num (R.rnd (x / y)) := by
  simp [div, h]

@[simp] theorem nan_add (x : Fl K) : add R nan x = nan := by cases x <;> rfl
@[simp] theorem add_nan (x : Fl K) : add R x nan = nan := by cases x <;> rfl
@[simp] theorem nan_mul (x : Fl K) : mul R nan x = nan := by cases x <;> rfl
@[simp] theorem mul_nan (x : Fl K) : mul R x nan = nan := by cases x <;> rfl

end Fl

open Verif.Manager Verif.Hermite Fl

/-- A vector of numbers. -/
def nums (v : Vec3 K) : Vec3 (Fl K) := fun x => num (v x)

/-- A knot of numbers. -/
def numKnot (k : Knot (Vec3 K)) : Knot (Vec3 (Fl K)) := ⟨nums k.position, nums k.velocity⟩

theorem slopeS_nums (R : Rounding K) {ta tb : K} (h : R.rnd (tb - ta) ≠ 0) (pa pb : Vec3 K) :
    slopeS R ta tb (nums pa) (nums pb) = nums (calculateSlope R ta tb pa pb) := by
  funext x
  simp only [slopeS, nums, sub_num, div_num R _ h, mul_num, calculateSlope]

theorem slopeS_same (R : Rounding K) (t : K) (p : Vec3 K) :
    slopeS R t t (nums p) (nums p) = fun _ => nan := by
  funext x
  simp only [slopeS, nums, sub_num, sub_self, rnd_zero]
  simp [div, mul]

theorem knotDerivativeS_nums (R : Rounding K) {ts : List K}
    (h2 : ∀ (i : ℕ) (h : i + 2 < ts.length), R.rnd (ts[i + 2] - ts[i]) ≠ 0) (vs : List (Vec3 K)) (d0 dT : Vec3 K)
    (i : ℕ) :
    knotDerivativeS R ts (vs.map nums) (nums d0) (nums dT) i =
      (knotDerivative R ts vs d0 dT i >>= fun d => .ok (nums d)) := by
  unfold knotDerivativeS knotDerivative
  split
  · rfl
  · split
    · rfl
    · rename_i hi _
      obtain ⟨i, rfl⟩ := Nat.exists_eq_succ_of_ne_zero hi
      simp only [Nat.succ_eq_add_one, Nat.add_sub_cancel, List.getElem?_map]
      cases ha : ts[i]? with
      | none => rfl
      | some ta =>
        cases hb : ts[i + 1 + 1]? with
        | none => rfl
        | some tb =>
          have h : R.rnd (tb - ta) ≠ 0 := by
            obtain ⟨k1, rfl⟩ := List.getElem?_eq_some_iff.1 hb
            obtain ⟨k2, rfl⟩ := List.getElem?_eq_some_iff.1 ha
            exact h2 i k1
          cases vs[i]? with
          | none => rfl
          | some va =>
            cases vs[i + 1 + 1]? with
            | none => rfl
            | some vb =>
              simp only [Outcome.deref, Outcome.ok_bind, Option.map_some, slopeS_nums R h]

theorem fitLoopS_nums (R : Rounding K) {ts : List K}
    (h2 : ∀ (i : ℕ) (h : i + 2 < ts.length), R.rnd (ts[i + 2] - ts[i]) ≠ 0) (vs : List (Vec3 K)) (d0 dT : Vec3 K) :
    ∀ n i, fitLoopS R ts (vs.map nums) (nums d0) (nums dT) n i =
      (fitLoop R ts vs d0 dT n i >>= fun cs => .ok (cs.map numKnot))
  | 0, _ => rfl
  | n + 1, i => by
    simp only [fitLoopS, fitLoop, knotDerivativeS_nums R h2, fitLoopS_nums R h2 vs d0 dT n (i + 1), List.getElem?_map]
    cases knotDerivative R ts vs d0 dT i with
    | ok d =>
      cases vs[i]? with
      | none => rfl
      | some v => cases fitLoop R ts vs d0 dT n (i + 1) <;> rfl
    | abort => rfl
    | throw => rfl
    | ub => rfl

theorem fitS_nums (R : Rounding K) (debug : Bool) {ts : List K}
    (h2 : ∀ (i : ℕ) (h : i + 2 < ts.length), R.rnd (ts[i + 2] - ts[i]) ≠ 0) (vs : List (Vec3 K)) (d0 dT : Vec3 K)
    (c : E3 K (Vec3 K)) :
    fitWithDerivativesS R debug ts (vs.map nums) (nums d0) (nums dT) ⟨c.w, c.m.conv numKnot⟩ =
      (fitCurveWithDerivatives R debug ts vs d0 dT c >>= fun r => .ok (⟨r.1.w, r.1.m.conv numKnot⟩, r.2)) := by
  unfold fitWithDerivativesS fitCurveWithDerivatives
  rw [List.length_map]
  split
  · rfl
  · rw [fitLoopS_nums R h2]
    cases fitLoop R ts vs d0 dT ts.length 0 with
    | ok cs =>
      simp only [Outcome.ok_bind, insertCoefficients_conv]
      cases c.m.insertCoefficients c.w ts cs <;> rfl
    | abort => rfl
    | throw => rfl
    | ub => rfl

theorem interpolateS_nums (R : Rounding K) {a b : Node K (Knot (Vec3 K))} (h : R.rnd (b.time - a.time) ≠ 0) (t : K) :
    interpolateS R (a.conv numKnot) (b.conv numKnot) t = nums (interpolate R a b t) ∧
    interpolateVelocityS R (a.conv numKnot) (b.conv numKnot) t = nums (interpolateVelocity R a b t) := by
  constructor <;> funext x <;>
    simp only [interpolateS, interpolateVelocityS, alphaS, Node.conv, numKnot, nums, sub_num, div_num R _ h, mul_num,
      add_num, interpolate, interpolateVelocity, alpha]

theorem interpolateAccelerationS_nums (R : Rounding K) {a b : Node K (Knot (Vec3 K))}
    (h : R.rnd (b.time - a.time) ≠ 0) (t : K) :
    interpolateAccelerationS R (a.conv numKnot) (b.conv numKnot) t = nums (interpolateAcceleration R a b t) := by
  funext x
  simp only [interpolateAccelerationS, alphaS, Node.conv, numKnot, nums, sub_num, div_num R _ h, mul_num, add_num,
    interpolateAcceleration, alpha]

theorem interpolateS_nan (R : Rounding K) {a b : Node K (Knot (Vec3 (Fl K)))} {x : Fin 3}
    (h : a.coef.velocity x = nan ∨ b.coef.velocity x = nan) (t : K) :
    interpolateS R a b t x = nan ∧ interpolateVelocityS R a b t x = nan ∧
      interpolateAccelerationS R a b t x = nan := by
  rcases h with h | h <;> simp [interpolateS, interpolateVelocityS, interpolateAccelerationS, h]

end Verif.Rounding

import Verif.Rounding.Model
import Verif.Hermite.WriteModel
import Verif.Hermite.ExtendSteps
import Mathlib.Algebra.Module.Pi

/-!
# With exact arithmetic the models here are those of the other files
-/

set_option linter.unusedSectionVars false
set_option linter.dupNamespace false

namespace Verif.Rounding

open Verif.Spline Verif.Container

variable {K : Type} [Field K] [LinearOrder K] [IsStrictOrderedRing K] {o : Order}

/-- A container seen as a `Box`. -/
def toBox (c : Container o K) : Box (Spline o K) K := ⟨c.splines, c.offset, c.time, c.duration, c.idx⟩

theorem link_fresh : toBox (Container.fresh : Container o K) = Box.fresh (exact K).arith := rfl

theorem link_reset (c : Container o K) : toBox c.reset = (toBox c).reset (exact K).arith := rfl

theorem link_resetTime (c : Container o K) : toBox c.resetTime = (toBox c).resetTime (exact K).arith := rfl

theorem link_addSpline (s : Spline o K) (c : Container o K) :
    toBox (c.addSpline s) = (toBox c).addSpline (exact K).arith Spline.duration s := rfl

theorem link_advance (dt : K) (c : Container o K) :
    (toBox c).advance (exact K).arith Spline.duration dt =
      (c.advance dt >>= fun r => .ok (r.1, toBox r.2)) := by
  simp only [Box.advance, Container.advance, toBox, exact, Rounding.arith, Container.at', ge_iff_le,
    decide_eq_true_eq]
  split
  · rfl
  · cases c.splines[Container.toSize c.idx]? with
    | none => rfl
    | some s =>
      simp only [Outcome.deref_some, Outcome.ok_bind]
      by_cases h1 : s.duration ≤ c.time + dt - c.offset
      · by_cases h2 : Container.toSize c.idx < Container.sizeMinus1 c.splines.length
        · simp [h1, h2]
        · simp [h1, h2]
      · simp [h1]

theorem link_findLoop (t : K) (l : List (Spline o K)) : ∀ i off,
    Box.findLoop (exact K).arith Spline.duration t l i off = Container.findLoop t l i off := by
  induction l with
  | nil => exact fun _ _ => rfl
  | cons s l ih =>
    intro i off
    rw [Box.findLoop, Container.findLoop, ih]
    simp only [exact, Rounding.arith, decide_eq_true_eq]

theorem link_activeAt (t off : K) (c : Container o K) :
    (toBox c).activeAt (exact K).arith Spline.duration t off = c.getActiveSplineIndexAtTime t off := by
  rw [Box.activeAt, Container.getActiveSplineIndexAtTime, link_findLoop]
  rfl

theorem link_seek (t : K) (c : Container o K) :
    (toBox c).seek (exact K).arith Spline.duration t = toBox (c.setContainerTime t) := by
  have := link_activeAt t c.offset c
  simp only [toBox] at this
  simp only [Box.seek, Container.setContainerTime, toBox, this]

theorem link_current (f : Spline o K → K → K) (c : Container o K) :
    (toBox c).current (exact K).arith f 0 = c.current f := rfl

theorem link_atTime (f : Spline o K → K → K) (t : K) (c : Container o K) :
    (toBox c).atTime (exact K).arith Spline.duration f 0 t = c.atTime f t := by
  have : (exact K).arith.zero = 0 := rfl
  simp only [Box.atTime, Container.atTime, link_activeAt, this]
  rfl

theorem link_atEnd (f : Spline o K → K → K) (c : Container o K) :
    (toBox c).atEnd Spline.duration f 0 = c.atEnd f := by
  simp only [Box.atEnd, Container.atEnd, toBox]
  cases c.splines.getLast? <;> rfl

theorem link_segDurations (ts : List K) : ∀ k i,
    segDurations (exact K).arith ts k i = Container.segDurations ts k i := by
  intro k
  induction k with
  | zero => exact fun _ => rfl
  | succ k ih =>
    intro i
    rw [segDurations, Container.segDurations, ih]
    simp only [exact, Rounding.arith, decide_eq_true_eq]

theorem link_interpolate (a b : Manager.Node K (Hermite.Knot (Vec3 K))) (t : K) :
    interpolate (exact K) a b t = Hermite.E3.interpolate a b t := by
  funext x
  simp only [interpolate, Hermite.E3.interpolate, alpha, exact, Pi.add_apply, Pi.smul_apply, smul_eq_mul]
  ring

theorem link_interpolateVelocity (a b : Manager.Node K (Hermite.Knot (Vec3 K))) (t : K) :
    interpolateVelocity (exact K) a b t = Hermite.E3.interpolateVelocity a b t := by
  funext x
  simp only [interpolateVelocity, Hermite.E3.interpolateVelocity, alpha, exact, Pi.add_apply, Pi.smul_apply,
    smul_eq_mul]
  ring

theorem link_evaluate (t : K) (c : Hermite.E3 K (Vec3 K)) :
    evaluate (exact K) t c.m = Hermite.E3.evaluate t c := by
  rw [evaluate, Hermite.E3.evaluate]
  split
  · rfl
  · cases c.m.getCoefficientsAt t with
    | none => rfl
    | some p => simp only [link_interpolate]

theorem link_evaluateVelocity (t : K) (c : Hermite.E3 K (Vec3 K)) :
    evaluateVelocity (exact K) t c.m = Hermite.E3.evaluateDerivative t 1 c := by
  rw [evaluateVelocity, Hermite.E3.evaluateDerivative, if_pos rfl]
  split
  · rfl
  · cases c.m.getCoefficientsAt t with
    | none => rfl
    | some p => simp only [link_interpolateVelocity]

theorem link_evalLine (c : Hermite.E3 K (Vec3 K)) (t : K) :
    evalLine (exact K) c.m t = Hermite.E3.evalLine (fun v => [v 0, v 1, v 2]) c t := by
  rw [evalLine, Hermite.E3.evalLine, link_evaluate]
  simp only [link_evaluateVelocity]
  cases Hermite.E3.evaluate t c with
  | ok p =>
    cases p with
    | none => rfl
    | some p =>
      simp only [Outcome.ok_bind]
      cases Hermite.E3.evaluateDerivative t 1 c with
      | ok v => cases v <;> rfl
      | _ => rfl
  | _ => rfl

theorem link_timeStep (lo hi : K) (n : ℕ) :
    some (timeStep (exact K) lo hi n) = Hermite.timeStep lo hi ((n : ℤ) + 2) := by
  rw [Hermite.timeStep, if_neg (by omega), timeStep]
  simp only [exact]
  congr 2
  push_cast
  ring

theorem link_evalLoop (ev : K → Outcome (Option (List K))) (hi dt : K) : ∀ n t acc,
    evalLoop (exact K) ev hi dt n t acc = Hermite.evalLoop ev hi (some dt) n t acc := by
  intro n
  induction n with
  | zero => exact fun _ _ => rfl
  | succ n ih =>
    intro t acc
    simp only [evalLoop, Hermite.evalLoop, ih]
    rfl

/-- `Hermite.picked` describes what the model of `extend` with exact arithmetic chooses (`Hermite.extend_inv`). -/
theorem link_picked (n : Int) (period : ℝ) (xs : List (ℝ × Kindr.Pose)) :
    picked (exact ℝ) n period (xs.map Prod.fst) =
      ((Hermite.picked n period xs).1.map Prod.fst, (Hermite.picked n period xs).2) := by
  induction xs using List.reverseRecOn with
  | nil => rfl
  | append_singleton xs x ih =>
    rw [Hermite.picked_snoc, Hermite.pick, List.map_append, picked, List.foldl_append]
    rw [picked] at ih
    rw [ih]
    simp only [List.map_cons, List.map_nil, List.foldl_cons, List.foldl_nil, pick, List.getLast?_map]
    cases (Hermite.picked n period xs).1.getLast? with
    | none => rfl
    | some k =>
      simp only [Option.map_some, exact]
      by_cases h : n ≤ (Hermite.picked n period xs).2 ∧ k.1 + period < x.1 <;> simp [h]

end Verif.Rounding

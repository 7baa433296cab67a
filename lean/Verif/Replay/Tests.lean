import Mathlib.Algebra.Order.Field.Rat
import Verif.Manager.Consistency
import Verif.Container.Model

/-!
# Tests of the project, run on the models

Not proofs about all inputs: evidence that the models are models of this code. Every `example` is an assertion
of the test named above it. The times of the manager test are meant to begin below zero, but are computed with
unsigned integers (the test is not part of the build, `CMakeLists.txt` 79); here they are integers.
-/

set_option linter.unusedSectionVars false
set_option linter.dupNamespace false
set_option maxRecDepth 100000

namespace Verif.Replay

open Verif Manager

/-! ## curves/test/test_LocalSupport2CoefficientManager.cpp -/

/-- The times of the fixture (18-24). -/
def times : List ℤ := (List.range 50).map fun i => (i : ℤ) * 1000 - 3250

/-- Coefficients (21): any distinct numbers. -/
def coefs : List ℕ := (List.range 50).map fun i => 7 * i + 3

/-- `manager1` and `keys1` (25): filled one by one. -/
def fill : List (ℤ × ℕ) → World → Mgr ℤ ℕ → List ℕ → Outcome (World × Mgr ℤ ℕ × List ℕ)
  | [], w, m, ks => .ok (w, m, ks)
  | (t, c) :: rest, w, m, ks => m.insertCoefficient w t c >>= fun r => fill rest r.1 r.2.1 (ks ++ [r.2.2])

/-- `manager1`, `keys1`, `manager2` and `keys2` after `SetUp` (18-37). -/
def setUp : Outcome (World × (Mgr ℤ ℕ × List ℕ) × (Mgr ℤ ℕ × List ℕ)) :=
  fill (times.zip coefs) ⟨0, 0⟩ Mgr.empty [] >>= fun r =>
  (Mgr.empty : Mgr ℤ ℕ).insertCoefficients r.1 times coefs >>= fun q => .ok (q.1, r.2, q.2)

/-- `testInsert` (52-70). -/
example : (setUp >>= fun s => .ok
    [s.2.1.1.size == 50, s.2.2.1.size == 50, s.2.1.2.length == 50, s.2.2.2.length == 50,
      s.2.1.1.getTimes [] == times, s.2.2.1.getTimes [] == times,
      decide (s.2.1.1.checkInternalConsistency true = .ok .exited),
      decide (s.2.2.1.checkInternalConsistency true = .ok .exited)]) = .ok (List.replicate 8 true) := by decide +kernel

/-- The times of the two knots `getCoefficientsAt` finds. -/
def bracket (m : Mgr ℤ ℕ) (t : ℤ) : Option (ℤ × ℤ) := (m.getCoefficientsAt t).map fun p => (p.1.time, p.2.time)

/-- `testTimes` (73-117). -/
example : (setUp >>= fun s => .ok
    [bracket s.2.1.1 (times[0]! - 1), bracket s.2.1.1 (times[0]! - 100), bracket s.2.1.1 times[49]!,
      bracket s.2.1.1 (times[49]! + 1), bracket s.2.1.1 (times[49]! + 100)]) =
    .ok [none, none, some (times[48]!, times[49]!), none, none] := by decide +kernel

example : (setUp >>= fun s => .ok ((List.range 49).all fun i =>
      decide (bracket s.2.1.1 times[i]! = some (times[i]!, times[i + 1]!)) &&
      decide (bracket s.2.1.1 ((times[i]! + times[i + 1]!) / 2) = some (times[i]!, times[i + 1]!)))) =
    .ok true := by decide +kernel

/-- The first loop of `testUpdateCoefficients` (125-128): the value read after each update. -/
def zeroAll : List ℕ → Mgr ℤ ℕ → Outcome (List ℕ)
  | [], _ => .ok []
  | k :: ks, m => m.updateCoefficientByKey k 0 >>= fun m' => m'.getCoefficientByKey k >>= fun c =>
      zeroAll ks m' >>= fun cs => .ok (c :: cs)

/-- Reading all the keys. -/
def readAll (m : Mgr ℤ ℕ) : List ℕ → Outcome (List ℕ)
  | [] => .ok []
  | k :: ks => m.getCoefficientByKey k >>= fun c => readAll m ks >>= fun cs => .ok (c :: cs)

/-- `testUpdateCoefficients` (123-142). -/
example : (setUp >>= fun s => zeroAll s.2.1.2 s.2.1.1) = .ok (List.replicate 50 0) ∧
    (setUp >>= fun s => s.2.2.1.updateCoefficients (s.2.2.2.map fun k => (k, 0)) >>= fun m =>
      readAll m s.2.2.2) = .ok (List.replicate 50 0) := by decide +kernel

/-! ## curves/test/PolynomialSplineContainerTest.cpp -/

/-- `getActiveSplineIndexAtTime` (14-47): knots at 0, 1 and 2. Which segment is active does not depend on the
solution of the equations, here zero. -/
example : ((Container.Container.fresh : Container.Container .o5 ℚ).setDataAcc
      ⟨fun _ _ _ _ _ => 0⟩ [0, 1, 2] [0, 1, 2] 0 0 0 0 >>= fun r =>
    .ok ([-1, 0, 1 / 2, 1, 3 / 2, 2, 5 / 2].map fun t => r.2.getActiveSplineIndexAtTime t 0)) =
    .ok [(0, 0), (0, 0), (0, 0), (1, 1), (1, 1), (1, 1), (1, 1)] := by decide +kernel

end Verif.Replay

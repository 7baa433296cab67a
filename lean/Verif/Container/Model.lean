import Verif.Spline.Model

/-!
# Model of `PolynomialSplineContainer` (.hpp and .tpp)

`double` is an ordered field `K`. `int`, `unsigned int` and `size_t` arithmetic is written out modulo
2^32 and 2^64 where the code relies on it.

Left out: memory allocation (`reserve`, the size of the equation matrices), console output,
`checkContainer` NaN tests, and the members `equalityConstraintJacobian_`,
`equalityConstraintTargetValues_`, which every `setData` call overwrites before use and nothing else
reads.
-/

set_option linter.unusedSectionVars false
set_option linter.dupNamespace false

namespace Verif.Container

open Verif.Spline

variable {K : Type} [Field K] [LinearOrder K] [IsStrictOrderedRing K]

/-- `class PolynomialSplineContainer<splineOrder_>`: its data members
(PolynomialSplineContainer.hpp:179-192). -/
structure Container (o : Order) (K : Type) where
  /-- `splines_` -/
  splines : List (Spline o K)
  /-- `timeOffset_` -/
  offset : K
  /-- `containerTime_` -/
  time : K
  /-- `containerDuration_` -/
  duration : K
  /-- `activeSplineIdx_` (an `int`) -/
  idx : ℤ

namespace Container

variable {o : Order}

/-- `resetTime()` (PolynomialSplineContainer.tpp:74-81). Always returns `true`. -/
def resetTime (c : Container o K) : Container o K := { c with offset := 0, time := 0, idx := 0 }

/-- `reset()` (PolynomialSplineContainer.tpp:64-72). Always returns `true`. -/
def reset (c : Container o K) : Container o K :=
  resetTime { c with splines := [], idx := 0, duration := 0 }

/-- The constructor (PolynomialSplineContainer.tpp:12-23). -/
def fresh : Container o K := reset ⟨[], 0, 0, 0, 0⟩

/-- `addSpline` (PolynomialSplineContainer.hpp:49-54). Always returns `true`. -/
def addSpline (s : Spline o K) (c : Container o K) : Container o K :=
  { c with duration := c.duration + s.duration, splines := c.splines ++ [s] }

/-- Conversion `int` to `size_t` in comparisons with `splines_.size()`
(PolynomialSplineContainer.tpp:39, 48, 107, 118, 130). Negative values wrap. `int` overflow of the
index itself (2^31 segments) is not modelled. -/
def toSize (i : ℤ) : ℕ := (if i < 0 then i + 2 ^ 64 else i).toNat

/-- `splines_[i]` with an `int` index: out of bounds is undefined behaviour. -/
def at' (l : List (Spline o K)) (i : ℤ) : Outcome (Spline o K) := Outcome.deref l[toSize i]?

/-- `getSpline(int)` (PolynomialSplineContainer.tpp:26-29): `std::vector::at` throws out of range. The
pointer is modelled by the spline it points to. -/
def getSpline (i : ℤ) (c : Container o K) : Outcome (Spline o K) :=
  match c.splines[toSize i]? with
  | some s => .ok s
  | none => .throw

/-- `size() - 1` in `size_t`: wraps for an empty vector (PolynomialSplineContainer.tpp:48, 255, 332). -/
def sizeMinus1 (n : ℕ) : ℕ := if n = 0 then 2 ^ 64 - 1 else n - 1

/-- `advance(dt)` (PolynomialSplineContainer.tpp:36-55). -/
def advance (dt : K) (c : Container o K) : Outcome (Bool × Container o K) :=
  if c.splines.isEmpty ∨ c.time ≥ c.duration ∨ toSize c.idx = c.splines.length then
    .ok (false, c)
  else
    let t := c.time + dt
    at' c.splines c.idx >>= fun s =>
      if t - c.offset ≥ s.duration then
        if toSize c.idx < sizeMinus1 c.splines.length then
          .ok (true, { c with time := t, offset := c.offset + s.duration, idx := c.idx + 1 })
        else .ok (true, { c with time := t, idx := c.idx + 1 })
      else .ok (true, { c with time := t })

/-- The loop of `getActiveSplineIndexAtTime` (PolynomialSplineContainer.tpp:141-150) over the segments
from index `i` on; `off` is the reference parameter `timeOffset`. `i < size - 1` holds exactly when
another segment follows. -/
def findLoop (t : K) : List (Spline o K) → ℕ → K → ℤ × K
  | [], i, off => ((i : ℤ) - 1, off)
  | s :: rest, i, off =>
    if t - off < s.duration then ((i : ℤ), off)
    else findLoop t rest (i + 1) (if rest.isEmpty then off else off + s.duration)

/-- `getActiveSplineIndexAtTime(t, timeOffset)` (PolynomialSplineContainer.tpp:136-151): returned index
and the new value of the reference parameter. Assumes fewer than 2^31 segments (the index is
narrowed to `int`). -/
def getActiveSplineIndexAtTime (t off : K) (c : Container o K) : ℤ × K :=
  if c.splines.isEmpty then (-1, off) else findLoop t c.splines 0 0

/-- `setContainerTime(t)` (PolynomialSplineContainer.tpp:57-62). -/
def setContainerTime (t : K) (c : Container o K) : Container o K :=
  let r := c.getActiveSplineIndexAtTime t c.offset
  { c with time := t, idx := r.1, offset := r.2 }

/-- The common body of `getPosition`, `getVelocity`, `getAcceleration`
(PolynomialSplineContainer.tpp:101-134); `f` is the evaluation function of the segment. -/
def current (f : Spline o K → K → K) (c : Container o K) : Outcome K :=
  if c.splines.isEmpty then .ok 0
  else if toSize c.idx = c.splines.length then
    Outcome.deref c.splines.getLast? >>= fun s => .ok (f s (c.time - c.offset))
  else at' c.splines c.idx >>= fun s => .ok (f s (c.time - c.offset))

/-- `getPosition()` (PolynomialSplineContainer.tpp:101-111). -/
def getPosition (c : Container o K) : Outcome K := c.current Spline.getPositionAtTime
/-- `getVelocity()` (PolynomialSplineContainer.tpp:113-122). -/
def getVelocity (c : Container o K) : Outcome K := c.current Spline.getVelocityAtTime
/-- `getAcceleration()` (PolynomialSplineContainer.tpp:124-134). -/
def getAcceleration (c : Container o K) : Outcome K := c.current Spline.getAccelerationAtTime

/-- The common body of `getPositionAtTime`, `getVelocityAtTime`, `getAccelerationAtTime`
(PolynomialSplineContainer.tpp:158-210). -/
def atTime (f : Spline o K → K → K) (t : K) (c : Container o K) : Outcome K :=
  let r := c.getActiveSplineIndexAtTime t 0
  if r.1 < 0 then .ok 0
  else if r.1.toNat = c.splines.length then
    Outcome.deref c.splines.getLast? >>= fun s => .ok (f s s.duration)
  else at' c.splines r.1 >>= fun s => .ok (f s (t - r.2))

/-- `getPositionAtTime(t)` (PolynomialSplineContainer.tpp:158-173). -/
def getPositionAtTime (t : K) (c : Container o K) : Outcome K :=
  c.atTime Spline.getPositionAtTime t
/-- `getVelocityAtTime(t)` (PolynomialSplineContainer.tpp:175-191). -/
def getVelocityAtTime (t : K) (c : Container o K) : Outcome K :=
  c.atTime Spline.getVelocityAtTime t
/-- `getAccelerationAtTime(t)` (PolynomialSplineContainer.tpp:194-210). -/
def getAccelerationAtTime (t : K) (c : Container o K) : Outcome K :=
  c.atTime Spline.getAccelerationAtTime t

/-- The common body of `getEndPosition`, `getEndVelocity`, `getEndAcceleration`
(PolynomialSplineContainer.tpp:212-243). -/
def atEnd (f : Spline o K → K → K) (c : Container o K) : K :=
  match c.splines.getLast? with
  | none => 0
  | some s => f s s.duration

/-- `getEndPosition()` (PolynomialSplineContainer.tpp:212-221). -/
def getEndPosition (c : Container o K) : K := c.atEnd Spline.getPositionAtTime
/-- `getEndVelocity()` (PolynomialSplineContainer.tpp:223-232). -/
def getEndVelocity (c : Container o K) : K := c.atEnd Spline.getVelocityAtTime
/-- `getEndAcceleration()` (PolynomialSplineContainer.tpp:234-243). -/
def getEndAcceleration (c : Container o K) : K := c.atEnd Spline.getAccelerationAtTime

/-- `checkContainer()` (PolynomialSplineContainer.tpp:568-607). There is no NaN in the model. -/
def checkContainer (c : Container o K) : Bool :=
  !(decide (c.time < 0)) && !(decide (c.duration < 0)) && !(decide (c.time > c.duration)) &&
    !(decide (c.idx < 0)) && c.splines.all fun s => !(decide (s.duration < 0))

end Container

/-! ## Assembling the equations of `setData` -/

/-- The pair `equalityConstraintJacobian_`, `equalityConstraintTargetValues_` with the running
`constraintIdx` while `setData` fills them (PolynomialSplineContainer.tpp:289-292, 366-369). -/
structure Sys (K : Type) where
  /-- number of rows allocated by `setZero(num_constraints, ...)` -/
  rows : ℕ
  /-- number of columns -/
  cols : ℕ
  /-- matrix entries -/
  A : ℕ → ℕ → K
  /-- target values -/
  b : ℕ → K
  /-- `constraintIdx` -/
  next : ℕ

namespace Sys

variable {o : Order}

/-- `setZero(num_constraints, solutionSpaceDimension)`, `setZero(num_constraints)`,
`constraintIdx = 0` (PolynomialSplineContainer.tpp:290-292). -/
def zero (rows cols : ℕ) : Sys K := ⟨rows, cols, fun _ _ => 0, fun _ => 0, 0⟩

/-- `getSplineColumnIndex(splineIdx)` (PolynomialSplineContainer.hpp:150-156). `int` overflow is not
modelled; the theorems bound the number of knots. -/
def column (o : Order) (splineIdx : ℕ) : ℕ := splineIdx * o.count

/-- `equalityConstraintJacobian_.block(constraintIdx, col, 1, coefficientCount) = v`
(PolynomialSplineContainer.tpp:442, 475, 522 and similar). A block outside the matrix is undefined
behaviour. -/
def block (col : ℕ) (v : Vec o K) (s : Sys K) : Outcome (Sys K) :=
  if s.next < s.rows ∧ col + o.count ≤ s.cols then
    .ok { s with A := fun r c =>
      if r = s.next ∧ col ≤ c ∧ c < col + o.count then row v (c - col) else s.A r c }
  else .ub

/-- `equalityConstraintTargetValues_(constraintIdx) = x; ++constraintIdx`
(PolynomialSplineContainer.tpp:443-444, 476-477, 523-524 and similar). -/
def target (x : K) (s : Sys K) : Outcome (Sys K) :=
  if s.next < s.rows then
    .ok { s with b := fun r => if r = s.next then x else s.b r, next := s.next + 1 }
  else .ub

/-- `if (conditions.size()>i) { block = v; target = conditions(i); ++constraintIdx; }`
(PolynomialSplineContainer.tpp:440-445, 448-453, 456-461, 473-478, 481-486, 489-494); `q` is
`conditions(i)` if it exists. -/
def condition (col : ℕ) (v : Vec o K) (q : Option K) (s : Sys K) : Outcome (Sys K) :=
  match q with
  | some x => s.block col v >>= target x
  | none => .ok s

/-- `addInitialConditions(initialConditions, constraintIdx)`
(PolynomialSplineContainer.tpp:436-462). -/
def addInitialConditions (o : Order) (ini : List K) (s : Sys K) : Outcome (Sys K) :=
  s.condition (column o 0) (getTimeVectorAtZero o) ini[0]? >>= fun s =>
  s.condition (column o 0) (getDiffTimeVectorAtZero o) ini[1]? >>= fun s =>
  s.condition (column o 0) (getDDiffTimeVectorAtZero o) ini[2]?

/-- `addFinalConditions(finalConditions, constraintIdx, lastSplineDuration, lastSplineId)`
(PolynomialSplineContainer.tpp:464-495). -/
def addFinalConditions (o : Order) (fin : List K) (d : K) (last : ℕ) (s : Sys K) :
    Outcome (Sys K) :=
  s.condition (column o last) (getTimeVector o d) fin[0]? >>= fun s =>
  s.condition (column o last) (getDTimeVector o d) fin[1]? >>= fun s =>
  s.condition (column o last) (getDDTimeVector o d) fin[2]?

/-- One turn of the loop of `addJunctionsConditions` (PolynomialSplineContainer.tpp:513-541). -/
def addJunction (o : Order) (ds ps : List K) (j : ℕ) (s : Sys K) : Outcome (Sys K) :=
  Outcome.deref ds[j]? >>= fun d =>
  s.block (column o j) (getTimeVector o d) >>= fun s =>
  Outcome.deref ps[j + 1]? >>= fun p =>
  s.target p >>= fun s =>
  s.block (column o (j + 1)) (getTimeVectorAtZero o) >>= fun s =>
  s.target p >>= fun s =>
  s.block (column o j) (getDTimeVector o d) >>= fun s =>
  s.block (column o (j + 1)) (-getDTimeVectorAtZero o) >>= fun s =>
  s.target 0 >>= fun s =>
  s.block (column o j) (getDDTimeVector o d) >>= fun s =>
  s.block (column o (j + 1)) (-getDDTimeVectorAtZero o) >>= fun s =>
  s.target 0

/-- `addJunctionsConditions(splineDurations, knotPositions, constraintIdx, num_junctions)`
(PolynomialSplineContainer.tpp:497-542): `k` junctions, starting with number `j`. -/
def addJunctions (o : Order) (ds ps : List K) : ℕ → ℕ → Sys K → Outcome (Sys K)
  | 0, _, s => .ok s
  | k + 1, j, s => s.addJunction o ds ps j >>= addJunctions o ds ps k (j + 1)

end Sys

namespace Container

variable {o : Order}

/-- The loop computing `splineDurations` (PolynomialSplineContainer.tpp:279-287, 356-364): `k` segments
from number `i`; `none` stands for `return false` on a non-positive duration. Reading beyond the end
of `knotDurations` is undefined behaviour. -/
def segDurations (ts : List K) : ℕ → ℕ → Outcome (Option (List K))
  | 0, _ => .ok (some [])
  | k + 1, i =>
    Outcome.deref ts[i + 1]? >>= fun b => Outcome.deref ts[i]? >>= fun a =>
      if b - a ≤ 0 then .ok none
      else segDurations ts k (i + 1) >>= fun r => .ok (r.map ((b - a) :: ·))

/-- `extractSplineCoefficients(coeffs, splineDurations, numSplines)`
(PolynomialSplineContainer.tpp:544-560): segments from number `j` on, one per duration. -/
def extract (x : ℕ → K) : List K → ℕ → Container o K → Container o K
  | [], _, c => c
  | d :: ds, j, c =>
    extract x ds (j + 1) (c.addSpline ⟨fun i => x (Sys.column o j + i), d⟩)

/-- `unsigned int` conversion. -/
def u32 (n : ℕ) : ℕ := n % 2 ^ 32

/-- `numSplines = knotDurations.size()-1` as `unsigned int`
(PolynomialSplineContainer.tpp:255, 332): wraps for an empty list. -/
def numSplines (ts : List K) : ℕ := u32 (sizeMinus1 ts.length)

/-- `solutionSpaceDimension` (PolynomialSplineContainer.tpp:257, 334). -/
def solutionDim (o : Order) (n : ℕ) : ℕ := u32 (n * o.count)

/-- `num_junctions = numSplines-1` as `unsigned int` (PolynomialSplineContainer.tpp:258, 335). -/
def numJunctions (n : ℕ) : ℕ := if n = 0 then 2 ^ 32 - 1 else n - 1

/-- `num_constraints` (PolynomialSplineContainer.tpp:266-270 with `e = 3`, 343-347 with `e = 2`). -/
def numConstraints (e n : ℕ) : ℕ := u32 (u32 (u32 (numJunctions n * 4) + e) + e)

/-- The loop of the straight-line `setData` (PolynomialSplineContainer.tpp:420-430): `k` segments from
number `i`. The coefficient array keeps its zero entries. -/
def linearLoop (ts ps : List K) : ℕ → ℕ → Container o K → Outcome (Bool × Container o K)
  | 0, _, c => .ok (true, c)
  | k + 1, i, c =>
    Outcome.deref ts[i + 1]? >>= fun b => Outcome.deref ts[i]? >>= fun a =>
      if b - a ≤ 0 then .ok (false, c)
      else
        Outcome.deref ps[i]? >>= fun p => Outcome.deref ps[i + 1]? >>= fun q =>
        linearLoop ts ps k (i + 1) (c.addSpline
          ⟨fun m => if (m : ℕ) = o.count - 1 then p else if (m : ℕ) = o.count - 2 then
            (q - p) / (b - a) else 0, b - a⟩)

/-- `setData(knotDurations, knotPositions)` (PolynomialSplineContainer.tpp:400-434). `numSplines` is an
`int`: negative for an empty list. -/
def setDataLinear (ts ps : List K) (c : Container o K) : Outcome (Bool × Container o K) :=
  if (ts.length : ℤ) - 1 < 1 then .ok (false, c)
  else linearLoop ts ps (ts.length - 1) 0 c.reset

/-- Filling the equations, in the order of the code: initial conditions, final conditions, junctions
(PolynomialSplineContainer.tpp:289-306 and 366-383); `rows`, `cols` are `num_constraints` and
`solutionSpaceDimension`, `nj` is `num_junctions`, `ini` and `fin` are the derivative values following
the first and the last position, `ds` is `splineDurations`. -/
def assembleWith (o : Order) (rows cols nj : ℕ) (ps ds ini fin : List K) : Outcome (Sys K) :=
  Outcome.deref ps.head? >>= fun p0 =>
  (Sys.zero rows cols).addInitialConditions o (p0 :: ini) >>= fun s =>
  Outcome.deref ps.getLast? >>= fun pT =>
  Outcome.deref ds.getLast? >>= fun d =>
  s.addFinalConditions o (pT :: fin) d nj >>= fun s =>
  s.addJunctions o ds ps nj 0

/-- The part of the two constrained `setData` variants after the choice of formulation
(PolynomialSplineContainer.tpp:278-319 and 355-396), with the sizes as parameters. -/
def fitWith (S : RawSolver K) (rows cols nj n : ℕ) (ts ps ini fin : List K) (c : Container o K) :
    Outcome (Bool × Container o K) :=
  segDurations ts n 0 >>= fun r =>
  match r with
  | none => .ok (false, c)
  | some ds =>
    assembleWith o rows cols nj ps ds ini fin >>= fun s =>
    if rows = s.next then .ok (true, extract (S.solve s.rows s.cols s.A s.b) ds 0 c)
    else .ok (false, c)

/-- `fitWith` with the sizes of `setData` (PolynomialSplineContainer.tpp:255-270 with `e = 3`, 332-347
with `e = 2`). -/
def fit (S : RawSolver K) (e : ℕ) (ts ps ini fin : List K) (c : Container o K) :
    Outcome (Bool × Container o K) :=
  fitWith S (numConstraints e (numSplines ts)) (solutionDim o (numSplines ts))
    (numJunctions (numSplines ts)) (numSplines ts) ts ps ini fin c

/-- `setData(knotDurations, knotPositions, initialVelocity, finalVelocity)`
(PolynomialSplineContainer.tpp:323-397). -/
def setDataVel (S : RawSolver K) (ts ps : List K) (v0 vT : K) (c : Container o K) :
    Outcome (Bool × Container o K) :=
  let c := c.reset
  let n := numSplines ts
  if n < 1 then .ok (false, c)
  else if numConstraints 2 n > solutionDim o n then setDataLinear ts ps c
  else fit S 2 ts ps [v0] [vT] c

/-- `setData(knotDurations, knotPositions, initialVelocity, initialAcceleration, finalVelocity,
finalAcceleration)` (PolynomialSplineContainer.tpp:245-320). -/
def setDataAcc (S : RawSolver K) (ts ps : List K) (v0 a0 vT aT : K) (c : Container o K) :
    Outcome (Bool × Container o K) :=
  let c := c.reset
  let n := numSplines ts
  if n < 1 then .ok (false, c)
  else if numConstraints 3 n > solutionDim o n then setDataVel S ts ps v0 vT c
  else fit S 3 ts ps [v0, a0] [vT, aT] c

end Container

end Verif.Container

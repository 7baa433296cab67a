import Verif.Container.Model
import Verif.Hermite.E3Model
import Mathlib.Data.Int.Log
import Mathlib.Algebra.Order.Floor.Ring
import Mathlib.Data.Rat.Floor

/-!
# Computing with `double`

The other models compute exactly. Here the parts of the code where rounding, overflow or NaN can be seen
are modelled again with the operations of `double` as parameters:

* `Arith K` is any arithmetic whatever, without a single law (so that comparisons with NaN are false, sums
  overflow, and so on);
* `Rounding K` is exact arithmetic followed by a rounding with the laws of IEEE 754 in the absence of
  overflow; `double` is the rounding to 53 bits, ties to even.

`Verif/Rounding/Link.lean` shows that with exact arithmetic these models are those of
`Verif/Container/Model.lean` and `Verif/Hermite/E3Model.lean`. The compiler is assumed to do the operations of
the source one by one in `double` (no contraction to fused operations, no extended precision).
-/

set_option linter.unusedSectionVars false
set_option linter.dupNamespace false

namespace Verif.Rounding

/-- The operations on `double` that `PolynomialSplineContainer` uses on times. No laws. -/
structure Arith (K : Type) where
  /-- `0.0` -/
  zero : K
  /-- `+` -/
  add : K → K → K
  /-- `-` -/
  sub : K → K → K
  /-- `<` -/
  lt : K → K → Bool
  /-- `<=` -/
  le : K → K → Bool

/-- Rounding to the nearest `double`. The laws are those of IEEE 754 while nothing overflows: rounding keeps
the order, numbers that are rounded stay, integers up to 2^53 are representable, and the difference of two
different representable numbers is not rounded to zero (there are subnormal numbers). -/
structure Rounding (K : Type) [Field K] [LinearOrder K] where
  rnd : K → K
  mono : ∀ {x y : K}, x ≤ y → rnd x ≤ rnd y
  idem : ∀ x, rnd (rnd x) = rnd x
  int : ∀ n : ℤ, |n| ≤ 2 ^ 53 → rnd (n : K) = n
  sub_ne : ∀ {x y : K}, rnd x = x → rnd y = y → rnd (x - y) = 0 → x = y

section
variable {K : Type} [Field K] [LinearOrder K]

/-- The arithmetic of a rounding. -/
def Rounding.arith (R : Rounding K) : Arith K where
  zero := 0
  add x y := R.rnd (x + y)
  sub x y := R.rnd (x - y)
  lt x y := decide (x < y)
  le x y := decide (x ≤ y)

/-- Exact arithmetic. -/
def exact (K : Type) [Field K] [LinearOrder K] : Rounding K where
  rnd x := x
  mono h := h
  idem _ := rfl
  int _ _ := rfl
  sub_ne _ _ h := sub_eq_zero.1 h

end

/-- The arithmetic of a rounding with NaN (`none`): operations on NaN give NaN, comparisons with NaN are
false (IEEE 754). -/
def Rounding.withNaN {K : Type} [Field K] [LinearOrder K] (R : Rounding K) : Arith (Option K) where
  zero := some 0
  add x y := x.bind fun x => y.map fun y => R.rnd (x + y)
  sub x y := x.bind fun x => y.map fun y => R.rnd (x - y)
  lt x y := match x, y with
    | some x, some y => decide (x < y)
    | _, _ => false
  le x y := match x, y with
    | some x, some y => decide (x ≤ y)
    | _, _ => false

/-- Rounding to the nearest integer, ties to even. -/
def roundEven {K : Type} [Field K] [LinearOrder K] [FloorRing K] (y : K) : ℤ :=
  if y - ⌊y⌋ < 1 / 2 then ⌊y⌋
  else if 1 / 2 < y - ⌊y⌋ then ⌊y⌋ + 1
  else if Even ⌊y⌋ then ⌊y⌋ else ⌊y⌋ + 1

/-- Rounding of a positive number to 53 bits. -/
def roundPos {K : Type} [Field K] [LinearOrder K] [FloorRing K] (x : K) : K :=
  roundEven (x / 2 ^ (Int.log 2 x - 52)) * 2 ^ (Int.log 2 x - 52)

/-- The nearest `double`, ties to even; the exponent is not bounded (no overflow, no subnormal numbers). -/
def toDouble {K : Type} [Field K] [LinearOrder K] [FloorRing K] (x : K) : K :=
  if x < 0 then -roundPos (-x) else if x = 0 then 0 else roundPos x

/-! ## `PolynomialSplineContainer` -/

open Verif.Container.Container (toSize sizeMinus1)

/-- The data members of `PolynomialSplineContainer` (PolynomialSplineContainer.hpp:179-192). Segments are of
any type `S` with a duration: how they are evaluated does not matter here. -/
structure Box (S K : Type) where
  /-- `splines_` -/
  splines : List S
  /-- `timeOffset_` -/
  offset : K
  /-- `containerTime_` -/
  time : K
  /-- `containerDuration_` -/
  duration : K
  /-- `activeSplineIdx_` -/
  idx : ℤ
  deriving DecidableEq

namespace Box

variable {S K X : Type} (A : Arith K) (dur : S → K)

/-- `resetTime()` (PolynomialSplineContainer.tpp:74-81). -/
def resetTime (c : Box S K) : Box S K := { c with offset := A.zero, time := A.zero, idx := 0 }

/-- `reset()` (PolynomialSplineContainer.tpp:64-72). -/
def reset (c : Box S K) : Box S K := resetTime A { c with splines := [], idx := 0, duration := A.zero }

/-- The constructor (PolynomialSplineContainer.tpp:12-23). -/
def fresh : Box S K := reset A ⟨[], A.zero, A.zero, A.zero, 0⟩

/-- `addSpline` (PolynomialSplineContainer.hpp:49-54). -/
def addSpline (s : S) (c : Box S K) : Box S K :=
  { c with duration := A.add c.duration (dur s), splines := c.splines ++ [s] }

/-- `advance(dt)` (PolynomialSplineContainer.tpp:36-55). `x >= y` is `y <= x`. -/
def advance (dt : K) (c : Box S K) : Outcome (Bool × Box S K) :=
  if c.splines.isEmpty ∨ A.le c.duration c.time ∨ toSize c.idx = c.splines.length then .ok (false, c)
  else
    let t := A.add c.time dt
    Outcome.deref c.splines[toSize c.idx]? >>= fun s =>
      if A.le (dur s) (A.sub t c.offset) then
        if toSize c.idx < sizeMinus1 c.splines.length then
          .ok (true, { c with time := t, offset := A.add c.offset (dur s), idx := c.idx + 1 })
        else .ok (true, { c with time := t, idx := c.idx + 1 })
      else .ok (true, { c with time := t })

/-- The loop of `getActiveSplineIndexAtTime` (PolynomialSplineContainer.tpp:141-150). -/
def findLoop (t : K) : List S → ℕ → K → ℤ × K
  | [], i, off => ((i : ℤ) - 1, off)
  | s :: rest, i, off =>
    if A.lt (A.sub t off) (dur s) then ((i : ℤ), off)
    else findLoop t rest (i + 1) (if rest.isEmpty then off else A.add off (dur s))

/-- `getActiveSplineIndexAtTime(t, timeOffset)` (PolynomialSplineContainer.tpp:136-151). -/
def activeAt (t off : K) (c : Box S K) : ℤ × K :=
  if c.splines.isEmpty then (-1, off) else findLoop A dur t c.splines 0 A.zero

/-- `setContainerTime(t)` (PolynomialSplineContainer.tpp:57-62). -/
def seek (t : K) (c : Box S K) : Box S K :=
  let r := c.activeAt A dur t c.offset
  { c with time := t, idx := r.1, offset := r.2 }

/-- `getPosition`, `getVelocity`, `getAcceleration` (PolynomialSplineContainer.tpp:101-134); `f` evaluates a
segment, `x0` is the answer of an empty container. -/
def current (f : S → K → X) (x0 : X) (c : Box S K) : Outcome X :=
  if c.splines.isEmpty then .ok x0
  else if toSize c.idx = c.splines.length then
    Outcome.deref c.splines.getLast? >>= fun s => .ok (f s (A.sub c.time c.offset))
  else Outcome.deref c.splines[toSize c.idx]? >>= fun s => .ok (f s (A.sub c.time c.offset))

/-- `getPositionAtTime`, `getVelocityAtTime`, `getAccelerationAtTime`
(PolynomialSplineContainer.tpp:158-210). -/
def atTime (f : S → K → X) (x0 : X) (t : K) (c : Box S K) : Outcome X :=
  let r := c.activeAt A dur t A.zero
  if r.1 < 0 then .ok x0
  else if r.1.toNat = c.splines.length then
    Outcome.deref c.splines.getLast? >>= fun s => .ok (f s (dur s))
  else Outcome.deref c.splines[toSize r.1]? >>= fun s => .ok (f s (A.sub t r.2))

/-- `getEndPosition`, `getEndVelocity`, `getEndAcceleration` (PolynomialSplineContainer.tpp:212-243). -/
def atEnd (f : S → K → X) (x0 : X) (c : Box S K) : X :=
  match c.splines.getLast? with
  | none => x0
  | some s => f s (dur s)

/-- The operations that change a container, once `setData` is replaced by what it does to the members read
here: `reset` and one `addSpline` after the other. -/
inductive Op (S K : Type) where
  | reset
  | resetTime
  | addSpline (s : S)
  | advance (dt : K)
  | seek (t : K)

/-- One operation. -/
def step (c : Box S K) : Op S K → Outcome (Box S K)
  | .reset => .ok (c.reset A)
  | .resetTime => .ok (c.resetTime A)
  | .addSpline s => .ok (c.addSpline A dur s)
  | .advance dt => c.advance A dur dt >>= fun r => .ok r.2
  | .seek t => .ok (c.seek A dur t)

/-- A sequence of operations. -/
def run (c : Box S K) : List (Op S K) → Outcome (Box S K)
  | [] => .ok c
  | op :: rest => step A dur c op >>= fun c' => run c' rest

/-- `advance(dt)` called `n` times in a row, until it returns `false` (the loop of a caller that plays the
container). The result says whether all calls returned `true`. -/
def play (dt : K) : ℕ → Box S K → Outcome (Bool × Box S K)
  | 0, c => .ok (true, c)
  | n + 1, c =>
    c.advance A dur dt >>= fun r => if r.1 then play dt n r.2 else .ok (false, r.2)

end Box

/-- The loop computing `splineDurations` in `setData` (PolynomialSplineContainer.tpp:279-287, 356-364, and
420-425 of the straight-line version): `none` stands for `return false`. -/
def segDurations {K : Type} (A : Arith K) (ts : List K) : ℕ → ℕ → Outcome (Option (List K))
  | 0, _ => .ok (some [])
  | k + 1, i =>
    Outcome.deref ts[i + 1]? >>= fun b => Outcome.deref ts[i]? >>= fun a =>
      if A.le (A.sub b a) A.zero then .ok none
      else segDurations A ts k (i + 1) >>= fun r => .ok (r.map (A.sub b a :: ·))

/-! ## A segment -/

section
variable {K : Type} [Field K] [LinearOrder K]

/-- `std::max(0.0, std::min(tk, duration_))` (PolynomialSpline.hpp:106, 112, 118): no rounding. -/
def clamp (t d : K) : K :=
  let m := if d < t then d else t
  if 0 < m then m else 0

/-- A straight segment as made by the straight-line `setData` (PolynomialSplineContainer.tpp:420-430) from the
knots `(a, p)` and `(b, q)`: duration, slope and start value. The coefficients of higher powers are 0. -/
def line (R : Rounding K) (a b p q : K) : K × K × K :=
  (R.rnd (b - a), R.rnd (R.rnd (q - p) / R.rnd (b - a)), p)

/-- `getPositionAtTime` (PolynomialSpline.hpp:104-107) of a straight segment `(duration, slope, start)`:
`std::inner_product` adds the products to `0.0` one by one; the products of the higher powers are 0 and leave
the sum as it is. -/
def linePosition (R : Rounding K) (s : K × K × K) (t : K) : K :=
  R.rnd (R.rnd (0 + R.rnd (s.2.1 * clamp t s.1)) + R.rnd (s.2.2 * 1))

/-! ## `CubicHermiteE3Curve` -/

open Verif.Manager (Node Mgr)
open Verif.Hermite (Knot)

/-- `Eigen::Vector3d`. -/
abbrev Vec3 (K : Type) := Fin 3 → K

/-- `alpha` (CubicHermiteE3Curve.cpp:207-208; the same expression in `evaluateDerivative`,
`evaluateLinearAcceleration`, in CubicHermiteSE3Curve.cpp:219 and in the slerp of
SemiDiscreteSE3Curve.cpp:161 and SlerpSE2Curve.cpp:169). -/
def alpha (R : Rounding K) (a b t : K) : K := R.rnd (R.rnd (t - a) / R.rnd (b - a))

/-- The formulas of `evaluate` (CubicHermiteE3Curve.cpp:206-227; the translation in
CubicHermiteSE3Curve.cpp:217-239). Eigen does the operations coordinate by coordinate. -/
def interpolate (R : Rounding K) (a b : Node K (Knot (Vec3 K))) (time : K) : Vec3 K :=
  let dt_sec := R.rnd (b.time - a.time)
  let al := alpha R a.time b.time time
  let alpha2 := R.rnd (al * al)
  let alpha3 := R.rnd (alpha2 * al)
  let beta0 := R.rnd (R.rnd (R.rnd (2 * alpha3) - R.rnd (3 * alpha2)) + 1)
  let beta1 := R.rnd (R.rnd (-2 * alpha3) + R.rnd (3 * alpha2))
  let beta2 := R.rnd (R.rnd (alpha3 - R.rnd (2 * alpha2)) + al)
  let beta3 := R.rnd (alpha3 - alpha2)
  fun x => R.rnd (R.rnd (R.rnd (R.rnd (a.coef.position x * beta0) + R.rnd (b.coef.position x * beta1)) +
    R.rnd (a.coef.velocity x * R.rnd (beta2 * dt_sec))) +
    R.rnd (b.coef.velocity x * R.rnd (beta3 * dt_sec)))

/-- `evaluate` (CubicHermiteE3Curve.cpp:184-231). The manager compares times and does not compute with
them. `none`: the call returns `false`. -/
def evaluate (R : Rounding K) (time : K) (m : Mgr K (Knot (Vec3 K))) : Outcome (Option (Vec3 K)) :=
  if m.getMaxTime = time ∧ m.getMinTime = time then
    Outcome.deref m.nodes.head? >>= fun n => .ok (some n.coef.position)
  else
    match m.getCoefficientsAt time with
    | none => .ok none
    | some (a, b) => .ok (some (interpolate R a b time))

/-- The formulas of `evaluateDerivative` of order 1 (CubicHermiteE3Curve.cpp:259-279; the linear velocity in
CubicHermiteSE3Curve.cpp:297-316). -/
def interpolateVelocity (R : Rounding K) (a b : Node K (Knot (Vec3 K))) (time : K) : Vec3 K :=
  let dt_sec := R.rnd (b.time - a.time)
  let one_over_dt_sec := R.rnd (1 / dt_sec)
  let al := alpha R a.time b.time time
  let alpha2 := R.rnd (al * al)
  let gamma0 := R.rnd (6 * R.rnd (alpha2 - al))
  let gamma1 := R.rnd (R.rnd (R.rnd (3 * alpha2) - R.rnd (4 * al)) + 1)
  let gamma2 := R.rnd (6 * R.rnd (al - alpha2))
  let gamma3 := R.rnd (R.rnd (3 * alpha2) - R.rnd (2 * al))
  fun x => R.rnd (R.rnd (R.rnd (R.rnd (a.coef.position x * R.rnd (gamma0 * one_over_dt_sec)) +
    R.rnd (a.coef.velocity x * gamma1)) + R.rnd (b.coef.position x * R.rnd (gamma2 * one_over_dt_sec))) +
    R.rnd (b.coef.velocity x * gamma3))

/-- `evaluateDerivative(time, 1)` (CubicHermiteE3Curve.cpp:234-281). -/
def evaluateVelocity (R : Rounding K) (time : K) (m : Mgr K (Knot (Vec3 K))) : Outcome (Option (Vec3 K)) :=
  if m.getMaxTime = time ∧ m.getMinTime = time then
    Outcome.deref m.nodes.head? >>= fun n => .ok (some n.coef.velocity)
  else
    match m.getCoefficientsAt time with
    | none => .ok none
    | some (a, b) => .ok (some (interpolateVelocity R a b time))

/-! ## `writeEvalToFile` -/

/-- The numbers of one line (CubicHermiteE3Curve.cpp:60-72): time, position, velocity. -/
def evalLine (R : Rounding K) (m : Mgr K (Knot (Vec3 K))) (t : K) : Outcome (Option (List K)) :=
  evaluate R t m >>= fun p =>
  match p with
  | none => .ok none
  | some p =>
    evaluateVelocity R t m >>= fun v =>
    match v with
    | none => .ok none
    | some v => .ok (some [t, p 0, p 1, p 2, v 0, v 1, v 2])

/-- `dt` (CubicHermiteE3Curve.cpp:56, CubicHermiteSE3Curve.cpp:59), for `nSamples = n + 2`. -/
def timeStep (R : Rounding K) (lo hi : K) (n : ℕ) : K := R.rnd (R.rnd (hi - lo) / ((n + 1 : ℕ) : K))

/-- The loop `for (t = min; t < max; t += dt)` (CubicHermiteE3Curve.cpp:59-74, CubicHermiteSE3Curve.cpp:62-79):
result of the function and the numbers of every line written. The first argument is the number of turns
allowed; `none` if the loop has not ended by then. -/
def evalLoop (R : Rounding K) (ev : K → Outcome (Option (List K))) (hi dt : K) :
    ℕ → K → List (List K) → Outcome (Option (Bool × List (List K)))
  | 0, _, _ => .ok none
  | n + 1, t, acc =>
    if t < hi then
      ev t >>= fun r =>
      match r with
      | none => .ok (some (false, acc))
      | some xs => evalLoop R ev hi dt n (R.rnd (t + dt)) (acc ++ [xs])
    else .ok (some (true, acc))

/-- The lines written by `writeEvalToFile(name, n + 2)` to a file that can be opened
(CubicHermiteE3Curve.cpp:43-78), with at most `turns` turns of the loop. -/
def writeEval (R : Rounding K) (m : Mgr K (Knot (Vec3 K))) (turns n : ℕ) :
    Outcome (Option (Bool × List (List K))) :=
  evalLoop R (evalLine R m) m.getMaxTime (timeStep R m.getMinTime m.getMaxTime n) turns m.getMinTime []

/-! ## `SamplingPolicy::extend` -/

/-- One turn of `SamplingPolicy::extend<CubicHermiteSE3Curve>` (CubicHermiteSE3Curve.hpp:369-391), as far as times
go: the times chosen by `defaultExtend` so far, the last of which is `lastExtend_`, and the number of
measurements seen since. Left out: the check that times increase, the values and the interim knot. -/
def pick (R : Rounding K) (minimumMeasurements : Int) (minSamplingPeriod : K) (s : List K × Nat) (time : K) :
    List K × Nat :=
  match s.1.getLast? with
  | none => ([time], 0)
  | some lastExtend =>
    if minimumMeasurements ≤ s.2 ∧ R.rnd (lastExtend + minSamplingPeriod) < time then (s.1 ++ [time], 0)
    else (s.1, s.2 + 1)

/-- The loop of `extend` (CubicHermiteSE3Curve.hpp:373-390) from a fresh policy and curve. -/
def picked (R : Rounding K) (minimumMeasurements : Int) (minSamplingPeriod : K) (times : List K) : List K × Nat :=
  times.foldl (pick R minimumMeasurements minSamplingPeriod) ([], 0)

end

end Verif.Rounding

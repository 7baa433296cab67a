import Verif.Hermite.E3Model
import Verif.Hermite.SE3Model
import Verif.Csv.Model

/-!
# Model of `writeEvalToFile` of the two Hermite curves

`curves/src/CubicHermiteE3Curve.cpp` 43-78 and `curves/src/CubicHermiteSE3Curve.cpp` 46-82. The two functions
have the same text up to the values printed; `writeEval` is that text.

The loop `for (t = min; t < max; t += dt)` need not end, so the model of the loop takes a number of turns
after which it gives up (result `none`); the theorems say how many turns suffice.
-/

set_option linter.unusedSectionVars false
set_option linter.dupNamespace false

namespace Verif.Hermite

open Verif.Csv

/-- `fprintf(fp, "%lf", x)`: the printed number is not empty and has no space and no newline in it. -/
structure Lf (K : Type) where
  print : K → Str
  print_ne : ∀ x, print x ≠ []
  print_space : ∀ x, ' ' ∉ print x
  print_newline : ∀ x, '\n' ∉ print x

/-- The header (CubicHermiteE3Curve.cpp:49-54, CubicHermiteSE3Curve.cpp:52-57), the same for both. -/
def header : Str :=
  "t ".toList ++ "px py pz ".toList ++ "rw rx ry rz ".toList ++ "vx vy vz ".toList ++
    "wx wy wz ".toList ++ "\n".toList

variable {K : Type} [Field K] [LinearOrder K] [IsStrictOrderedRing K]

/-- One line: every number with a space after it, then a newline (CubicHermiteE3Curve.cpp:70-73,
CubicHermiteSE3Curve.cpp:73-78). -/
def printLine (P : Lf K) (xs : List K) : Str := (xs.flatMap fun x => P.print x ++ [' ']) ++ ['\n']

/-- `dt` (CubicHermiteE3Curve.cpp:56, CubicHermiteSE3Curve.cpp:59). `none`: the quotient by zero, infinity if
`lo < hi` (and otherwise not used by the loop). Overflow of `nSamples - 1` is not modelled. -/
def timeStep (lo hi : K) (nSamples : ℤ) : Option K :=
  if nSamples - 1 = 0 then none else some ((hi - lo) / ((nSamples - 1 : ℤ) : K))

/-- The loop (CubicHermiteE3Curve.cpp:59-74, CubicHermiteSE3Curve.cpp:62-79): result of the function and the
numbers of every line written. `ev t` are the numbers of one line, `none` if one of the two evaluations
returns `false`. The first argument is the number of turns allowed. Adding infinity to `t` ends the
loop. -/
def evalLoop (ev : K → Outcome (Option (List K))) (hi : K) (dt : Option K) :
    ℕ → K → List (List K) → Outcome (Option (Bool × List (List K)))
  | 0, _, _ => .ok none
  | n + 1, t, acc =>
    if t < hi then
      ev t >>= fun r =>
      match r with
      | none => .ok (some (false, acc))
      | some xs =>
        match dt with
        | none => .ok (some (true, acc ++ [xs]))
        | some d => evalLoop ev hi dt n (t + d) (acc ++ [xs])
    else .ok (some (true, acc))

/-- `writeEvalToFile(filename, nSamples)` (CubicHermiteE3Curve.cpp:43-78, CubicHermiteSE3Curve.cpp:46-82).
Result: the value returned and the files; `none` if the loop did not end within `turns` turns. A file
left by a failing evaluation holds the lines before it. -/
def writeEval (P : Lf K) (ev : K → Outcome (Option (List K))) (lo hi : K) (turns : ℕ) (fs : FS)
    (name : Str) (nSamples : ℤ) : Outcome (Option (Bool × FS)) :=
  if fs.writable name then
    evalLoop ev hi (timeStep lo hi nSamples) turns lo [] >>= fun r =>
    .ok (r.map fun x => (x.1,
      { fs with
        files := fun n => if n = name then some (header ++ x.2.flatMap (printLine P)) else fs.files n }))
  else .ok (some (false, fs))

/-- The numbers of one line for `CubicHermiteE3Curve` (CubicHermiteE3Curve.cpp:60-72); `xyz` are the three
components of a vector. -/
def E3.evalLine {V : Type} [AddCommGroup V] [Module K V] (xyz : V → List K) (c : E3 K V) (t : K) :
    Outcome (Option (List K)) :=
  c.evaluate t >>= fun p =>
  match p with
  | none => .ok none
  | some p =>
    c.evaluateDerivative t 1 >>= fun v =>
    match v with
    | none => .ok none
    | some v => .ok (some (t :: xyz p ++ xyz v))

/-- `CubicHermiteE3Curve::writeEvalToFile` (CubicHermiteE3Curve.cpp:43-78). -/
def E3.writeEvalToFile {V : Type} [AddCommGroup V] [Module K V] (P : Lf K) (xyz : V → List K)
    (turns : ℕ) (fs : FS) (name : Str) (nSamples : ℤ) (c : E3 K V) : Outcome (Option (Bool × FS)) :=
  writeEval P (E3.evalLine xyz c) c.getMinTime c.getMaxTime turns fs name nSamples

open Verif.Kindr

/-- The numbers of one line for `CubicHermiteSE3Curve` (CubicHermiteSE3Curve.cpp:63-77). -/
noncomputable def SE3.evalLine (L : LogMap) (c : SE3) (t : ℝ) : Outcome (Option (List ℝ)) :=
  c.evaluate L t >>= fun p =>
  match p with
  | none => .ok none
  | some p =>
    c.evaluateDerivative L t 1 >>= fun v =>
    match v with
    | none => .ok none
    | some v => .ok (some [t, p.position 0, p.position 1, p.position 2,
        p.rotation.re, p.rotation.imI, p.rotation.imJ, p.rotation.imK,
        v.translationalVelocity 0, v.translationalVelocity 1, v.translationalVelocity 2,
        v.rotationalVelocity 0, v.rotationalVelocity 1, v.rotationalVelocity 2])

/-- `CubicHermiteSE3Curve::writeEvalToFile` (CubicHermiteSE3Curve.cpp:46-82). -/
noncomputable def SE3.writeEvalToFile (P : Lf ℝ) (L : LogMap) (turns : ℕ) (fs : FS) (name : Str)
    (nSamples : ℤ) (c : SE3) : Outcome (Option (Bool × FS)) :=
  writeEval P (SE3.evalLine L c) c.getMinTime c.getMaxTime turns fs name nSamples

end Verif.Hermite

import Verif.Outcome

/-!
# Model of the CSV helpers

`curves/src/helpers.cpp`. A file is a list of characters. `toString` (an `ostringstream` with its default
six digits) and `atof` belong to the C++ library and are a parameter `Fmt`; nothing is assumed about
how well they invert each other.
-/

namespace Verif.Csv

/-- A string. -/
abbrev Str := List Char

/-- The part of the file system the helpers use: contents of the existing files, and which names can be
opened for writing. -/
structure FS where
  files : Str → Option Str
  writable : Str → Bool

/-- Printing and parsing of numbers: `toString<double>` (`helpers.cpp` 14-17) and `atof`. Printed numbers
are not empty and contain neither commas nor newlines (C locale). -/
structure Fmt (K : Type) where
  print : K → Str
  parse : Str → K
  print_ne : ∀ x, print x ≠ []
  print_comma : ∀ x, ',' ∉ print x
  print_newline : ∀ x, '\n' ∉ print x

/-- All the strings `std::getline` with delimiter `d` delivers until it fails: the delimiter is consumed
and not delivered, and a call that finds the stream at its end delivers nothing. The argument is
`none` at the beginning of a call and the characters read so far after that. -/
def getlines (d : Char) : Option Str → Str → List Str
  | none, [] => []
  | some s, [] => [s]
  | o, c :: cs => if c = d then o.getD [] :: getlines d none cs else getlines d (some (o.getD [] ++ [c])) cs

/-- `loadCSV` (`helpers.cpp` 19-40). -/
def loadCSV (fs : FS) (name : Str) : Outcome (List (List Str)) :=
  match fs.files name with
  | none => .abort
  | some text => .ok ((getlines '\n' none text).map fun line => getlines ',' none line)

/-- One row as written by `writeCSV` (48-53): the fields separated by commas. -/
def joinRow : List Str → Str
  | [] => []
  | [f] => f
  | f :: rest => f ++ ',' :: joinRow rest

/-- The loop of `writeCSV` (47-55): the text written, or an abort at the first row without fields. -/
def writeRows : List (List Str) → Outcome Str
  | [] => .ok []
  | row :: rest =>
    if row.length < 1 then .abort
    else writeRows rest >>= fun text => .ok (joinRow row ++ '\n' :: text)

/-- `writeCSV` (42-57). Opening the file is not checked: when it fails nothing is written and the function
returns normally. On an abort the rows before the bad one may already be in the file; the process is
gone, so that is not modelled. -/
def writeCSV (fs : FS) (name : Str) (rows : List (List Str)) : Outcome FS :=
  if rows.length < 1 then .abort
  else writeRows rows >>= fun text =>
    .ok (if fs.writable name then { fs with files := fun n => if n = name then some text else fs.files n }
      else fs)

variable {K : Type}

/-- `vector::at`. -/
def at' (l : List Str) (i : Nat) : Outcome Str :=
  match l[i]? with
  | some s => .ok s
  | none => .throw

/-- `tempVec[vIdx] = atof(it->at(vIdx + vOffset).c_str())` for `vIdx` from `i` on, `n` of them (75-77,
125-127). -/
def readVec (F : Fmt K) (row : List Str) (offset : Nat) : Nat → Nat → Outcome (List K)
  | _, 0 => .ok []
  | i, n + 1 =>
    at' row (i + offset) >>= fun s => readVec F row offset (i + 1) n >>= fun vs => .ok (F.parse s :: vs)

/-- The loop of `loadTimeVectorCSV` (73-79). The time is read from column 1 (74). -/
def readTimeRows (F : Fmt K) (dim : Nat) : List (List Str) → Outcome (List K × List (List K))
  | [] => .ok ([], [])
  | row :: rest =>
    at' row 1 >>= fun s =>
    readVec F row 1 0 dim >>= fun v =>
    readTimeRows F dim rest >>= fun r => .ok (F.parse s :: r.1, v :: r.2)

/-- `loadTimeVectorCSV` (59-80). -/
def loadTimeVectorCSV (F : Fmt K) (fs : FS) (name : Str) : Outcome (List K × List (List K)) :=
  loadCSV fs name >>= fun temp =>
  match temp with
  | [] => .abort
  | row0 :: _ =>
    if row0.length < 2 then .abort else readTimeRows F (row0.length - 1) temp

/-- The loop that fills the matrix of strings in `writeTimeVectorCSV` (93-101). `values.at(i)` and
`times[i]` are both within bounds, the lengths being equal. -/
def printRows (F : Fmt K) (dim : Nat) : List K → List (List K) → Outcome (List (List Str))
  | t :: ts, v :: vs =>
    if v.length ≠ dim then .abort
    else printRows F dim ts vs >>= fun rows => .ok ((F.print t :: v.map F.print) :: rows)
  | _, _ => .ok []

/-- `writeTimeVectorCSV` (82-104). -/
def writeTimeVectorCSV (F : Fmt K) (fs : FS) (name : Str) (times : List K) (values : List (List K)) :
    Outcome FS :=
  if times.length ≠ values.length then .abort
  else
    match values with
    | [] => .abort
    | v0 :: _ => printRows F v0.length times values >>= fun rows => writeCSV fs name rows

/-- The loop of `loadTimeTimeVectorCSV` (122-129). The two times are read from columns 1 and 2 (123,
124). -/
def readTimeTimeRows (F : Fmt K) (dim : Nat) :
    List (List Str) → Outcome (List K × List K × List (List K))
  | [] => .ok ([], [], [])
  | row :: rest =>
    at' row 1 >>= fun s0 =>
    at' row 2 >>= fun s1 =>
    readVec F row 2 0 dim >>= fun v =>
    readTimeTimeRows F dim rest >>= fun r =>
      .ok (F.parse s0 :: r.1, F.parse s1 :: r.2.1, v :: r.2.2)

/-- `loadTimeTimeVectorCSV` (106-130). -/
def loadTimeTimeVectorCSV (F : Fmt K) (fs : FS) (name : Str) :
    Outcome (List K × List K × List (List K)) :=
  loadCSV fs name >>= fun temp =>
  match temp with
  | [] => .abort
  | row0 :: _ =>
    if row0.length < 3 then .abort else readTimeTimeRows F (row0.length - 2) temp

/-- `saveCurveAtTimes` of the curves whose `evaluate` returns its value (`DiscreteSE3Curve.cpp` 309-322,
`SemiDiscreteSE3Curve.cpp` 307-320, `SlerpSE3Curve.cpp` 277-290, `SE3CompositionCurve-inl.hpp`
429-443; the loop of `SlerpSE2Curve.cpp` 251-258): `eval` is the curve's `evaluate`, `toVec` the
components written (position and quaternion, or x, y and angle). -/
def saveAtTimes {G : Type} (F : Fmt K) (eval : K → Outcome G) (toVec : G → List K) (fs : FS) (name : Str)
    (times : List K) : Outcome FS :=
  collect times >>= fun vs => writeTimeVectorCSV F fs name times vs
where
  /-- The loop. -/
  collect : List K → Outcome (List (List K))
    | [] => .ok []
    | t :: rest => eval t >>= fun v => collect rest >>= fun vs => .ok (toVec v :: vs)

/-- `saveCurveAtTimes` of `CubicHermiteSE3Curve` (`CubicHermiteSE3Curve.cpp` 578-592): `evaluate` reports
through its return value whether it set the output; the return value is ignored, so the variable
`val` keeps what it held (`init` before the loop). -/
def saveAtTimesH {G : Type} (F : Fmt K) (eval : K → Outcome (Option G)) (toVec : G → List K) (init : G)
    (fs : FS) (name : Str) (times : List K) : Outcome FS :=
  collect init times >>= fun vs => writeTimeVectorCSV F fs name times vs
where
  /-- The loop. -/
  collect (val : G) : List K → Outcome (List (List K))
    | [] => .ok []
    | t :: rest =>
      eval t >>= fun r => collect (r.getD val) rest >>= fun vs => .ok (toVec (r.getD val) :: vs)

end Verif.Csv

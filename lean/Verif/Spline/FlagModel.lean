import Verif.Spline.Model

/-!
# `didEvaluateCoeffs_`

The flag of `PolynomialSpline` (`curves/include/curves/PolynomialSpline.hpp` 300-301: "True if the coefficents were computed at
least once."). No function of the library tests it, so `Verif/Spline/Model.lean` leaves it out; but copying a spline reads it.
-/

set_option linter.unusedSectionVars false
set_option linter.dupNamespace false

namespace Verif.Spline

variable {K : Type} [Field K] [LinearOrder K] [IsStrictOrderedRing K] {o : Order}

/-- `class PolynomialSpline` with its flag (PolynomialSpline.hpp:36-308); `none` is an indeterminate value. -/
structure Flagged (o : Order) (K : Type) where
  spline : Spline o K
  /-- `didEvaluateCoeffs_` -/
  computed : Option Bool

/-- The constructors. -/
inductive Ctor (o : Order) (K : Type)
  /-- `PolynomialSpline()` (PolynomialSpline.hpp:47-53) -/
  | default
  /-- `PolynomialSpline(coefficients, duration)` (PolynomialSpline.hpp:55-62) -/
  | coefficients (c : Vec o K) (d : K)
  /-- `PolynomialSpline(options)` (PolynomialSpline.hpp:64-70) -/
  | options (p : Options K)

/-- A spline just constructed: the first two constructors initialise the flag (PolynomialSpline.hpp:49, 58), those from
options do not (64-70). -/
def Ctor.make (S : RawSolver K) : Ctor o K → Flagged o K
  | .default => ⟨Spline.empty o, some false⟩
  | .coefficients c d => ⟨⟨c, d⟩, some true⟩
  | .options p => ⟨((Spline.empty o).computeCoefficients S p).2, none⟩

/-- The functions that change a spline. -/
inductive Change (o : Order) (K : Type)
  /-- `computeCoefficients(options)` (PolynomialSpline.hpp:90-95) -/
  | compute (p : Options K)
  /-- `setCoefficientsAndDuration` (PolynomialSpline.hpp:98-101) -/
  | set (c : Vec o K) (d : K)

/-- Neither function writes the flag (PolynomialSpline.hpp:90-101). -/
def Flagged.change (S : RawSolver K) (s : Flagged o K) : Change o K → Flagged o K
  | .compute p => ⟨(s.spline.computeCoefficients S p).2, s.computed⟩
  | .set c d => ⟨s.spline.setCoefficientsAndDuration c d, s.computed⟩

/-- The defaulted copy and move constructors (PolynomialSpline.hpp:74-78): member by member. Reading a `bool` that has an
indeterminate value is undefined behaviour. -/
def Flagged.copy (s : Flagged o K) : Outcome (Flagged o K) :=
  match s.computed with
  | none => .ub
  | some b => .ok ⟨s.spline, some b⟩

/-- `addSpline` (PolynomialSplineContainer.hpp:49-54) on the list of splines of a container: `emplace_back` constructs the
new element from the argument, and may have to move the elements already there to a larger array. -/
def addSpline (l : List (Flagged o K)) (s : Flagged o K) (grow : Bool) : Outcome (List (Flagged o K)) :=
  s.copy >>= fun s' => (if grow then moveAll l else .ok l) >>= fun l' => .ok (l' ++ [s'])
where
  /-- moving the elements -/
  moveAll : List (Flagged o K) → Outcome (List (Flagged o K))
    | [] => .ok []
    | x :: rest => x.copy >>= fun x' => moveAll rest >>= fun r => .ok (x' :: r)

/-- A loop that adds splines made by the constructors `l` one after the other: `fitCurve(optionList)`
(PolynomialSplineScalarCurve.hpp:131-138) with constructors from options, `extractSplineCoefficients` and `setDataLinear`
(PolynomialSplineContainer.tpp:429, 556) with constructors from coefficients. `grow` says at which additions the array has
to be enlarged. -/
def addMade (S : RawSolver K) (l : List (Flagged o K)) : List (Ctor o K × Bool) → Outcome (List (Flagged o K))
  | [] => .ok l
  | (c, grow) :: rest => addSpline l (c.make S) grow >>= fun l' => addMade S l' rest

end Verif.Spline

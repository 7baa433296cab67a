import Verif.Rounding.SplineModel
import Verif.Rounding.Link

/-!
# The straight-line `setData` with rounded arithmetic
-/

set_option linter.unusedSectionVars false
set_option linter.dupNamespace false

namespace Verif.Rounding

open Verif.Spline (Order Vec Spline)

variable {K : Type} [Field K] [LinearOrder K] (R : Rounding K)

/-- The segment between the knots `(a, p)` and `(b, q)` (PolynomialSplineContainer.tpp:421-429). -/
def lineSpline (o : Order) (a b p q : K) : Spline o K :=
  ⟨fun m => if (m : ℕ) = o.count - 1 then p else if (m : ℕ) = o.count - 2 then
    R.rnd (R.rnd (q - p) / R.rnd (b - a)) else 0, R.rnd (b - a)⟩

/-- The loop of the straight-line `setData` (PolynomialSplineContainer.tpp:420-430): `k` segments from number `i`. -/
def lineLoop {o : Order} (ts ps : List K) : ℕ → ℕ → Box (Spline o K) K → Outcome (Bool × Box (Spline o K) K)
  | 0, _, c => .ok (true, c)
  | k + 1, i, c =>
    Outcome.deref ts[i + 1]? >>= fun b => Outcome.deref ts[i]? >>= fun a =>
      if R.rnd (b - a) ≤ 0 then .ok (false, c)
      else
        Outcome.deref ps[i]? >>= fun p => Outcome.deref ps[i + 1]? >>= fun q =>
        lineLoop ts ps k (i + 1) (c.addSpline R.arith Spline.duration (lineSpline R o a b p q))

/-- `setData(knotDurations, knotPositions)` (PolynomialSplineContainer.tpp:400-434). -/
def setDataLinear {o : Order} (ts ps : List K) (c : Box (Spline o K) K) : Outcome (Bool × Box (Spline o K) K) :=
  if (ts.length : ℤ) - 1 < 1 then .ok (false, c)
  else lineLoop R ts ps (ts.length - 1) 0 (c.reset R.arith)

end Verif.Rounding

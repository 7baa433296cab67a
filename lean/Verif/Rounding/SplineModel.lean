import Verif.Rounding.Model

/-!
# Evaluating segments and containers in `double`

`PolynomialSpline` and the queries of `PolynomialSplineContainer` with rounding. `Verif/Rounding/SplineProps.lean` shows
that with exact arithmetic this is `Verif/Spline/Model.lean`.
-/

set_option linter.unusedSectionVars false
set_option linter.dupNamespace false

namespace Verif.Rounding

open Verif.Spline (Order Vec Spline)
open Verif.Container (Container)

variable {K : Type} [Field K] [LinearOrder K]

/-- A power computed by rounded multiplications, in any order: `IsPow R x n y` if `y` is a possible result for `x ^ n`. -/
inductive IsPow (R : Rounding K) (x : K) : ℕ → K → Prop
  | one : IsPow R x 1 x
  | mul {m n : ℕ} {a b : K} : IsPow R x m a → IsPow R x n b → IsPow R x (m + n) (R.rnd (a * b))

/-- `boost::math::pow<N>(x)` (external). Used for `N` from 2 to 5; the contract is that it multiplies, in whatever order. -/
structure Pow (R : Rounding K) where
  pow : ℕ → K → K
  mult : ∀ n x, 1 ≤ n → IsPow R x n (pow n x)

variable (R : Rounding K) (P : Pow R)

/-- `tau(tk)` (polynomial_splines_traits.hpp:98-100, 133-135, 170-172, 214-216, 260-263). -/
def tau : (o : Order) → K → Vec o K
  | .o1, t => ![t, 1]
  | .o2, t => ![P.pow 2 t, t, 1]
  | .o3, t => ![P.pow 3 t, P.pow 2 t, t, 1]
  | .o4, t => ![P.pow 4 t, P.pow 3 t, P.pow 2 t, t, 1]
  | .o5, t => ![P.pow 5 t, P.pow 4 t, P.pow 3 t, P.pow 2 t, t, 1]

/-- `dtau(tk)` (polynomial_splines_traits.hpp:102-104, 137-139, 174-176, 218-220, 265-268). -/
def dtau : (o : Order) → K → Vec o K
  | .o1, _ => ![1, 0]
  | .o2, t => ![R.rnd (2 * t), 1, 0]
  | .o3, t => ![R.rnd (3 * P.pow 2 t), R.rnd (2 * t), 1, 0]
  | .o4, t => ![R.rnd (4 * P.pow 3 t), R.rnd (3 * P.pow 2 t), R.rnd (2 * t), 1, 0]
  | .o5, t => ![R.rnd (5 * P.pow 4 t), R.rnd (4 * P.pow 3 t), R.rnd (3 * P.pow 2 t), R.rnd (2 * t), 1, 0]

/-- `ddtau(tk)` (polynomial_splines_traits.hpp:106-108, 141-143, 178-180, 222-224, 270-273). -/
def ddtau : (o : Order) → K → Vec o K
  | .o1, _ => ![0, 0]
  | .o2, _ => ![2, 0, 0]
  | .o3, t => ![R.rnd (6 * t), 2, 0, 0]
  | .o4, t => ![R.rnd (12 * P.pow 2 t), R.rnd (6 * t), 2, 0, 0]
  | .o5, t => ![R.rnd (20 * P.pow 3 t), R.rnd (12 * P.pow 2 t), R.rnd (6 * t), 2, 0, 0]

/-- `std::inner_product(a.begin(), a.end(), b.begin(), 0.0)` (PolynomialSpline.hpp:105, 111, 117): the products are
added to `0.0` one by one, from the highest power down. -/
def inner {n : ℕ} (a b : Fin n → K) : K :=
  (List.finRange n).foldl (fun acc i => R.rnd (acc + R.rnd (a i * b i))) 0

/-- `getPositionAtTime` (PolynomialSpline.hpp:104-107). -/
def position {o : Order} (s : Spline o K) (t : K) : K := inner R s.coeffs (tau R P o (clamp t s.duration))

/-- `getVelocityAtTime` (PolynomialSpline.hpp:110-113). -/
def velocity {o : Order} (s : Spline o K) (t : K) : K := inner R s.coeffs (dtau R P o (clamp t s.duration))

/-- `getAccelerationAtTime` (PolynomialSpline.hpp:116-119). -/
def acceleration {o : Order} (s : Spline o K) (t : K) : K := inner R s.coeffs (ddtau R P o (clamp t s.duration))

end Verif.Rounding

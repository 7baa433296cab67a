import Mathlib.Algebra.Order.Field.Basic
import Mathlib.Algebra.BigOperators.Fin
import Mathlib.Algebra.BigOperators.Intervals
import Mathlib.Data.Fin.VecNotation
import Verif.Outcome

/-!
# Model of `polynomial_splines_traits.hpp` and `PolynomialSpline.hpp`

`double` is modelled by an arbitrary ordered field `K` (exact arithmetic, no NaN, no rounding).
-/

set_option linter.unusedSectionVars false
set_option linter.dupNamespace false

namespace Verif.Spline

/-- The five specialisations of `spline_rep<double, N>`
(curves/include/curves/polynomial_splines_traits.hpp:88-294). The primary template (lines 72-86) has
no definitions, so no other order can be instantiated. -/
inductive Order | o1 | o2 | o3 | o4 | o5
  deriving DecidableEq, Repr

/-- `splineOrder` (polynomial_splines_traits.hpp:92, 127, 164, 208, 254). -/
def Order.deg : Order → ℕ
  | .o1 => 1 | .o2 => 2 | .o3 => 3 | .o4 => 4 | .o5 => 5

/-- `numCoefficients = splineOrder + 1` (polynomial_splines_traits.hpp:93, 128, 165, 209, 255),
`coefficientCount` (PolynomialSpline.hpp:40). -/
abbrev Order.count (o : Order) : ℕ := o.deg + 1

/-- `std::array<double, numCoefficients>`: coefficient and time vectors
(polynomial_splines_traits.hpp:95-96 and the same lines of the other orders). Entry 0 belongs to the
highest power. -/
abbrev Vec (o : Order) (K : Type) := Fin o.count → K

variable {K : Type} [Field K] [LinearOrder K] [IsStrictOrderedRing K]

/-- `tau(tk)` (polynomial_splines_traits.hpp:98-100, 133-135, 170-172, 214-216, 260-263). -/
def tau : (o : Order) → K → Vec o K
  | .o1, t => ![t, 1]
  | .o2, t => ![t ^ 2, t, 1]
  | .o3, t => ![t ^ 3, t ^ 2, t, 1]
  | .o4, t => ![t ^ 4, t ^ 3, t ^ 2, t, 1]
  | .o5, t => ![t ^ 5, t ^ 4, t ^ 3, t ^ 2, t, 1]

/-- `dtau(tk)` (polynomial_splines_traits.hpp:102-104, 137-139, 174-176, 218-220, 265-268). -/
def dtau : (o : Order) → K → Vec o K
  | .o1, _ => ![1, 0]
  | .o2, t => ![2 * t, 1, 0]
  | .o3, t => ![3 * t ^ 2, 2 * t, 1, 0]
  | .o4, t => ![4 * t ^ 3, 3 * t ^ 2, 2 * t, 1, 0]
  | .o5, t => ![5 * t ^ 4, 4 * t ^ 3, 3 * t ^ 2, 2 * t, 1, 0]

/-- `ddtau(tk)` (polynomial_splines_traits.hpp:106-108, 141-143, 178-180, 222-224, 270-273). -/
def ddtau : (o : Order) → K → Vec o K
  | .o1, _ => ![0, 0]
  | .o2, _ => ![2, 0, 0]
  | .o3, t => ![6 * t, 2, 0, 0]
  | .o4, t => ![12 * t ^ 2, 6 * t, 2, 0, 0]
  | .o5, t => ![20 * t ^ 3, 12 * t ^ 2, 6 * t, 2, 0, 0]

/-- `tauZero` (polynomial_splines_traits.hpp:110, 145, 182, 226, 275). -/
def tauZero : (o : Order) → Vec o K
  | .o1 => ![0, 1]
  | .o2 => ![0, 0, 1]
  | .o3 => ![0, 0, 0, 1]
  | .o4 => ![0, 0, 0, 0, 1]
  | .o5 => ![0, 0, 0, 0, 0, 1]

/-- `dtauZero` (polynomial_splines_traits.hpp:111, 146, 183, 227, 276). -/
def dtauZero : (o : Order) → Vec o K
  | .o1 => ![1, 0]
  | .o2 => ![0, 1, 0]
  | .o3 => ![0, 0, 1, 0]
  | .o4 => ![0, 0, 0, 1, 0]
  | .o5 => ![0, 0, 0, 0, 1, 0]

/-- `ddtauZero` (polynomial_splines_traits.hpp:112, 147, 184, 228, 277). -/
def ddtauZero : (o : Order) → Vec o K
  | .o1 => ![0, 0]
  | .o2 => ![2, 0, 0]
  | .o3 => ![0, 2, 0, 0]
  | .o4 => ![0, 0, 2, 0, 0]
  | .o5 => ![0, 0, 0, 2, 0, 0]

/-- `struct SplineOptions` (polynomial_splines_traits.hpp:23-67). -/
structure Options (K : Type) where
  /-- `tf_` -/
  tf : K
  /-- `pos0_` -/
  pos0 : K
  /-- `posT_` -/
  posT : K
  /-- `vel0_` -/
  vel0 : K
  /-- `velT_` -/
  velT : K
  /-- `acc0_` -/
  acc0 : K
  /-- `accT_` -/
  accT : K

/-- A dense matrix or system of linear equations: `rows × cols` entries, indices beyond these bounds
carry no meaning. Stands for `Eigen::Matrix` (external). -/
def Solves (rows cols : ℕ) (A : ℕ → ℕ → K) (b x : ℕ → K) : Prop :=
  ∀ r < rows, ∑ c ∈ Finset.range cols, A r c * x c = b r

/-- `A.colPivHouseholderQr().solve(b)` (external: Eigen), nothing being assumed of the result. -/
structure RawSolver (K : Type) where
  /-- the solution vector returned for a `rows × cols` system -/
  solve : (rows cols : ℕ) → (ℕ → ℕ → K) → (ℕ → K) → ℕ → K

/-- `A.colPivHouseholderQr().solve(b)` (external: Eigen). The contract used is the documented one in
exact arithmetic: the result solves the system whenever the system has a solution. -/
structure Solver (K : Type) [Field K] extends RawSolver K where
  /-- contract -/
  exact : ∀ rows cols A b, (∃ x, Solves rows cols A b x) →
    Solves rows cols A b (solve rows cols A b)

instance {K : Type} [Field K] : Coe (Solver K) (RawSolver K) := ⟨Solver.toRawSolver⟩

/-- A fixed-size row vector as a row of a matrix (`Eigen::Map<Matrix<double,1,N>>(array.data())`,
polynomial_splines_traits.hpp:193-196 and similar); zero beyond the row. -/
def row {n : ℕ} (v : Fin n → K) (c : ℕ) : K := if h : c < n then v ⟨c, h⟩ else 0

/-- `A << row0, row1, ...` and `b << b0, b1, ...` followed by `A.colPivHouseholderQr().solve(b)`
(polynomial_splines_traits.hpp:189-198, 232-242, 281-289). -/
def solveRows (S : RawSolver K) {o : Order} (rows : List (Vec o K × K)) : Vec o K := fun i =>
  S.solve rows.length o.count (fun r c => ((rows[r]?).map (fun p => row p.1 c)).getD 0)
    (fun r => ((rows[r]?).map Prod.snd).getD 0) i

/-- The coefficients written by `compute(opts, coefficients)`
(polynomial_splines_traits.hpp:115-120, 150-157, 187-201, 231-245, 280-292). All versions return
`true`. Division by zero (`tf = 0`) gives `0` here and an infinity or NaN in the code. -/
def compute (S : RawSolver K) : (o : Order) → Options K → Vec o K
  | .o1, p => ![(p.posT - p.pos0) / p.tf, p.pos0]
  | .o2, p => ![(p.posT - p.pos0 - p.vel0 * p.tf) / p.tf ^ 2, p.vel0, p.pos0]
  | .o3, p => solveRows S (o := .o3)
      [(tauZero .o3, p.pos0), (dtauZero .o3, p.vel0), (tau .o3 p.tf, p.posT),
       (dtau .o3 p.tf, p.velT)]
  | .o4, p => solveRows S (o := .o4)
      [(tauZero .o4, p.pos0), (dtauZero .o4, p.vel0), (ddtauZero .o4, p.acc0),
       (tau .o4 p.tf, p.posT), (dtau .o4 p.tf, p.velT)]
  | .o5, p => solveRows S (o := .o5)
      [(tauZero .o5, p.pos0), (dtauZero .o5, p.vel0), (ddtauZero .o5, p.acc0),
       (tau .o5 p.tf, p.posT), (dtau .o5 p.tf, p.velT), (ddtau .o5 p.tf, p.accT)]

/-- `class PolynomialSpline` (PolynomialSpline.hpp:36-308). `didEvaluateCoeffs_` is tested
nowhere and is left out here; what copying it means is in `Verif/Spline/FlagModel.lean`. -/
structure Spline (o : Order) (K : Type) where
  /-- `coefficients_` -/
  coeffs : Vec o K
  /-- `duration_` -/
  duration : K

/-- Default constructor (PolynomialSpline.hpp:47-53): duration 0, value-initialised coefficients. -/
def Spline.empty (o : Order) : Spline o K := ⟨fun _ => 0, 0⟩

/-- `computeCoefficients(options)` (PolynomialSpline.hpp:92-95) and the constructors from options
(lines 64-70): sets the duration, then the coefficients. -/
def Spline.computeCoefficients {o : Order} (S : RawSolver K) (p : Options K) (_s : Spline o K) :
    Bool × Spline o K := (true, ⟨compute S o p, p.tf⟩)

/-- `setCoefficientsAndDuration` (PolynomialSpline.hpp:98-101). -/
def Spline.setCoefficientsAndDuration {o : Order} (c : Vec o K) (d : K) (_s : Spline o K) :
    Spline o K := ⟨c, d⟩

/-- `std::inner_product(a.begin(), a.end(), b.begin(), 0.0)` (PolynomialSpline.hpp:105, 111, 117);
the order of summation does not matter in exact arithmetic. -/
def inner {n : ℕ} (a b : Fin n → K) : K := ∑ i, a i * b i

/-- `std::max(0.0, std::min(tk, duration_))` (PolynomialSpline.hpp:106, 112, 118). `std::min(a,b)` is
`b < a ? b : a`, `std::max(a,b)` is `a < b ? b : a`. -/
def clamp (t d : K) : K :=
  let m := if d < t then d else t
  if 0 < m then m else 0

/-- `getPositionAtTime` (PolynomialSpline.hpp:104-107). -/
def Spline.getPositionAtTime {o : Order} (s : Spline o K) (t : K) : K :=
  inner s.coeffs (tau o (clamp t s.duration))

/-- `getVelocityAtTime` (PolynomialSpline.hpp:110-113). -/
def Spline.getVelocityAtTime {o : Order} (s : Spline o K) (t : K) : K :=
  inner s.coeffs (dtau o (clamp t s.duration))

/-- `getAccelerationAtTime` (PolynomialSpline.hpp:116-119). -/
def Spline.getAccelerationAtTime {o : Order} (s : Spline o K) (t : K) : K :=
  inner s.coeffs (ddtau o (clamp t s.duration))

/-- `getTimeVector` (both overloads, PolynomialSpline.hpp:125-137): the row written. -/
def getTimeVector (o : Order) (t : K) : Vec o K := tau o t
/-- `addTimeVector` (PolynomialSpline.hpp:140-147). -/
def addTimeVector (o : Order) (v : Vec o K) (t : K) : Vec o K := v + tau o t
/-- `getDTimeVector` (PolynomialSpline.hpp:153-155). -/
def getDTimeVector (o : Order) (t : K) : Vec o K := dtau o t
/-- `getDiffTimeVector` (PolynomialSpline.hpp:158-165). -/
def getDiffTimeVector (o : Order) (t : K) : Vec o K := dtau o t
/-- `addDiffTimeVector` (PolynomialSpline.hpp:168-175). -/
def addDiffTimeVector (o : Order) (v : Vec o K) (t : K) : Vec o K := v + dtau o t
/-- `getDDTimeVector` (PolynomialSpline.hpp:180-182). -/
def getDDTimeVector (o : Order) (t : K) : Vec o K := ddtau o t
/-- `getDDiffTimeVector` (PolynomialSpline.hpp:185-192). The code calls `dtau`, not `ddtau`. -/
def getDDiffTimeVector (o : Order) (t : K) : Vec o K := dtau o t
/-- `addDDiffTimeVector` (PolynomialSpline.hpp:195-202). -/
def addDDiffTimeVector (o : Order) (v : Vec o K) (t : K) : Vec o K := v + ddtau o t
/-- `getTimeVectorAtZero` (both overloads, PolynomialSpline.hpp:207-220). -/
def getTimeVectorAtZero (o : Order) : Vec o K := tauZero o
/-- `addTimeVectorAtZero` (PolynomialSpline.hpp:223-231). -/
def addTimeVectorAtZero (o : Order) (v : Vec o K) : Vec o K := v + tauZero o
/-- `getDTimeVectorAtZero` (PolynomialSpline.hpp:237-239). -/
def getDTimeVectorAtZero (o : Order) : Vec o K := dtauZero o
/-- `getDiffTimeVectorAtZero` (PolynomialSpline.hpp:242-250). -/
def getDiffTimeVectorAtZero (o : Order) : Vec o K := dtauZero o
/-- `addDiffTimeVectorAtZero` (PolynomialSpline.hpp:253-261). -/
def addDiffTimeVectorAtZero (o : Order) (v : Vec o K) : Vec o K := v + dtauZero o
/-- `getDDTimeVectorAtZero` (PolynomialSpline.hpp:265-267). -/
def getDDTimeVectorAtZero (o : Order) : Vec o K := ddtauZero o
/-- `getDDiffTimeVectorAtZero` (PolynomialSpline.hpp:270-278). -/
def getDDiffTimeVectorAtZero (o : Order) : Vec o K := ddtauZero o
/-- `addDDiffTimeVectorAtZero` (PolynomialSpline.hpp:281-289). -/
def addDDiffTimeVectorAtZero (o : Order) (v : Vec o K) : Vec o K := v + ddtauZero o

end Verif.Spline

import Mathlib.Analysis.Real.Sqrt
import Mathlib.Algebra.BigOperators.Field
import Mathlib.Algebra.BigOperators.Intervals
import Mathlib.Logic.Equiv.Basic
import Mathlib.Logic.Equiv.Defs
import Verif.Spline.Model

/-!
# The linear solver the code calls

`A.colPivHouseholderQr().solve(b)` (called at PolynomialSplineContainer.tpp:314, 391 and
polynomial_splines_traits.hpp:198, 242, 288). The code is Eigen's, which is not in the repository; this is
the algorithm its documentation names: a QR factorisation by Householder reflections, at every step with
the column of largest remaining norm, followed by substitution from the last row upwards, with zero for
the unknowns without pivot. Vectors are functions on `ℕ`, of which the first `rows` or `cols` entries
count. Simplified: arithmetic is exact, and a column counts as zero if it is zero (Eigen compares its norm
with a multiple of the machine precision and updates the norms instead of computing them anew).
-/

set_option linter.unusedSectionVars false
set_option linter.dupNamespace false

namespace Verif.Qr

open Finset

/-- Squared norm of the entries from number `k` on. -/
noncomputable def tail2 (rows k : ℕ) (x : ℕ → ℝ) : ℝ := ∑ i ∈ Ico k rows, x i ^ 2

/-- A Householder reflection `1 - tau v vᵀ` of the entries from number `k` on (`householderCoefficient` and
`householderEssential` of Eigen; `v k` is one). -/
structure Reflection where
  /-- first row it acts on -/
  k : ℕ
  /-- the vector -/
  v : ℕ → ℝ
  /-- the factor -/
  tau : ℝ

/-- `makeHouseholder` (Eigen): the reflection that maps the part of `x` from number `k` on to a multiple of
the first unit vector. -/
noncomputable def makeHouseholder (rows k : ℕ) (x : ℕ → ℝ) : Reflection :=
  if tail2 rows (k + 1) x = 0 then ⟨k, fun i => if i = k then 1 else 0, 0⟩
  else
    let norm := √(x k ^ 2 + tail2 rows (k + 1) x)
    let beta := if 0 ≤ x k then -norm else norm
    ⟨k, fun i => if i = k then 1 else x i / (x k - beta), (beta - x k) / beta⟩

/-- `applyHouseholderOnTheLeft` (Eigen), to one column. -/
noncomputable def Reflection.apply (rows : ℕ) (h : Reflection) (x : ℕ → ℝ) (i : ℕ) : ℝ :=
  if h.k ≤ i ∧ i < rows then x i - h.tau * h.v i * ∑ m ∈ Ico h.k rows, h.v m * x m else x i

/-- The search for the column of largest remaining norm: `n` columns from number `j` on, the best so far
being `p`. -/
noncomputable def pivotLoop (rows k : ℕ) (A : ℕ → ℕ → ℝ) : ℕ → ℕ → ℕ → ℕ
  | 0, _, p => p
  | n + 1, j, p =>
    pivotLoop rows k A n (j + 1)
      (if tail2 rows k (fun i => A i p) < tail2 rows k (fun i => A i j) then j else p)

/-- The column of largest remaining norm, among those from number `k` on (the first of them). -/
noncomputable def pivot (rows cols k : ℕ) (A : ℕ → ℕ → ℝ) : ℕ :=
  pivotLoop rows k A (cols - (k + 1)) (k + 1) k

/-- A factorisation in progress. -/
structure Factor where
  /-- the matrix, its first columns triangular already -/
  R : ℕ → ℕ → ℝ
  /-- column `j` of `R` is column `perm j` of the given matrix -/
  perm : Equiv.Perm ℕ
  /-- the reflections applied so far, in order -/
  refl : List Reflection
  /-- the number of pivots -/
  rank : ℕ

/-- The loop of `ColPivHouseholderQR::computeInPlace` (Eigen): at most `n` steps from number `k` on. -/
noncomputable def factorLoop (rows cols : ℕ) : ℕ → ℕ → Factor → Factor
  | 0, k, F => { F with rank := k }
  | n + 1, k, F =>
    let p := pivot rows cols k F.R
    if tail2 rows k (fun i => F.R i p) = 0 then { F with rank := k }
    else
      let B : ℕ → ℕ → ℝ := fun i j => F.R i (Equiv.swap k p j)
      let h := makeHouseholder rows k (fun i => B i k)
      factorLoop rows cols n (k + 1)
        ⟨fun i j => h.apply rows (fun i => B i j) i, (Equiv.swap k p).trans F.perm, F.refl ++ [h], k⟩

/-- `colPivHouseholderQr()` (Eigen). -/
noncomputable def factor (rows cols : ℕ) (A : ℕ → ℕ → ℝ) : Factor :=
  factorLoop rows cols (min rows cols) 0 ⟨A, Equiv.refl ℕ, [], 0⟩

/-- The reflections applied to a right-hand side, in order. -/
noncomputable def applyAll (rows : ℕ) (l : List Reflection) (b : ℕ → ℝ) : ℕ → ℝ :=
  l.foldl (fun b h => h.apply rows b) b

/-- Substitution in the triangular part: the last `m` of the `r` unknowns. -/
noncomputable def back (R : ℕ → ℕ → ℝ) (b : ℕ → ℝ) (r : ℕ) : ℕ → ℕ → ℝ
  | 0 => fun _ => 0
  | m + 1 =>
    let y := back R b r m
    let i := r - (m + 1)
    fun j => if j = i then (b i - ∑ q ∈ Ico (i + 1) r, R i q * y q) / R i i else y j

/-- `solve(b)` (Eigen): unknowns without pivot are zero. -/
noncomputable def solve (rows cols : ℕ) (A : ℕ → ℕ → ℝ) (b : ℕ → ℝ) (q : ℕ) : ℝ :=
  let F := factor rows cols A
  let j := F.perm.symm q
  if j < F.rank then back F.R (applyAll rows F.refl b) F.rank F.rank j else 0

/-- The solver of the code, as the models of the splines use it. -/
noncomputable def raw : Verif.Spline.RawSolver ℝ := ⟨solve⟩

end Verif.Qr

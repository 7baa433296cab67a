import Verif.Qr.Props
import Verif.Container.UniqueProps

/-!
# Solutions supported on the pivot columns

Column-pivoting QR leaves the unknowns without pivot at zero, and the pivot columns are linearly
independent. So a solution of the equations that is zero wherever the returned one is, is the returned one.
-/

set_option linter.unusedSectionVars false
set_option linter.dupNamespace false

namespace Verif.Qr

open Finset Verif.Spline Verif.Container Verif.Container.Container

variable {K : Type} [Field K] [LinearOrder K] [IsStrictOrderedRing K] {o : Order}

/-- Contract of a solver: for every matrix there is a set of linearly independent columns such that the
result is zero outside them. -/
def Basic (S : RawSolver K) : Prop :=
  ∀ (rows cols : ℕ) (A : ℕ → ℕ → K), ∃ P : Set ℕ, (∀ b, ∀ q ∉ P, S.solve rows cols A b q = 0) ∧
    ∀ x, (∀ q ∉ P, x q = 0) → Solves rows cols A (fun _ => 0) x → x = fun _ => 0

/-- A solution that is zero wherever the returned one is, is the returned one. -/
theorem Basic.eq {S : Solver K} (hB : Basic (S : RawSolver K)) {rows cols : ℕ} {A : ℕ → ℕ → K} {b y : ℕ → K}
    (hy : Solves rows cols A b y) (h : ∀ q, y q ≠ 0 → S.solve rows cols A b q ≠ 0) :
    S.solve rows cols A b = y := by
  obtain ⟨P, h1, h2⟩ := hB rows cols A
  have hx := S.exact rows cols A b ⟨y, hy⟩
  have := h2 (fun q => S.solve rows cols A b q - y q) (fun q hq => by
    have e := h1 b q hq
    have : y q = 0 := by
      by_contra hc
      exact h q hc e
    rw [this, sub_zero]
    exact e) (fun r hr => by
    simp only [mul_sub, Finset.sum_sub_distrib]
    rw [hx r hr, hy r hr, sub_self])
  funext q
  exact sub_eq_zero.1 (congrFun this q)

/-- Triangular equations with right-hand side zero have the solution zero only. -/
theorem triangular_zero {cols r : ℕ} {R : ℕ → ℕ → ℝ} {y : ℕ → ℝ} (hr : r ≤ cols) (hd : ∀ j < r, R j j ≠ 0)
    (hl : ∀ j < r, ∀ i, j < i → i < r → R i j = 0) (hy : ∀ j, r ≤ j → y j = 0)
    (he : ∀ i < r, ∑ j ∈ range cols, R i j * y j = 0) : ∀ j, y j = 0 := by
  have key : ∀ m ≤ r, ∀ j, r - m ≤ j → y j = 0 := by
    intro m
    induction m with
    | zero => exact fun _ j hj => hy j (by omega)
    | succ m ih =>
      intro hm j hj
      by_cases hj' : r - m ≤ j
      · exact ih (by omega) j hj'
      · have hjr : j < r := by omega
        have h := he j hjr
        rw [sum_eq_single j] at h
        · exact (mul_eq_zero.1 h).resolve_left (hd j hjr)
        · intro i hi hij
          rcases Nat.lt_or_gt_of_ne hij with h' | h'
          · rw [hl i (by omega) j h' hjr, zero_mul]
          · rw [ih (by omega) i (by omega), mul_zero]
        · intro hc
          exact absurd (mem_range.2 (by omega)) hc
  intro j
  exact key r le_rfl j (by omega)

/-- The pivot columns of the factorisation. -/
def pivots (rows cols : ℕ) (A : ℕ → ℕ → ℝ) : Set ℕ :=
  {q | (factor rows cols A).perm.symm q < (factor rows cols A).rank}

theorem solver_pivots (rows cols : ℕ) (A : ℕ → ℕ → ℝ) :
    (∀ b, ∀ q ∉ pivots rows cols A, solve rows cols A b q = 0) ∧
    ∀ x, (∀ q ∉ pivots rows cols A, x q = 0) → Solves rows cols A (fun _ => 0) x → x = fun _ => 0 := by
  have hF := factor_done rows cols A
  refine ⟨fun b q hq => ?_, fun x hx hs => ?_⟩
  · simp only [solve]
    rw [if_neg]
    exact hq
  · have h0 : ∀ i < rows, ∑ j ∈ range cols, A i j * x j = 0 := hs
    have happ : ∀ i < rows, applyAll rows (factor rows cols A).refl
        (fun i => ∑ j ∈ range cols, A i j * x j) i = 0 := by
      have hlen := applyAll_length _ hF.good (fun i => ∑ j ∈ range cols, A i j * x j)
      rw [sum_eq_zero (s := range rows) (f := fun i => (∑ j ∈ range cols, A i j * x j) ^ 2)
        fun i hi => by rw [h0 i (mem_range.1 hi)]; norm_num] at hlen
      intro i hi
      have := (sum_eq_zero_iff_of_nonneg fun _ _ => sq_nonneg _).1 hlen i (mem_range.2 hi)
      exact pow_eq_zero_iff two_ne_zero |>.1 this
    have := triangular_zero (y := fun j => x ((factor rows cols A).perm j)) hF.rank_cols hF.diag
      (fun j hj i hi hir => hF.lower j hj i hi (by have := hF.rank_rows; omega))
      (fun j hj => hx _ (by
        change ¬ (factor rows cols A).perm.symm _ < (factor rows cols A).rank
        rw [Equiv.symm_apply_apply]
        omega))
      (fun i hi => by rw [hF.same x i (by have := hF.rank_rows; omega)]; exact happ i (by have := hF.rank_rows; omega))
    funext q
    have := this ((factor rows cols A).perm.symm q)
    simpa using this

/-- The solver of the code leaves the unknowns without pivot at zero. -/
theorem solver_basic : Basic (solver : RawSolver ℝ) := fun rows cols A =>
  ⟨pivots rows cols A, solver_pivots rows cols A⟩

/-! ## Fits -/

/-- The coefficients a fit stores are those the solver returns. -/
theorem fit_solved (S : Solver K) (e : ℕ) (ts ps ini fin : List K) (c : Container o K) (n : ℕ)
    (hn : 0 < n) (hb : n < 2 ^ 28) (hts : ts.length = n + 1) (hps : ps.length = n + 1)
    (hinc : ts.Pairwise (· < ·)) (he : 1 ≤ e ∧ e ≤ 3) (hini : ini.length + 1 = e)
    (hfin : fin.length + 1 = e) :
    ∃ s, assembleWith o (4 * (n - 1) + 2 * e) (n * o.count) (n - 1) ps ((List.range n).map (dur ts)) ini fin =
        .ok s ∧ s.rows = 4 * (n - 1) + 2 * e ∧ s.cols = n * o.count ∧
      (∀ x, Solves s.rows s.cols s.A s.b x ↔ FitEq o n (dur ts) (knot ps) ini fin x) ∧
      fit S e ts ps ini fin c = .ok (true, { c with
        splines := c.splines ++ (List.range n).map fun j =>
          ⟨seg o (S.solve s.rows s.cols s.A s.b) j, dur ts j⟩
        duration := c.duration + ((List.range n).map (dur ts)).sum }) := by
  have hs := segDurations_ok ts hinc n 0 (by omega)
  simp only [Nat.zero_add] at hs
  obtain ⟨s, e1, e2, e3, e4, e5⟩ := assembleWith_eq o e n _ ps ((List.range n).map (dur ts)) ini fin
    (dur ts) (knot ps) hn rfl hps (by simp) (fun j hj => by simp [hj])
    (fun j hj => getElem?_knot (by omega)) he hini hfin
  refine ⟨s, e1, e3, e4, e5, ?_⟩
  rw [fit, numSplines_eq ts n hts hb, solutionDim_eq o n hb, numJunctions_eq n hn hb,
    numConstraints_eq e n hn hb he.2]
  unfold fitWith
  rw [hs]
  simp only [Outcome.ok_bind]
  rw [e1]
  simp only [Outcome.ok_bind]
  rw [if_pos e2.symm, extract_eq]
  have : ((List.range n).map (dur ts)).zipIdx.map (fun p =>
      (⟨seg o (S.solve s.rows s.cols s.A s.b) (0 + p.2), p.1⟩ : Spline o K)) =
      (List.range n).map fun j => ⟨seg o (S.solve s.rows s.cols s.A s.b) j, dur ts j⟩ := by
    apply List.ext_getElem?
    intro i
    by_cases hi : i < n <;> simp [hi]
  rw [this]

theorem inner_tauZero (v : Vec o K) : inner v (tauZero o) = v ⟨o.count - 1, by cases o <;> simp⟩ := by
  cases o <;> simp [inner, tauZero, sum_o1, sum_o2, sum_o3, sum_o4, sum_o5] <;> rfl

end Verif.Qr

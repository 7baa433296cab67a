import Verif.Qr.Lemmas
import Verif.Qr.Superpose
import Mathlib.Tactic.NormNum

/-!
# C139: the linear solver the code calls, and what it means for fits

The other theorems about fits hold for every solver that solves solvable systems. Column-pivoting
Householder QR, which the code calls, is such a solver; moreover it is linear in the right-hand side, and
this is all that is needed for fits of every order to superpose, also those whose equations leave the
answer open (compare `C89_refuted`).
-/

set_option linter.unusedSectionVars false
set_option linter.dupNamespace false

namespace Verif.Qr

open Finset Verif.Spline Verif.Container Verif.Container.Container

/-- Specification: the sum of the squared errors of the equations. -/
noncomputable def residual2 (rows cols : ℕ) (A : ℕ → ℕ → ℝ) (b x : ℕ → ℝ) : ℝ :=
  ∑ i ∈ range rows, (∑ j ∈ range cols, A i j * x j - b i) ^ 2

/-- The residual after the reflections. -/
theorem residual_rotated {rows cols : ℕ} {A : ℕ → ℕ → ℝ} {F : Factor} (hF : Done rows cols A F)
    (b x : ℕ → ℝ) : residual2 rows cols A b x =
      ∑ i ∈ range rows, (∑ j ∈ range cols, F.R i j * x (F.perm j) - applyAll rows F.refl b i) ^ 2 := by
  rw [residual2, ← applyAll_length F.refl hF.good]
  refine sum_congr rfl fun i hi => ?_
  rw [hF.same x i (mem_range.1 hi)]
  have := congrFun (applyAll_lin rows F.refl 1 (-1) (fun i => ∑ j ∈ range cols, A i j * x j) b) i
  simp only [one_mul, neg_one_mul, ← sub_eq_add_neg] at this
  rw [this]

/-- The equations of the triangular part hold. -/
theorem solve_top (rows cols : ℕ) (A : ℕ → ℕ → ℝ) (b : ℕ → ℝ) (i : ℕ)
    (hi : i < (factor rows cols A).rank) :
    ∑ j ∈ range cols, (factor rows cols A).R i j * solve rows cols A b ((factor rows cols A).perm j) =
      applyAll rows (factor rows cols A).refl b i := by
  have hF := factor_done rows cols A
  simp only [solve, Equiv.symm_apply_apply]
  generalize factor rows cols A = F at *
  rw [← sum_range_add_sum_Ico _ hF.rank_cols]
  have e2 : ∑ j ∈ Ico F.rank cols, F.R i j *
      (if j < F.rank then back F.R (applyAll rows F.refl b) F.rank F.rank j else 0) = 0 :=
    sum_eq_zero fun j hj => by rw [if_neg (by have := mem_Ico.1 hj; omega), mul_zero]
  rw [e2, add_zero]
  rw [← back_solves F.R (applyAll rows F.refl b) F.rank hF.diag F.rank le_rfl i (by omega) hi]
  rw [← sum_range_add_sum_Ico _ hi.le, sum_eq_sum_Ico_succ_bot hi, if_pos hi]
  have e1 : ∑ j ∈ range i, F.R i j *
      (if j < F.rank then back F.R (applyAll rows F.refl b) F.rank F.rank j else 0) = 0 := by
    refine sum_eq_zero fun j hj => ?_
    have := mem_range.1 hj
    rw [hF.lower j (by omega) i this (by have := hF.rank_rows; omega), zero_mul]
  rw [e1, zero_add]
  congr 1
  refine sum_congr rfl fun j hj => ?_
  rw [if_pos (mem_Ico.1 hj).2]

/-- **C139, the solver.** For every matrix and every right-hand side: no vector has a smaller residual than
the one returned; the result is linear in the right-hand side; at most as many entries as the matrix has
rows, and at most as many as it has columns, differ from zero. -/
theorem C139_least (rows cols : ℕ) (A : ℕ → ℕ → ℝ) (b : ℕ → ℝ) :
    (∀ x, residual2 rows cols A b (solve rows cols A b) ≤ residual2 rows cols A b x) ∧
      (∀ (b' : ℕ → ℝ) (r s : ℝ), solve rows cols A (fun i => r * b i + s * b' i) =
        fun q => r * solve rows cols A b q + s * solve rows cols A b' q) ∧
      (∃ l : Finset ℕ, l.card ≤ rows ∧ l ⊆ range cols ∧ ∀ q ∉ l, solve rows cols A b q = 0) := by
  have hF := factor_done rows cols A
  refine ⟨fun x => ?_, fun b' r s => ?_, ?_⟩
  · rw [residual_rotated hF, residual_rotated hF]
    refine sum_le_sum fun i hi => ?_
    have hi' := mem_range.1 hi
    by_cases hr : i < (factor rows cols A).rank
    · rw [solve_top rows cols A b i hr, sub_self]
      norm_num
      positivity
    · have hz : ∀ y : ℕ → ℝ,
          ∑ j ∈ range cols, (factor rows cols A).R i j * y ((factor rows cols A).perm j) = 0 := by
        intro y
        refine sum_eq_zero fun j hj => ?_
        have hj' := mem_range.1 hj
        by_cases hjr : j < (factor rows cols A).rank
        · rw [hF.lower j hjr i (by omega) hi', zero_mul]
        · rw [hF.rest i (by omega) hi' j (by omega) hj', zero_mul]
      rw [hz, hz]
  · funext q
    simp only [solve, applyAll_lin, back_lin]
    split
    · rfl
    · simp
  · refine ⟨(range (factor rows cols A).rank).image (factor rows cols A).perm, ?_, ?_, ?_⟩
    · exact card_image_le.trans (by rw [card_range]; exact hF.rank_rows)
    · intro q hq
      obtain ⟨j, hj, rfl⟩ := mem_image.1 hq
      exact mem_range.2 ((hF.perm j).2 ((mem_range.1 hj).trans_le hF.rank_cols))
    · intro q hq
      simp only [solve]
      rw [if_neg]
      intro h
      exact hq (mem_image.2 ⟨_, mem_range.2 h, by simp⟩)

/-- The solver of the code fulfils the contract assumed by all theorems about fits: a system that has a
solution is solved. -/
noncomputable def solver : Solver ℝ where
  toRawSolver := raw
  exact := by
    intro rows cols A b ⟨x, hx⟩
    have h0 : residual2 rows cols A b x = 0 :=
      sum_eq_zero fun i hi => by rw [hx i (mem_range.1 hi), sub_self]; norm_num
    have h1 := (C139_least rows cols A b).1 x
    rw [h0] at h1
    have h2 : residual2 rows cols A b (solve rows cols A b) = 0 :=
      le_antisymm h1 (sum_nonneg fun _ _ => sq_nonneg _)
    intro i hi
    have := (sum_eq_zero_iff_of_nonneg fun _ _ => sq_nonneg _).1 h2 i (mem_range.2 hi)
    exact sub_eq_zero.1 (pow_eq_zero_iff two_ne_zero |>.1 this)

theorem solver_superposes : Superposes (solver : RawSolver ℝ) :=
  fun rows cols A b b' r s => (C139_least rows cols A b).2.1 b' r s

variable {K : Type} [Field K] [LinearOrder K] [IsStrictOrderedRing K] {o : Order}

theorem straight_mixed (ts ps qs : List K) (n : ℕ) (hn : 0 < n) (hts : ts.length = n + 1)
    (hp : ps.length = n + 1) (hq : qs.length = n + 1) (hinc : ts.Pairwise (· < ·)) (r s : K)
    (c d e : Container o K) :
    ∃ x y z, setDataLinear ts ps c = .ok (true, x) ∧ setDataLinear ts qs d = .ok (true, y) ∧
      setDataLinear ts (mix r s ps qs) e = .ok (true, z) ∧ Superposed r s x y z := by
  have hm : (mix r s ps qs).length = n + 1 := by simp [mix, hp, hq]
  obtain ⟨x, q1, -, r1⟩ := linear_through ts ps n hn hts hp hinc c
  obtain ⟨y, q2, -, r2⟩ := linear_through ts qs n hn hts hq hinc d
  obtain ⟨z, q3, -, r3⟩ := linear_through ts (mix r s ps qs) n hn hts hm hinc e
  refine ⟨x, y, z, q1, q2, q3, superposed_of_segs ?_ ?_ ?_⟩
  · rw [r1, r2]; simp [line]
  · have hk : ∀ j < ts.length, knot (mix r s ps qs) j = r * knot ps j + s * knot qs j := by
      intro j hj
      obtain ⟨a, b, ea, eb, h⟩ := mix_get (getElem?_knot (l := mix r s ps qs) (j := j) (by omega))
      rw [h, knot, knot, ea, eb]; rfl
    rw [r1, r2, r3, mixSegs, List.zipWith_map_left, List.zipWith_map_right, List.zipWith_self]
    refine List.map_congr_left fun j hj => ?_
    have hj' := List.mem_range.1 hj
    rw [hk j (by omega), hk (j + 1) (by omega)]
    exact line_mix r s _ _ _ _ _
  · rw [r1]; simp; omega

theorem superposed_of_fit {S : RawSolver K} (hS : Superposes S) (e : ℕ) (ts : List K)
    {ps qs ini ini' fin fin' : List K} {r s : K} {c d f : Container o K}
    (hp : ps.length = qs.length) (hi : ini.length = ini'.length)
    (hf : fin.length = fin'.length) (x y : Container o K)
    (hx : fit S e ts ps ini fin c.reset = .ok (true, x))
    (hy : fit S e ts qs ini' fin' d.reset = .ok (true, y)) (hne : x.splines ≠ []) :
    ∃ z, fit S e ts (mix r s ps qs) (mix r s ini ini') (mix r s fin fin') f.reset = .ok (true, z) ∧
      Superposed r s x y z := by
  obtain ⟨⟨zb, z⟩, hz, hm⟩ := fit_mixed hS (r := r) (s := s) e ts hp hi hf c.reset d.reset f.reset rfl rfl rfl
    _ _ hx hy
  obtain ⟨h1, h2, h3⟩ := hm rfl rfl
  simp only at h1
  subst h1
  exact ⟨z, hz, superposed_of_segs h2 h3 hne⟩

theorem vel_superposed (S : Solver K) (hS : Superposes (S : RawSolver K)) (ts ps qs : List K) (n : ℕ)
    (hn : 0 < n) (hb : n < 2 ^ 28) (hts : ts.length = n + 1)
    (hp : ps.length = n + 1) (hq : qs.length = n + 1) (hinc : ts.Pairwise (· < ·))
    (v0 vT w0 wT r s : K) (c d e : Container o K) :
    ∃ x y z, setDataVel S ts ps v0 vT c = .ok (true, x) ∧ setDataVel S ts qs w0 wT d = .ok (true, y) ∧
      setDataVel S ts (mix r s ps qs) (r * v0 + s * w0) (r * vT + s * wT) e = .ok (true, z) ∧
      Superposed r s x y z := by
  by_cases ho : 3 ≤ o.deg
  · obtain ⟨x, hx, tx, -⟩ := vel_ok S ts ps v0 vT c n hn hb hts hp hinc ho
    obtain ⟨y, hy, -⟩ := vel_ok S ts qs w0 wT d n hn hb hts hq hinc ho
    have hne : x.splines ≠ [] := by
      intro h; have := tx.len; rw [h, hts] at this; simp at this; omega
    have hx' := hx
    have hy' := hy
    rw [setDataVel_fit _ _ _ _ _ _ n hn hb hts ho] at hx' hy'
    obtain ⟨z, hz, hs⟩ := superposed_of_fit hS 2 ts (r := r) (s := s) (f := e) (ini := [v0]) (ini' := [w0])
      (fin := [vT]) (fin' := [wT]) (hp.trans hq.symm) rfl rfl x y hx' hy' hne
    refine ⟨x, y, z, hx, hy, ?_, hs⟩
    rw [setDataVel_fit _ _ _ _ _ _ n hn hb hts ho, ← hz]
    rfl
  · simp only [setDataVel_linear _ _ _ _ _ _ n hn hb hts (show o.deg ≤ 2 by omega)]
    exact straight_mixed ts ps qs n hn hts hp hq hinc r s c d e

/-- **C139, fits.** With a solver that is linear in the right-hand side, fits of every order with any
number of knots superpose, in both formulations: the fit of `r` times one set of data plus `s` times
another is `r` times the one fit plus `s` times the other, at every time, with velocity and
acceleration. -/
theorem C139_superposition (S : Solver K) (hS : Superposes (S : RawSolver K)) (ts ps qs : List K)
    (h2 : 2 ≤ ts.length) (hb : ts.length ≤ 2 ^ 28) (hp : ps.length = ts.length)
    (hq : qs.length = ts.length) (hinc : ts.Pairwise (· < ·))
    (v0 a0 vT aT w0 b0 wT bT r s : K) (c d e : Container o K) :
    (∃ x y z, setDataAcc S ts ps v0 a0 vT aT c = .ok (true, x) ∧
      setDataAcc S ts qs w0 b0 wT bT d = .ok (true, y) ∧
      setDataAcc S ts (mix r s ps qs) (r * v0 + s * w0) (r * a0 + s * b0) (r * vT + s * wT)
        (r * aT + s * bT) e = .ok (true, z) ∧ Superposed r s x y z) ∧
    ∃ x y z, setDataVel S ts ps v0 vT c = .ok (true, x) ∧ setDataVel S ts qs w0 wT d = .ok (true, y) ∧
      setDataVel S ts (mix r s ps qs) (r * v0 + s * w0) (r * vT + s * wT) e = .ok (true, z) ∧
      Superposed r s x y z := by
  obtain ⟨n, hn⟩ : ∃ n, ts.length = n + 1 := ⟨ts.length - 1, by omega⟩
  have hv := vel_superposed S hS ts ps qs n (by omega) (by omega) hn (by omega) (by omega) hinc v0 vT w0 wT
    r s c d e
  refine ⟨?_, hv⟩
  by_cases ho : o.deg = 5 ∨ o.deg = 4 ∧ 2 ≤ n
  · obtain ⟨x, hx, tx, -⟩ := acc_ok S ts ps v0 a0 vT aT c n (by omega) (by omega) hn (by omega) hinc ho
    obtain ⟨y, hy, -⟩ := acc_ok S ts qs w0 b0 wT bT d n (by omega) (by omega) hn (by omega) hinc ho
    have hne : x.splines ≠ [] := by
      intro h; have := tx.len; rw [h] at this; simp at this; omega
    have hx' := hx
    have hy' := hy
    rw [setDataAcc_fit _ _ _ _ _ _ _ _ n (by omega) (by omega) hn ho] at hx' hy'
    obtain ⟨z, hz, hs⟩ := superposed_of_fit hS 3 ts (r := r) (s := s) (f := e) (ini := [v0, a0])
      (ini' := [w0, b0]) (fin := [vT, aT]) (fin' := [wT, bT]) (hp.trans hq.symm) rfl rfl x y hx' hy' hne
    refine ⟨x, y, z, hx, hy, ?_, hs⟩
    rw [setDataAcc_fit _ _ _ _ _ _ _ _ n (by omega) (by omega) hn ho, ← hz]
    rfl
  · have hle : o.deg ≤ 5 := by cases o <;> simp [Order.deg]
    simp only [setDataAcc_vel _ _ _ _ _ _ _ _ n (show 0 < n by omega) (by omega) hn
      (show o.deg ≤ 3 ∨ o.deg = 4 ∧ n = 1 by omega)]
    exact hv

/-- A rank-deficient system: both equations say `x + y = 2`. It is solved. -/
example : Solves 2 2 (fun _ _ => 1) (fun _ => 2) (solve 2 2 (fun _ _ => 1) fun _ => 2) :=
  solver.exact 2 2 _ _ ⟨fun _ => 1, fun _ _ => by simp⟩

/-- An instance of C139 where the equations leave the answer open: order 5, three knots. -/
example : ∃ x z : Container .o5 ℝ,
    setDataAcc solver [0, 1, 3] [5, -1, 2] 1 2 3 4 fresh = .ok (true, x) ∧
    setDataAcc solver [0, 1, 3] [10, -2, 4] 2 4 6 8 fresh = .ok (true, z) ∧ Superposed 2 0 x x z := by
  obtain ⟨x, y, z, h1, h2, h3, h4⟩ := (C139_superposition (o := .o5) solver solver_superposes [0, 1, 3]
    [5, -1, 2] [5, -1, 2] (by simp) (by norm_num) rfl rfl (by simp) 1 2 3 4 1 2 3 4 2 0 fresh fresh fresh).1
  rw [h1] at h2
  cases h2
  refine ⟨x, z, h1, ?_, h4⟩
  rw [← h3]
  norm_num [mix]

end Verif.Qr

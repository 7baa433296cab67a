import Verif.Rounding.OverModel
import Verif.Rounding.SpecialLemmas
import Verif.Rounding.IeeeProps

/-!
# Lemmas on overflow: how large the intermediate results are
-/

set_option linter.unusedSectionVars false
set_option linter.dupNamespace false

namespace Verif.Rounding

variable {K : Type} [Field K] [LinearOrder K] [IsStrictOrderedRing K] {R : Rounding K} {Ω : K}

open Verif.Manager Verif.Hermite Fl

theorem fin_num {x : K} (h : |R.rnd x| < Ω) : fin R Ω x = num (R.rnd x) := if_pos h

theorem fin_le (Ω : K) {x m : K} (h : |R.rnd x| ≤ m) (hm : m < Ω) : fin R Ω x = num (R.rnd x) :=
  fin_num (lt_of_le_of_lt h hm)

theorem addO_fin (x y : K) : addO R Ω (num x) (num y) = fin R Ω (x + y) := rfl
theorem subO_fin (x y : K) : subO R Ω (num x) (num y) = fin R Ω (x - y) := rfl
theorem mulO_fin (x y : K) : mulO R Ω (num x) (num y) = fin R Ω (x * y) := rfl
theorem divO_fin (x : K) {y : K} (h : y ≠ 0) : divO R Ω (num x) (num y) = fin R Ω (x / y) := if_neg h

/-- Rounding does not cross an integer. -/
theorem rnd_abs_int {x : K} (k : ℕ) (hk : k ≤ 2 ^ 53) (h : |x| ≤ k) : |R.rnd x| ≤ k := by
  have e1 := R.int k (by rw [Nat.abs_cast]; exact_mod_cast hk)
  have e2 := R.int (-k) (by rw [abs_neg, Nat.abs_cast]; exact_mod_cast hk)
  push_cast at e1 e2
  obtain ⟨h1, h2⟩ := abs_le.1 h
  refine abs_le.2 ⟨?_, ?_⟩
  · rw [← e2]
    exact R.mono h1
  · rw [← e1]
    exact R.mono h2

theorem abs_add_bound {x y m n : K} (hx : |x| ≤ m) (hy : |y| ≤ n) : |x + y| ≤ m + n :=
  (abs_add_le x y).trans (add_le_add hx hy)

theorem abs_sub_bound {x y m n : K} (hx : |x| ≤ m) (hy : |y| ≤ n) : |x - y| ≤ m + n :=
  (abs_sub x y).trans (add_le_add hx hy)

theorem abs_mul_bound {x y m n : K} (hx : |x| ≤ m) (hy : |y| ≤ n) : |x * y| ≤ m * n := by
  rw [abs_mul]
  exact mul_le_mul hx hy (abs_nonneg _) ((abs_nonneg _).trans hx)

/-- The parameter of the interpolation and its powers. -/
theorem alpha_abs {a b t : K} (hne : R.rnd (b - a) ≠ 0) (h0 : a ≤ t) (h1 : t ≤ b) : |alpha R a b t| ≤ 1 := by
  have hn : 0 ≤ R.rnd (t - a) := rnd_nonneg R (sub_nonneg.2 h0)
  have hd : R.rnd (t - a) ≤ R.rnd (b - a) := R.mono (by linarith)
  have hp : 0 < R.rnd (b - a) := lt_of_le_of_ne (hn.trans hd) hne.symm
  have : |R.rnd (t - a) / R.rnd (b - a)| ≤ ((1 : ℕ) : K) := by
    rw [abs_div, abs_of_nonneg hn, abs_of_pos hp, Nat.cast_one, div_le_one hp]
    exact hd
  simpa [alpha] using rnd_abs_int 1 (by norm_num) this

section
variable (hdbl : ∀ x, |R.rnd x| ≤ 2 * |x|)
include hdbl

theorem rnd_dbl {x m : K} (h : |x| ≤ m) : |R.rnd x| ≤ 2 * m := (hdbl x).trans (by linarith)

/-- The position of a segment does not overflow. -/
theorem interpolateO_nums {a b : Node K (Knot (Vec3 K))} {t M N D : K} (hΩ : 100 < Ω) (hne : R.rnd (b.time - a.time) ≠ 0)
    (h0 : a.time ≤ t) (h1 : t ≤ b.time) (hD : |b.time - a.time| ≤ D) (hDΩ : 16 * D < Ω)
    (hA : ∀ x, |a.coef.position x| ≤ M) (hB : ∀ x, |b.coef.position x| ≤ M)
    (hA' : ∀ x, |a.coef.velocity x| * D ≤ N) (hB' : ∀ x, |b.coef.velocity x| * D ≤ N)
    (hMN : 176 * M + 160 * N < Ω) :
    interpolateO R Ω (a.conv numKnot) (b.conv numKnot) t = nums (interpolate R a b t) := by
  have hD0 : 0 ≤ D := (abs_nonneg _).trans hD
  have hM0 : 0 ≤ M := (abs_nonneg _).trans (hA 0)
  have hN0 : 0 ≤ N := (mul_nonneg (abs_nonneg _) hD0).trans (hA' 0)
  have ht : |t - a.time| ≤ D := by
    rw [abs_of_nonneg (by linarith)]
    exact le_trans (by linarith) ((le_abs_self _).trans hD)
  have e1 := rnd_dbl hdbl hD
  have e2 := rnd_dbl hdbl ht
  have al := alpha_abs (R := R) hne h0 h1
  have q1 : R.rnd (R.rnd (t - a.time) / R.rnd (b.time - a.time)) = alpha R a.time b.time t := rfl
  have f0 : fin R Ω (R.rnd (t - a.time) / R.rnd (b.time - a.time)) = num (alpha R a.time b.time t) := by
    rw [fin_num (by rw [q1]; linarith), q1]
  generalize hal : alpha R a.time b.time t = α at *
  have a2 : |R.rnd (α * α)| ≤ 1 := by
    simpa using rnd_abs_int (R := R) 1 (by norm_num) (by simpa using abs_mul_bound al al)
  have a3 : |R.rnd (R.rnd (α * α) * α)| ≤ 1 := by
    simpa using rnd_abs_int (R := R) 1 (by norm_num) (by simpa using abs_mul_bound a2 al)
  have two : |(2 : K)| ≤ 2 := (abs_of_pos (by norm_num)).le
  have mtwo : |(-2 : K)| ≤ 2 := by rw [abs_neg]; exact two
  have three : |(3 : K)| ≤ 3 := (abs_of_pos (by norm_num)).le
  have one : |(1 : K)| ≤ 1 := (abs_of_pos (by norm_num)).le
  generalize g2 : R.rnd (α * α) = α2 at *
  generalize g3 : R.rnd (α2 * α) = α3 at *
  have b1 : |R.rnd (2 * α3)| ≤ 2 := by
    simpa using rnd_abs_int (R := R) 2 (by norm_num) (by simpa using abs_mul_bound two a3)
  have b2 : |R.rnd (3 * α2)| ≤ 3 := by
    simpa using rnd_abs_int (R := R) 3 (by norm_num) (by simpa using abs_mul_bound three a2)
  have b3 : |R.rnd (R.rnd (2 * α3) - R.rnd (3 * α2))| ≤ 5 := by
    simpa using rnd_abs_int (R := R) 5 (by norm_num) ((abs_sub_bound b1 b2).trans (by norm_num))
  have b4 : |R.rnd (R.rnd (R.rnd (2 * α3) - R.rnd (3 * α2)) + 1)| ≤ 6 := by
    simpa using rnd_abs_int (R := R) 6 (by norm_num) ((abs_add_bound b3 one).trans (by norm_num))
  have c1 : |R.rnd (-2 * α3)| ≤ 2 := by
    simpa using rnd_abs_int (R := R) 2 (by norm_num) (by simpa using abs_mul_bound mtwo a3)
  have c2 : |R.rnd (R.rnd (-2 * α3) + R.rnd (3 * α2))| ≤ 5 := by
    simpa using rnd_abs_int (R := R) 5 (by norm_num) ((abs_add_bound c1 b2).trans (by norm_num))
  have d1 : |R.rnd (2 * α2)| ≤ 2 := by
    simpa using rnd_abs_int (R := R) 2 (by norm_num) (by simpa using abs_mul_bound two a2)
  have d2 : |R.rnd (α3 - R.rnd (2 * α2))| ≤ 3 := by
    simpa using rnd_abs_int (R := R) 3 (by norm_num) ((abs_sub_bound a3 d1).trans (by norm_num))
  have d3 : |R.rnd (R.rnd (α3 - R.rnd (2 * α2)) + α)| ≤ 4 := by
    simpa using rnd_abs_int (R := R) 4 (by norm_num) ((abs_add_bound d2 al).trans (by norm_num))
  have k1 : |R.rnd (α3 - α2)| ≤ 2 := by
    simpa using rnd_abs_int (R := R) 2 (by norm_num) ((abs_sub_bound a3 a2).trans (by norm_num))
  have d4 := rnd_dbl hdbl (abs_mul_bound d3 e1)
  have k2 := rnd_dbl hdbl (abs_mul_bound k1 e1)
  funext x
  have m1 := rnd_dbl hdbl (abs_mul_bound (hA x) b4)
  have m2 := rnd_dbl hdbl (abs_mul_bound (hB x) c2)
  have m3 := rnd_dbl hdbl (abs_add_bound m1 m2)
  have m4 := rnd_dbl hdbl (show |a.coef.velocity x * R.rnd (R.rnd (R.rnd (α3 - R.rnd (2 * α2)) + α) *
      R.rnd (b.time - a.time))| ≤ 16 * N by
    have := abs_mul_bound (le_refl |a.coef.velocity x|) d4
    linarith [hA' x])
  have m5 := rnd_dbl hdbl (show |b.coef.velocity x * R.rnd (R.rnd (α3 - α2) * R.rnd (b.time - a.time))| ≤ 8 * N by
    have := abs_mul_bound (le_refl |b.coef.velocity x|) k2
    linarith [hB' x])
  have m6 := rnd_dbl hdbl (abs_add_bound m3 m4)
  have m7 := rnd_dbl hdbl (abs_add_bound m6 m5)
  simp only [interpolateO, alphaO, Node.conv, numKnot, nums, subO_fin, mulO_fin, addO_fin,
    fin_le Ω e1 (by linarith), fin_le Ω e2 (by linarith),
    divO_fin _ hne, f0,
    fin_num (R := R) (Ω := Ω) (x := α * α) (by rw [g2]; linarith), g2,
    fin_num (R := R) (Ω := Ω) (x := α2 * α) (by rw [g3]; linarith), g3,
    fin_le Ω b1 (by linarith), fin_le Ω b2 (by linarith),
    fin_le Ω b3 (by linarith), fin_le Ω b4 (by linarith),
    fin_le Ω c1 (by linarith), fin_le Ω c2 (by linarith),
    fin_le Ω d1 (by linarith), fin_le Ω d2 (by linarith),
    fin_le Ω d3 (by linarith), fin_le Ω k1 (by linarith),
    fin_le Ω d4 (by linarith), fin_le Ω k2 (by linarith),
    fin_le Ω m1 (by linarith), fin_le Ω m2 (by linarith),
    fin_le Ω m3 (by linarith), fin_le Ω m4 (by linarith),
    fin_le Ω m5 (by linarith), fin_le Ω m6 (by linarith),
    fin_le Ω m7 (by linarith), interpolate, hal]

/-- The velocity of a segment does not overflow. -/
theorem interpolateVelocityO_nums {a b : Node K (Knot (Vec3 K))} {t D I A V : K} (hΩ : 100 < Ω)
    (hne : R.rnd (b.time - a.time) ≠ 0) (h0 : a.time ≤ t) (h1 : t ≤ b.time) (hD : |b.time - a.time| ≤ D) (hDΩ : 2 * D < Ω)
    (hI : |1 / R.rnd (b.time - a.time)| ≤ 2 * I)
    (hIΩ : 96 * I < Ω) (hA : ∀ x, |a.coef.position x| * I ≤ A) (hB : ∀ x, |b.coef.position x| * I ≤ A)
    (hA' : ∀ x, |a.coef.velocity x| ≤ V) (hB' : ∀ x, |b.coef.velocity x| ≤ V) (hAV : 2304 * A + 148 * V < Ω) :
    interpolateVelocityO R Ω (a.conv numKnot) (b.conv numKnot) t = nums (interpolateVelocity R a b t) := by
  have hD0 : 0 ≤ D := (abs_nonneg _).trans hD
  have hI0 : 0 ≤ I := by linarith [(abs_nonneg _).trans hI]
  have hA0 : 0 ≤ A := (mul_nonneg (abs_nonneg _) hI0).trans (hA 0)
  have hV0 : 0 ≤ V := (abs_nonneg _).trans (hA' 0)
  have ht : |t - a.time| ≤ D := by
    rw [abs_of_nonneg (by linarith)]
    exact le_trans (by linarith) ((le_abs_self _).trans hD)
  have e1 := rnd_dbl hdbl hD
  have e2 := rnd_dbl hdbl ht
  have e3 := rnd_dbl hdbl hI
  have al := alpha_abs (R := R) hne h0 h1
  have q1 : R.rnd (R.rnd (t - a.time) / R.rnd (b.time - a.time)) = alpha R a.time b.time t := rfl
  have f0 : fin R Ω (R.rnd (t - a.time) / R.rnd (b.time - a.time)) = num (alpha R a.time b.time t) := by
    rw [fin_num (by rw [q1]; linarith), q1]
  generalize hal : alpha R a.time b.time t = α at *
  have one : |(1 : K)| ≤ 1 := (abs_of_pos (by norm_num)).le
  have two : |(2 : K)| ≤ 2 := (abs_of_pos (by norm_num)).le
  have three : |(3 : K)| ≤ 3 := (abs_of_pos (by norm_num)).le
  have four : |(4 : K)| ≤ 4 := (abs_of_pos (by norm_num)).le
  have six : |(6 : K)| ≤ 6 := (abs_of_pos (by norm_num)).le
  generalize go : R.rnd (1 / R.rnd (b.time - a.time)) = o at *
  have a2 : |R.rnd (α * α)| ≤ 1 := by
    simpa using rnd_abs_int (R := R) 1 (by norm_num) ((abs_mul_bound al al).trans (by norm_num))
  generalize g2 : R.rnd (α * α) = α2 at *
  have b1 : |R.rnd (α2 - α)| ≤ 2 := by
    simpa using rnd_abs_int (R := R) 2 (by norm_num) ((abs_sub_bound a2 al).trans (by norm_num))
  have b2 : |R.rnd (6 * R.rnd (α2 - α))| ≤ 12 := by
    simpa using rnd_abs_int (R := R) 12 (by norm_num) ((abs_mul_bound six b1).trans (by norm_num))
  have c1 : |R.rnd (3 * α2)| ≤ 3 := by
    simpa using rnd_abs_int (R := R) 3 (by norm_num) ((abs_mul_bound three a2).trans (by norm_num))
  have c2 : |R.rnd (4 * α)| ≤ 4 := by
    simpa using rnd_abs_int (R := R) 4 (by norm_num) ((abs_mul_bound four al).trans (by norm_num))
  have c3 : |R.rnd (R.rnd (3 * α2) - R.rnd (4 * α))| ≤ 7 := by
    simpa using rnd_abs_int (R := R) 7 (by norm_num) ((abs_sub_bound c1 c2).trans (by norm_num))
  have c4 : |R.rnd (R.rnd (R.rnd (3 * α2) - R.rnd (4 * α)) + 1)| ≤ 8 := by
    simpa using rnd_abs_int (R := R) 8 (by norm_num) ((abs_add_bound c3 one).trans (by norm_num))
  have d1 : |R.rnd (α - α2)| ≤ 2 := by
    simpa using rnd_abs_int (R := R) 2 (by norm_num) ((abs_sub_bound al a2).trans (by norm_num))
  have d2 : |R.rnd (6 * R.rnd (α - α2))| ≤ 12 := by
    simpa using rnd_abs_int (R := R) 12 (by norm_num) ((abs_mul_bound six d1).trans (by norm_num))
  have k1 : |R.rnd (2 * α)| ≤ 2 := by
    simpa using rnd_abs_int (R := R) 2 (by norm_num) ((abs_mul_bound two al).trans (by norm_num))
  have k2 : |R.rnd (R.rnd (3 * α2) - R.rnd (2 * α))| ≤ 5 := by
    simpa using rnd_abs_int (R := R) 5 (by norm_num) ((abs_sub_bound c1 k1).trans (by norm_num))
  have l1 := rnd_dbl hdbl (abs_mul_bound b2 e3)
  have l2 := rnd_dbl hdbl (abs_mul_bound d2 e3)
  funext x
  have m1 := rnd_dbl hdbl (show |a.coef.position x * R.rnd (R.rnd (6 * R.rnd (α2 - α)) * o)| ≤ 96 * A by
    have := abs_mul_bound (le_refl |a.coef.position x|) l1
    linarith [hA x])
  have m2 := rnd_dbl hdbl (abs_mul_bound (hA' x) c4)
  have m3 := rnd_dbl hdbl (abs_add_bound m1 m2)
  have m4 := rnd_dbl hdbl (show |b.coef.position x * R.rnd (R.rnd (6 * R.rnd (α - α2)) * o)| ≤ 96 * A by
    have := abs_mul_bound (le_refl |b.coef.position x|) l2
    linarith [hB x])
  have m5 := rnd_dbl hdbl (abs_add_bound m3 m4)
  have m6 := rnd_dbl hdbl (abs_mul_bound (hB' x) k2)
  have m7 := rnd_dbl hdbl (abs_add_bound m5 m6)
  simp only [interpolateVelocityO, alphaO, Node.conv, numKnot, nums, subO_fin, mulO_fin, addO_fin,
    fin_le Ω e1 (by linarith), fin_le Ω e2 (by linarith), divO_fin _ hne, f0,
    fin_num (R := R) (Ω := Ω) (x := 1 / R.rnd (b.time - a.time)) (by rw [go]; linarith), go,
    fin_num (R := R) (Ω := Ω) (x := α * α) (by rw [g2]; linarith), g2,
    fin_le Ω b1 (by linarith), fin_le Ω b2 (by linarith), fin_le Ω c1 (by linarith), fin_le Ω c2 (by linarith), fin_le Ω c3 (by linarith), fin_le Ω c4 (by linarith), fin_le Ω d1 (by linarith), fin_le Ω d2 (by linarith), fin_le Ω k1 (by linarith), fin_le Ω k2 (by linarith), fin_le Ω l1 (by linarith), fin_le Ω l2 (by linarith), fin_le Ω m1 (by linarith), fin_le Ω m2 (by linarith), fin_le Ω m3 (by linarith), fin_le Ω m4 (by linarith), fin_le Ω m5 (by linarith), fin_le Ω m6 (by linarith), fin_le Ω m7 (by linarith),
    interpolateVelocity, hal]

/-- The acceleration of a segment does not overflow. -/
theorem interpolateAccelerationO_nums {a b : Node K (Knot (Vec3 K))} {t D I A V : K} (hΩ : 100 < Ω)
    (hne : R.rnd (b.time - a.time) ≠ 0) (h0 : a.time ≤ t) (h1 : t ≤ b.time) (hD : |b.time - a.time| ≤ D) (hDΩ : 2 * D < Ω)
    (hI : |1 / R.rnd (b.time - a.time)| ≤ 2 * I)
    (hIΩ : 144 * I < Ω) (hA : ∀ x, |a.coef.position x| * I ≤ A) (hB : ∀ x, |b.coef.position x| * I ≤ A)
    (hA' : ∀ x, |a.coef.velocity x| * I ≤ V) (hB' : ∀ x, |b.coef.velocity x| * I ≤ V) (hAΩ : 288 * A < Ω)
    (hAV : 27648 * (A * I) + 1536 * V < Ω) :
    interpolateAccelerationO R Ω (a.conv numKnot) (b.conv numKnot) t = nums (interpolateAcceleration R a b t) := by
  have hD0 : 0 ≤ D := (abs_nonneg _).trans hD
  have hI0 : 0 ≤ I := by linarith [(abs_nonneg _).trans hI]
  have hA0 : 0 ≤ A := (mul_nonneg (abs_nonneg _) hI0).trans (hA 0)
  have hV0 : 0 ≤ V := (mul_nonneg (abs_nonneg _) hI0).trans (hA' 0)
  have hAI0 : 0 ≤ A * I := mul_nonneg hA0 hI0
  have ht : |t - a.time| ≤ D := by
    rw [abs_of_nonneg (by linarith)]
    exact le_trans (by linarith) ((le_abs_self _).trans hD)
  have e1 := rnd_dbl hdbl hD
  have e2 := rnd_dbl hdbl ht
  have e3 := rnd_dbl hdbl hI
  have al := alpha_abs (R := R) hne h0 h1
  have q1 : R.rnd (R.rnd (t - a.time) / R.rnd (b.time - a.time)) = alpha R a.time b.time t := rfl
  have f0 : fin R Ω (R.rnd (t - a.time) / R.rnd (b.time - a.time)) = num (alpha R a.time b.time t) := by
    rw [fin_num (by rw [q1]; linarith), q1]
  generalize hal : alpha R a.time b.time t = α at *
  have one : |(1 : K)| ≤ 1 := (abs_of_pos (by norm_num)).le
  have two : |(2 : K)| ≤ 2 := (abs_of_pos (by norm_num)).le
  have three : |(3 : K)| ≤ 3 := (abs_of_pos (by norm_num)).le
  have four : |(4 : K)| ≤ 4 := (abs_of_pos (by norm_num)).le
  have six : |(6 : K)| ≤ 6 := (abs_of_pos (by norm_num)).le
  generalize go : R.rnd (1 / R.rnd (b.time - a.time)) = o at *
  have b1 : |R.rnd (2 * α)| ≤ 2 := by
    simpa using rnd_abs_int (R := R) 2 (by norm_num) ((abs_mul_bound two al).trans (by norm_num))
  have b2 : |R.rnd (R.rnd (2 * α) - 1)| ≤ 3 := by
    simpa using rnd_abs_int (R := R) 3 (by norm_num) ((abs_sub_bound b1 one).trans (by norm_num))
  have b3 : |R.rnd (6 * R.rnd (R.rnd (2 * α) - 1))| ≤ 18 := by
    simpa using rnd_abs_int (R := R) 18 (by norm_num) ((abs_mul_bound six b2).trans (by norm_num))
  have c1 : |R.rnd (6 * α)| ≤ 6 := by
    simpa using rnd_abs_int (R := R) 6 (by norm_num) ((abs_mul_bound six al).trans (by norm_num))
  have c2 : |R.rnd (R.rnd (6 * α) - 4)| ≤ 10 := by
    simpa using rnd_abs_int (R := R) 10 (by norm_num) ((abs_sub_bound c1 four).trans (by norm_num))
  have d1 : |R.rnd (1 - R.rnd (2 * α))| ≤ 3 := by
    simpa using rnd_abs_int (R := R) 3 (by norm_num) ((abs_sub_bound one b1).trans (by norm_num))
  have d2 : |R.rnd (6 * R.rnd (1 - R.rnd (2 * α)))| ≤ 18 := by
    simpa using rnd_abs_int (R := R) 18 (by norm_num) ((abs_mul_bound six d1).trans (by norm_num))
  have k1 : |R.rnd (R.rnd (6 * α) - 2)| ≤ 8 := by
    simpa using rnd_abs_int (R := R) 8 (by norm_num) ((abs_sub_bound c1 two).trans (by norm_num))
  have l1 := rnd_dbl hdbl (abs_mul_bound b3 e3)
  have l2 := rnd_dbl hdbl (abs_mul_bound c2 e3)
  have l3 := rnd_dbl hdbl (abs_mul_bound d2 e3)
  have l4 := rnd_dbl hdbl (abs_mul_bound k1 e3)
  funext x
  have m1 := rnd_dbl hdbl (show |a.coef.position x * R.rnd (R.rnd (6 * R.rnd (R.rnd (2 * α) - 1)) * o)| ≤ 144 * A by
    have := abs_mul_bound (le_refl |a.coef.position x|) l1
    linarith [hA x])
  have m2 := rnd_dbl hdbl (abs_mul_bound m1 e3)
  have m3 := rnd_dbl hdbl (show |a.coef.velocity x * R.rnd (R.rnd (R.rnd (6 * α) - 4) * o)| ≤ 80 * V by
    have := abs_mul_bound (le_refl |a.coef.velocity x|) l2
    linarith [hA' x])
  have m4 := rnd_dbl hdbl (abs_add_bound m2 m3)
  have m5 := rnd_dbl hdbl (show |b.coef.position x * R.rnd (R.rnd (6 * R.rnd (1 - R.rnd (2 * α))) * o)| ≤ 144 * A by
    have := abs_mul_bound (le_refl |b.coef.position x|) l3
    linarith [hB x])
  have m6 := rnd_dbl hdbl (abs_mul_bound m5 e3)
  have m7 := rnd_dbl hdbl (abs_add_bound m4 m6)
  have m8 := rnd_dbl hdbl (show |b.coef.velocity x * R.rnd (R.rnd (R.rnd (6 * α) - 2) * o)| ≤ 64 * V by
    have := abs_mul_bound (le_refl |b.coef.velocity x|) l4
    linarith [hB' x])
  have m9 := rnd_dbl hdbl (abs_add_bound m7 m8)
  simp only [interpolateAccelerationO, alphaO, Node.conv, numKnot, nums, subO_fin, mulO_fin, addO_fin,
    fin_le Ω e1 (by linarith), fin_le Ω e2 (by linarith), divO_fin _ hne, f0,
    fin_num (R := R) (Ω := Ω) (x := 1 / R.rnd (b.time - a.time)) (by rw [go]; linarith), go,
    fin_le Ω b1 (by linarith), fin_le Ω b2 (by linarith), fin_le Ω b3 (by linarith), fin_le Ω c1 (by linarith), fin_le Ω c2 (by linarith), fin_le Ω d1 (by linarith), fin_le Ω d2 (by linarith), fin_le Ω k1 (by linarith), fin_le Ω l1 (by linarith), fin_le Ω l2 (by linarith), fin_le Ω l3 (by linarith), fin_le Ω l4 (by linarith), fin_le Ω m1 (by linarith), fin_le Ω m2 (by linarith), fin_le Ω m3 (by linarith), fin_le Ω m4 (by linarith), fin_le Ω m5 (by linarith), fin_le Ω m6 (by linarith), fin_le Ω m7 (by linarith), fin_le Ω m8 (by linarith), fin_le Ω m9 (by linarith),
    interpolateAcceleration, hal]

/-- A slope does not overflow. -/
theorem slopeO_nums {ta tb D I M : K} (hne : R.rnd (tb - ta) ≠ 0) (hD : |tb - ta| ≤ D) (hDΩ : 2 * D < Ω)
    (hI : |1 / R.rnd (tb - ta)| ≤ 2 * I) (hIΩ : 4 * I < Ω) {pa pb : Vec3 K} (hA : ∀ x, |pa x| ≤ M) (hB : ∀ x, |pb x| ≤ M)
    (hMΩ : 4 * M < Ω) (hMI : 32 * (M * I) < Ω) :
    slopeO R Ω ta tb (nums pa) (nums pb) = nums (calculateSlope R ta tb pa pb) := by
  have e1 := rnd_dbl hdbl hD
  have e3 := rnd_dbl hdbl hI
  funext x
  have m1 := rnd_dbl hdbl (abs_sub_bound (hB x) (hA x))
  have m2 := rnd_dbl hdbl (abs_mul_bound m1 e3)
  simp only [slopeO, nums, subO_fin, mulO_fin, fin_le Ω e1 hDΩ, divO_fin _ hne, fin_le Ω e3 (by linarith),
    fin_le Ω m1 (by linarith), fin_le Ω m2 (by linarith), calculateSlope]

end

/-- An infinity or NaN stays one in sums and products. -/
theorem addO_left {x y : Fl K} (h : ∀ z, x ≠ num z) : ∀ z, addO R Ω x y ≠ num z := by
  intro z
  cases x with
  | num x => exact absurd rfl (h x)
  | inf a =>
    cases y <;> simp [addO, add]
    split <;> simp
  | nan => cases y <;> simp [addO, add]

theorem mulO_right {x y : Fl K} (h : ∀ z, y ≠ num z) : ∀ z, mulO R Ω x y ≠ num z := by
  intro z
  cases y with
  | num y => exact absurd rfl (h y)
  | inf a =>
    cases x <;> simp [mulO, mul]
    split <;> simp
  | nan => cases x <;> simp [mulO, mul]

/-! ## Fits -/

/-- Slopes that do not overflow. -/
def Slopes (R : Rounding K) (Ω : K) (ts : List K) (vs : List (Vec3 K)) : Prop :=
  ∀ i ta tb va vb, ts[i]? = some ta → ts[i + 2]? = some tb → vs[i]? = some va → vs[i + 2]? = some vb →
    slopeO R Ω ta tb (nums va) (nums vb) = nums (calculateSlope R ta tb va vb)

theorem knotDerivativeO_nums {ts : List K} {vs : List (Vec3 K)} (h2 : Slopes R Ω ts vs) (d0 dT : Vec3 K) (i : ℕ) :
    knotDerivativeO R Ω ts (vs.map nums) (nums d0) (nums dT) i =
      (knotDerivative R ts vs d0 dT i >>= fun d => .ok (nums d)) := by
  unfold knotDerivativeO knotDerivative
  split
  · rfl
  · split
    · rfl
    · rename_i hi _
      obtain ⟨i, rfl⟩ := Nat.exists_eq_succ_of_ne_zero hi
      simp only [Nat.succ_eq_add_one, Nat.add_sub_cancel, List.getElem?_map]
      cases ha : ts[i]? with
      | none => rfl
      | some ta =>
        cases hb : ts[i + 1 + 1]? with
        | none => rfl
        | some tb =>
          cases ha' : vs[i]? with
          | none => rfl
          | some va =>
            cases hb' : vs[i + 1 + 1]? with
            | none => rfl
            | some vb =>
              simp only [Outcome.deref, Outcome.ok_bind, Option.map_some, h2 i ta tb va vb ha hb ha' hb']

theorem fitLoopO_nums {ts : List K} {vs : List (Vec3 K)} (h2 : Slopes R Ω ts vs) (d0 dT : Vec3 K) :
    ∀ n i, fitLoopO R Ω ts (vs.map nums) (nums d0) (nums dT) n i =
      (fitLoop R ts vs d0 dT n i >>= fun cs => .ok (cs.map numKnot))
  | 0, _ => rfl
  | n + 1, i => by
    simp only [fitLoopO, fitLoop, knotDerivativeO_nums h2, fitLoopO_nums h2 d0 dT n (i + 1), List.getElem?_map]
    cases knotDerivative R ts vs d0 dT i with
    | ok d =>
      cases vs[i]? with
      | none => rfl
      | some v => cases fitLoop R ts vs d0 dT n (i + 1) <;> rfl
    | abort => rfl
    | throw => rfl
    | ub => rfl

theorem fitO_nums (debug : Bool) {ts : List K} {vs : List (Vec3 K)} (h2 : Slopes R Ω ts vs) (d0 dT : Vec3 K)
    (c : E3 K (Vec3 K)) :
    fitWithDerivativesO R Ω debug ts (vs.map nums) (nums d0) (nums dT) ⟨c.w, c.m.conv numKnot⟩ =
      (fitCurveWithDerivatives R debug ts vs d0 dT c >>= fun r => .ok (⟨r.1.w, r.1.m.conv numKnot⟩, r.2)) := by
  unfold fitWithDerivativesO fitCurveWithDerivatives
  rw [List.length_map]
  split
  · rfl
  · rw [fitLoopO_nums h2]
    cases fitLoop R ts vs d0 dT ts.length 0 with
    | ok cs =>
      simp only [Outcome.ok_bind, insertCoefficients_conv]
      cases c.m.insertCoefficients c.w ts cs <;> rfl
    | abort => rfl
    | throw => rfl
    | ub => rfl

end Verif.Rounding

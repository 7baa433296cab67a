import Verif.PolyCurve.RefineProps

/-!
# Property C175: cutting and joining cubic scalar curves

A stretch of a fitted `PolynomialSplineScalarCurve` of order 3 from one knot to another is the curve fitted to the knots of the
stretch with the velocities at its ends. Two curves that meet with the same value, velocity and acceleration are together the curve
fitted to the knots of both. A stretch of a fitted `CubicHermiteE3Curve` is the curve of the stretch in the same sense.
-/

set_option linter.unusedSectionVars false
set_option linter.dupNamespace false

namespace Verif.PolyCurve

open Verif.Spline Verif.Container Verif.Manager

variable {K : Type} [Field K] [LinearOrder K] [IsStrictOrderedRing K]

theorem Pieces.stretch {ts : List K} {P V A : K → K} (h : Pieces ts P V A) (n k : ℕ) : Pieces ((ts.drop n).take k) P V A := by
  intro i hi
  simp only [List.length_take, List.length_drop] at hi
  obtain ⟨k0, k1, k2, k3, hk⟩ := h (n + i) (by omega)
  refine ⟨k0, k1, k2, k3, fun t t0 t1 => hk t ?_ ?_⟩
  · simpa [List.getElem_take, List.getElem_drop] using t0
  · simpa [List.getElem_take, List.getElem_drop, Nat.add_assoc] using t1

/-- **C175**, cutting: take `k + 2` knots of a fitted cubic scalar curve from knot `n` on. Fitted to these alone, with the velocities
that the curve has at the first and the last of them, the curve has the same value, velocity and acceleration at all times between. -/
theorem C175_cut (S S' : Solver K) {ts : List K} (vs : List K) (hb : ts.length ≤ 2 ^ 28)
    (hl : vs.length = ts.length) (hinc : ts.Pairwise (· < ·)) (v0 a0 vT aT a0' aT' : K) (c d : ScalarCurve .o3 K) (n k : ℕ)
    (hn : n + k + 1 < ts.length) :
    ∃ c' u v, c.fitCurveWith S ts vs v0 a0 vT aT = .ok c' ∧ c'.evaluateDerivative ts[n] 1 = .ok (some u) ∧
      c'.evaluateDerivative ts[n + k + 1] 1 = .ok (some v) ∧
      ∃ d', d.fitCurveWith S' ((ts.drop n).take (k + 2)) ((vs.drop n).take (k + 2)) u a0' v aT' = .ok d' ∧
        ∀ t, ts[n] ≤ t → t ≤ ts[n + k + 1] →
          d'.evaluate t = c'.evaluate t ∧ d'.evaluateDerivative t 1 = c'.evaluateDerivative t 1 ∧
          d'.evaluateDerivative t 2 = c'.evaluateDerivative t 2 := by
  have h2 : 2 ≤ ts.length := by omega
  obtain ⟨c', P, V, A, e, hp, -, -, hev⟩ := fit_pieces S ts vs h2 hb hl hinc v0 a0 vT aT c
  obtain ⟨c'', e', -, -, hint, -⟩ := C30_domain_and_interpolation S ts vs h2 hb hl hinc v0 a0 vT aT c _ (Or.inl rfl)
  rw [e] at e'; cases e'
  have r0 : ∀ i (hi : i < ts.length), ts[0] ≤ ts[i] := fun i hi => getElem_mono hinc hi (Nat.zero_le i)
  have r1 : ∀ i (hi : i < ts.length), ts[i] ≤ ts[ts.length - 1] := fun i hi => getElem_mono hinc (by omega) (by omega)
  have hPv : ∀ i (hi : i < ts.length), P ts[i] = vs[i] := fun i hi => by
    have x := hint i hi (by omega)
    rw [(hev _ (r0 i hi) (r1 i hi)).1] at x
    exact Outcome.ok.inj x
  have len : ((ts.drop n).take (k + 2)).length = k + 2 := by simp; omega
  have get : ∀ i (hi : i < ((ts.drop n).take (k + 2)).length), ((ts.drop n).take (k + 2))[i] = ts[n + i]'(by omega) := fun i hi => by
    simp [List.getElem_take, List.getElem_drop]
  have hvs : (vs.drop n).take (k + 2) = ((ts.drop n).take (k + 2)).map P := by
    refine List.ext_getElem (by simp [hl]) fun i i1 i2 => ?_
    rw [List.getElem_map, get, hPv]
    simp [List.getElem_take, List.getElem_drop]
  obtain ⟨d', ed, hd⟩ := C174_pieces S' (ts := (ts.drop n).take (k + 2)) (by omega) (by omega)
    ((hinc.sublist (List.drop_sublist n ts)).sublist (List.take_sublist _ _)) (hp.stretch n (k + 2)) a0' aT' d
  have g0 : ((ts.drop n).take (k + 2))[0]'(by omega) = ts[n] := by rw [get]; rfl
  have g1 : ((ts.drop n).take (k + 2))[((ts.drop n).take (k + 2)).length - 1]'(by omega) = ts[n + k + 1] := by
    rw [get]
    congr 1
    omega
  rw [g0, g1, ← hvs] at ed
  rw [g0, g1] at hd
  refine ⟨c', V ts[n], V ts[n + k + 1], e, (hev _ (r0 _ _) (r1 _ _)).2.1, (hev _ (r0 _ _) (r1 _ _)).2.1, d', ed, fun t t0 t1 => ?_⟩
  obtain ⟨x1, x2, x3⟩ := hev t ((r0 n (by omega)).trans t0) (t1.trans (r1 (n + k + 1) (by omega)))
  obtain ⟨y1, y2, y3⟩ := hd t t0 t1
  rw [x1, x2, x3, y1, y2, y3]
  exact ⟨rfl, rfl, rfl⟩

/-- The pieces of a fitted curve, with the values at the knots. -/
theorem fit_pieces_values (S : Solver K) (ts vs : List K) (h2 : 2 ≤ ts.length) (hb : ts.length ≤ 2 ^ 28)
    (hl : vs.length = ts.length) (hinc : ts.Pairwise (· < ·)) (v0 a0 vT aT : K) (c : ScalarCurve .o3 K) :
    ∃ (c' : ScalarCurve .o3 K) (P V A : K → K), c.fitCurveWith S ts vs v0 a0 vT aT = .ok c' ∧ Pieces ts P V A ∧
      ts.map P = vs ∧ V ts[0] = v0 ∧ V ts[ts.length - 1] = vT ∧
      ∀ t, ts[0] ≤ t → t ≤ ts[ts.length - 1] → c'.evaluate t = .ok (P t) ∧
        c'.evaluateDerivative t 1 = .ok (some (V t)) ∧ c'.evaluateDerivative t 2 = .ok (some (A t)) := by
  obtain ⟨c', P, V, A, e, hp, k0, kT, hev⟩ := fit_pieces S ts vs h2 hb hl hinc v0 a0 vT aT c
  obtain ⟨c'', e', -, -, hint, -⟩ := C30_domain_and_interpolation S ts vs h2 hb hl hinc v0 a0 vT aT c _ (Or.inl rfl)
  rw [e] at e'; cases e'
  refine ⟨c', P, V, A, e, hp, List.ext_getElem (by simp [hl]) fun i i1 i2 => ?_, k0, kT, hev⟩
  have hi : i < ts.length := by omega
  have x := hint i hi i2
  rw [(hev _ (getElem_mono hinc hi (Nat.zero_le i)) (getElem_mono hinc (by omega) (by omega))).1] at x
  rw [List.getElem_map]
  exact Outcome.ok.inj x

/-- Pieces on both sides of `T`. -/
theorem Pieces.append {l r : List K} {T : K} (hinc : (l ++ T :: r).Pairwise (· < ·)) {P V A Q W B : K → K}
    (h : Pieces (l ++ [T]) P V A) (h' : Pieces (T :: r) Q W B) (eP : P T = Q T) (eV : V T = W T) (eA : A T = B T) :
    Pieces (l ++ T :: r) (fun t => if t ≤ T then P t else Q t) (fun t => if t ≤ T then V t else W t)
      (fun t => if t ≤ T then A t else B t) := by
  intro i hi
  simp only [List.length_append, List.length_cons] at hi
  have hT : (l ++ T :: r)[l.length]'(by simp) = T := by simp
  rcases Nat.lt_or_ge i l.length with hlt | hge
  · obtain ⟨k0, k1, k2, k3, hk⟩ := h i (by simp; omega)
    refine ⟨k0, k1, k2, k3, fun t t0 t1 => ?_⟩
    have iT := getElem_mono hinc (i := i + 1) (j := l.length) (by simp) (by omega)
    rw [hT] at iT
    have tT : t ≤ T := t1.trans iT
    simp only [if_pos tT]
    refine hk t ?_ ?_
    · rw [List.getElem_append_left hlt] at t0 ⊢
      exact t0
    · rcases Nat.lt_or_ge (i + 1) l.length with g | g
      · rw [List.getElem_append_left g] at t1 ⊢
        exact t1
      · obtain g : i + 1 = l.length := by omega
        simp only [g]
        simpa using tT
  · obtain ⟨j, rfl⟩ : ∃ j, i = l.length + j := ⟨i - l.length, by omega⟩
    obtain ⟨k0, k1, k2, k3, hk⟩ := h' j (by simp; omega)
    have get : ∀ m (hm : m < (T :: r).length), (l ++ T :: r)[l.length + m]'(by simp at hm ⊢; omega) = (T :: r)[m] := fun m hm => by
      rw [List.getElem_append_right (by omega)]
      simp
    refine ⟨k0, k1, k2, k3, fun t t0 t1 => ?_⟩
    have u0 : (T :: r)[j]'(by simp; omega) ≤ t := by rw [← get]; exact t0
    have u1 : t ≤ (T :: r)[j + 1]'(by simp; omega) := by rw [← get]; exact t1
    have Ti := getElem_mono hinc (i := l.length) (j := l.length + j) (by simp; omega) (Nat.le_add_right _ j)
    rw [hT] at Ti
    have Tt : T ≤ t := Ti.trans t0
    have hkt := hk t u0 u1
    rcases Tt.lt_or_eq with g | rfl
    · simp only [if_neg (not_le.2 g)]
      exact hkt
    · simp only [le_refl, if_true]
      rw [eP, eV, eA]
      exact hkt

/-- **C175**, joining: a cubic scalar curve through the points of `l` and `T`, and another through `T` and those of `r`, with the same
value and velocity at `T`. If they report the same acceleration there, the curve fitted to all points, with the velocities at the two
outer ends, is the first up to `T` and the second from `T` on. -/
theorem C175_join (S S₁ S₂ : Solver K) {l r xs ys : List K} {T x : K} (hl0 : l ≠ []) (hr0 : r ≠ [])
    (hb : (l ++ T :: r).length ≤ 2 ^ 28) (hl : xs.length = l.length) (hr : ys.length = r.length)
    (hinc : (l ++ T :: r).Pairwise (· < ·)) (v0 v vT : K) (a a' b b' e e' : K) (c c₁ c₂ : ScalarCurve .o3 K) :
    ∃ c₁' c₂' c', c₁.fitCurveWith S₁ (l ++ [T]) (xs ++ [x]) v0 a v a' = .ok c₁' ∧
      c₂.fitCurveWith S₂ (T :: r) (x :: ys) v b vT b' = .ok c₂' ∧
      c.fitCurveWith S (l ++ T :: r) (xs ++ x :: ys) v0 e vT e' = .ok c' ∧
      (c₁'.evaluateDerivative T 2 = c₂'.evaluateDerivative T 2 →
        (∀ t, (l ++ T :: r)[0]'(by simp) ≤ t → t ≤ T → c'.evaluate t = c₁'.evaluate t ∧
          c'.evaluateDerivative t 1 = c₁'.evaluateDerivative t 1 ∧ c'.evaluateDerivative t 2 = c₁'.evaluateDerivative t 2) ∧
        ∀ t, T ≤ t → t ≤ (l ++ T :: r)[(l ++ T :: r).length - 1]'(by simp) → c'.evaluate t = c₂'.evaluate t ∧
          c'.evaluateDerivative t 1 = c₂'.evaluateDerivative t 1 ∧ c'.evaluateDerivative t 2 = c₂'.evaluateDerivative t 2) := by
  have ll : 1 ≤ l.length := List.length_pos_iff.2 hl0
  have lr : 1 ≤ r.length := List.length_pos_iff.2 hr0
  have hb' : l.length + (r.length + 1) ≤ 2 ^ 28 := by simpa using hb
  have inc1 : (l ++ [T]).Pairwise (· < ·) := hinc.sublist (List.Sublist.append_left (by simp) l)
  have inc2 : (T :: r).Pairwise (· < ·) := hinc.sublist (List.sublist_append_right _ _)
  obtain ⟨c₁', P, V, A, e1, p1, q1, f1, w1, h1⟩ := fit_pieces_values S₁ (l ++ [T]) (xs ++ [x]) (by simp; omega) (by simp; omega)
    (by simp [hl]) inc1 v0 a v a' c₁
  obtain ⟨c₂', Q, W, B, e2, p2, q2, u2, f2, h2⟩ := fit_pieces_values S₂ (T :: r) (x :: ys) (by simp; omega) (by simp; omega)
    (by simp [hr]) inc2 v b vT b' c₂
  obtain ⟨c', -, -, -, e3, -⟩ := fit_pieces S (l ++ T :: r) (xs ++ x :: ys) (by simp; omega) hb (by simp [hl, hr]) hinc v0 e vT e' c
  refine ⟨c₁', c₂', c', e1, e2, e3, fun hacc => ?_⟩
  -- where the lists begin and end
  have first : (l ++ [T])[0]'(by simp) = (l ++ T :: r)[0]'(by simp) := by
    rw [List.getElem_append_left ll, List.getElem_append_left ll]
  have mid1 : (l ++ [T])[(l ++ [T]).length - 1]'(by simp) = T := by simp
  have last : (T :: r)[(T :: r).length - 1]'(by simp) = (l ++ T :: r)[(l ++ T :: r).length - 1]'(by simp) := by
    rw [← List.getLast_eq_getElem (by simp), ← List.getLast_eq_getElem (by simp), List.getLast_append_of_ne_nil _ (by simp)]
  have hT : (l ++ T :: r)[l.length]'(by simp) = T := by simp
  have T0 := getElem_mono hinc (i := 0) (j := l.length) (by simp) (Nat.zero_le _)
  have T1 := getElem_mono hinc (i := l.length) (j := (l ++ T :: r).length - 1) (by simp) (by simp)
  have T0' := List.pairwise_iff_getElem.1 hinc 0 l.length (by simp) (by simp) (by omega)
  have T1' := List.pairwise_iff_getElem.1 hinc l.length ((l ++ T :: r).length - 1) (by simp) (by simp) (by simp; omega)
  rw [hT] at T0 T1 T0' T1'
  rw [first, mid1] at h1
  rw [first] at f1
  rw [mid1] at w1
  simp only [List.getElem_cons_zero] at u2 h2
  rw [last] at f2 h2
  rw [List.map_append] at q1
  obtain ⟨m1, m2⟩ := List.append_inj q1 (by simp [hl])
  simp only [List.map_cons, List.map_nil, List.cons.injEq, and_true] at m2 q2
  obtain ⟨m3, m4⟩ := q2
  have eA : A T = B T := by
    rw [(h1 T T0 le_rfl).2.2, (h2 T le_rfl T1).2.2] at hacc
    exact Option.some.inj (Outcome.ok.inj hacc)
  have hp := Pieces.append hinc p1 p2 (m2.trans m3.symm) (w1.trans u2.symm) eA
  obtain ⟨d, ed, hd⟩ := C174_pieces S (by simp; omega) hb hinc hp e e' c
  have hmap : (l ++ T :: r).map (fun t => if t ≤ T then P t else Q t) = xs ++ x :: ys := by
    rw [List.map_append, List.map_cons, if_pos le_rfl, m2, ← m1, ← m4]
    congr 1
    · refine List.map_congr_left fun t ht => if_pos ?_
      exact ((List.pairwise_append.1 hinc).2.2 t ht T (by simp)).le
    · congr 1
      refine List.map_congr_left fun t ht => if_neg (not_le.2 ?_)
      exact (List.pairwise_cons.1 inc2).1 t ht
  rw [hmap] at ed
  simp only [if_pos T0, if_neg (not_le.2 T1'), f1, f2] at ed
  rw [e3] at ed; cases ed
  constructor
  · intro t t0 t1
    obtain ⟨y1, y2, y3⟩ := hd t t0 (t1.trans T1)
    obtain ⟨z1, z2, z3⟩ := h1 t t0 t1
    rw [y1, y2, y3, z1, z2, z3]
    simp only [if_pos t1, and_self]
  · intro t t0 t1
    obtain ⟨y1, y2, y3⟩ := hd t (T0.trans t0) t1
    obtain ⟨z1, z2, z3⟩ := h2 t t0 t1
    rw [y1, y2, y3, z1, z2, z3]
    rcases t0.lt_or_eq with g | rfl
    · simp only [if_neg (not_le.2 g), and_self]
    · simp only [le_refl, if_true, m2, m3, w1, u2, eA, and_self]

/-- `|t|³` is cut at 0 into `t³` from 0 to 1. -/
example (S S' : Solver ℚ) : ∃ c' d' : ScalarCurve .o3 ℚ,
    ScalarCurve.fresh.fitCurveWith S [-1, 0, 1] [1, 0, 1] (-3) 5 3 7 = .ok c' ∧
    ScalarCurve.fresh.fitCurveWith S' [0, 1] [0, 1] 0 8 3 9 = .ok d' ∧
    ∀ t, 0 ≤ t → t ≤ 1 → d'.evaluate t = c'.evaluate t := by
  obtain ⟨c, e, h⟩ := abs_fit S
  obtain ⟨c', u, v, e', hu, hv, d', ed, hd⟩ := C175_cut S S' (ts := [-1, 0, 1]) [1, 0, 1] (by norm_num) rfl (by norm_num)
    (-3) 5 3 7 8 9 ScalarCurve.fresh ScalarCurve.fresh 1 0 (by simp)
  rw [e] at e'; cases e'
  simp only [List.getElem_cons_succ, List.getElem_cons_zero, Nat.reduceAdd] at hu hv hd
  rw [(h 0 (by norm_num) (by norm_num)).2.1] at hu
  rw [(h 1 (by norm_num) (by norm_num)).2.1] at hv
  obtain rfl : 0 = u := by simpa using hu
  obtain rfl : 3 = v := by simpa using hv
  exact ⟨c, d', e, by simpa using ed, fun t h0 h1 => (hd t h0 h1).1⟩

/-- `-t³` up to 0 and `t³` from 0 on have the acceleration 0 at 0: together they are the curve through all three points. -/
example (S : Solver ℚ) : ∃ c₁ c₂ c : ScalarCurve .o3 ℚ,
    ScalarCurve.fresh.fitCurveWith S [-1, 0] [1, 0] (-3) 0 0 0 = .ok c₁ ∧
    ScalarCurve.fresh.fitCurveWith S [0, 1] [0, 1] 0 0 3 0 = .ok c₂ ∧
    ScalarCurve.fresh.fitCurveWith S [-1, 0, 1] [1, 0, 1] (-3) 0 3 0 = .ok c ∧
    (∀ t, -1 ≤ t → t ≤ 0 → c.evaluate t = c₁.evaluate t) ∧ ∀ t, 0 ≤ t → t ≤ 1 → c.evaluate t = c₂.evaluate t := by
  obtain ⟨c₁, c₂, c, e1, e2, e3, h⟩ := C175_join S S S (l := [(-1 : ℚ)]) (r := [1]) (xs := [1]) (ys := [1]) (T := 0) (x := 0)
    (by simp) (by simp) (by norm_num) rfl rfl (by norm_num) (-3) 0 3 0 0 0 0 0 0 ScalarCurve.fresh ScalarCurve.fresh
    ScalarCurve.fresh
  have one : ∀ {a b : ℚ} {P V A : ℚ → ℚ} (c : ScalarCurve .o3 ℚ), a < b → (∃ k, ∀ t, a ≤ t → t ≤ b →
      P t = k * t ^ 3 ∧ V t = 3 * k * t ^ 2 ∧ A t = 6 * k * t) →
      ScalarCurve.fresh.fitCurveWith S [a, b] [P a, P b] (V a) 0 (V b) 0 = .ok c →
      ∀ t, a ≤ t → t ≤ b → c.evaluateDerivative t 2 = .ok (some (A t)) := by
    rintro a b P V A c hab ⟨k, hk⟩ e t t0 t1
    obtain ⟨c', e', h'⟩ := C174_pieces S (ts := [a, b]) (P := P) (V := V) (A := A) (by simp) (by simp) (by simpa using hab) (by
      intro i hi
      obtain rfl : i = 0 := by simp at hi; omega
      refine ⟨0, 0, 0, k, fun t t0 t1 => ?_⟩
      obtain ⟨r1, r2, r3⟩ := hk t (by simpa using t0) (by simpa using t1)
      rw [r1, r2, r3]
      refine ⟨?_, ?_, ?_⟩ <;> ring) 0 0 ScalarCurve.fresh
    simp only [List.map_cons, List.map_nil, List.getElem_cons_zero, List.length_cons, List.length_nil, zero_add, Nat.reduceAdd,
      Nat.add_one_sub_one, List.getElem_cons_succ] at e' h'
    rw [e] at e'; cases e'
    exact (h' t t0 t1).2.2
  have g1 := one (P := fun t => -1 * t ^ 3) (V := fun t => 3 * (-1) * t ^ 2) (A := fun t => 6 * (-1) * t) (a := -1) (b := 0) c₁
    (by norm_num) ⟨-1, fun t _ _ => ⟨rfl, rfl, rfl⟩⟩ (by norm_num; simpa using e1) 0 (by norm_num) le_rfl
  have g2 := one (P := fun t => 1 * t ^ 3) (V := fun t => 3 * 1 * t ^ 2) (A := fun t => 6 * 1 * t) (a := 0) (b := 1) c₂
    (by norm_num) ⟨1, fun t _ _ => ⟨rfl, rfl, rfl⟩⟩ (by simpa using e2) 0 le_rfl (by norm_num)
  obtain ⟨k1, k2⟩ := h (by rw [g1, g2]; norm_num)
  exact ⟨c₁, c₂, c, e1, e2, e3, fun t t0 t1 => (k1 t t0 t1).1, fun t t0 t1 => (k2 t t0 t1).1⟩

variable {V : Type} [AddCommGroup V] [Module K V]

/-- **C175**, cutting a `CubicHermiteE3Curve`: take `k + 2` knots of a fitted curve from knot `n` on. Fitted to these alone, with the
velocities that the curve has at the first and the last of them, the curve has the same value and velocity at all times between. -/
theorem C175_hermite_cut (debug : Bool) {ts : List K} {vs : List V} (hl : ts.length = vs.length) (hinc : ts.Pairwise (· < ·))
    (d0 dT : V) (w w' : World) (n k : ℕ) (hn : n + k + 1 < ts.length) :
    ∃ (c d : Hermite.E3 K V) (ks ks' : List Key) (u v : V),
      Hermite.E3.fitCurveWithDerivatives debug ts vs d0 dT (Hermite.E3.fresh w) = .ok (c, ks) ∧
      Hermite.E3.evaluateDerivative ts[n] 1 c = .ok (some u) ∧ Hermite.E3.evaluateDerivative ts[n + k + 1] 1 c = .ok (some v) ∧
      Hermite.E3.fitCurveWithDerivatives debug ((ts.drop n).take (k + 2)) ((vs.drop n).take (k + 2)) u v (Hermite.E3.fresh w') =
        .ok (d, ks') ∧
      ∀ t, ts[n] ≤ t → t ≤ ts[n + k + 1] → ∃ r s, Hermite.E3.evaluate t c = .ok (some r) ∧ Hermite.E3.evaluate t d = .ok (some r) ∧
        Hermite.E3.evaluateDerivative t 1 c = .ok (some s) ∧ Hermite.E3.evaluateDerivative t 1 d = .ok (some s) := by
  obtain ⟨c, ks, m, e, hs, -, m0, mT, hin, hnd⟩ := e3_nodes debug (by omega) hl hinc d0 dT w
  have len : ((ts.drop n).take (k + 2)).length = k + 2 := by simp; omega
  have lenv : ((vs.drop n).take (k + 2)).length = k + 2 := by simp; omega
  have get : ∀ i (hi : i < ((ts.drop n).take (k + 2)).length), ((ts.drop n).take (k + 2))[i] = ts[n + i]'(by omega) := fun i hi => by
    simp [List.getElem_take, List.getElem_drop]
  have getv : ∀ i (hi : i < ((vs.drop n).take (k + 2)).length), ((vs.drop n).take (k + 2))[i] = vs[n + i]'(by omega) := fun i hi => by
    simp [List.getElem_take, List.getElem_drop]
  have inc' : ((ts.drop n).take (k + 2)).Pairwise (· < ·) := (hinc.sublist (List.drop_sublist n ts)).sublist (List.take_sublist _ _)
  obtain ⟨d, ks', m', e', hs', -, m0', mT', hin', hnd'⟩ := e3_nodes debug (ts := (ts.drop n).take (k + 2))
    (vs := (vs.drop n).take (k + 2)) (by omega) (by omega) inc' (m n) (m (n + k + 1)) w'
  have lt : ∀ i (hi : i + 1 < ts.length), ts[i] < ts[i + 1] := fun i hi =>
    List.pairwise_iff_getElem.1 hinc i (i + 1) (by omega) hi (by omega)
  -- the velocities at the knots
  have hm : ∀ i, i < k + 2 → m' i = m (n + i) := by
    intro i hi
    rcases Nat.eq_zero_or_pos i with rfl | hp
    · exact m0'
    rcases Nat.lt_or_ge i (k + 1) with g | g
    · obtain ⟨j, rfl⟩ : ∃ j, i = j + 1 := ⟨i - 1, by omega⟩
      have a := hin' j (by omega)
      have b := hin (n + j) (by omega)
      rw [get, get, getv, getv] at a
      exact a.trans b.symm
    · obtain rfl : i = k + 1 := by omega
      rw [len] at mT'
      exact mT'
  have vel0 : ∀ i (hi : i + 1 < ts.length), Hermite.E3.evaluateDerivative ts[i] 1 c = .ok (some (m i)) := by
    intro i hi
    obtain ⟨pre, a, b, post, h, ta, tb, ca, cb⟩ := hnd i hi
    have := sub_pos.2 (lt i hi)
    rw [Hermite.E3.velocity_between hs h (by rw [ta]) (by rw [tb]; exact (lt i hi).le)]
    simp only [Hermite.E3.interpolateVelocity, ta, tb, ca, cb]
    simp
  have vel1 : ∀ i (hi : i + 1 < ts.length), Hermite.E3.evaluateDerivative ts[i + 1] 1 c = .ok (some (m (i + 1))) := by
    intro i hi
    obtain ⟨pre, a, b, post, h, ta, tb, ca, cb⟩ := hnd i hi
    have hx : ts[i + 1] - ts[i] ≠ 0 := (sub_pos.2 (lt i hi)).ne'
    rw [Hermite.E3.velocity_between hs h (by rw [ta]; exact (lt i hi).le) (by rw [tb])]
    simp only [Hermite.E3.interpolateVelocity, ta, tb, ca, cb]
    simp [hx]
    norm_num
  refine ⟨c, d, ks, ks', m n, m (n + k + 1), e, vel0 n (by omega), vel1 (n + k) (by omega), e', fun t t0 t1 => ?_⟩
  obtain ⟨i, hi, g0, g1⟩ := segment_of (ts := (ts.drop n).take (k + 2)) (t := t) (by omega) (by rw [get]; exact t0) (by
    rw [get]
    have : n + (((ts.drop n).take (k + 2)).length - 1) = n + k + 1 := by omega
    simp only [this]
    exact t1)
  obtain ⟨pre, a, b, post, h, ta, tb, ca, cb⟩ := hnd (n + i) (by omega)
  obtain ⟨pre', a', b', post', h', ta', tb', ca', cb'⟩ := hnd' i hi
  rw [hm i (by omega), getv] at ca'
  rw [hm (i + 1) (by omega), getv] at cb'
  rw [get] at g0 g1 ta' tb'
  have tb'' : b'.time = ts[n + i + 1] := tb'
  refine ⟨_, _, Hermite.E3.evaluate_between hs h (by rw [ta]; exact g0) (by rw [tb]; exact g1), ?_,
    Hermite.E3.velocity_between hs h (by rw [ta]; exact g0) (by rw [tb]; exact g1), ?_⟩
  · rw [Hermite.E3.evaluate_between hs' h' (by rw [ta']; exact g0) (by rw [tb'']; exact g1)]
    simp only [Hermite.E3.interpolate, ta, tb, ca, cb, ta', tb'', ca', cb']
    rfl
  · rw [Hermite.E3.velocity_between hs' h' (by rw [ta']; exact g0) (by rw [tb'']; exact g1)]
    simp only [Hermite.E3.interpolateVelocity, ta, tb, ca, cb, ta', tb'', ca', cb']
    rfl

/-- The second of three segments of the curve through 0, 1, 8, 27. -/
example (debug : Bool) (w w' : World) : ∃ (c d : Hermite.E3 ℚ ℚ) (ks ks' : List Key) (u v : ℚ),
    Hermite.E3.fitCurveWithDerivatives debug [0, 1, 2, 3] [0, 1, 8, 27] 0 27 (Hermite.E3.fresh w) = .ok (c, ks) ∧
    Hermite.E3.fitCurveWithDerivatives debug [1, 2] [1, 8] u v (Hermite.E3.fresh w') = .ok (d, ks') ∧
    ∀ t, 1 ≤ t → t ≤ 2 → ∃ r, Hermite.E3.evaluate t c = .ok (some r) ∧ Hermite.E3.evaluate t d = .ok (some r) := by
  obtain ⟨c, d, ks, ks', u, v, e, -, -, e', h⟩ := C175_hermite_cut debug (ts := [(0 : ℚ), 1, 2, 3]) (vs := [(0 : ℚ), 1, 8, 27]) rfl
    (by norm_num) 0 27 w w' 1 0 (by simp)
  refine ⟨c, d, ks, ks', u, v, e, e', fun t t0 t1 => ?_⟩
  obtain ⟨r, s, h1, h2, -⟩ := h t t0 t1
  exact ⟨r, h1, h2⟩

end Verif.PolyCurve

import Verif.Container.Glue
import Mathlib.LinearAlgebra.Dimension.Constructions
import Mathlib.LinearAlgebra.FiniteDimensional.Lemmas
import Mathlib.Algebra.Polynomial.Roots
import Mathlib.Order.Interval.Set.Infinite
import Mathlib.Tactic.Positivity
import Mathlib.Tactic.Linarith

/-! # When the equations of `setData` determine the segments, and when they do not -/

set_option linter.unusedSectionVars false
set_option linter.dupNamespace false

namespace Verif.Container

open Verif.Spline

variable {K : Type} [Field K] [LinearOrder K] [IsStrictOrderedRing K] {o : Order}

/-! ## Linearity of the conditions -/

theorem inner_sub_left (a b v : Vec o K) : inner (a - b) v = inner a v - inner b v := by
  simp [inner, sub_mul, Finset.sum_sub_distrib]

theorem inner_lin_left (r s : K) (a b v : Vec o K) :
    inner (fun i => r * a i + s * b i) v = r * inner a v + s * inner b v := by
  simp only [inner, Finset.mul_sum, ← Finset.sum_add_distrib]
  refine Finset.sum_congr rfl fun i _ => ?_
  ring

/-! ## A segment is determined by its end conditions -/

theorem ext_o3 {a b : Vec .o3 K} (h0 : a 0 = b 0) (h1 : a 1 = b 1) (h2 : a 2 = b 2)
    (h3 : a 3 = b 3) : a = b := by
  funext i; fin_cases i <;> assumption
theorem ext_o4 {a b : Vec .o4 K} (h0 : a 0 = b 0) (h1 : a 1 = b 1) (h2 : a 2 = b 2)
    (h3 : a 3 = b 3) (h4 : a 4 = b 4) : a = b := by
  funext i; fin_cases i <;> assumption
theorem ext_o5 {a b : Vec .o5 K} (h0 : a 0 = b 0) (h1 : a 1 = b 1) (h2 : a 2 = b 2)
    (h3 : a 3 = b 3) (h4 : a 4 = b 4) (h5 : a 5 = b 5) : a = b := by
  funext i; fin_cases i <;> assumption

theorem cubic_unique {T : K} (hT : T ≠ 0) (c : Vec .o3 K) :
    c = cubic T (inner c (tauZero .o3)) (inner c (dtauZero .o3)) (inner c (tau .o3 T))
      (inner c (dtau .o3 T)) := by
  apply ext_o3 <;> simp [cubic, inner, sum_o3, tauZero, dtauZero, tau, dtau] <;> field_simp <;> ring

theorem quartic_unique {T : K} (hT : T ≠ 0) (c : Vec .o4 K) :
    c = quartic T (inner c (tauZero .o4)) (inner c (dtauZero .o4)) (inner c (ddtauZero .o4))
      (inner c (tau .o4 T)) (inner c (dtau .o4 T)) := by
  apply ext_o4 <;> simp [quartic, inner, sum_o4, tauZero, dtauZero, ddtauZero, tau, dtau] <;>
    field_simp <;> ring

theorem quintic_unique {T : K} (hT : T ≠ 0) (c : Vec .o5 K) :
    c = quintic T (inner c (tauZero .o5)) (inner c (dtauZero .o5)) (inner c (ddtauZero .o5))
      (inner c (tau .o5 T)) (inner c (dtau .o5 T)) (inner c (ddtau .o5 T)) := by
  apply ext_o5 <;>
    simp [quintic, inner, sum_o5, tauZero, dtauZero, ddtauZero, tau, dtau, ddtau] <;>
    field_simp <;> ring

/-! ## Homogeneous conditions -/

/-- Chain through zero positions: the end acceleration never opposes the end velocity. -/
theorem cubic_pushes (D : ℕ → K) (hD : ∀ j, 0 < D j) (c : ℕ → Vec .o3 K) (n : ℕ)
    (h : Chain .o3 D (fun _ => 0) n c) (h0 : inner (c 0) (dtauZero .o3) = 0) : ∀ k ≤ n,
    0 ≤ inner (c k) (ddtau .o3 (D k)) * inner (c k) (dtau .o3 (D k)) := by
  have key : ∀ k ≤ n, ∀ m w, inner (c k) (dtauZero .o3) = m → inner (c k) (dtau .o3 (D k)) = w →
      inner (c k) (ddtauZero .o3) = -((4 * m + 2 * w) / D k) ∧
      inner (c k) (ddtau .o3 (D k)) = (2 * m + 4 * w) / D k := by
    intro k hk m w hm hw
    have e := cubic_unique (hD k).ne' (c k)
    rw [h.start k hk, h.stop k hk, hm, hw] at e
    obtain ⟨-, -, -, -, s5, s6⟩ := cubic_spec (hD k).ne' 0 m 0 w
    rw [e, s5, s6]
    constructor <;> simp
  intro k
  induction k with
  | zero =>
    intro hk
    rw [(key 0 hk _ _ h0 rfl).2]
    set w := inner (c 0) (dtau .o3 (D 0))
    have := hD 0
    have e : (2 * 0 + 4 * w) / D 0 * w = 4 * w ^ 2 / D 0 := by ring
    rw [e]; positivity
  | succ k ih =>
    intro hk
    have i := ih (by omega)
    rw [h.acc k (by omega), h.vel k (by omega)] at i
    obtain ⟨k1, k2⟩ := key (k + 1) hk _ _ rfl rfl
    rw [k1] at i
    rw [k2]
    set m := inner (c (k + 1)) (dtauZero .o3)
    set w := inner (c (k + 1)) (dtau .o3 (D (k + 1)))
    have hd := hD (k + 1)
    have e1 : -((4 * m + 2 * w) / D (k + 1)) * m = (-4 * m ^ 2 - 2 * m * w) / D (k + 1) := by ring
    have e2 : (2 * m + 4 * w) / D (k + 1) * w = (2 * m * w + 4 * w ^ 2) / D (k + 1) := by ring
    rw [e1, le_div_iff₀ hd, zero_mul] at i
    rw [e2]
    refine div_nonneg ?_ hd.le
    nlinarith [sq_nonneg (2 * w + m), sq_nonneg m]

/-- The clamped cubic spline through zero positions with zero end velocities is zero. -/
theorem cubic_zero (D : ℕ → K) (hD : ∀ j, 0 < D j) (c : ℕ → Vec .o3 K) (n : ℕ)
    (h : Chain .o3 D (fun _ => 0) n c) (h0 : inner (c 0) (dtauZero .o3) = 0)
    (hT : inner (c n) (dtau .o3 (D n)) = 0) : ∀ k ≤ n, c k = 0 := by
  have hp := cubic_pushes D hD c n h h0
  have hz : ∀ j, j ≤ n → inner (c (n - j)) (dtau .o3 (D (n - j))) = 0 ∧ c (n - j) = 0 := by
    intro j
    have step : ∀ k ≤ n, inner (c k) (dtau .o3 (D k)) = 0 → c k = 0 := by
      intro k hk hw
      have e := cubic_unique (hD k).ne' (c k)
      rw [h.start k hk, h.stop k hk, hw] at e
      have hm : inner (c k) (dtauZero .o3) = 0 := by
        cases k with
        | zero => exact h0
        | succ k =>
          have i := hp k (by omega)
          rw [h.acc k (by omega), h.vel k (by omega)] at i
          set m := inner (c (k + 1)) (dtauZero .o3)
          obtain ⟨-, -, -, -, s5, -⟩ := cubic_spec (hD (k + 1)).ne' 0 m 0 0
          rw [e, s5] at i
          have hd := hD (k + 1)
          have e1 : (6 * (0 - 0) / D (k + 1) ^ 2 - (4 * m + 2 * 0) / D (k + 1)) * m =
            -(4 * m ^ 2) / D (k + 1) := by ring
          rw [e1, le_div_iff₀ hd, zero_mul] at i
          have : m ^ 2 = 0 := le_antisymm (by linarith) (sq_nonneg m)
          exact pow_eq_zero_iff (two_ne_zero) |>.1 this
      rw [hm] at e
      rw [e]
      apply ext_o3 <;> simp [cubic]
    induction j with
    | zero => intro _; exact ⟨hT, step n le_rfl hT⟩
    | succ j ih =>
      intro hj
      obtain ⟨i1, i2⟩ := ih (by omega)
      have e : n - j = n - (j + 1) + 1 := by omega
      have hv := h.vel (n - (j + 1)) (by omega)
      rw [← e, i2] at hv
      have : inner (c (n - (j + 1))) (dtau .o3 (D (n - (j + 1)))) = 0 := by
        rw [hv]; simp [inner]
      exact ⟨this, step _ (by omega) this⟩
  intro k hk
  have := (hz (n - k) (by omega)).2
  rwa [show n - (n - k) = k by omega] at this

/-- Two quartic segments through zero positions at rest at both ends are zero. -/
theorem quartic_zero (D : ℕ → K) (hD : ∀ j, 0 < D j) (c : ℕ → Vec .o4 K)
    (h : Chain .o4 D (fun _ => 0) 1 c) (h0 : inner (c 0) (dtauZero .o4) = 0)
    (h0' : inner (c 0) (ddtauZero .o4) = 0) (hT : inner (c 1) (dtau .o4 (D 1)) = 0)
    (hT' : inner (c 1) (ddtau .o4 (D 1)) = 0) : ∀ k ≤ 1, c k = 0 := by
  have e0 := quartic_unique (hD 0).ne' (c 0)
  have e1 := quartic_unique (hD 1).ne' (c 1)
  rw [h.start 0 (by omega), h.stop 0 (by omega), h0, h0', h.vel 0 (by omega)] at e0
  rw [h.start 1 (by omega), h.stop 1 (by omega), hT, ← h.acc 0 (by omega)] at e1
  set w := inner (c (0 + 1)) (dtauZero .o4) with hw
  obtain ⟨-, -, -, -, -, s6⟩ := quartic_spec (hD 0).ne' 0 0 0 0 w
  rw [← e0] at s6
  obtain ⟨-, -, -, -, -, t6⟩ := quartic_spec (hD 1).ne' 0 w (inner (c 0) (ddtau .o4 (D 0))) 0 0
  rw [← e1, hT', s6] at t6
  have d0 := hD 0
  have d1 := hD 1
  have hw0 : w = 0 := by
    have e : w * (6 / D 0 + 6 / D 1) = 0 := by
      simp only [sub_self, mul_zero, zero_div, sub_zero, zero_add, add_zero] at t6
      rw [mul_add, ← mul_div_assoc, ← mul_div_assoc, mul_comm w 6]
      exact t6.symm
    rcases mul_eq_zero.1 e with e | e
    · exact e
    · exact absurd e (by positivity)
  rw [s6] at e1
  rw [hw0] at e0 e1
  intro k hk
  rcases Nat.le_one_iff_eq_zero_or_eq_one.1 hk with rfl | rfl
  · rw [e0]; apply ext_o4 <;> simp [quartic]
  · rw [e1]; apply ext_o4 <;> simp [quartic]

/-! ## Solutions of the conditions -/

/-- Two solutions of the same conditions differ by a chain through zero positions. -/
theorem FitEq.sub_chain {n : ℕ} {D P : ℕ → K} {ini fin : List K} {x y : ℕ → K}
    (hx : FitEq o (n + 1) D P ini fin x) (hy : FitEq o (n + 1) D P ini fin y) :
    Chain o D (fun _ => 0) n (fun j => seg o x j - seg o y j) := by
  obtain ⟨⟨i0, -, -⟩, ⟨f0, -, -⟩, hj⟩ := hx
  obtain ⟨⟨i0', -, -⟩, ⟨f0', -, -⟩, hj'⟩ := hy
  constructor
  · intro j hjn
    rw [inner_sub_left]
    cases j with
    | zero => rw [i0 _ rfl, i0' _ rfl, sub_self]
    | succ j => rw [(hj j (by omega)).2.1, (hj' j (by omega)).2.1, sub_self]
  · intro j hjn
    rw [inner_sub_left]
    by_cases hl : j = n
    · subst hl
      have a := f0 _ rfl
      have b := f0' _ rfl
      simp only [Nat.add_sub_cancel] at a b
      rw [a, b, sub_self]
    · rw [(hj j (by omega)).1, (hj' j (by omega)).1, sub_self]
  · intro j hjn
    rw [inner_sub_left, inner_sub_left, (hj j (by omega)).2.2.1, (hj' j (by omega)).2.2.1]
  · intro j hjn
    rw [inner_sub_left, inner_sub_left, (hj j (by omega)).2.2.2, (hj' j (by omega)).2.2.2]

/-- Order 3: the conditions have one solution. -/
theorem FitEq.unique3 {n : ℕ} {D P : ℕ → K} (hD : ∀ j, 0 < D j) {v0 vT : K} {x y : ℕ → K}
    (hx : FitEq .o3 (n + 1) D P [v0] [vT] x) (hy : FitEq .o3 (n + 1) D P [v0] [vT] y) :
    ∀ j ≤ n, seg .o3 x j = seg .o3 y j := by
  intro j hj
  have hc := hx.sub_chain hy
  refine sub_eq_zero.1 (cubic_zero D hD _ n hc ?_ ?_ j hj)
  · rw [inner_sub_left, hx.1.2.1 v0 rfl, hy.1.2.1 v0 rfl, sub_self]
  · have a := hx.2.1.2.1 vT rfl
    have b := hy.2.1.2.1 vT rfl
    simp only [Nat.add_sub_cancel] at a b
    rw [inner_sub_left, a, b, sub_self]

/-- Order 4 with two segments. -/
theorem FitEq.unique4 {D P : ℕ → K} (hD : ∀ j, 0 < D j) {v0 a0 vT aT : K} {x y : ℕ → K}
    (hx : FitEq .o4 2 D P [v0, a0] [vT, aT] x) (hy : FitEq .o4 2 D P [v0, a0] [vT, aT] y) :
    ∀ j ≤ 1, seg .o4 x j = seg .o4 y j := by
  intro j hj
  have hc := hx.sub_chain hy
  have a := hx.2.1.2.1 vT rfl
  have b := hy.2.1.2.1 vT rfl
  have a' := hx.2.1.2.2 aT rfl
  have b' := hy.2.1.2.2 aT rfl
  simp only [Nat.reduceSub] at a b a' b'
  refine sub_eq_zero.1 (quartic_zero D hD _ hc ?_ ?_ ?_ ?_ j hj)
  · rw [inner_sub_left, hx.1.2.1 v0 rfl, hy.1.2.1 v0 rfl, sub_self]
  · rw [inner_sub_left, hx.1.2.2 a0 rfl, hy.1.2.2 a0 rfl, sub_self]
  · rw [inner_sub_left, a, b, sub_self]
  · rw [inner_sub_left, a', b', sub_self]

/-- Order 5 with one segment. -/
theorem FitEq.unique5 {D P : ℕ → K} (hD : ∀ j, 0 < D j) {v0 a0 vT aT : K} {x y : ℕ → K}
    (hx : FitEq .o5 1 D P [v0, a0] [vT, aT] x) (hy : FitEq .o5 1 D P [v0, a0] [vT, aT] y) :
    ∀ j ≤ 0, seg .o5 x j = seg .o5 y j := by
  intro j hj
  obtain rfl : j = 0 := by omega
  have q : ∀ z, FitEq .o5 1 D P [v0, a0] [vT, aT] z →
      seg .o5 z 0 = quintic (D 0) (P 0) v0 a0 (P 1) vT aT := by
    intro z hz
    have e := quintic_unique (hD 0).ne' (seg .o5 z 0)
    have f0 := hz.2.1.1 _ rfl
    have f1 := hz.2.1.2.1 _ rfl
    have f2 := hz.2.1.2.2 _ rfl
    simp only [Nat.sub_self] at f0 f1 f2
    rwa [hz.1.1 _ rfl, hz.1.2.1 _ rfl, hz.1.2.2 _ rfl, f0, f1, f2] at e
  rw [q x hx, q y hy]

/-! ## Underdetermined systems -/

/-- More columns than rows: the matrix has a non-zero kernel vector. -/
theorem kernel_exists (rows cols : ℕ) (h : rows < cols) (A : ℕ → ℕ → K) :
    ∃ k : ℕ → K, (∃ i < cols, k i ≠ 0) ∧
      ∀ r < rows, ∑ c ∈ Finset.range cols, A r c * k c = 0 := by
  let f : (Fin cols → K) →ₗ[K] (Fin rows → K) :=
    { toFun := fun v r => ∑ c : Fin cols, A r c * v c
      map_add' := by
        intro v w; funext r
        simp [mul_add, Finset.sum_add_distrib]
      map_smul' := by
        intro a v; funext r
        simp only [Pi.smul_apply, smul_eq_mul, RingHom.id_apply, Finset.mul_sum]
        exact Finset.sum_congr rfl fun c _ => by ring }
  have hk : LinearMap.ker f ≠ ⊥ := LinearMap.ker_ne_bot_of_finrank_lt (by simpa using h)
  obtain ⟨v, hv, hne⟩ := Submodule.exists_mem_ne_zero_of_ne_bot hk
  refine ⟨fun i => if hi : i < cols then v ⟨i, hi⟩ else 0, ?_, ?_⟩
  · obtain ⟨i, hi⟩ := Function.ne_iff.1 hne
    exact ⟨i, i.2, by simpa using hi⟩
  · intro r hr
    have := congrFun (LinearMap.mem_ker.1 hv) ⟨r, hr⟩
    rw [Finset.sum_range]
    simpa [f] using this

/-- A non-zero coefficient array is a polynomial that is non-zero somewhere inside any interval. -/
theorem nonzero_inside (c : Vec o K) (hc : c ≠ 0) (D : K) (hD : 0 < D) :
    ∃ u, 0 < u ∧ u < D ∧ inner c (tau o u) ≠ 0 := by
  by_contra hcon
  push Not at hcon
  have hz : toPoly c = 0 := by
    refine Polynomial.eq_zero_of_infinite_isRoot _ ((Set.Ioo_infinite hD).mono ?_)
    intro u hu
    simp only [Set.mem_ofPred_eq, Polynomial.IsRoot, eval_toPoly]
    exact hcon u hu.1 hu.2
  apply hc
  funext i
  have := congrArg (fun p => Polynomial.coeff p (o.deg - (i : ℕ))) hz
  cases o <;> simp only [toPoly_o1, toPoly_o2, toPoly_o3, toPoly_o4, toPoly_o5] at this <;>
    fin_cases i <;>
    simp [Order.deg, Polynomial.coeff_X, Polynomial.coeff_C] at this <;>
    exact this

namespace Container

/-- Every solution of the equations is the answer of some solver meeting the contract. -/
theorem fit_any (e : ℕ) (ts ps ini fin : List K) (n : ℕ)
    (hn : 0 < n) (hb : n < 2 ^ 28) (hts : ts.length = n + 1) (hps : ps.length = n + 1)
    (hinc : ts.Pairwise (· < ·)) (he : 1 ≤ e ∧ e ≤ 3) (hini : ini.length + 1 = e)
    (hfin : fin.length + 1 = e) (x : ℕ → K)
    (hx : FitEq o n (dur ts) (knot ps) ini fin x) :
    ∃ S : Solver K, ∀ c : Container o K, fit S e ts ps ini fin c = .ok (true, { c with
        splines := c.splines ++ (List.range n).map fun j => ⟨Verif.Container.seg o x j, dur ts j⟩
        duration := c.duration + ((List.range n).map (dur ts)).sum }) := by
  classical
  obtain ⟨S0⟩ := solver_exists (K := K)
  have hs := segDurations_ok ts hinc n 0 (by omega)
  simp only [Nat.zero_add] at hs
  obtain ⟨s, e1, e2, e3, e4, e5⟩ := assembleWith_eq o e n _ ps ((List.range n).map (dur ts)) ini fin
    (dur ts) (knot ps) hn rfl hps (by simp) (fun j hj => by simp [hj])
    (fun j hj => getElem?_knot (by omega)) he hini hfin
  have hsol := (e5 x).mpr hx
  let S : Solver K := ⟨⟨fun r c A b => if r = s.rows ∧ c = s.cols ∧ A = s.A ∧ b = s.b then x
    else S0.solve r c A b⟩, fun r c A b h => by
      by_cases hh : r = s.rows ∧ c = s.cols ∧ A = s.A ∧ b = s.b
      · obtain ⟨rfl, rfl, rfl, rfl⟩ := hh
        simpa using hsol
      · simp only [hh, if_false]
        exact S0.exact r c A b h⟩
  have hS : S.solve s.rows s.cols s.A s.b = x := by simp [S]
  refine ⟨S, fun c => ?_⟩
  rw [fit, numSplines_eq ts n hts hb, solutionDim_eq o n hb, numJunctions_eq n hn hb,
    numConstraints_eq e n hn hb he.2]
  unfold fitWith
  rw [hs]
  simp only [Outcome.ok_bind]
  rw [e1]
  simp only [Outcome.ok_bind]
  rw [if_pos e2.symm, extract_eq, hS]
  have : ((List.range n).map (dur ts)).zipIdx.map (fun p =>
      (⟨Verif.Container.seg o x (0 + p.2), p.1⟩ : Spline o K)) =
      (List.range n).map fun j => ⟨Verif.Container.seg o x j, dur ts j⟩ := by
    apply List.ext_getElem?
    intro i
    by_cases hi : i < n <;> simp [hi]
  rw [this]

/-- With fewer equations than unknowns a whole line of solutions exists, moving one of the segments. -/
theorem fit_line (e : ℕ) (ts ps ini fin : List K) (n : ℕ)
    (hn : 0 < n) (hts : ts.length = n + 1) (hps : ps.length = n + 1)
    (he : 1 ≤ e ∧ e ≤ 3) (hini : ini.length + 1 = e)
    (hfin : fin.length + 1 = e) (hlt : 4 * (n - 1) + 2 * e < n * o.count) :
    ∃ k : ℕ → K, (∃ j < n, Verif.Container.seg o k j ≠ 0) ∧
      ∀ x, FitEq o n (dur ts) (knot ps) ini fin x →
        ∀ r : K, FitEq o n (dur ts) (knot ps) ini fin (fun i => x i + r * k i) := by
  obtain ⟨s, e1, e2, e3, e4, e5⟩ := assembleWith_eq o e n _ ps ((List.range n).map (dur ts)) ini fin
    (dur ts) (knot ps) hn rfl hps (by simp) (fun j hj => by simp [hj])
    (fun j hj => getElem?_knot (by omega)) he hini hfin
  obtain ⟨k, ⟨i, hi, hki⟩, hk⟩ := kernel_exists s.rows s.cols (by omega) s.A
  refine ⟨k, ⟨i / o.count, ?_, ?_⟩, ?_⟩
  · exact (Nat.div_lt_iff_lt_mul (by simp [Order.count])).2 (by omega)
  · intro hz
    have := congrFun hz ⟨i % o.count, Nat.mod_lt _ (by simp [Order.count])⟩
    simp only [Verif.Container.seg, Sys.column, Pi.zero_apply] at this
    rw [Nat.mul_comm, Nat.div_add_mod] at this
    exact hki this
  · intro x hx r
    rw [← e5] at hx ⊢
    intro q hq
    have a := hx q hq
    have b := hk q hq
    calc ∑ c ∈ Finset.range s.cols, s.A q c * (x c + r * k c)
        = ∑ c ∈ Finset.range s.cols, (s.A q c * x c) +
          r * ∑ c ∈ Finset.range s.cols, (s.A q c * k c) := by
          rw [Finset.mul_sum, ← Finset.sum_add_distrib]
          exact Finset.sum_congr rfl fun c _ => by ring
      _ = s.b q := by rw [a, b]; ring

end Container
end Verif.Container

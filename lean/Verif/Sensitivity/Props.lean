import Verif.Sensitivity.Lemmas
import Verif.Container.ResidualProps
import Verif.Container.LinearProps

/-!
# Property C117: the cubic fit is well conditioned

How much the fitted curve moves when the data or the answer of the linear solver are slightly off. The
bounds do not grow with the number of knots.
-/

set_option linter.unusedSectionVars false
set_option linter.dupNamespace false

namespace Verif.Sensitivity

open Verif.Spline Verif.Container Verif.Container.Container

variable {K : Type} [Field K] [LinearOrder K] [IsStrictOrderedRing K] {o : Order}

/-- Two containers with the same durations evaluate the same segment at the same time. -/
theorem atTime_pair (x y : Container o K)
    (hd : x.splines.map (·.duration) = y.splines.map (·.duration)) (hne : x.splines ≠ []) (t : K) :
    ∃ (k : ℕ) (u : K) (s s' : Spline o K), x.splines[k]? = some s ∧ y.splines[k]? = some s' ∧
      ∀ f : Spline o K → K → K, x.atTime f t = .ok (f s u) ∧ y.atTime f t = .ok (f s' u) := by
  have hl : x.splines.length = y.splines.length := by simpa using congrArg List.length hd
  obtain ⟨k, hk, hfind, -⟩ := findLoop_cases t x.splines hne
  have m2 := (findLoop_mix 0 0 t x.splines y.splines 0 0 hd).2
  rw [hfind] at m2
  have gx := List.getElem?_eq_getElem hk
  have gy := List.getElem?_eq_getElem (show k < y.splines.length by omega)
  exact ⟨k, t - start x.splines k, _, _, gx, gy, fun f => ⟨atTime_of_find f t x k _ _ gx hfind,
    atTime_of_find f t y k _ _ gy m2⟩⟩

/-- What two vectors nearly solving the equations of two nearly equal sets of data have in common. -/
theorem fits_near {ts ps qs : List K} {v0 vT w0 wT ρ σ ε δ m H : K} {n : ℕ} {x y : ℕ → K}
    (hx : FitRel (Off ρ) .o3 n (dur ts) (knot ps) [v0] [vT] x)
    (hy : FitRel (Off σ) .o3 n (dur ts) (knot qs) [w0] [wT] y) (hn : 0 < n)
    (hpq : ∀ i ≤ n, |knot ps i - knot qs i| ≤ ε) (h0 : |v0 - w0| ≤ δ) (hT : |vT - wT| ≤ δ)
    (hm : 0 < m) (hD : ∀ j < n, m ≤ dur ts j ∧ dur ts j ≤ H) (j : ℕ) (hj : j < n) (t : K)
    (ht0 : 0 ≤ t) (ht1 : t ≤ dur ts j) :
    |inner (seg .o3 x j) (tau .o3 t) - inner (seg .o3 y j) (tau .o3 t)| ≤ (ε + (ρ + σ)) +
      H / 4 * max (δ + (ρ + σ)) (6 * (ε + (ρ + σ)) / m + 2 * (ρ + σ) + H / 4 * (ρ + σ)) ∧
    |inner (seg .o3 x j) (dtau .o3 t) - inner (seg .o3 y j) (dtau .o3 t)| ≤ 3 * (ε + (ρ + σ)) / m +
      max (δ + (ρ + σ)) (6 * (ε + (ρ + σ)) / m + 2 * (ρ + σ) + H / 4 * (ρ + σ)) := by
  obtain ⟨⟨xi0, xi1, -⟩, ⟨xf0, xf1, -⟩, xj⟩ := hx
  obtain ⟨⟨yi0, yi1, -⟩, ⟨yf0, yf1, -⟩, yj⟩ := hy
  have tri : ∀ {a b p q e : K}, Off ρ a p → Off σ b q → |p - q| ≤ e → |a - b| ≤ e + (ρ + σ) := by
    intro a b p q e h1 h2 h3
    have h1 := abs_le.mp h1
    have h2 := abs_le.mp h2
    have h3 := abs_le.mp h3
    exact abs_le.mpr ⟨by linarith [h1.1, h2.2, h3.1], by linarith [h1.2, h2.1, h3.2]⟩
  have hzero : |(0 : K) - 0| ≤ 0 := by simp
  have hpos : ∀ i < n, |inner (seg .o3 x i - seg .o3 y i) (tauZero .o3)| ≤ ε + (ρ + σ) ∧
      |inner (seg .o3 x i - seg .o3 y i) (tau .o3 (dur ts i))| ≤ ε + (ρ + σ) := by
    intro i hi
    rw [inner_sub_left, inner_sub_left]
    constructor
    · cases i with
      | zero => exact tri (xi0 _ rfl) (yi0 _ rfl) (hpq 0 (by omega))
      | succ i => exact tri (xj i hi).2.1 (yj i hi).2.1 (hpq (i + 1) (by omega))
    · by_cases hl : i + 1 < n
      · exact tri (xj i hl).1 (yj i hl).1 (hpq (i + 1) (by omega))
      · obtain rfl : i = n - 1 := by omega
        exact tri (xf0 _ rfl) (yf0 _ rfl) (hpq n le_rfl)
  have hvel : ∀ i, i + 1 < n → |inner (seg .o3 x i - seg .o3 y i) (dtau .o3 (dur ts i)) -
      inner (seg .o3 x (i + 1) - seg .o3 y (i + 1)) (dtauZero .o3)| ≤ ρ + σ := by
    intro i hi
    have := tri (xj i hi).2.2.1 (yj i hi).2.2.1 hzero
    rw [inner_sub_left, inner_sub_left]
    rw [zero_add] at this
    convert this using 2
    ring
  have hacc : ∀ i, i + 1 < n → |inner (seg .o3 x i - seg .o3 y i) (ddtau .o3 (dur ts i)) -
      inner (seg .o3 x (i + 1) - seg .o3 y (i + 1)) (ddtauZero .o3)| ≤ ρ + σ := by
    intro i hi
    have := tri (xj i hi).2.2.2 (yj i hi).2.2.2 hzero
    rw [inner_sub_left, inner_sub_left]
    rw [zero_add] at this
    convert this using 2
    ring
  have key := chain_bound n (dur ts) (fun i => seg .o3 x i - seg .o3 y i) m H (ε + (ρ + σ)) (ρ + σ)
    (ρ + σ) (δ + (ρ + σ)) hm hn hD hpos hvel hacc
    (by rw [inner_sub_left]; exact tri (xi1 _ rfl) (yi1 _ rfl) h0)
    (by rw [inner_sub_left]; exact tri (xf1 _ rfl) (yf1 _ rfl) hT) j hj
  have hDj := hD j hj
  have hd0 : 0 < dur ts j := hm.trans_le hDj.1
  have hb := cubic_bound (seg .o3 x j - seg .o3 y j) (dur ts j) t _ _ hd0 ht0 ht1 (hpos j hj).1
    (hpos j hj).2 key.1 key.2
  rw [inner_sub_left, inner_sub_left] at hb
  have hM := (abs_nonneg _).trans key.1
  have hε := (abs_nonneg _).trans (hpos j hj).1
  constructor
  · refine hb.1.trans (add_le_add_right (mul_le_mul_of_nonneg_right ?_ hM) _)
    linarith [hDj.2]
  · refine hb.2.trans (add_le_add_left ?_ _)
    exact div_le_div_of_nonneg_left (by linarith) hm hDj.1

theorem clamp_range (t d : K) (hd : 0 ≤ d) : 0 ≤ clamp t d ∧ clamp t d ≤ d := by
  rw [clamp]
  split <;> split <;> constructor <;> linarith

/-- The two containers of two nearly equal fits, read at any time. -/
theorem containers_near {ts ps qs : List K} {v0 vT w0 wT ρ σ ε δ m H : K} {n : ℕ} {x y : ℕ → K}
    (hx : FitRel (Off ρ) .o3 n (dur ts) (knot ps) [v0] [vT] x)
    (hy : FitRel (Off σ) .o3 n (dur ts) (knot qs) [w0] [wT] y) (hn : 0 < n)
    (hpq : ∀ i ≤ n, |knot ps i - knot qs i| ≤ ε) (h0 : |v0 - w0| ≤ δ) (hT : |vT - wT| ≤ δ)
    (hm : 0 < m) (hD : ∀ j < n, m ≤ dur ts j ∧ dur ts j ≤ H) (c d : Container .o3 K) (t : K) :
    ∃ p q v w, (holding x ts n c.reset).getPositionAtTime t = .ok p ∧
      (holding y ts n d.reset).getPositionAtTime t = .ok q ∧
      (holding x ts n c.reset).getVelocityAtTime t = .ok v ∧
      (holding y ts n d.reset).getVelocityAtTime t = .ok w ∧
      |p - q| ≤ (ε + (ρ + σ)) + H / 4 * max (δ + (ρ + σ))
        (6 * (ε + (ρ + σ)) / m + 2 * (ρ + σ) + H / 4 * (ρ + σ)) ∧
      |v - w| ≤ 3 * (ε + (ρ + σ)) / m + max (δ + (ρ + σ))
        (6 * (ε + (ρ + σ)) / m + 2 * (ρ + σ) + H / 4 * (ρ + σ)) := by
  have e1 : ∀ (x : ℕ → K) (c : Container .o3 K), (holding x ts n c.reset).splines =
      (List.range n).map fun j => ⟨Verif.Container.seg .o3 x j, dur ts j⟩ := fun x c => by
    simp [holding, reset, resetTime]
  obtain ⟨k, u, s, s', hs, hs', hev⟩ := atTime_pair (holding x ts n c.reset) (holding y ts n d.reset)
    (by rw [e1, e1]; simp [Function.comp_def]) (by rw [e1]; simp; omega) t
  rw [e1] at hs hs'
  obtain ⟨hk, rfl⟩ := range_map_get hs
  obtain ⟨-, rfl⟩ := range_map_get hs'
  have hd0 : 0 < dur ts k := hm.trans_le (hD k hk).1
  have hcl := clamp_range u (dur ts k) hd0.le
  have hb := fits_near hx hy hn hpq h0 hT hm hD k hk (clamp u (dur ts k)) hcl.1 hcl.2
  exact ⟨_, _, _, _, (hev _).1, (hev _).2, (hev _).1, (hev _).2, hb.1, hb.2⟩

/-- Specification: at every time the two containers can be read, and differ by at most `P` in position
and `V` in velocity. -/
def Close (P V : K) (c d : Container o K) : Prop :=
  ∀ t, ∃ p q v w, c.getPositionAtTime t = .ok p ∧ d.getPositionAtTime t = .ok q ∧
    c.getVelocityAtTime t = .ok v ∧ d.getVelocityAtTime t = .ok w ∧ |p - q| ≤ P ∧ |v - w| ≤ V

theorem knots_near {ps qs : List K} {ε : K} {n : ℕ} (hp : ps.length = n + 1) (hq : qs.length = n + 1)
    (h : ∀ (i : ℕ) (p q : K), ps[i]? = some p → qs[i]? = some q → |p - q| ≤ ε) :
    ∀ i ≤ n, |knot ps i - knot qs i| ≤ ε := fun i hi =>
  h i _ _ (getElem?_knot (by omega)) (getElem?_knot (by omega))

theorem durs_between {ts : List K} {m H : K} {n : ℕ} (hn : ts.length = n + 1)
    (h : ∀ (i : ℕ) (hi : i + 1 < ts.length), m ≤ ts[i + 1] - ts[i] ∧ ts[i + 1] - ts[i] ≤ H) :
    ∀ j < n, m ≤ dur ts j ∧ dur ts j ≤ H := by
  intro j hj
  have hj' : j + 1 < ts.length := by omega
  rw [dur, if_pos hj', knot_eq hj', knot_eq (by omega)]
  exact h j hj'

/-- **C117**, the data. Two sets of positions at the same times, at no knot more than `ε` apart, with end
velocities at most `δ` apart, the times between `m` and `H` apart: the two fitted curves are nowhere
further apart than `ε + H/4 * max δ (6 ε / m)`, whatever the number of knots, and their velocities
nowhere further than `3 ε / m + max δ (6 ε / m)`. -/
theorem C117_data (S S' : Solver K) (ts ps qs : List K) (h2 : 2 ≤ ts.length)
    (hb : ts.length ≤ 2 ^ 28) (hp : ps.length = ts.length) (hq : qs.length = ts.length)
    (hinc : ts.Pairwise (· < ·)) (v0 vT w0 wT ε δ m H : K) (hm : 0 < m)
    (hgap : ∀ (i : ℕ) (hi : i + 1 < ts.length), m ≤ ts[i + 1] - ts[i] ∧ ts[i + 1] - ts[i] ≤ H)
    (hpq : ∀ (i : ℕ) (p q : K), ps[i]? = some p → qs[i]? = some q → |p - q| ≤ ε)
    (h0 : |v0 - w0| ≤ δ) (hT : |vT - wT| ≤ δ) (c d : Container .o3 K) :
    ∃ c' d', setDataVel S ts ps v0 vT c = .ok (true, c') ∧
      setDataVel S' ts qs w0 wT d = .ok (true, d') ∧
      Close (ε + H / 4 * max δ (6 * ε / m)) (3 * ε / m + max δ (6 * ε / m)) c' d' := by
  obtain ⟨n, hn⟩ : ∃ n, ts.length = n + 1 := ⟨ts.length - 1, by omega⟩
  have ho : 3 ≤ Order.deg .o3 := by simp [Order.deg]
  have fitR : ∀ (S : Solver K) (ps : List K) (v0 vT : K), ps.length = ts.length →
      ∃ x, FitRel (Off 0) .o3 n (dur ts) (knot ps) [v0] [vT] x ∧ ∀ c : Container .o3 K,
        setDataVel S ts ps v0 vT c = .ok (true, holding x ts n c.reset) := by
    intro S ps v0 vT hp
    obtain ⟨s, -, -, hs, h⟩ := fit_off (o := .o3) 2 ts ps [v0] [vT] n (by omega) (by omega) hn
      (by omega) hinc (by omega) rfl rfl (solvable_vel .o3 ho n (by omega) _ _ (dur_pos hinc) v0 vT)
    obtain ⟨x, hx, e⟩ := h S 0 (fun r hr => by rw [S.exact _ _ _ _ hs r hr]; simp)
    refine ⟨x, hx, fun c => ?_⟩
    rw [setDataVel_fit S ts ps v0 vT c n (by omega) (by omega) hn ho, e]
  obtain ⟨x, hx, ex⟩ := fitR S ps v0 vT hp
  obtain ⟨y, hy, ey⟩ := fitR S' qs w0 wT hq
  refine ⟨_, _, ex c, ey d, fun t => ?_⟩
  have key := containers_near hx hy (by omega) (knots_near (by omega) (by omega) hpq) h0 hT hm
    (durs_between hn hgap) c d t
  simpa using key

/-- **C117**, the solver. With a linear solver whose answer misses the equations by at most `ρ`, the
cubic fit is nowhere further than `(1 + H/4 * (6/m + 2 + H/4)) ρ` from the fit of an exact solver, whatever
the number of knots, and its velocity nowhere further than `(9/m + 2 + H/4) ρ`. -/
theorem C117_solver (ts ps : List K) (h2 : 2 ≤ ts.length)
    (hb : ts.length ≤ 2 ^ 28) (hp : ps.length = ts.length)
    (hinc : ts.Pairwise (· < ·)) (v0 vT m H : K) (hm : 0 < m)
    (hgap : ∀ (i : ℕ) (hi : i + 1 < ts.length), m ≤ ts[i + 1] - ts[i] ∧ ts[i + 1] - ts[i] ≤ H) :
    ∃ s : Sys K, (∃ x, Solves s.rows s.cols s.A s.b x) ∧ ∀ (S : RawSolver K) (ρ : K),
      Misses ρ s.rows s.cols s.A s.b (S.solve s.rows s.cols s.A s.b) →
      ∀ (S' : Solver K) (c d : Container .o3 K), ∃ c' d',
        setDataVel S ts ps v0 vT c = .ok (true, c') ∧
        setDataVel S' ts ps v0 vT d = .ok (true, d') ∧
        Close ((1 + H / 4 * (6 / m + 2 + H / 4)) * ρ) ((9 / m + 2 + H / 4) * ρ) c' d' := by
  obtain ⟨n, hn⟩ : ∃ n, ts.length = n + 1 := ⟨ts.length - 1, by omega⟩
  have ho : 3 ≤ Order.deg .o3 := by simp [Order.deg]
  obtain ⟨s, hr, -, hs, h⟩ := fit_off (o := .o3) 2 ts ps [v0] [vT] n (by omega) (by omega) hn
    (by omega) hinc (by omega) rfl rfl (solvable_vel .o3 ho n (by omega) _ _ (dur_pos hinc) v0 vT)
  refine ⟨s, hs, fun S ρ hmiss S' c d => ?_⟩
  have hρ : 0 ≤ ρ := (abs_nonneg _).trans (hmiss 0 (by omega))
  obtain ⟨x, hx, ex⟩ := h S ρ hmiss
  obtain ⟨y, hy, ey⟩ := h S' 0 (fun r hr => by rw [S'.exact _ _ _ _ hs r hr]; simp)
  refine ⟨_, _, by rw [setDataVel_fit S ts ps v0 vT c n (by omega) (by omega) hn ho, ex],
    by rw [setDataVel_fit S' ts ps v0 vT d n (by omega) (by omega) hn ho, ey], fun t => ?_⟩
  obtain ⟨p, q, v, w, k1, k2, k3, k4, k5, k6⟩ := containers_near hx hy (by omega)
    (ε := 0) (δ := 0) (fun i _ => by simp) (by simp) (by simp) hm (durs_between hn hgap) c d t
  have hH : 0 ≤ H := by
    have := durs_between hn hgap 0 (by omega)
    linarith [this.1, this.2]
  have hmax : max (0 + (ρ + 0)) (6 * (0 + (ρ + 0)) / m + 2 * (ρ + 0) + H / 4 * (ρ + 0)) =
      (6 / m + 2 + H / 4) * ρ := by
    rw [max_eq_right]
    · ring
    · have h1 : 0 ≤ 6 * (0 + (ρ + 0)) / m := by
        apply div_nonneg _ hm.le; linarith
      have h3 : 0 ≤ H / 4 * (ρ + 0) := mul_nonneg (by linarith) (by linarith)
      linarith
  rw [hmax] at k5 k6
  refine ⟨p, q, v, w, k1, k2, k3, k4, k5.trans (le_of_eq (by ring)), k6.trans (le_of_eq (by ring))⟩

/-- Knots a second apart whose positions are each off by a centimetre: the curve is off by no more than
two and a half centimetres. -/
example (S S' : Solver ℚ) (c d : Container .o3 ℚ) : ∃ c' d',
    setDataVel S [0, 1, 2, 3] [0, 1, 0, 2] 0 0 c = .ok (true, c') ∧
    setDataVel S' [0, 1, 2, 3] [1 / 100, 99 / 100, 0, 2] 0 0 d = .ok (true, d') ∧
    Close (25 / 1000) (9 / 100) c' d' := by
  obtain ⟨c', d', e1, e2, h⟩ := C117_data S S' [0, 1, 2, 3] [0, 1, 0, 2] [1 / 100, 99 / 100, 0, 2] (by simp) (by simp)
    rfl rfl (by decide +kernel) 0 0 0 0 (1 / 100) 0 1 1 one_pos
    (fun i hi => by
      have : i = 0 ∨ i = 1 ∨ i = 2 := by simp at hi; omega
      rcases this with rfl | rfl | rfl <;> norm_num)
    (fun i p q hp hq => by
      have hi : i < 4 := by simpa using (List.getElem?_eq_some_iff.mp hp).1
      have : i = 0 ∨ i = 1 ∨ i = 2 ∨ i = 3 := by omega
      rcases this with rfl | rfl | rfl | rfl <;> simp at hp hq <;> subst hp <;> subst hq <;>
        norm_num [abs_le])
    (by simp) (by simp) c d
  refine ⟨c', d', e1, e2, ?_⟩
  convert h using 1 <;> norm_num

/-- The hypotheses of `C117_solver` for three knots. -/
example : ∃ s : Sys ℚ, (∃ x, Solves s.rows s.cols s.A s.b x) ∧ ∀ (S : RawSolver ℚ),
    Misses (1 / 2 ^ 40) s.rows s.cols s.A s.b (S.solve s.rows s.cols s.A s.b) →
    ∀ (S' : Solver ℚ) (c d : Container .o3 ℚ), ∃ c' d',
      setDataVel S [0, 1, 3] [0, 1, 0] 0 0 c = .ok (true, c') ∧
      setDataVel S' [0, 1, 3] [0, 1, 0] 0 0 d = .ok (true, d') ∧
      Close ((1 + 2 / 4 * (6 / 1 + 2 + 2 / 4)) * (1 / 2 ^ 40)) ((9 / 1 + 2 + 2 / 4) * (1 / 2 ^ 40))
        c' d' := by
  obtain ⟨s, hs, h⟩ := C117_solver (K := ℚ) [0, 1, 3] [0, 1, 0] (by simp) (by simp) rfl
    (by decide +kernel) 0 0 1 2 one_pos (fun i hi => by
      have : i = 0 ∨ i = 1 := by simp at hi; omega
      rcases this with rfl | rfl <;> norm_num)
  exact ⟨s, hs, fun S hm => h S _ hm⟩

end Verif.Sensitivity

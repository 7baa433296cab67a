import Verif.PolyCurve.VelocityProps

/-!
# Property C174: more points of a cubic scalar curve do not change it

A `PolynomialSplineScalarCurve` of order 3 fitted to its own values at its knots and at any further times between them is the same
curve. More generally the fit recovers every motion that is made of cubic pieces between the knots and has a continuous acceleration.
-/

set_option linter.unusedSectionVars false
set_option linter.dupNamespace false

namespace Verif.PolyCurve

open Verif.Spline Verif.Container Verif.Manager
open Hermite.E3 (way speed)

variable {K : Type} [Field K] [LinearOrder K] [IsStrictOrderedRing K]

/-- A motion `P` with velocity `V` and acceleration `A` that between neighbouring times of the list is a cubic. That the three are
functions, with the cubics valid up to and including both ends, says that at the times of the list the pieces agree in all three. -/
def Pieces (ts : List K) (P V A : K → K) : Prop :=
  ∀ i (hi : i + 1 < ts.length), ∃ k0 k1 k2 k3 : K, ∀ t, ts[i] ≤ t → t ≤ ts[i + 1] →
    P t = k0 + k1 * t + k2 * t ^ 2 + k3 * t ^ 3 ∧ V t = k1 + 2 * k2 * t + 3 * k3 * t ^ 2 ∧ A t = 2 * k2 + 6 * k3 * t

theorem getElem_mono {ts : List K} (hinc : ts.Pairwise (· < ·)) {i j : ℕ} (hj : j < ts.length) (hij : i ≤ j) : ts[i] ≤ ts[j] := by
  rcases hij.lt_or_eq with h | rfl
  · exact (List.pairwise_iff_getElem.1 hinc i j (by omega) hj h).le
  · exact le_rfl

/-- Nothing of the list lies between neighbours. -/
theorem no_between {ts : List K} (hinc : ts.Pairwise (· < ·)) {i : ℕ} (hi : i + 1 < ts.length) {x : K} (hx : x ∈ ts)
    (h : ts[i] < x) : ts[i + 1] ≤ x := by
  obtain ⟨j, hj, rfl⟩ := List.getElem_of_mem hx
  rcases Nat.lt_or_ge i j with g | g
  · exact getElem_mono hinc hj g
  · exact absurd (getElem_mono hinc (by omega) g) (not_le.2 h)

/-- Pieces between fewer times are pieces between more. -/
theorem Pieces.refine {ts ts' : List K} {P V A : K → K} (h : Pieces ts P V A) (h2 : 2 ≤ ts.length) (h2' : 2 ≤ ts'.length)
    (hinc : ts.Pairwise (· < ·)) (hinc' : ts'.Pairwise (· < ·)) (hsub : ∀ t ∈ ts, t ∈ ts') (hf : ts'[0] = ts[0])
    (hl : ts'[ts'.length - 1] = ts[ts.length - 1]) : Pieces ts' P V A := by
  intro i hi
  have lt : ts'[i] < ts'[i + 1] := List.pairwise_iff_getElem.1 hinc' i (i + 1) (by omega) hi (by omega)
  have a0 : ts[0] ≤ ts'[i] := hf ▸ getElem_mono hinc' (by omega) (Nat.zero_le i)
  have b1 : ts'[i + 1] ≤ ts[ts.length - 1] := hl ▸ getElem_mono hinc' (by omega) (by omega)
  obtain ⟨j, hj, g0, g1⟩ := segment_of h2 (a0.trans lt.le) b1
  have put : ∀ j (hj : j + 1 < ts.length), ts[j] ≤ ts'[i] → ts'[i + 1] ≤ ts[j + 1] → ∃ k0 k1 k2 k3 : K, ∀ t, ts'[i] ≤ t →
      t ≤ ts'[i + 1] → P t = k0 + k1 * t + k2 * t ^ 2 + k3 * t ^ 3 ∧ V t = k1 + 2 * k2 * t + 3 * k3 * t ^ 2 ∧
      A t = 2 * k2 + 6 * k3 * t := by
    intro j hj u0 u1
    obtain ⟨k0, k1, k2, k3, hk⟩ := h j hj
    exact ⟨k0, k1, k2, k3, fun t t0 t1 => hk t (u0.trans t0) (t1.trans u1)⟩
  rcases le_or_gt ts[j] ts'[i] with u | u
  · exact put j hj u g1
  · obtain ⟨j, rfl⟩ : ∃ n, j = n + 1 := ⟨j - 1, by
      rcases Nat.eq_zero_or_pos j with rfl | hp
      · exact absurd a0 (not_le.2 u)
      · omega⟩
    have e := no_between hinc' hi (hsub _ (List.getElem_mem _)) u
    refine put j (by omega) ?_ e
    rcases le_or_gt ts[j] ts'[i] with w | w
    · exact w
    · exact absurd (no_between hinc' hi (hsub _ (List.getElem_mem _)) w) (not_le.2 ((List.pairwise_iff_getElem.1 hinc j (j + 1) (by omega) (by omega) (by omega)).trans_le g0))

/-- The acceleration of a cubic at both ends. -/
theorem cubic_ends {a b : K} (hab : a < b) (k0 k1 k2 k3 : K) {P V A : K → K}
    (hk : ∀ t, a ≤ t → t ≤ b →
      P t = k0 + k1 * t + k2 * t ^ 2 + k3 * t ^ 3 ∧ V t = k1 + 2 * k2 * t + 3 * k3 * t ^ 2 ∧ A t = 2 * k2 + 6 * k3 * t) :
    V a / (b - a) + 2 * (1 / (b - a)) * V b - 3 * ((P b - P a) / (b - a) ^ 2) = A b / 2 ∧
    2 * (1 / (b - a)) * V a + V b / (b - a) - 3 * ((P b - P a) / (b - a) ^ 2) = -(A a / 2) := by
  obtain ⟨a1, a2, a3⟩ := hk a le_rfl hab.le
  obtain ⟨b1, b2, b3⟩ := hk b hab.le le_rfl
  obtain ⟨x, rfl⟩ : ∃ x, b = a + x := ⟨b - a, by ring⟩
  have hx : x ≠ 0 := fun h => by simp [h] at hab
  rw [a1, a2, a3, b1, b2, b3, add_sub_cancel_left]
  constructor <;> field_simp <;> ring

/-- A cubic by its values and velocities at both ends. -/
theorem cubic_between {a b : K} (hab : a < b) (k0 k1 k2 k3 : K) {P V A : K → K}
    (hk : ∀ t, a ≤ t → t ≤ b →
      P t = k0 + k1 * t + k2 * t ^ 2 + k3 * t ^ 3 ∧ V t = k1 + 2 * k2 * t + 3 * k3 * t ^ 2 ∧ A t = 2 * k2 + 6 * k3 * t)
    {t : K} (h0 : a ≤ t) (h1 : t ≤ b) :
    P a + way (P b - P a) ((b - a) * V a) ((b - a) * V b) ((t - a) / (b - a)) = P t ∧
    speed ((P b - P a) / (b - a)) (V a) (V b) ((t - a) / (b - a)) = V t ∧
    (6 * (1 - 2 * ((t - a) / (b - a))) * ((P b - P a) / (b - a)) + (6 * ((t - a) / (b - a)) - 4) * V a +
      (6 * ((t - a) / (b - a)) - 2) * V b) / (b - a) = A t := by
  obtain ⟨a1, a2, a3⟩ := hk a le_rfl hab.le
  obtain ⟨b1, b2, b3⟩ := hk b hab.le le_rfl
  obtain ⟨t1, t2, t3⟩ := hk t h0 h1
  obtain ⟨x, rfl⟩ : ∃ x, b = a + x := ⟨b - a, by ring⟩
  obtain ⟨y, rfl⟩ : ∃ y, t = a + y := ⟨t - a, by ring⟩
  have hx : x ≠ 0 := fun h => by simp [h] at hab
  rw [a1, a2, b1, b2, t1, t2, t3]
  simp only [add_sub_cancel_left, way, speed]
  refine ⟨?_, ?_, ?_⟩ <;> field_simp <;> ring

/-- The velocities at the times of the list solve the equations of the fit. -/
theorem Pieces.slopes {ts : List K} {P V A : K → K} (h : Pieces ts P V A) (hinc : ts.Pairwise (· < ·)) {m : ℕ → K}
    (hm : ∀ i (hi : i < ts.length), m i = V ts[i]) : SlopeEq ts (ts.map P) m := by
  intro i hi hv
  have l1 : ts[i] < ts[i + 1] := List.pairwise_iff_getElem.1 hinc i (i + 1) (by omega) (by omega) (by omega)
  have l2 : ts[i + 1] < ts[i + 2] := List.pairwise_iff_getElem.1 hinc (i + 1) (i + 2) (by omega) (by omega) (by omega)
  obtain ⟨k0, k1, k2, k3, hk⟩ := h i (by omega)
  obtain ⟨j0, j1, j2, j3, hj⟩ := h (i + 1) (by omega)
  have x := (cubic_ends l1 k0 k1 k2 k3 hk).1
  have y := (cubic_ends l2 j0 j1 j2 j3 hj).2
  rw [hm i (by omega), hm (i + 1) (by omega), hm (i + 2) hi]
  simp only [List.getElem_map]
  linear_combination x + y

/-- **C174**, the fit recovers every motion of cubic pieces: fitted to the values of the motion at the ends of the pieces, with its
velocities at the first and the last of them, the curve has the value, the velocity and the acceleration of the motion at every time. -/
theorem C174_pieces (S : Solver K) {ts : List K} (h2 : 2 ≤ ts.length) (hb : ts.length ≤ 2 ^ 28) (hinc : ts.Pairwise (· < ·))
    {P V A : K → K} (h : Pieces ts P V A) (a0 aT : K) (c : ScalarCurve .o3 K) :
    ∃ c' : ScalarCurve .o3 K, c.fitCurveWith S ts (ts.map P) (V ts[0]) a0 (V ts[ts.length - 1]) aT = .ok c' ∧
      ∀ t, ts[0] ≤ t → t ≤ ts[ts.length - 1] → c'.evaluate t = .ok (P t) ∧
        c'.evaluateDerivative t 1 = .ok (some (V t)) ∧ c'.evaluateDerivative t 2 = .ok (some (A t)) := by
  obtain ⟨c', m, e, hd, m0, mT, hE, huni, hev⟩ := C167_hermite S ts (ts.map P) h2 hb (by simp) hinc (V ts[0]) a0
    (V ts[ts.length - 1]) aT c
  obtain ⟨c'', e', hv⟩ := C173_velocity S ts (ts.map P) h2 hb (by simp) hinc (V ts[0]) a0 (V ts[ts.length - 1]) aT c
  rw [e] at e'; cases e'
  obtain ⟨n, hn⟩ : ∃ n : ℕ → K, ∀ i (hi : i < ts.length), n i = V ts[i] :=
    ⟨fun i => (ts[i]?.map V).getD 0, fun i hi => by simp [hi]⟩
  have hnm := huni n (hn 0 (by omega)) (hn _ (by omega)) (h.slopes hinc hn)
  have hmV : ∀ i (hi : i < ts.length), m i = V ts[i] := fun i hi => by rw [← hnm i hi, hn i hi]
  refine ⟨c', e, fun t h0 h1 => ?_⟩
  obtain ⟨i, hi, g0, g1⟩ := segment_of h2 h0 h1
  have lt : ts[i] < ts[i + 1] := List.pairwise_iff_getElem.1 hinc i (i + 1) (by omega) hi (by omega)
  obtain ⟨k0, k1, k2, k3, hk⟩ := h i hi
  obtain ⟨r1, r2, r3⟩ := cubic_between lt k0 k1 k2 k3 hk g0 g1
  refine ⟨?_, ?_⟩
  · rw [hermite_at (by simp) hev i hi g0 g1, hmV i (by omega), hmV (i + 1) hi]
    simp only [List.getElem_map]
    rw [r1]
  · obtain ⟨u, w, eu, ew, hr⟩ := hv i hi
    rw [hd i (by omega)] at eu
    rw [hd (i + 1) hi] at ew
    cases eu
    cases ew
    obtain ⟨q1, q2⟩ := hr t _ _ _ g0 g1 rfl rfl rfl
    simp only [List.getElem_map, hmV i (by omega), hmV (i + 1) hi] at q1 q2
    rw [q1, q2, ← r2, ← r3]
    exact ⟨rfl, rfl⟩

/-- A fitted cubic scalar curve is a motion of cubic pieces between its knots. -/
theorem fit_pieces (S : Solver K) (ts vs : List K) (h2 : 2 ≤ ts.length) (hb : ts.length ≤ 2 ^ 28)
    (hl : vs.length = ts.length) (hinc : ts.Pairwise (· < ·)) (v0 a0 vT aT : K) (c : ScalarCurve .o3 K) :
    ∃ (c' : ScalarCurve .o3 K) (P V A : K → K), c.fitCurveWith S ts vs v0 a0 vT aT = .ok c' ∧ Pieces ts P V A ∧
      V ts[0] = v0 ∧ V ts[ts.length - 1] = vT ∧
      ∀ t, ts[0] ≤ t → t ≤ ts[ts.length - 1] → c'.evaluate t = .ok (P t) ∧
        c'.evaluateDerivative t 1 = .ok (some (V t)) ∧ c'.evaluateDerivative t 2 = .ok (some (A t)) := by
  obtain ⟨c', m, e, hd, m0, mT, hE, -, hev⟩ := C167_hermite S ts vs h2 hb hl hinc v0 a0 vT aT c
  obtain ⟨c'', e', hv⟩ := C173_velocity S ts vs h2 hb hl hinc v0 a0 vT aT c
  rw [e] at e'; cases e'
  have lt : ∀ i (hi : i + 1 < ts.length), ts[i] < ts[i + 1] := fun i hi =>
    List.pairwise_iff_getElem.1 hinc i (i + 1) (by omega) hi (by omega)
  have loc : ∀ i (hi : i + 1 < ts.length), ∃ k0 k1 k2 k3 : K, ∀ t, ts[i] ≤ t → t ≤ ts[i + 1] →
      c'.evaluate t = .ok (k0 + k1 * t + k2 * t ^ 2 + k3 * t ^ 3) ∧
      c'.evaluateDerivative t 1 = .ok (some (k1 + 2 * k2 * t + 3 * k3 * t ^ 2)) ∧
      c'.evaluateDerivative t 2 = .ok (some (2 * k2 + 6 * k3 * t)) := by
    intro i hi
    obtain ⟨u, w, eu, ew, hr⟩ := hv i hi
    have hx : ts[i + 1] - ts[i] ≠ 0 := (sub_pos.2 (lt i hi)).ne'
    have mu := hd i (by omega)
    have mw := hd (i + 1) hi
    rw [eu] at mu
    rw [ew] at mw
    have eu' : m i = u := by cases mu; rfl
    have ew' : m (i + 1) = w := by cases mw; rfl
    obtain ⟨x, hx'⟩ : ∃ x, x = ts[i + 1] - ts[i] := ⟨_, rfl⟩
    rw [← hx'] at hx
    obtain ⟨T, hT⟩ : ∃ T, T = ts[i] := ⟨_, rfl⟩
    obtain ⟨D, hD⟩ : ∃ D, D = (vs[i + 1] - vs[i]) / x := ⟨_, rfl⟩
    have hD' : vs[i + 1] - vs[i] = x * D := by rw [hD]; field_simp
    refine ⟨vs[i] - u * T + (3 * D - 2 * u - w) / x * T ^ 2 - (u + w - 2 * D) / x ^ 2 * T ^ 3,
      u - 2 * ((3 * D - 2 * u - w) / x) * T + 3 * ((u + w - 2 * D) / x ^ 2) * T ^ 2,
      (3 * D - 2 * u - w) / x - 3 * ((u + w - 2 * D) / x ^ 2) * T, (u + w - 2 * D) / x ^ 2, fun t t0 t1 => ?_⟩
    obtain ⟨q1, q2⟩ := hr t _ D x t0 t1 hx' rfl hD
    rw [q1, q2, hermite_at hl hev i hi t0 t1, eu', ew', ← hx', hD', ← hT]
    refine ⟨congrArg _ ?_, congrArg _ (congrArg _ ?_), congrArg _ (congrArg _ ?_)⟩
    · simp only [way]; field_simp; ring
    · field_simp; ring
    · field_simp; ring
  have all : ∀ t, ts[0] ≤ t → t ≤ ts[ts.length - 1] → ∃ p v a, c'.evaluate t = .ok p ∧
      c'.evaluateDerivative t 1 = .ok (some v) ∧ c'.evaluateDerivative t 2 = .ok (some a) := by
    intro t h0 h1
    obtain ⟨i, hi, g0, g1⟩ := segment_of h2 h0 h1
    obtain ⟨k0, k1, k2, k3, hk⟩ := loc i hi
    exact ⟨_, _, _, hk t g0 g1⟩
  choose! P V A hP using all
  have first : ts[0] ≤ ts[ts.length - 1] := getElem_mono hinc (by omega) (by omega)
  refine ⟨c', P, V, A, e, fun i hi => ?_, ?_, ?_, hP⟩
  · obtain ⟨k0, k1, k2, k3, hk⟩ := loc i hi
    refine ⟨k0, k1, k2, k3, fun t t0 t1 => ?_⟩
    obtain ⟨x1, x2, x3⟩ := hk t t0 t1
    obtain ⟨y1, y2, y3⟩ := hP t ((getElem_mono hinc (by omega) (Nat.zero_le i)).trans t0)
      (t1.trans (getElem_mono hinc (by omega) (by omega)))
    rw [x1] at y1
    rw [x2] at y2
    rw [x3] at y3
    exact ⟨(Outcome.ok.inj y1).symm, (Option.some.inj (Outcome.ok.inj y2)).symm, (Option.some.inj (Outcome.ok.inj y3)).symm⟩
  · have x := (hP ts[0] le_rfl first).2.1
    rw [hd 0 (by omega), m0] at x
    cases x; rfl
  · have x := (hP ts[ts.length - 1] first le_rfl).2.1
    rw [hd _ (by omega), mT] at x
    cases x; rfl

/-- **C174**: a cubic scalar curve, fitted again to its own values at its knots and at any further times between the first and the
last of them, with the same velocities at the ends, is the same curve: in value, velocity and acceleration at every time. The
accelerations given for the ends, the solvers and the earlier contents may differ. -/
theorem C174_refine (S S' : Solver K) {ts ts' : List K} (vs vs' : List K) (h2 : 2 ≤ ts.length) (hb : ts.length ≤ 2 ^ 28)
    (hb' : ts'.length ≤ 2 ^ 28) (hl : vs.length = ts.length) (hl' : vs'.length = ts'.length) (hinc : ts.Pairwise (· < ·))
    (hinc' : ts'.Pairwise (· < ·)) (hsub : ∀ t ∈ ts, t ∈ ts') (hin : ∀ t ∈ ts', ts[0] ≤ t ∧ t ≤ ts[ts.length - 1])
    (v0 a0 vT aT a0' aT' : K) (c d : ScalarCurve .o3 K) :
    ∃ c', c.fitCurveWith S ts vs v0 a0 vT aT = .ok c' ∧
      ((∀ i (hi : i < ts'.length), c'.evaluate ts'[i] = .ok vs'[i]) →
        ∃ d', d.fitCurveWith S' ts' vs' v0 a0' vT aT' = .ok d' ∧ ∀ t, ts[0] ≤ t → t ≤ ts[ts.length - 1] →
          d'.evaluate t = c'.evaluate t ∧ d'.evaluateDerivative t 1 = c'.evaluateDerivative t 1 ∧
          d'.evaluateDerivative t 2 = c'.evaluateDerivative t 2) := by
  obtain ⟨c', P, V, A, e, hp, k0, kT, hev⟩ := fit_pieces S ts vs h2 hb hl hinc v0 a0 vT aT c
  refine ⟨c', e, fun hvs => ?_⟩
  have lt : ts[0] < ts[ts.length - 1] := List.pairwise_iff_getElem.1 hinc 0 (ts.length - 1) (by omega) (by omega) (by omega)
  -- the first and the last time
  obtain ⟨i, hi, ei⟩ := List.getElem_of_mem (hsub _ (List.getElem_mem (show 0 < ts.length by omega)))
  obtain ⟨j, hj, ej⟩ := List.getElem_of_mem (hsub _ (List.getElem_mem (show ts.length - 1 < ts.length by omega)))
  have hij : i ≠ j := fun h => by subst h; rw [ei] at ej; exact lt.ne ej
  have h2' : 2 ≤ ts'.length := by omega
  have f : ts'[0] = ts[0] := le_antisymm (ei ▸ getElem_mono hinc' hi (Nat.zero_le i)) (hin _ (List.getElem_mem _)).1
  have g : ts'[ts'.length - 1] = ts[ts.length - 1] :=
    le_antisymm (hin _ (List.getElem_mem _)).2 (ej ▸ getElem_mono hinc' (by omega) (by omega))
  have hv : vs' = ts'.map P := by
    refine List.ext_getElem (by simp [hl']) fun n n1 n2 => ?_
    have x := hvs n (by omega)
    have b := hin _ (List.getElem_mem (show n < ts'.length by omega))
    rw [(hev _ b.1 b.2).1] at x
    rw [← Outcome.ok.inj x, List.getElem_map]
  obtain ⟨d', e', h'⟩ := C174_pieces S' h2' hb' hinc' (hp.refine h2 h2' hinc hinc' hsub f g) a0' aT' d
  rw [f, g, k0, kT, ← hv] at e'
  rw [f, g] at h'
  refine ⟨d', e', fun t h0 h1 => ?_⟩
  obtain ⟨x1, x2, x3⟩ := hev t h0 h1
  obtain ⟨y1, y2, y3⟩ := h' t h0 h1
  rw [x1, x2, x3, y1, y2, y3]
  exact ⟨rfl, rfl, rfl⟩

/-- Two different cubics, `-t³` and `t³`, that meet at 0 with the same velocity and acceleration. -/
theorem abs_pieces : Pieces [(-1 : ℚ), 0, 1] (fun t => |t| ^ 3) (fun t => 3 * t * |t|) (fun t => 6 * |t|) := by
  intro i hi
  simp only [List.length_cons, List.length_nil, zero_add, Nat.reduceAdd] at hi
  obtain rfl | rfl : i = 0 ∨ i = 1 := by omega
  · refine ⟨0, 0, 0, -1, fun t h0 h1 => ?_⟩
    have : t ≤ 0 := by simpa using h1
    simp only [abs_of_nonpos this]
    refine ⟨?_, ?_, ?_⟩ <;> ring
  · refine ⟨0, 0, 0, 1, fun t h0 h1 => ?_⟩
    have : 0 ≤ t := by simpa using h0
    simp only [abs_of_nonneg this]
    refine ⟨?_, ?_, ?_⟩ <;> ring

/-- They are recovered from three points. -/
theorem abs_fit (S : Solver ℚ) : ∃ c' : ScalarCurve .o3 ℚ,
    ScalarCurve.fresh.fitCurveWith S [-1, 0, 1] [1, 0, 1] (-3) 5 3 7 = .ok c' ∧
    ∀ t, -1 ≤ t → t ≤ 1 → c'.evaluate t = .ok (|t| ^ 3) ∧ c'.evaluateDerivative t 1 = .ok (some (3 * t * |t|)) ∧
      c'.evaluateDerivative t 2 = .ok (some (6 * |t|)) := by
  obtain ⟨c', e, h⟩ := C174_pieces S (by simp) (by norm_num) (by norm_num) abs_pieces 5 7 ScalarCurve.fresh
  norm_num at e
  exact ⟨c', e, fun t h0 h1 => h t (by simpa using h0) (by simpa using h1)⟩

/-- A fourth point of the curve changes nothing. -/
example (S S' : Solver ℚ) : ∃ c' d' : ScalarCurve .o3 ℚ,
    ScalarCurve.fresh.fitCurveWith S [-1, 0, 1] [1, 0, 1] (-3) 5 3 7 = .ok c' ∧
    ScalarCurve.fresh.fitCurveWith S' [-1, -1 / 2, 0, 1] [1, 1 / 8, 0, 1] (-3) 0 3 0 = .ok d' ∧
    ∀ t, -1 ≤ t → t ≤ 1 → d'.evaluate t = c'.evaluate t := by
  obtain ⟨c, e, h⟩ := abs_fit S
  obtain ⟨c', e', h'⟩ := C174_refine S S' (ts := [-1, 0, 1]) (ts' := [-1, -1 / 2, 0, 1]) [1, 0, 1] [1, 1 / 8, 0, 1] (by simp)
    (by norm_num) (by norm_num) rfl rfl (by norm_num) (by norm_num) (by simp) (by norm_num) (-3) 5 3 7 0 0 ScalarCurve.fresh
    ScalarCurve.fresh
  rw [e] at e'; cases e'
  obtain ⟨d, ed, hd⟩ := h' (by
    intro i hi
    simp only [List.length_cons, List.length_nil, zero_add, Nat.reduceAdd] at hi
    obtain rfl | rfl | rfl | rfl : i = 0 ∨ i = 1 ∨ i = 2 ∨ i = 3 := by omega
    all_goals
      rw [(h _ (by norm_num) (by norm_num)).1]
      norm_num [abs_of_nonpos, abs_of_nonneg])
  exact ⟨c, d, e, ed, fun t h0 h1 => (hd t (by simpa using h0) (by simpa using h1)).1⟩

/-- **C174**, not so for a `CubicHermiteE3Curve`, whose slopes come from the neighbouring points: through 0 at time 0 and 8 at time
2 with the velocities 0 and 12 it is `t³`; fitted again with its own value 1 at time 1 as a third point, it is at time 1/2 at 0
instead of at 1/8. -/
theorem C174_hermite_refuted (debug : Bool) (w : World) :
    (∃ (c : Hermite.E3 ℚ ℚ) (ks : List Key),
      Hermite.E3.fitCurveWithDerivatives debug [0, 2] [0, 8] 0 12 (Hermite.E3.fresh w) = .ok (c, ks) ∧
      ∀ t, 0 ≤ t → t ≤ 2 → Hermite.E3.evaluate t c = .ok (some (t ^ 3))) ∧
    ∃ (c : Hermite.E3 ℚ ℚ) (ks : List Key),
      Hermite.E3.fitCurveWithDerivatives debug [0, 1, 2] [0, 1, 8] 0 12 (Hermite.E3.fresh w) = .ok (c, ks) ∧
      Hermite.E3.evaluate (1 / 2) c = .ok (some 0) := by
  constructor
  · obtain ⟨c, ks, m, e, hs, -, m0, mT, -, hn⟩ := e3_nodes debug (ts := [(0 : ℚ), 2]) (vs := [(0 : ℚ), 8]) (by simp) rfl
      (by norm_num) 0 12 w
    obtain ⟨pre, x, y, post, hm, tx, ty, cx, cy⟩ := hn 0 (by simp)
    simp only [zero_add, List.getElem_cons_zero, List.getElem_cons_succ, List.length_cons, List.length_nil, Nat.reduceAdd,
      Nat.add_one_sub_one] at tx ty cx cy m0 mT
    rw [m0] at cx
    rw [mT] at cy
    refine ⟨c, ks, e, fun t h0 h1 => ?_⟩
    rw [Hermite.E3.evaluate_between hs hm (by rw [tx]; exact h0) (by rw [ty]; exact h1)]
    simp only [Hermite.E3.interpolate, tx, ty, cx, cy, smul_eq_mul, Outcome.ok.injEq, Option.some.injEq]
    ring
  · obtain ⟨c, ks, m, e, hs, -, m0, -, hin, hn⟩ := e3_nodes debug (ts := [(0 : ℚ), 1, 2]) (vs := [(0 : ℚ), 1, 8]) (by simp) rfl
      (by norm_num) 0 12 w
    obtain ⟨pre, x, y, post, hm, tx, ty, cx, cy⟩ := hn 0 (by simp)
    have m1 := hin 0 (by simp)
    simp only [zero_add, List.getElem_cons_zero, List.getElem_cons_succ, smul_eq_mul] at tx ty cx cy m0 m1
    rw [m0] at cx
    rw [m1] at cy
    refine ⟨c, ks, e, ?_⟩
    rw [Hermite.E3.evaluate_between hs hm (by rw [tx]; norm_num) (by rw [ty]; norm_num)]
    simp only [Hermite.E3.interpolate, tx, ty, cx, cy, smul_eq_mul, Outcome.ok.injEq, Option.some.injEq]
    norm_num

end Verif.PolyCurve

import Verif.Container.Solvable
import Verif.Container.Eval

/-! # What `setData` produces -/

set_option linter.unusedSectionVars false
set_option linter.dupNamespace false

namespace Verif.Container

open Verif.Spline

variable {K : Type} [Field K] [LinearOrder K] [IsStrictOrderedRing K] {o : Order}

/-- Knot `j` of a list (0 beyond its end). -/
def knot (l : List K) (j : ℕ) : K := l[j]?.getD 0

theorem getElem?_knot {l : List K} {j : ℕ} (h : j < l.length) : l[j]? = some (knot l j) := by
  simp [knot, List.getElem?_eq_getElem h]

theorem knot_lt {l : List K} (h : l.Pairwise (· < ·)) {i j : ℕ} (hij : i < j) (hj : j < l.length) :
    knot l i < knot l j := by
  rw [List.pairwise_iff_getElem] at h
  have := h i j (by omega) hj hij
  simpa [knot, List.getElem?_eq_getElem hj, List.getElem?_eq_getElem (show i < l.length by omega)]
    using this

/-- Duration of segment `j` (1 beyond the last one). -/
def dur (l : List K) (j : ℕ) : K := if j + 1 < l.length then knot l (j + 1) - knot l j else 1

theorem dur_pos {l : List K} (h : l.Pairwise (· < ·)) (j : ℕ) : 0 < dur l j := by
  unfold dur
  split
  · rename_i hj
    have := knot_lt h (Nat.lt_succ_self j) hj
    linarith
  · exact one_pos

namespace Container

theorem segDurations_ok (ts : List K) (hinc : ts.Pairwise (· < ·)) (k : ℕ) : ∀ i,
    i + k + 1 ≤ ts.length →
    segDurations ts k i = .ok (some ((List.range k).map fun j => dur ts (i + j))) := by
  induction k with
  | zero => intro i _; simp [segDurations]
  | succ k ih =>
    intro i hi
    have hlt := knot_lt hinc (Nat.lt_succ_self i) (by omega)
    rw [segDurations, getElem?_knot (l := ts) (j := i + 1) (by omega),
      getElem?_knot (l := ts) (j := i) (by omega)]
    simp only [Outcome.deref_some, Outcome.ok_bind]
    rw [if_neg (not_le.mpr (sub_pos.mpr hlt)), ih (i + 1) (by omega)]
    simp only [Outcome.ok_bind, Option.map_some, List.range_succ_eq_map, List.map_cons, List.map_map]
    congr 3
    · simp [dur]; omega
    · refine List.map_congr_left fun j _ => ?_
      simp only [Function.comp]
      congr 1; omega

/-- A non-increasing pair makes the loop give up. -/
theorem segDurations_bad (ts : List K) (k : ℕ) : ∀ i, i + k + 1 ≤ ts.length →
    (∃ j < k, knot ts (i + j + 1) ≤ knot ts (i + j)) → segDurations ts k i = .ok none := by
  induction k with
  | zero => rintro i _ ⟨j, hj, _⟩; omega
  | succ k ih =>
    rintro i hi ⟨j, hj, hle⟩
    rw [segDurations, getElem?_knot (l := ts) (j := i + 1) (by omega),
      getElem?_knot (l := ts) (j := i) (by omega)]
    simp only [Outcome.deref_some, Outcome.ok_bind]
    split
    · rfl
    · rename_i hpos
      cases j with
      | zero => simp at hle; exact absurd (sub_nonpos.mpr hle) hpos
      | succ j =>
        rw [ih (i + 1) (by omega) ⟨j, by omega, by
          rw [show i + 1 + j + 1 = i + (j + 1) + 1 by omega, show i + 1 + j = i + (j + 1) by omega]
          exact hle⟩]
        rfl

theorem extract_eq (x : ℕ → K) (ds : List K) : ∀ (j : ℕ) (c : Container o K),
    extract x ds j c = { c with
      splines := c.splines ++ ds.zipIdx.map fun p => ⟨seg o x (j + p.2), p.1⟩
      duration := c.duration + ds.sum } := by
  induction ds with
  | nil => intro j c; simp [extract]
  | cons d ds ih =>
    intro j c
    rw [extract, ih]
    simp only [addSpline, List.sum_cons, add_assoc, List.zipIdx_cons, List.map_cons, List.append_assoc,
      List.cons_append, List.nil_append, zero_add, Nat.add_zero]
    congr 3
    rw [List.zipIdx_succ, List.map_map]
    refine List.map_congr_left fun p _ => ?_
    simp [Nat.add_comm]

/-- The segments a fit through `ts`, `ps` has, with their coefficients unspecified. -/
structure Through (ts ps : List K) (c : Container o K) : Prop where
  len : c.splines.length + 1 = ts.length
  duration : c.duration = total c.splines
  idle : c.time = 0 ∧ c.offset = 0 ∧ c.idx = 0
  seg : ∀ j s, c.splines[j]? = some s → s.duration = dur ts j ∧
    s.getPositionAtTime 0 = knot ps j ∧ s.getPositionAtTime s.duration = knot ps (j + 1)

/-- Velocity and acceleration agree at every junction. -/
structure Smooth (c : Container o K) : Prop where
  vel : ∀ j s s', c.splines[j]? = some s → c.splines[j + 1]? = some s' →
    s.getVelocityAtTime s.duration = s'.getVelocityAtTime 0
  acc : ∀ j s s', c.splines[j]? = some s → c.splines[j + 1]? = some s' →
    s.getAccelerationAtTime s.duration = s'.getAccelerationAtTime 0

section at_ends
variable {s : Spline o K} (h : 0 < s.duration)
include h
theorem pos_zero : s.getPositionAtTime 0 = inner s.coeffs (tauZero o) := by
  rw [Spline.getPositionAtTime, clamp_inside le_rfl h.le, tau_zero]
theorem vel_zero : s.getVelocityAtTime 0 = inner s.coeffs (dtauZero o) := by
  rw [Spline.getVelocityAtTime, clamp_inside le_rfl h.le, dtau_zero]
theorem acc_zero : s.getAccelerationAtTime 0 = inner s.coeffs (ddtauZero o) := by
  rw [Spline.getAccelerationAtTime, clamp_inside le_rfl h.le, ddtau_zero]
theorem pos_end : s.getPositionAtTime s.duration = inner s.coeffs (tau o s.duration) := by
  rw [Spline.getPositionAtTime, clamp_inside h.le le_rfl]
theorem vel_end : s.getVelocityAtTime s.duration = inner s.coeffs (dtau o s.duration) := by
  rw [Spline.getVelocityAtTime, clamp_inside h.le le_rfl]
theorem acc_end : s.getAccelerationAtTime s.duration = inner s.coeffs (ddtau o s.duration) := by
  rw [Spline.getAccelerationAtTime, clamp_inside h.le le_rfl]
end at_ends

/-- A constrained fit succeeds whenever its equations have a solution. -/
theorem fitWith_ok (S : Solver K) (e R : ℕ) (ts ps ini fin : List K) (c : Container o K) (n : ℕ)
    (hn : 0 < n) (hR : R = 4 * (n - 1) + 2 * e) (hts : ts.length = n + 1) (hps : ps.length = n + 1)
    (hinc : ts.Pairwise (· < ·)) (he : 1 ≤ e ∧ e ≤ 3) (hini : ini.length + 1 = e)
    (hfin : fin.length + 1 = e) (hsol : ∃ x, FitEq o n (dur ts) (knot ps) ini fin x) :
    ∃ x, FitEq o n (dur ts) (knot ps) ini fin x ∧
      fitWith S R (n * o.count) (n - 1) n ts ps ini fin c = .ok (true, { c with
        splines := c.splines ++ (List.range n).map fun j => ⟨Verif.Container.seg o x j, dur ts j⟩
        duration := c.duration + ((List.range n).map (dur ts)).sum }) := by
  have hs := segDurations_ok ts hinc n 0 (by omega)
  simp only [Nat.zero_add] at hs
  obtain ⟨s, e1, e2, e3, e4, e5⟩ := assembleWith_eq o e n R ps ((List.range n).map (dur ts)) ini fin
    (dur ts) (knot ps) hn hR hps (by simp) (fun j hj => by simp [hj])
    (fun j hj => getElem?_knot (by omega)) he hini hfin
  obtain ⟨x, hx⟩ := hsol
  have hex := S.exact s.rows s.cols s.A s.b ⟨x, (e5 x).mpr hx⟩
  refine ⟨S.solve s.rows s.cols s.A s.b, (e5 _).mp hex, ?_⟩
  unfold fitWith
  rw [hs]
  simp only [Outcome.ok_bind]
  rw [e1]
  simp only [Outcome.ok_bind]
  rw [if_pos e2.symm, extract_eq]
  have : ((List.range n).map (dur ts)).zipIdx.map (fun p =>
      (⟨Verif.Container.seg o (S.solve s.rows s.cols s.A s.b) (0 + p.2), p.1⟩ : Spline o K)) =
      (List.range n).map fun j =>
        ⟨Verif.Container.seg o (S.solve s.rows s.cols s.A s.b) j, dur ts j⟩ := by
    apply List.ext_getElem?
    intro i
    by_cases hi : i < n <;> simp [hi]
  rw [this]

theorem fit_ok (S : Solver K) (e : ℕ) (ts ps ini fin : List K) (c : Container o K) (n : ℕ)
    (hn : 0 < n) (hb : n < 2 ^ 28) (hts : ts.length = n + 1) (hps : ps.length = n + 1)
    (hinc : ts.Pairwise (· < ·)) (he : 1 ≤ e ∧ e ≤ 3) (hini : ini.length + 1 = e)
    (hfin : fin.length + 1 = e) (hsol : ∃ x, FitEq o n (dur ts) (knot ps) ini fin x) :
    ∃ x, FitEq o n (dur ts) (knot ps) ini fin x ∧
      fit S e ts ps ini fin c = .ok (true, { c with
        splines := c.splines ++ (List.range n).map fun j => ⟨Verif.Container.seg o x j, dur ts j⟩
        duration := c.duration + ((List.range n).map (dur ts)).sum }) := by
  rw [fit, numSplines_eq ts n hts hb, solutionDim_eq o n hb, numJunctions_eq n hn hb]
  exact fitWith_ok S e _ ts ps ini fin c n hn (numConstraints_eq e n hn hb he.2) hts hps hinc he hini
    hfin hsol

/-- Segment `j` of the container produced by `fit_ok`. -/
theorem range_map_get {n j : ℕ} {x : ℕ → K} {ts : List K} {s : Spline o K}
    (h : ((List.range n).map fun j => (⟨Verif.Container.seg o x j, dur ts j⟩ : Spline o K))[j]? =
      some s) :
    j < n ∧ s = ⟨Verif.Container.seg o x j, dur ts j⟩ := by
  by_cases hj : j < n
  · simp [hj] at h; exact ⟨hj, h.symm⟩
  · simp [hj] at h

theorem total_range_map (n : ℕ) (x : ℕ → K) (ts : List K) :
    total ((List.range n).map fun j => (⟨Verif.Container.seg o x j, dur ts j⟩ : Spline o K)) =
      ((List.range n).map (dur ts)).sum := by
  simp [total, Function.comp_def]

/-- Conditions met by a container holding the solution of the equations. -/
theorem fit_through (ts ps ini fin : List K) (c : Container o K) (n : ℕ) (x : ℕ → K)
    (hn : 0 < n) (hts : ts.length = n + 1)
    (hinc : ts.Pairwise (· < ·)) (hx : FitEq o n (dur ts) (knot ps) ini fin x) :
    let c' : Container o K := { c.reset with
        splines := c.reset.splines ++ (List.range n).map fun j => ⟨Verif.Container.seg o x j, dur ts j⟩
        duration := c.reset.duration + ((List.range n).map (dur ts)).sum }
    Through ts ps c' ∧ Smooth c' ∧ (∀ s, c'.splines[0]? = some s →
      (∀ p, ini[0]? = some p → s.getVelocityAtTime 0 = p) ∧
      (∀ p, ini[1]? = some p → s.getAccelerationAtTime 0 = p)) ∧
    (∀ s, c'.splines.getLast? = some s →
      (∀ p, fin[0]? = some p → s.getVelocityAtTime s.duration = p) ∧
      (∀ p, fin[1]? = some p → s.getAccelerationAtTime s.duration = p)) := by
  obtain ⟨⟨i0, i1, i2⟩, ⟨f0, f1, f2⟩, hj⟩ := hx
  simp only [reset, resetTime, List.nil_append]
  refine ⟨⟨by simp; omega, ?_, ⟨rfl, rfl, rfl⟩, ?_⟩, ⟨?_, ?_⟩, ?_, ?_⟩
  · rw [total_range_map]; simp
  · intro j s hs
    obtain ⟨hjn, rfl⟩ := range_map_get hs
    refine ⟨rfl, ?_, ?_⟩
    · rw [pos_zero (by exact dur_pos hinc j)]
      cases j with
      | zero => exact i0 _ (by simp)
      | succ j => exact (hj j hjn).2.1
    · rw [pos_end (by exact dur_pos hinc j)]
      by_cases hl : j + 1 < n
      · exact (hj j hl).1
      · obtain rfl : n = j + 1 := by omega
        exact f0 _ (by simp)
  · intro j s s' hs hs'
    obtain ⟨hjn, rfl⟩ := range_map_get hs
    obtain ⟨hjn', rfl⟩ := range_map_get hs'
    rw [vel_end (by exact dur_pos hinc j), vel_zero (by exact dur_pos hinc _)]
    exact (hj j hjn').2.2.1
  · intro j s s' hs hs'
    obtain ⟨hjn, rfl⟩ := range_map_get hs
    obtain ⟨hjn', rfl⟩ := range_map_get hs'
    rw [acc_end (by exact dur_pos hinc j), acc_zero (by exact dur_pos hinc _)]
    exact (hj j hjn').2.2.2
  · intro s hs
    obtain ⟨hjn, rfl⟩ := range_map_get hs
    rw [vel_zero (by exact dur_pos hinc _), acc_zero (by exact dur_pos hinc _)]
    exact ⟨fun p hp => i1 p (by simpa using hp), fun p hp => i2 p (by simpa using hp)⟩
  · intro s hs
    rw [List.getLast?_eq_getElem?] at hs
    obtain ⟨hjn, rfl⟩ := range_map_get hs
    simp only [List.length_map, List.length_range] at *
    rw [vel_end (by exact dur_pos hinc _), acc_end (by exact dur_pos hinc _)]
    exact ⟨fun p hp => f1 p (by simpa using hp), fun p hp => f2 p (by simpa using hp)⟩

/-! ## Straight lines -/

/-- The straight segment from `p` to `q` in time `d` as stored by the linear `setData`. -/
def line (o : Order) (p q d : K) : Spline o K :=
  ⟨fun m => if (m : ℕ) = o.count - 1 then p else if (m : ℕ) = o.count - 2 then (q - p) / d else 0, d⟩

theorem line_coeffs (o : Order) (p q d t : K) :
    inner (line o p q d).coeffs (tau o t) = p + (q - p) / d * t ∧
    inner (line o p q d).coeffs (dtau o t) = (q - p) / d ∧
    inner (line o p q d).coeffs (ddtau o t) = 0 := by
  have h1 : (line .o1 p q d).coeffs = ![(q - p) / d, p] := by funext i; fin_cases i <;> rfl
  have h2 : (line .o2 p q d).coeffs = ![0, (q - p) / d, p] := by funext i; fin_cases i <;> rfl
  have h3 : (line .o3 p q d).coeffs = ![0, 0, (q - p) / d, p] := by funext i; fin_cases i <;> rfl
  have h4 : (line .o4 p q d).coeffs = ![0, 0, 0, (q - p) / d, p] := by
    funext i; fin_cases i <;> rfl
  have h5 : (line .o5 p q d).coeffs = ![0, 0, 0, 0, (q - p) / d, p] := by
    funext i; fin_cases i <;> rfl
  cases o <;> simp only [h1, h2, h3, h4, h5] <;>
    simp [inner, tau, dtau, ddtau, sum_o1, sum_o2, sum_o3, sum_o4, sum_o5, add_comm]

theorem linearLoop_ok (ts ps : List K) (hinc : ts.Pairwise (· < ·)) (hl : ps.length = ts.length)
    (k : ℕ) : ∀ (i : ℕ) (c : Container o K), i + k + 1 ≤ ts.length →
    linearLoop ts ps k i c = .ok (true, { c with
      splines := c.splines ++ (List.range k).map fun j =>
        line o (knot ps (i + j)) (knot ps (i + j + 1)) (dur ts (i + j))
      duration := c.duration + ((List.range k).map fun j => dur ts (i + j)).sum }) := by
  induction k with
  | zero => intro i c _; simp [linearLoop]
  | succ k ih =>
    intro i c hi
    have hlt := knot_lt hinc (Nat.lt_succ_self i) (by omega)
    have hd : dur ts i = knot ts (i + 1) - knot ts i := by rw [dur, if_pos (by omega)]
    rw [linearLoop, getElem?_knot (l := ts) (j := i + 1) (by omega),
      getElem?_knot (l := ts) (j := i) (by omega), getElem?_knot (l := ps) (j := i) (by omega),
      getElem?_knot (l := ps) (j := i + 1) (by omega)]
    simp only [Outcome.deref_some, Outcome.ok_bind]
    rw [if_neg (not_le.mpr (sub_pos.mpr hlt)), ih (i + 1) _ (by omega)]
    simp only [addSpline, List.range_succ_eq_map, List.map_cons, List.map_map, List.sum_cons,
      List.append_assoc, List.cons_append, List.nil_append, Nat.add_zero, add_assoc]
    rw [hd]
    simp only [Function.comp_def, Nat.succ_eq_add_one, Nat.add_assoc, Nat.reduceAdd,
      Nat.add_comm 1]
    rfl

theorem linear_through (ts ps : List K) (n : ℕ) (hn : 0 < n) (hts : ts.length = n + 1)
    (hps : ps.length = n + 1) (hinc : ts.Pairwise (· < ·)) (c : Container o K) :
    ∃ c', setDataLinear ts ps c = .ok (true, c') ∧ Through ts ps c' ∧
      c'.splines = (List.range n).map fun j => line o (knot ps j) (knot ps (j + 1)) (dur ts j) := by
  have h := linearLoop_ok (o := o) ts ps hinc (hps.trans hts.symm) n 0 c.reset (by omega)
  rw [setDataLinear, if_neg (by rw [hts]; push_cast; omega), show ts.length - 1 = n by omega, h]
  refine ⟨_, rfl, ⟨?_, ?_, ⟨rfl, rfl, rfl⟩, ?_⟩, ?_⟩
  · simp [reset, resetTime]; omega
  · simp [reset, resetTime, total, Function.comp_def, line]
  · intro j s hs
    simp only [reset, resetTime, List.nil_append, Nat.zero_add] at hs
    by_cases hj : j < n
    · simp [hj] at hs
      subst hs
      have hp : 0 < (line o (knot ps j) (knot ps (j + 1)) (dur ts j)).duration := dur_pos hinc j
      refine ⟨rfl, ?_, ?_⟩
      · rw [pos_zero hp, ← tau_zero, (line_coeffs o _ _ _ _).1]; ring
      · rw [pos_end hp, (line_coeffs o _ _ _ _).1]
        have := (dur_pos hinc j).ne'
        simp only [line]
        field_simp; ring
    · simp [hj] at hs
  · simp [reset, resetTime]

theorem reset_reset (c : Container o K) : c.reset.reset = c.reset := rfl

theorem linear_reset (ts ps : List K) (c : Container o K) (h : 2 ≤ ts.length) :
    setDataLinear ts ps c.reset = setDataLinear ts ps c := by
  have : ¬ (ts.length : ℤ) - 1 < 1 := by omega
  rw [setDataLinear, setDataLinear, if_neg this, if_neg this, reset_reset]

/-! ## Choice of formulation -/

theorem setDataVel_linear (S : RawSolver K) (ts ps : List K) (v0 vT : K) (c : Container o K) (n : ℕ)
    (hn : 0 < n) (hb : n < 2 ^ 28) (hts : ts.length = n + 1) (ho : o.deg ≤ 2) :
    setDataVel S ts ps v0 vT c = setDataLinear ts ps c := by
  rw [setDataVel]
  rw [numSplines_eq ts n hts hb, if_neg (by omega), numConstraints_eq 2 n hn hb (by omega),
    solutionDim_eq o n hb, if_pos, linear_reset _ _ _ (by omega)]
  have : n * o.count ≤ n * 3 := Nat.mul_le_mul_left _ (by simp [Order.count]; omega)
  omega

theorem setDataVel_fit (S : RawSolver K) (ts ps : List K) (v0 vT : K) (c : Container o K) (n : ℕ)
    (hn : 0 < n) (hb : n < 2 ^ 28) (hts : ts.length = n + 1) (ho : 3 ≤ o.deg) :
    setDataVel S ts ps v0 vT c = fit S 2 ts ps [v0] [vT] c.reset := by
  rw [setDataVel]
  rw [numSplines_eq ts n hts hb, if_neg (by omega), numConstraints_eq 2 n hn hb (by omega),
    solutionDim_eq o n hb, if_neg]
  have : n * 4 ≤ n * o.count := Nat.mul_le_mul_left _ (by simp [Order.count]; omega)
  omega

theorem setDataAcc_vel (S : RawSolver K) (ts ps : List K) (v0 a0 vT aT : K) (c : Container o K) (n : ℕ)
    (hn : 0 < n) (hb : n < 2 ^ 28) (hts : ts.length = n + 1)
    (ho : o.deg ≤ 3 ∨ o.deg = 4 ∧ n = 1) :
    setDataAcc S ts ps v0 a0 vT aT c = setDataVel S ts ps v0 vT c := by
  rw [setDataAcc]
  rw [numSplines_eq ts n hts hb, if_neg (by omega), numConstraints_eq 3 n hn hb (by omega),
    solutionDim_eq o n hb, if_pos]
  · rfl
  · rcases ho with ho | ⟨ho, rfl⟩
    · have : n * o.count ≤ n * 4 := Nat.mul_le_mul_left _ (by simp [Order.count]; omega)
      omega
    · simp only [Order.count, ho]; omega

theorem setDataAcc_fit (S : RawSolver K) (ts ps : List K) (v0 a0 vT aT : K) (c : Container o K) (n : ℕ)
    (hn : 0 < n) (hb : n < 2 ^ 28) (hts : ts.length = n + 1)
    (ho : o.deg = 5 ∨ o.deg = 4 ∧ 2 ≤ n) :
    setDataAcc S ts ps v0 a0 vT aT c = fit S 3 ts ps [v0, a0] [vT, aT] c.reset := by
  rw [setDataAcc]
  rw [numSplines_eq ts n hts hb, if_neg (by omega), numConstraints_eq 3 n hn hb (by omega),
    solutionDim_eq o n hb, if_neg]
  rcases ho with ho | ⟨ho, h2⟩
  · simp only [Order.count, ho]; omega
  · simp only [Order.count, ho]; omega

/-- The velocity formulation. -/
theorem vel_ok (S : Solver K) (ts ps : List K) (v0 vT : K) (c : Container o K) (n : ℕ)
    (hn : 0 < n) (hb : n < 2 ^ 28) (hts : ts.length = n + 1) (hps : ps.length = n + 1)
    (hinc : ts.Pairwise (· < ·)) (ho : 3 ≤ o.deg) :
    ∃ c', setDataVel S ts ps v0 vT c = .ok (true, c') ∧ Through ts ps c' ∧ Smooth c' ∧
      (∀ s, c'.splines[0]? = some s → s.getVelocityAtTime 0 = v0) ∧
      (∀ s, c'.splines.getLast? = some s → s.getVelocityAtTime s.duration = vT) := by
  obtain ⟨x, hx, e⟩ := fit_ok S 2 ts ps [v0] [vT] c.reset n hn hb hts hps hinc (by omega) rfl rfl
    (solvable_vel o ho n hn _ _ (dur_pos hinc) v0 vT)
  obtain ⟨h1, h2, h3, h4⟩ := fit_through ts ps [v0] [vT] c n x hn hts hinc hx
  rw [setDataVel_fit S ts ps v0 vT c n hn hb hts ho, e]
  exact ⟨_, rfl, h1, h2, fun s hs => (h3 s hs).1 v0 rfl, fun s hs => (h4 s hs).1 vT rfl⟩

/-- The acceleration formulation. -/
theorem acc_ok (S : Solver K) (ts ps : List K) (v0 a0 vT aT : K) (c : Container o K) (n : ℕ)
    (hn : 0 < n) (hb : n < 2 ^ 28) (hts : ts.length = n + 1) (hps : ps.length = n + 1)
    (hinc : ts.Pairwise (· < ·)) (ho : o.deg = 5 ∨ o.deg = 4 ∧ 2 ≤ n) :
    ∃ c', setDataAcc S ts ps v0 a0 vT aT c = .ok (true, c') ∧ Through ts ps c' ∧ Smooth c' ∧
      (∀ s, c'.splines[0]? = some s →
        s.getVelocityAtTime 0 = v0 ∧ s.getAccelerationAtTime 0 = a0) ∧
      (∀ s, c'.splines.getLast? = some s →
        s.getVelocityAtTime s.duration = vT ∧ s.getAccelerationAtTime s.duration = aT) := by
  have hsol : ∃ x, FitEq o n (dur ts) (knot ps) [v0, a0] [vT, aT] x := by
    cases o <;> simp [Order.deg] at ho
    · exact solvable_acc4 n ho _ _ (dur_pos hinc) v0 a0 vT aT
    · exact solvable_acc5 n hn _ _ (dur_pos hinc) v0 a0 vT aT
  obtain ⟨x, hx, e⟩ := fit_ok S 3 ts ps [v0, a0] [vT, aT] c.reset n hn hb hts hps hinc (by omega) rfl
    rfl hsol
  obtain ⟨h1, h2, h3, h4⟩ := fit_through ts ps [v0, a0] [vT, aT] c n x hn hts hinc hx
  rw [setDataAcc_fit S ts ps v0 a0 vT aT c n hn hb hts ho, e]
  exact ⟨_, rfl, h1, h2, fun s hs => ⟨(h3 s hs).1 v0 rfl, (h3 s hs).2 a0 rfl⟩,
    fun s hs => ⟨(h4 s hs).1 vT rfl, (h4 s hs).2 aT rfl⟩⟩

theorem vel_through (S : Solver K) (ts ps : List K) (v0 vT : K) (c : Container o K) (n : ℕ)
    (hn : 0 < n) (hb : n < 2 ^ 28) (hts : ts.length = n + 1) (hps : ps.length = n + 1)
    (hinc : ts.Pairwise (· < ·)) :
    ∃ c', setDataVel S ts ps v0 vT c = .ok (true, c') ∧ Through ts ps c' := by
  by_cases ho : 3 ≤ o.deg
  · obtain ⟨c', e, h, -⟩ := vel_ok S ts ps v0 vT c n hn hb hts hps hinc ho
    exact ⟨c', e, h⟩
  · rw [setDataVel_linear S ts ps v0 vT c n hn hb hts (by omega)]
    obtain ⟨c', e, h, -⟩ := linear_through ts ps n hn hts hps hinc c
    exact ⟨c', e, h⟩

theorem acc_through (S : Solver K) (ts ps : List K) (v0 a0 vT aT : K) (c : Container o K) (n : ℕ)
    (hn : 0 < n) (hb : n < 2 ^ 28) (hts : ts.length = n + 1) (hps : ps.length = n + 1)
    (hinc : ts.Pairwise (· < ·)) :
    ∃ c', setDataAcc S ts ps v0 a0 vT aT c = .ok (true, c') ∧ Through ts ps c' := by
  by_cases ho : o.deg = 5 ∨ o.deg = 4 ∧ 2 ≤ n
  · obtain ⟨c', e, h, -⟩ := acc_ok S ts ps v0 a0 vT aT c n hn hb hts hps hinc ho
    exact ⟨c', e, h⟩
  · have hle : o.deg ≤ 5 := by cases o <;> simp [Order.deg]
    rw [setDataAcc_vel S ts ps v0 a0 vT aT c n hn hb hts (by omega)]
    exact vel_through S ts ps v0 vT c n hn hb hts hps hinc

/-! ## Evaluating a fitted container at its knots -/

theorem Through.pos {ts ps : List K} {c : Container o K} (h : Through ts ps c)
    (hinc : ts.Pairwise (· < ·)) : ∀ s ∈ c.splines, 0 < s.duration := by
  intro s hs
  obtain ⟨j, hj, rfl⟩ := List.getElem_of_mem hs
  rw [(h.seg j _ (List.getElem?_eq_getElem hj)).1]
  exact dur_pos hinc j

theorem Through.starts {ts ps : List K} {c : Container o K} (h : Through ts ps c) (k : ℕ)
    (hk : k < ts.length) : start c.splines k = knot ts k - knot ts 0 := by
  induction k with
  | zero => simp
  | succ k ih =>
    have hl := h.len
    have hj : k < c.splines.length := by omega
    have e := List.getElem?_eq_getElem hj
    rw [start_succ _ _ _ e, ih (by omega), (h.seg k _ e).1, dur, if_pos (by omega)]
    ring

theorem Through.totals {ts ps : List K} {c : Container o K} (h : Through ts ps c) (hne : ts ≠ []) :
    total c.splines = knot ts (ts.length - 1) - knot ts 0 := by
  have hl := h.len
  have := List.length_pos_of_ne_nil hne
  rw [← start_length, h.starts _ (by omega)]
  congr 2; omega

/-- At a knot other than the last, evaluation is the start of the segment beginning there. -/
theorem Through.at_knot {ts ps : List K} {c : Container o K} (h : Through ts ps c)
    (hinc : ts.Pairwise (· < ·)) (f : Spline o K → K → K) (k : ℕ) (s : Spline o K)
    (hs : c.splines[k]? = some s) : c.atTime f (knot ts k - knot ts 0) = .ok (f s 0) := by
  have hl := h.len
  have hk : k < c.splines.length := by
    by_contra hcon
    rw [List.getElem?_eq_none (by omega)] at hs; simp at hs
  have hpos := h.pos hinc
  have hst := h.starts k (by omega)
  rw [← hst]
  rw [atTime_of_find f _ c k (start c.splines k) s hs]
  · simp
  · rw [findLoop_hit _ _ 0 0 k hk]
    · simp
    · intro j hj
      rw [zero_add]
      exact start_mono (fun s hs => (hpos s hs).le) (by omega) hk.le
    · rw [zero_add, start_succ _ _ _ hs]
      have := hpos s (List.mem_of_getElem? hs)
      linarith

/-- At the last knot, evaluation is the end of the last segment. -/
theorem Through.at_last {ts ps : List K} {c : Container o K} (h : Through ts ps c)
    (hinc : ts.Pairwise (· < ·)) (f : Spline o K → K → K) (s : Spline o K)
    (hs : c.splines.getLast? = some s) :
    c.atTime f (knot ts c.splines.length - knot ts 0) = .ok (f s s.duration) := by
  have hl := h.len
  have hpos := h.pos hinc
  have hne : c.splines ≠ [] := by rintro e; rw [e] at hs; simp at hs
  have hlen := List.length_pos_of_ne_nil hne
  rw [List.getLast?_eq_getElem?] at hs
  have hst := h.starts c.splines.length (by omega)
  rw [← hst]
  have hsp : start c.splines c.splines.length =
      start c.splines (c.splines.length - 1) + s.duration := by
    conv_lhs => rw [show c.splines.length = c.splines.length - 1 + 1 by omega]
    exact start_succ _ _ _ hs
  rw [atTime_of_find f _ c (c.splines.length - 1)
    (start c.splines (c.splines.length - 1)) s hs, hsp]
  · simp
  · rw [findLoop_miss _ _ 0 0 hne]
    · simp
    · intro j hj
      rw [zero_add]
      exact start_mono (fun s hs => (hpos s hs).le) (by omega) le_rfl

theorem Through.interpolates {ts ps : List K} {c : Container o K} (h : Through ts ps c)
    (hinc : ts.Pairwise (· < ·)) (h2 : 2 ≤ ts.length) (i : ℕ) (hi : i < ts.length) :
    c.getPositionAtTime (knot ts i - knot ts 0) = .ok (knot ps i) := by
  have hl := h.len
  by_cases hlast : i < c.splines.length
  · have e := List.getElem?_eq_getElem hlast
    rw [getPositionAtTime, h.at_knot hinc _ i _ e, (h.seg i _ e).2.1]
  · obtain rfl : i = c.splines.length := by omega
    have e : c.splines.getLast? = some (c.splines[c.splines.length - 1]'(by omega)) := by
      rw [List.getLast?_eq_getElem?]; exact List.getElem?_eq_getElem _
    rw [getPositionAtTime, h.at_last hinc _ _ e, (h.seg _ _ (List.getElem?_eq_getElem _)).2.2]
    congr 2; omega

end Container
end Verif.Container

import Verif.Container.Fit

/-! # What `setData` produces when the linear solver is only approximate -/

set_option linter.unusedSectionVars false
set_option linter.dupNamespace false

namespace Verif.Container

open Verif.Spline

variable {K : Type} [Field K] [LinearOrder K] [IsStrictOrderedRing K] {o : Order}

/-- The two sides of an equation differ by at most `ρ`. -/
def Off (ρ : K) (a b : K) : Prop := |a - b| ≤ ρ

/-- A solution vector misses none of the equations of a `rows × cols` system by more than `ρ`. -/
def Misses (ρ : K) (rows cols : ℕ) (A : ℕ → ℕ → K) (b x : ℕ → K) : Prop :=
  ∀ r < rows, |∑ c ∈ Finset.range cols, A r c * x c - b r| ≤ ρ

/-- The coefficients returned for rows of conditions, when the solver misses them by at most `ρ`. -/
theorem solveRows_off (S : RawSolver K) (ρ : K) {o : Order} (rows : List (Vec o K × K))
    (h : Misses ρ rows.length o.count (fun r c => ((rows[r]?).map (fun p => row p.1 c)).getD 0)
      (fun r => ((rows[r]?).map Prod.snd).getD 0) (S.solve rows.length o.count
        (fun r c => ((rows[r]?).map (fun p => row p.1 c)).getD 0)
        (fun r => ((rows[r]?).map Prod.snd).getD 0))) :
    ∀ p ∈ rows, |inner (solveRows S rows) p.1 - p.2| ≤ ρ := by
  intro p hp
  obtain ⟨r, hr, rfl⟩ := List.getElem_of_mem hp
  have := h r hr
  simp only [List.getElem?_eq_getElem hr, Option.map_some, Option.getD_some] at this
  rw [sum_row] at this
  exact this

theorem solveRows_solvable {o : Order} (rows : List (Vec o K × K)) (c : Vec o K)
    (h : ∀ p ∈ rows, inner c p.1 = p.2) : ∃ x, Solves rows.length o.count
      (fun r c => ((rows[r]?).map (fun p => row p.1 c)).getD 0)
      (fun r => ((rows[r]?).map Prod.snd).getD 0) x := by
  refine ⟨fun i => if h : i < o.count then c ⟨i, h⟩ else 0, ?_⟩
  intro r hr
  simp only [List.getElem?_eq_getElem hr, Option.map_some, Option.getD_some]
  rw [sum_row, ← h _ (List.getElem_mem hr)]
  unfold inner
  refine Finset.sum_congr rfl fun i _ => ?_
  simp [i.2]

namespace Container

/-- The container holding the segments of a solution vector. -/
def holding (x : ℕ → K) (ts : List K) (n : ℕ) (c : Container o K) : Container o K := { c with
  splines := c.splines ++ (List.range n).map fun j => ⟨Verif.Container.seg o x j, dur ts j⟩
  duration := c.duration + ((List.range n).map (dur ts)).sum }

/-- The system of a fit, and what it means to miss it by at most `ρ`. -/
theorem fit_off (e : ℕ) (ts ps ini fin : List K) (n : ℕ)
    (hn : 0 < n) (hb : n < 2 ^ 28) (hts : ts.length = n + 1) (hps : ps.length = n + 1)
    (hinc : ts.Pairwise (· < ·)) (he : 1 ≤ e ∧ e ≤ 3) (hini : ini.length + 1 = e)
    (hfin : fin.length + 1 = e) (hsol : ∃ x, FitEq o n (dur ts) (knot ps) ini fin x) :
    ∃ s : Sys K, s.rows = 4 * (n - 1) + 2 * e ∧ s.cols = n * o.count ∧
      (∃ x, Solves s.rows s.cols s.A s.b x) ∧ ∀ (S : RawSolver K) (ρ : K),
      Misses ρ s.rows s.cols s.A s.b (S.solve s.rows s.cols s.A s.b) →
      ∃ x, FitRel (Off ρ) o n (dur ts) (knot ps) ini fin x ∧ ∀ c : Container o K,
        fit S e ts ps ini fin c = .ok (true, holding x ts n c) := by
  have hs := segDurations_ok ts hinc n 0 (by omega)
  simp only [Nat.zero_add] at hs
  obtain ⟨s, e1, e2, e3, e4, e5⟩ := assembleWith_rel o e n _ ps ((List.range n).map (dur ts)) ini fin
    (dur ts) (knot ps) hn rfl hps (by simp) (fun j hj => by simp [hj])
    (fun j hj => getElem?_knot (by omega)) he hini hfin
  obtain ⟨x, hx⟩ := hsol
  refine ⟨s, e3, e4, ⟨x, (e5 Eq x).mpr ((fitRel_eq _ _ _ _ _ _ _).mpr hx)⟩, fun S ρ h => ?_⟩
  refine ⟨S.solve s.rows s.cols s.A s.b, (e5 (Off ρ) _).mp h, fun c => ?_⟩
  rw [fit, numSplines_eq ts n hts hb, solutionDim_eq o n hb, numJunctions_eq n hn hb,
    numConstraints_eq e n hn hb he.2]
  unfold fitWith
  rw [hs]
  simp only [Outcome.ok_bind]
  rw [e1]
  simp only [Outcome.ok_bind]
  rw [if_pos e2.symm, extract_eq]
  have : ((List.range n).map (dur ts)).zipIdx.map (fun p =>
      (⟨Verif.Container.seg o (S.solve s.rows s.cols s.A s.b) (0 + p.2), p.1⟩ : Spline o K)) =
      (List.range n).map fun j =>
        ⟨Verif.Container.seg o (S.solve s.rows s.cols s.A s.b) j, dur ts j⟩ := by
    apply List.ext_getElem?
    intro i
    by_cases hi : i < n <;> simp [hi]
  rw [this, holding]

/-- The segments a fit through `ts`, `ps` has, up to `ρ` in every condition. -/
structure Nearly (ρ : K) (ts ps : List K) (c : Container o K) : Prop where
  len : c.splines.length + 1 = ts.length
  duration : c.duration = total c.splines
  idle : c.time = 0 ∧ c.offset = 0 ∧ c.idx = 0
  seg : ∀ j s, c.splines[j]? = some s → s.duration = dur ts j ∧
    |s.getPositionAtTime 0 - knot ps j| ≤ ρ ∧
    |s.getPositionAtTime s.duration - knot ps (j + 1)| ≤ ρ
  vel : ∀ j s s', c.splines[j]? = some s → c.splines[j + 1]? = some s' →
    |s.getVelocityAtTime s.duration - s'.getVelocityAtTime 0| ≤ ρ
  acc : ∀ j s s', c.splines[j]? = some s → c.splines[j + 1]? = some s' →
    |s.getAccelerationAtTime s.duration - s'.getAccelerationAtTime 0| ≤ ρ

theorem fit_nearly (ρ : K) (ts ps ini fin : List K) (c : Container o K) (n : ℕ) (x : ℕ → K)
    (hn : 0 < n) (hts : ts.length = n + 1) (hinc : ts.Pairwise (· < ·))
    (hx : FitRel (Off ρ) o n (dur ts) (knot ps) ini fin x) :
    Nearly ρ ts ps (holding x ts n c.reset) ∧
    (∀ s, (holding x ts n c.reset).splines[0]? = some s →
      (∀ p, ini[0]? = some p → |s.getVelocityAtTime 0 - p| ≤ ρ) ∧
      (∀ p, ini[1]? = some p → |s.getAccelerationAtTime 0 - p| ≤ ρ)) ∧
    (∀ s, (holding x ts n c.reset).splines.getLast? = some s →
      (∀ p, fin[0]? = some p → |s.getVelocityAtTime s.duration - p| ≤ ρ) ∧
      (∀ p, fin[1]? = some p → |s.getAccelerationAtTime s.duration - p| ≤ ρ)) := by
  obtain ⟨⟨i0, i1, i2⟩, ⟨f0, f1, f2⟩, hj⟩ := hx
  simp only [holding, reset, resetTime, List.nil_append]
  refine ⟨⟨by simp; omega, ?_, ⟨rfl, rfl, rfl⟩, ?_, ?_, ?_⟩, ?_, ?_⟩
  · rw [total_range_map]; simp
  · intro j s hs
    obtain ⟨hjn, rfl⟩ := range_map_get hs
    refine ⟨rfl, ?_, ?_⟩
    · rw [pos_zero (by exact dur_pos hinc j)]
      cases j with
      | zero => exact i0 _ (by simp)
      | succ j => exact (hj j hjn).2.1
    · rw [pos_end (by exact dur_pos hinc j)]
      by_cases hl : j + 1 < n
      · exact (hj j hl).1
      · obtain rfl : n = j + 1 := by omega
        exact f0 _ (by simp)
  · intro j s s' hs hs'
    obtain ⟨hjn, rfl⟩ := range_map_get hs
    obtain ⟨hjn', rfl⟩ := range_map_get hs'
    rw [vel_end (by exact dur_pos hinc j), vel_zero (by exact dur_pos hinc _)]
    simpa [Off] using (hj j hjn').2.2.1
  · intro j s s' hs hs'
    obtain ⟨hjn, rfl⟩ := range_map_get hs
    obtain ⟨hjn', rfl⟩ := range_map_get hs'
    rw [acc_end (by exact dur_pos hinc j), acc_zero (by exact dur_pos hinc _)]
    simpa [Off] using (hj j hjn').2.2.2
  · intro s hs
    obtain ⟨hjn, rfl⟩ := range_map_get hs
    rw [vel_zero (by exact dur_pos hinc _), acc_zero (by exact dur_pos hinc _)]
    exact ⟨fun p hp => i1 p (by simpa using hp), fun p hp => i2 p (by simpa using hp)⟩
  · intro s hs
    rw [List.getLast?_eq_getElem?] at hs
    obtain ⟨hjn, rfl⟩ := range_map_get hs
    simp only [List.length_map, List.length_range] at *
    rw [vel_end (by exact dur_pos hinc _), acc_end (by exact dur_pos hinc _)]
    exact ⟨fun p hp => f1 p (by simpa using hp), fun p hp => f2 p (by simpa using hp)⟩

/-! ## Evaluation at the knots -/

theorem Nearly.pos {ρ : K} {ts ps : List K} {c : Container o K} (h : Nearly ρ ts ps c)
    (hinc : ts.Pairwise (· < ·)) : ∀ s ∈ c.splines, 0 < s.duration := by
  intro s hs
  obtain ⟨j, hj, rfl⟩ := List.getElem_of_mem hs
  rw [(h.seg j _ (List.getElem?_eq_getElem hj)).1]
  exact dur_pos hinc j

theorem Nearly.starts {ρ : K} {ts ps : List K} {c : Container o K} (h : Nearly ρ ts ps c) (k : ℕ)
    (hk : k < ts.length) : start c.splines k = knot ts k - knot ts 0 := by
  induction k with
  | zero => simp
  | succ k ih =>
    have hl := h.len
    have hj : k < c.splines.length := by omega
    have e := List.getElem?_eq_getElem hj
    rw [start_succ _ _ _ e, ih (by omega), (h.seg k _ e).1, dur, if_pos (by omega)]
    ring

/-- At every knot the container is within `ρ` of the position there. -/
theorem Nearly.interpolates {ρ : K} {ts ps : List K} {c : Container o K} (h : Nearly ρ ts ps c)
    (hinc : ts.Pairwise (· < ·)) (h2 : 2 ≤ ts.length) (i : ℕ) (hi : i < ts.length) :
    ∃ p, c.getPositionAtTime (knot ts i - knot ts 0) = .ok p ∧ |p - knot ps i| ≤ ρ := by
  have hl := h.len
  have hpos := h.pos hinc
  have hst := h.starts i hi
  rw [← hst]
  by_cases hlast : i < c.splines.length
  · have e := List.getElem?_eq_getElem hlast
    refine ⟨_, ?_, (h.seg i _ e).2.1⟩
    rw [getPositionAtTime, atTime_of_find _ _ c i (start c.splines i) _ e]
    · simp
    · rw [findLoop_hit _ _ 0 0 i hlast]
      · simp
      · intro j hj
        rw [zero_add]
        exact start_mono (fun s hs => (hpos s hs).le) (by omega) hlast.le
      · rw [zero_add, start_succ _ _ _ e]
        have := hpos _ (List.mem_of_getElem? e)
        linarith
  · obtain rfl : i = c.splines.length := by omega
    have hlen : 0 < c.splines.length := by omega
    have hne : c.splines ≠ [] := List.ne_nil_of_length_pos hlen
    have e := List.getElem?_eq_getElem (show c.splines.length - 1 < c.splines.length by omega)
    refine ⟨_, ?_, by
      have := (h.seg _ _ e).2.2
      rw [show c.splines.length - 1 + 1 = c.splines.length by omega] at this
      exact this⟩
    have hsp : start c.splines c.splines.length = start c.splines (c.splines.length - 1) +
        c.splines[c.splines.length - 1].duration := by
      conv_lhs => rw [show c.splines.length = c.splines.length - 1 + 1 by omega]
      exact start_succ _ _ _ e
    rw [getPositionAtTime, atTime_of_find _ _ c (c.splines.length - 1)
      (start c.splines (c.splines.length - 1)) _ e, hsp]
    · simp
    · rw [findLoop_miss _ _ 0 0 hne]
      · simp
      · intro j hj
        rw [zero_add]
        exact start_mono (fun s hs => (hpos s hs).le) (by omega) le_rfl

end Container
end Verif.Container

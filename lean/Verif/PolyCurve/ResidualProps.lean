import Verif.Container.ResidualProps
import Verif.Container.Reverse
import Verif.PolyCurve.Props

/-!
# Property C156: polynomial-spline curves with an approximate linear solver

C116 for the curve classes. As there, nothing is assumed of the linear solver but how far its answers
to the systems that are solved miss the equations of those systems, the systems are named before the
solver, and they have solutions.
-/

set_option linter.unusedSectionVars false
set_option linter.dupNamespace false

namespace Verif.PolyCurve

open Verif.Spline Verif.Container Container

variable {K : Type} [Field K] [LinearOrder K] [IsStrictOrderedRing K] {o : Order} {N : ℕ}

theorem near_pos {ρ : K} {ts ps : List K} {c : Container o K} (h : NearFit ρ ts ps c)
    (hinc : ts.Pairwise (· < ·)) : ∀ s ∈ c.splines, 0 < s.duration := by
  intro s hs
  obtain ⟨j, hj, rfl⟩ := List.getElem_of_mem hs
  have hl := h.segments
  have hp := dur_pos hinc j
  rw [dur, if_pos (by omega)] at hp
  rw [h.durations j _ (List.getElem?_eq_getElem hj)]
  exact hp

theorem near_starts {ρ : K} {ts ps : List K} {c : Container o K} (h : NearFit ρ ts ps c) (k : ℕ)
    (hk : k < ts.length) : start c.splines k = knot ts k - knot ts 0 := by
  induction k with
  | zero => simp
  | succ k ih =>
    have hl := h.segments
    have hj : k < c.splines.length := by omega
    have e := List.getElem?_eq_getElem hj
    rw [start_succ _ _ _ e, ih (by omega), h.durations k _ e]
    ring

/-- Reading the container at the beginning and at the end. -/
theorem near_ends {ρ : K} {ts ps : List K} {c : Container o K} (h : NearFit ρ ts ps c)
    (hinc : ts.Pairwise (· < ·)) (h2 : 2 ≤ ts.length) (f : Spline o K → K → K) (x y : K)
    (hx : ∀ s, c.splines.head? = some s → |f s 0 - x| ≤ ρ)
    (hy : ∀ s, c.splines.getLast? = some s → |f s s.duration - y| ≤ ρ) :
    (∃ p, c.atTime f 0 = .ok p ∧ |p - x| ≤ ρ) ∧
    ∃ p, c.atTime f (ts[ts.length - 1] - ts[0]) = .ok p ∧ |p - y| ≤ ρ := by
  have hl := h.segments
  have hpos := near_pos h hinc
  have e0 : c.splines[0]? = some (c.splines[0]'(by omega)) := List.getElem?_eq_getElem _
  have hj : c.splines.length - 1 < c.splines.length := by omega
  have e1 := List.getElem?_eq_getElem hj
  have eT : c.splines.getLast? = some (c.splines[c.splines.length - 1]'hj) := by
    rw [List.getLast?_eq_getElem?]; exact e1
  refine ⟨⟨_, atTime_before f c _ e0 0 (hpos _ (List.getElem_mem _)), hx _ (by
    rw [List.head?_eq_getElem?]; exact e0)⟩, ⟨_, atTime_beyond f c (fun s hs => (hpos s hs).le) _ eT _
    ?_, ?_⟩⟩
  · rw [← start_length, near_starts h _ (by omega), knot_eq (by omega), knot_eq (by omega)]
    exact le_of_eq (by congr 2; omega)
  · have hs := start_succ _ _ _ e1
    have hs' := near_starts h (c.splines.length - 1 + 1) (by omega)
    rw [knot_eq (by omega), knot_eq (by omega)] at hs'
    have : ts[ts.length - 1] - ts[0] - start c.splines (c.splines.length - 1) =
        (c.splines[c.splines.length - 1]'hj).duration := by
      rw [sub_eq_iff_eq_add, add_comm, ← hs, hs']
      congr 2; omega
    rw [this]
    exact hy _ eT

/-- **C156**, scalar curve (the library instantiates order 5; order 4 with three or more knots is the
same): with a linear solver that misses the equations by no more than `ρ`, the domain is exactly first
to last time, the curve passes within `ρ` of every value at its time, and the derivatives at both ends
are within `ρ` of those asked for. -/
theorem C156_scalar (ts vs : List K) (h2 : 2 ≤ ts.length) (hb : ts.length ≤ 2 ^ 28)
    (hl : vs.length = ts.length) (hinc : ts.Pairwise (· < ·)) (v0 a0 vT aT : K)
    (ho : o = .o5 ∨ o = .o4 ∧ 3 ≤ ts.length) :
    ∃ s : Sys K, (∃ x, Solves s.rows s.cols s.A s.b x) ∧ ∀ (S : RawSolver K) (ρ : K),
      Misses ρ s.rows s.cols s.A s.b (S.solve s.rows s.cols s.A s.b) →
      ∀ c : ScalarCurve o K, ∃ c', c.fitCurveWith S ts vs v0 a0 vT aT = .ok c' ∧
        c'.getMinTime = ts[0] ∧ c'.getMaxTime = ts[ts.length - 1] ∧
        (∀ (i : ℕ) (h : i < ts.length), ∃ p, c'.evaluate ts[i] = .ok p ∧ |p - vs[i]| ≤ ρ) ∧
        (∃ v, c'.evaluateDerivative c'.getMinTime 1 = .ok (some v) ∧ |v - v0| ≤ ρ) ∧
        (∃ a, c'.evaluateDerivative c'.getMinTime 2 = .ok (some a) ∧ |a - a0| ≤ ρ) ∧
        (∃ v, c'.evaluateDerivative c'.getMaxTime 1 = .ok (some v) ∧ |v - vT| ≤ ρ) ∧
        ∃ a, c'.evaluateDerivative c'.getMaxTime 2 = .ok (some a) ∧ |a - aT| ≤ ρ := by
  obtain ⟨s, hs, h⟩ := C116_accelerations (o := o) ts vs h2 hb hl hinc v0 a0 vT aT ho
  refine ⟨s, hs, fun S ρ hm c => ?_⟩
  obtain ⟨d, e, hn, hi, hf⟩ := h S ρ hm c.container
  have hmax : (⟨d, ts[0]⟩ : ScalarCurve o K).getMaxTime = ts[ts.length - 1] := by
    rw [ScalarCurve.getMaxTime, hn.duration, knot_eq (by omega), knot_eq (by omega), sub_add_cancel]
  obtain ⟨⟨v, ev, hv⟩, w, ew, hw⟩ := near_ends hn hinc h2 Spline.getVelocityAtTime v0 vT
    (fun s hs => (hi s hs).1) (fun s hs => (hf s hs).1)
  obtain ⟨⟨a, ea, ha⟩, b, eb, hb'⟩ := near_ends hn hinc h2 Spline.getAccelerationAtTime a0 aT
    (fun s hs => (hi s hs).2) (fun s hs => (hf s hs).2)
  refine ⟨⟨d, ts[0]⟩, ?_, rfl, hmax, fun i hi => ?_, ⟨v, ?_, hv⟩, ⟨a, ?_, ha⟩, ⟨w, ?_, hw⟩, b, ?_, hb'⟩
  · rw [ScalarCurve.fitCurveWith, e, List.head?_eq_getElem?, List.getElem?_eq_getElem (by omega)]
    rfl
  · obtain ⟨p, hp, hq⟩ := hn.knots i hi
    rw [knot_eq hi, knot_eq (by omega)] at hp
    rw [knot_eq (by omega)] at hq
    exact ⟨p, hp, hq⟩
  · simp only [ScalarCurve.evaluateDerivative, if_true, ScalarCurve.getMinTime, sub_self]
    rw [Container.getVelocityAtTime, ev]; rfl
  · simp only [ScalarCurve.evaluateDerivative, ScalarCurve.getMinTime, sub_self]
    rw [if_neg (by omega), if_pos trivial, Container.getAccelerationAtTime, ea]; rfl
  · rw [hmax]
    simp only [ScalarCurve.evaluateDerivative, if_true]
    rw [Container.getVelocityAtTime, ew]; rfl
  · rw [hmax]
    simp only [ScalarCurve.evaluateDerivative]
    rw [if_neg (by omega), if_pos trivial, Container.getAccelerationAtTime, eb]; rfl

theorem acc_reset (S : RawSolver K) (ts ps : List K) (v0 a0 vT aT : K) (c d : Container o K) :
    setDataAcc S ts ps v0 a0 vT aT c = setDataAcc S ts ps v0 a0 vT aT d := rfl

/-- **C156**, vector curve: one linear system per component; if none is missed by more than `ρ`, every
component passes within `ρ` of its values, and its derivatives at both ends are within `ρ` of those
asked for. As for `C33_relative_time`, evaluation times count from the first time. -/
theorem C156_vector (ts : List K) (vs : List (Fin N → K)) (h2 : 2 ≤ ts.length)
    (hb : ts.length ≤ 2 ^ 28) (hl : vs.length = ts.length) (hinc : ts.Pairwise (· < ·))
    (v0 a0 vT aT : Fin N → K) :
    ∃ s : Fin N → Sys K, (∀ i, ∃ x, Solves (s i).rows (s i).cols (s i).A (s i).b x) ∧
      ∀ (S : RawSolver K) (ρ : K), (∀ i, Misses ρ (s i).rows (s i).cols (s i).A (s i).b
        (S.solve (s i).rows (s i).cols (s i).A (s i).b)) →
      ∀ c : VectorCurve N K, ∃ c', c.fitCurveWith S ts vs v0 a0 vT aT = .ok c' ∧
        c'.getMinTime = ts[0] ∧ (0 < N → c'.getMaxTime = .ok (ts[ts.length - 1] - ts[0])) ∧
        ∀ i : Fin N,
          (∀ (k : ℕ) (h : k < ts.length),
            ∃ p, c'.evaluate (ts[k] - ts[0]) i = .ok p ∧ |p - vs[k] i| ≤ ρ) ∧
          (∃ v, c'.evaluateDerivative 0 1 i = .ok (some v) ∧ |v - v0 i| ≤ ρ) ∧
          (∃ a, c'.evaluateDerivative 0 2 i = .ok (some a) ∧ |a - a0 i| ≤ ρ) ∧
          (∃ v, c'.evaluateDerivative (ts[ts.length - 1] - ts[0]) 1 i = .ok (some v) ∧
            |v - vT i| ≤ ρ) ∧
          ∃ a, c'.evaluateDerivative (ts[ts.length - 1] - ts[0]) 2 i = .ok (some a) ∧
            |a - aT i| ≤ ρ := by
  choose s hs h using fun i => C116_accelerations (o := .o5) ts (vs.map (· i)) h2 hb (by simp [hl])
    hinc (v0 i) (a0 i) (vT i) (aT i) (Or.inl rfl)
  refine ⟨s, hs, fun S ρ hm c => ?_⟩
  choose d e hn hi hf using fun i => h i S ρ (hm i) (Container.fresh : Container .o5 K)
  refine ⟨⟨d, ts[0]⟩, ?_, rfl, fun hN => ?_, fun i => ?_⟩
  · rw [VectorCurve.fitCurveWith, List.head?_eq_getElem?, List.getElem?_eq_getElem (by omega)]
    simp only [Outcome.deref_some, Outcome.ok_bind]
    rw [VectorCurve.loop_all _ d (fun i c => ?_)]
    · rfl
    · rw [VectorCurve.collect_ok vs i ts.length 0 (by omega), ← hl]
      simp only [List.drop_zero, List.take_length, Outcome.ok_bind]
      rw [acc_reset S ts _ _ _ _ _ c Container.fresh, e i]
      rfl
  · rw [VectorCurve.getMaxTime, dif_pos hN]
    simp only
    rw [(hn ⟨0, hN⟩).duration, knot_eq (by omega), knot_eq (by omega)]
  · obtain ⟨⟨v, ev, hv⟩, w, ew, hw⟩ := near_ends (hn i) hinc h2 Spline.getVelocityAtTime (v0 i) (vT i)
      (fun s hs => (hi i s hs).1) (fun s hs => (hf i s hs).1)
    obtain ⟨⟨a, ea, ha⟩, b, eb, hb'⟩ := near_ends (hn i) hinc h2 Spline.getAccelerationAtTime (a0 i) (aT i)
      (fun s hs => (hi i s hs).2) (fun s hs => (hf i s hs).2)
    refine ⟨fun k hk => ?_, ⟨v, ?_, hv⟩, ⟨a, ?_, ha⟩, ⟨w, ?_, hw⟩, b, ?_, hb'⟩
    · obtain ⟨p, hp, hq⟩ := (hn i).knots k hk
      rw [knot_eq hk, knot_eq (by omega)] at hp
      rw [knot_eq (by simp; omega), List.getElem_map] at hq
      exact ⟨p, hp, hq⟩
    · simp only [VectorCurve.evaluateDerivative, if_true]
      rw [Container.getVelocityAtTime, ev]; rfl
    · simp only [VectorCurve.evaluateDerivative]
      rw [if_neg (by omega), if_pos trivial, Container.getAccelerationAtTime, ea]; rfl
    · simp only [VectorCurve.evaluateDerivative, if_true]
      rw [Container.getVelocityAtTime, ew]; rfl
    · simp only [VectorCurve.evaluateDerivative]
      rw [if_neg (by omega), if_pos trivial, Container.getAccelerationAtTime, eb]; rfl

theorem options_raw (S : RawSolver K) (l : List (Options K)) : ∀ c : Container o K,
    l.foldl (fun d p => d.addSpline ((Spline.empty o).computeCoefficients S p).2) c =
      { c with splines := c.splines ++ l.map fun p => ((Spline.empty o).computeCoefficients S p).2
               duration := c.duration + (l.map Options.tf).sum } := by
  induction l with
  | nil => intro c; simp
  | cons p l ih =>
    intro c
    rw [List.foldl_cons, ih]
    simp [Container.addSpline, Spline.computeCoefficients, add_assoc]

theorem start_map (f : Options K → Spline o K) (hf : ∀ p, (f p).duration = p.tf) (l : List (Options K)) (k : ℕ) :
    start (l.map f) k = ((l.take k).map Options.tf).sum := by
  rw [start, total, ← List.map_take, List.map_map]
  congr 1
  exact List.map_congr_left fun p _ => hf p

/-- **C156**, scalar curve from a list of segments (only compiled for the quintic container), on a new
or cleared curve: if no segment's linear system is missed by more than `ρ`, then at the beginning of
every segment the curve is within `ρ` of that segment's initial position, velocity and acceleration,
and at the end of the domain within `ρ` of the final ones of the last segment. -/
theorem C156_options (l : List (Options K)) (hl : ∀ p ∈ l, 0 < p.tf) :
    ∃ (rows cols : ℕ → ℕ) (A : ℕ → ℕ → ℕ → K) (b : ℕ → ℕ → K),
      (∀ i < l.length, ∃ x, Solves (rows i) (cols i) (A i) (b i) x) ∧
      ∀ (S : RawSolver K) (ρ : K), 0 ≤ ρ → (∀ i < l.length, Misses ρ (rows i) (cols i) (A i) (b i)
        (S.solve (rows i) (cols i) (A i) (b i))) →
      ∀ c c' : ScalarCurve .o5 K, c' = c.clear.fitCurveOptions S l →
        c'.getMinTime = 0 ∧ c'.getMaxTime = (l.map Options.tf).sum ∧
        (∀ (i : ℕ) (h : i < l.length) (t : K), t = ((l.take i).map Options.tf).sum →
          (∃ p, c'.evaluate t = .ok p ∧ |p - l[i].pos0| ≤ ρ) ∧
          (∃ v, c'.evaluateDerivative t 1 = .ok (some v) ∧ |v - l[i].vel0| ≤ ρ) ∧
          ∃ a, c'.evaluateDerivative t 2 = .ok (some a) ∧ |a - l[i].acc0| ≤ ρ) ∧
        ∀ q, l.getLast? = some q →
          (∃ p, c'.evaluate c'.getMaxTime = .ok p ∧ |p - q.posT| ≤ ρ) ∧
          (∃ v, c'.evaluateDerivative c'.getMaxTime 1 = .ok (some v) ∧ |v - q.velT| ≤ ρ) ∧
          ∃ a, c'.evaluateDerivative c'.getMaxTime 2 = .ok (some a) ∧ |a - q.accT| ≤ ρ := by
  have key : ∀ i, ∃ (rows cols : ℕ) (A : ℕ → ℕ → K) (b : ℕ → K), i < l.length →
      (∃ x, Solves rows cols A b x) ∧ ∀ (S : RawSolver K) (ρ : K), 0 ≤ ρ →
      Misses ρ rows cols A b (S.solve rows cols A b) → ∀ p, l[i]? = some p →
      ∃ s, (Spline.empty .o5).computeCoefficients S p = (true, s) ∧ s.duration = p.tf ∧
        |s.getPositionAtTime 0 - p.pos0| ≤ ρ ∧ |s.getPositionAtTime p.tf - p.posT| ≤ ρ ∧
        |s.getVelocityAtTime 0 - p.vel0| ≤ ρ ∧ |s.getVelocityAtTime p.tf - p.velT| ≤ ρ ∧
        |s.getAccelerationAtTime 0 - p.acc0| ≤ ρ ∧ |s.getAccelerationAtTime p.tf - p.accT| ≤ ρ := by
    intro i
    by_cases hi : i < l.length
    · obtain ⟨r, c, A, b, hx, h⟩ := C116_segment (K := K) .o5 l[i] (hl _ (List.getElem_mem _))
      refine ⟨r, c, A, b, fun _ => ⟨hx, fun S ρ h0 hm p hp => ?_⟩⟩
      rw [List.getElem?_eq_getElem hi] at hp
      cases hp
      obtain ⟨s, e, k1, k2, k3, k4, k5, k6, k7⟩ := h S ρ h0 hm (Spline.empty .o5)
      exact ⟨s, e, k1, k2, k3, k4 (by decide), k5 (by decide), k6 (by decide), k7 (by decide)⟩
    · exact ⟨0, 0, fun _ _ => 0, fun _ => 0, fun h => absurd h hi⟩
  choose rows cols A b h using key
  refine ⟨rows, cols, A, b, fun i hi => (h i hi).1, fun S ρ h0 hm c c' hc => ?_⟩
  have hk : c'.container.splines = l.map fun p => ((Spline.empty .o5).computeCoefficients S p).2 := by
    rw [hc, ScalarCurve.fitCurveOptions, options_raw]
    simp [ScalarCurve.clear, Container.reset, Container.resetTime]
  have hd : c'.container.duration = (l.map Options.tf).sum := by
    rw [hc, ScalarCurve.fitCurveOptions, options_raw]
    simp [ScalarCurve.clear, Container.reset, Container.resetTime]
  have hm0 : c'.minTime = 0 := by rw [hc]; rfl
  have hdur : ∀ p : Options K, ((Spline.empty .o5).computeCoefficients S p).2.duration = p.tf := fun p => rfl
  have hpos : ∀ s ∈ c'.container.splines, 0 ≤ s.duration := by
    rw [hk]
    intro s hs
    obtain ⟨p, hp, rfl⟩ := List.mem_map.mp hs
    exact (hl p hp).le
  have hmax : c'.getMaxTime = (l.map Options.tf).sum := by rw [ScalarCurve.getMaxTime, hd, hm0, add_zero]
  have hst : ∀ k, start c'.container.splines k = ((l.take k).map Options.tf).sum := fun k => by
    rw [hk, start_map _ hdur]
  have hget : ∀ i (hi : i < l.length), c'.container.splines[i]? =
      some ((Spline.empty .o5).computeCoefficients S l[i]).2 := fun i hi => by
    rw [hk, List.getElem?_map, List.getElem?_eq_getElem hi]; rfl
  have at0 : ∀ (f : Spline .o5 K → K → K) (i : ℕ) (hi : i < l.length),
      c'.container.atTime f ((l.take i).map Options.tf).sum =
        .ok (f ((Spline.empty .o5).computeCoefficients S l[i]).2 0) := fun f i hi => by
    rw [atTime_half_open f c'.container hpos i _ (hget i hi) _ (hst i).le
      (by rw [hst]; exact lt_add_of_pos_right _ (by rw [hdur]; exact hl _ (List.getElem_mem _))), hst, sub_self]
  have atT : ∀ (f : Spline .o5 K → K → K) (q : Options K), l.getLast? = some q →
      c'.container.atTime f (l.map Options.tf).sum =
        .ok (f ((Spline.empty .o5).computeCoefficients S q).2 q.tf) := fun f q hq => by
    have hne : l ≠ [] := by rintro rfl; simp at hq
    have hq' := hq
    rw [List.getLast?_eq_getElem?] at hq'
    obtain ⟨hj, hj'⟩ := List.getElem?_eq_some_iff.mp hq'
    have hlen : c'.container.splines.length = l.length := by rw [hk, List.length_map]
    have e1 := hget _ hj
    rw [hj'] at e1
    have ss := start_succ _ _ _ e1
    rw [hst, hst, hdur, show l.length - 1 + 1 = l.length by omega, List.take_length] at ss
    rw [atTime_beyond f c'.container hpos ((Spline.empty .o5).computeCoefficients S q).2
      (by rw [List.getLast?_eq_getElem?, hlen]; exact e1), hlen, hst, ss, add_sub_cancel_left]
    rw [← start_length, hst, hlen, List.take_length]
  refine ⟨hm0, hmax, fun i hi t ht => ?_, fun q hq => ?_⟩
  · obtain ⟨s, e, -, k1, -, k2, -, k3, -⟩ := (h i hi).2 S ρ h0 (hm i hi) _ (List.getElem?_eq_getElem hi)
    have es : ((Spline.empty .o5).computeCoefficients S l[i]).2 = s := by rw [e]
    subst ht
    refine ⟨⟨_, ?_, k1⟩, ⟨_, ?_, k2⟩, ⟨_, ?_, k3⟩⟩
    · rw [ScalarCurve.evaluate, Container.getPositionAtTime, hm0, sub_zero, at0 _ i hi, es]
    · rw [ScalarCurve.evaluateDerivative, if_pos rfl, Container.getVelocityAtTime, hm0, sub_zero, at0 _ i hi, es]
      rfl
    · rw [ScalarCurve.evaluateDerivative, if_neg (by omega), if_pos rfl, Container.getAccelerationAtTime, hm0,
        sub_zero, at0 _ i hi, es]
      rfl
  · have hq' := hq
    rw [List.getLast?_eq_getElem?] at hq'
    obtain ⟨hj, -⟩ := List.getElem?_eq_some_iff.mp hq'
    obtain ⟨s, e, -, -, k1, -, k2, -, k3⟩ := (h _ hj).2 S ρ h0 (hm _ hj) q hq'
    have es : ((Spline.empty .o5).computeCoefficients S q).2 = s := by rw [e]
    rw [hmax]
    refine ⟨⟨_, ?_, k1⟩, ⟨_, ?_, k2⟩, ⟨_, ?_, k3⟩⟩
    · rw [ScalarCurve.evaluate, Container.getPositionAtTime, hm0, sub_zero, atT _ q hq, es]
    · rw [ScalarCurve.evaluateDerivative, if_pos rfl, Container.getVelocityAtTime, hm0, sub_zero, atT _ q hq, es]
      rfl
    · rw [ScalarCurve.evaluateDerivative, if_neg (by omega), if_pos rfl, Container.getAccelerationAtTime, hm0,
        sub_zero, atT _ q hq, es]
      rfl

/-- Times not starting at 0 and a solver that misses the equations by a hundredth at most. -/
example (c : ScalarCurve .o5 ℚ) : ∃ s : Sys ℚ, (∃ x, Solves s.rows s.cols s.A s.b x) ∧
    ∀ S : RawSolver ℚ, Misses (1 / 100) s.rows s.cols s.A s.b (S.solve s.rows s.cols s.A s.b) →
      ∃ c', c.fitCurveWith S [2, 3, 7] [1, -1, 4] 1 0 0 2 = .ok c' ∧ c'.getMaxTime = 7 ∧
        ∃ p, c'.evaluate 3 = .ok p ∧ |p - (-1)| ≤ 1 / 100 := by
  obtain ⟨s, hx, h⟩ := C156_scalar (o := .o5) [2, 3, 7] [1, -1, 4] (by simp) (by simp) rfl
    (by decide +kernel) (1 : ℚ) 0 0 2 (Or.inl rfl)
  refine ⟨s, hx, fun S hm => ?_⟩
  obtain ⟨c', e, -, hT, hk, -⟩ := h S _ hm c
  exact ⟨c', e, hT, hk 1 (by simp)⟩

/-- An exact solver misses nothing, so that the hypotheses of the vector curve can be met. -/
example (c : VectorCurve 2 ℚ) : ∃ (S : RawSolver ℚ) (c' : VectorCurve 2 ℚ),
    c.fitCurveWith S [2, 3, 7] [![1, 0], ![-1, 5], ![4, 4]] ![1, 0] ![0, 0] ![0, 0] ![0, 2] = .ok c' ∧
      ∃ p, c'.evaluate (3 - 2) 1 = .ok p ∧ |p - 5| ≤ 0 := by
  obtain ⟨S⟩ := solver_exists (K := ℚ)
  obtain ⟨s, hx, h⟩ := C156_vector (N := 2) [2, 3, 7] [![1, 0], ![-1, 5], ![4, 4]] (by simp) (by simp) rfl
    (by decide +kernel) (![1, 0] : Fin 2 → ℚ) ![0, 0] ![0, 0] ![0, 2]
  obtain ⟨c', e, -, -, hk⟩ := h S 0 (fun i r hr => by
    rw [S.exact _ _ _ _ (hx i) r hr]
    simp) c
  exact ⟨S, c', e, (hk 1).1 1 (by simp)⟩

/-- Two segments, the second beginning at time 2 where the first ends elsewhere. -/
example (c : ScalarCurve .o5 ℚ) : ∃ S : RawSolver ℚ, ∃ p,
    (c.clear.fitCurveOptions S [⟨2, 0, 1, 0, 0, 0, 0⟩, ⟨3, 5, 6, 1, 0, 0, 0⟩]).evaluate 2 = .ok p ∧
      |p - 5| ≤ 0 := by
  obtain ⟨S⟩ := solver_exists (K := ℚ)
  obtain ⟨r, n, A, b, hx, h⟩ := C156_options (K := ℚ) [⟨2, 0, 1, 0, 0, 0, 0⟩, ⟨3, 5, 6, 1, 0, 0, 0⟩]
    (by simp)
  obtain ⟨-, -, hk, -⟩ := h S 0 le_rfl (fun i hi j hj => by
    rw [S.exact _ _ _ _ (hx i hi) j hj]
    simp) c _ rfl
  exact ⟨S, (hk 1 (by simp) 2 (by simp)).1⟩

end Verif.PolyCurve

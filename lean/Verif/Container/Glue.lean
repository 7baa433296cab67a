import Mathlib.Analysis.Calculus.Deriv.Shift
import Verif.Container.Fit
import Verif.Spline.Props

/-! # Joining segments: evaluation on closed segments, continuity and derivatives -/

set_option linter.unusedSectionVars false
set_option linter.dupNamespace false

namespace Verif.Container

open Verif.Spline

section field
variable {K : Type} [Field K] [LinearOrder K] [IsStrictOrderedRing K] {o : Order}

theorem knot_eq {l : List K} {i : ℕ} (h : i < l.length) : knot l i = l[i] := by
  simp [knot, List.getElem?_eq_getElem h]

/-- The contract of the linear solver can be met. -/
theorem solver_exists : Nonempty (Solver K) := by
  classical
  exact ⟨⟨⟨fun r c A b => if h : ∃ x, Solves r c A b x then h.choose else 0⟩, fun r c A b h => by
    simp only [h, dif_pos]; exact h.choose_spec⟩⟩

namespace Container

/-- Half-open evaluation. -/
theorem atTime_half_open (f : Spline o K → K → K) (c : Container o K)
    (hpos : ∀ s ∈ c.splines, 0 ≤ s.duration) (k : ℕ) (s : Spline o K) (hs : c.splines[k]? = some s)
    (t : K) (h0 : start c.splines k ≤ t) (h1 : t < start c.splines k + s.duration) :
    c.atTime f t = .ok (f s (t - start c.splines k)) := by
  have hk : k < c.splines.length := by
    by_contra hcon
    rw [List.getElem?_eq_none (by omega)] at hs; simp at hs
  rw [atTime_of_find f _ c k (start c.splines k) s hs]
  rw [findLoop_hit _ _ 0 0 k hk]
  · simp
  · intro j hj
    rw [zero_add]
    exact (start_mono hpos (by omega) hk.le).trans h0
  · rwa [zero_add, start_succ _ _ _ hs]

theorem atTime_beyond (f : Spline o K → K → K) (c : Container o K)
    (hpos : ∀ s ∈ c.splines, 0 ≤ s.duration) (s : Spline o K) (hs : c.splines.getLast? = some s)
    (t : K) (h : total c.splines ≤ t) :
    c.atTime f t = .ok (f s (t - start c.splines (c.splines.length - 1))) := by
  have hne : c.splines ≠ [] := by rintro e; rw [e] at hs; simp at hs
  rw [List.getLast?_eq_getElem?] at hs
  rw [atTime_of_find f _ c _ _ s hs]
  rw [findLoop_miss _ _ 0 0 hne]
  · simp
  · intro j hj
    rw [zero_add]
    exact (start_mono hpos (by omega) le_rfl).trans ((start_length _).le.trans h)

/-- If the values agree at the junctions, evaluation is segment `k` on its closed interval. -/
theorem atTime_closed (f : Spline o K → K → K) (c : Container o K)
    (hpos : ∀ s ∈ c.splines, 0 < s.duration)
    (hj : ∀ j s s', c.splines[j]? = some s → c.splines[j + 1]? = some s' → f s s.duration = f s' 0)
    (k : ℕ) (s : Spline o K) (hs : c.splines[k]? = some s)
    (t : K) (h0 : start c.splines k ≤ t) (h1 : t ≤ start c.splines k + s.duration) :
    c.atTime f t = .ok (f s (t - start c.splines k)) := by
  rcases h1.lt_or_eq with h1 | h1
  · exact atTime_half_open f c (fun s hs => (hpos s hs).le) k s hs t h0 h1
  · have hsucc := start_succ _ _ _ hs
    cases hs' : c.splines[k + 1]? with
    | some s' =>
      have hp := hpos s' (List.mem_of_getElem? hs')
      rw [atTime_half_open f c (fun s hs => (hpos s hs).le) (k + 1) s' hs' t (by rw [hsucc, h1])
        (by rw [hsucc, h1]; linarith)]
      rw [hsucc, h1, sub_self, ← hj k s s' hs hs', add_sub_cancel_left]
    | none =>
      have hk : k < c.splines.length := by
        by_contra hcon
        rw [List.getElem?_eq_none (by omega)] at hs; simp at hs
      rw [List.getElem?_eq_none_iff] at hs'
      have hlen : c.splines.length - 1 = k := by omega
      rw [atTime_beyond f c (fun s hs => (hpos s hs).le) s
        (by rw [List.getLast?_eq_getElem?, hlen, hs]) t
        (by rw [← start_length, show c.splines.length = k + 1 by omega, hsucc, h1]), hlen]

/-- Every time inside the duration lies in some segment. -/
theorem exists_segment (l : List (Spline o K)) (t : K) (h0 : 0 ≤ t) (h1 : t < total l) :
    ∃ k s, l[k]? = some s ∧ start l k ≤ t ∧ t < start l k + s.duration := by
  have hne : l ≠ [] := by rintro rfl; simp at h1; linarith
  obtain ⟨k, hk, -, h2, h3⟩ := findLoop_cases t l hne
  have e := List.getElem?_eq_getElem hk
  refine ⟨k, l[k], e, ?_, ?_⟩
  · cases k with
    | zero => simpa using h0
    | succ k => exact h2 k (by omega)
  · rw [← start_succ _ _ _ e]
    rcases h3 with h3 | h3
    · exact h3
    · rw [h3, start_length]; exact h1

theorem atTime_isOk (f : Spline o K → K → K) (c : Container o K) (t : K) :
    ∃ x, c.atTime f t = .ok x := by
  by_cases h : c.splines = []
  · exact ⟨0, atTime_empty f t c h⟩
  · obtain ⟨k, hk, e, -⟩ := findLoop_cases t c.splines h
    exact ⟨_, atTime_of_find f t c k _ _ (List.getElem?_eq_getElem hk) e⟩

end Container
end field

section real
variable {o : Order}

theorem hasDerivAt_glue {f p q : ℝ → ℝ} {a t b d : ℝ} (ha : a < t) (hb : t < b)
    (hp : ∀ u, a ≤ u → u ≤ t → f u = p u) (hq : ∀ u, t ≤ u → u ≤ b → f u = q u)
    (hpd : HasDerivAt p d t) (hqd : HasDerivAt q d t) : HasDerivAt f d t := by
  have h1 : HasDerivWithinAt f d (Set.Iic t) t := by
    refine hpd.hasDerivWithinAt.congr_of_eventuallyEq ?_ (hp t ha.le le_rfl)
    filter_upwards [Icc_mem_nhdsLE ha] with u hu using hp u hu.1 hu.2
  have h2 : HasDerivWithinAt f d (Set.Ici t) t := by
    refine hqd.hasDerivWithinAt.congr_of_eventuallyEq ?_ (hq t le_rfl hb.le)
    filter_upwards [Icc_mem_nhdsGE hb] with u hu using hq u hu.1 hu.2
  have := h1.union h2
  rwa [Set.Iic_union_Ici, hasDerivWithinAt_univ] at this

theorem continuousAt_glue {f p q : ℝ → ℝ} {a t b : ℝ} (ha : a < t) (hb : t < b)
    (hp : ∀ u, a ≤ u → u ≤ t → f u = p u) (hq : ∀ u, t ≤ u → u ≤ b → f u = q u)
    (hpc : ContinuousAt p t) (hqc : ContinuousAt q t) : ContinuousAt f t := by
  have h1 : ContinuousWithinAt f (Set.Iic t) t := by
    refine hpc.continuousWithinAt.congr_of_eventuallyEq ?_ (hp t ha.le le_rfl)
    filter_upwards [Icc_mem_nhdsLE ha] with u hu using hp u hu.1 hu.2
  have h2 : ContinuousWithinAt f (Set.Ici t) t := by
    refine hqc.continuousWithinAt.congr_of_eventuallyEq ?_ (hq t le_rfl hb.le)
    filter_upwards [Icc_mem_nhdsGE hb] with u hu using hq u hu.1 hu.2
  have := h1.union h2
  rwa [Set.Iic_union_Ici, continuousWithinAt_univ] at this

namespace Container

open Polynomial

/-- Position, velocity and acceleration of a container whose segments join up. -/
theorem glue_c2 (c : Container o ℝ) (hpos : ∀ s ∈ c.splines, 0 < s.duration)
    (hp : ∀ j s s', c.splines[j]? = some s → c.splines[j + 1]? = some s' →
      s.getPositionAtTime s.duration = s'.getPositionAtTime 0)
    (hsm : Smooth c) : ∃ pos vel acc : ℝ → ℝ,
      (∀ t, c.getPositionAtTime t = .ok (pos t)) ∧ (∀ t, c.getVelocityAtTime t = .ok (vel t)) ∧
      (∀ t, c.getAccelerationAtTime t = .ok (acc t)) ∧
      ∀ t, 0 < t → t < total c.splines →
        HasDerivAt pos (vel t) t ∧ HasDerivAt vel (acc t) t ∧ ContinuousAt acc t := by
  choose pos hpos' using fun t => atTime_isOk Spline.getPositionAtTime c t
  choose vel hvel using fun t => atTime_isOk Spline.getVelocityAtTime c t
  choose acc hacc using fun t => atTime_isOk Spline.getAccelerationAtTime c t
  refine ⟨pos, vel, acc, hpos', hvel, hacc, ?_⟩
  -- the polynomials on closed segments
  have key : ∀ k s, c.splines[k]? = some s → ∀ u, start c.splines k ≤ u →
      u ≤ start c.splines k + s.duration →
      pos u = (toPoly s.coeffs).eval (u - start c.splines k) ∧
      vel u = (toPoly s.coeffs).derivative.eval (u - start c.splines k) ∧
      acc u = (toPoly s.coeffs).derivative.derivative.eval (u - start c.splines k) := by
    intro k s hs u h0 h1
    have e1 := (hpos' u).symm.trans (atTime_closed _ c hpos hp k s hs u h0 h1)
    have e2 := (hvel u).symm.trans (atTime_closed _ c hpos hsm.vel k s hs u h0 h1)
    have e3 := (hacc u).symm.trans (atTime_closed _ c hpos hsm.acc k s hs u h0 h1)
    injection e1 with e1; injection e2 with e2; injection e3 with e3
    rw [e1, e2, e3]
    exact ⟨getPosition_eq s _ (by linarith) (by linarith), getVelocity_eq s _ (by linarith) (by linarith),
      getAcceleration_eq s _ (by linarith) (by linarith)⟩
  have hd : ∀ (P : ℝ[X]) (a t : ℝ), HasDerivAt (fun u => P.eval (u - a)) (P.derivative.eval (t - a)) t := by
    intro P a t
    have := HasDerivAt.comp_sub_const t a (P.hasDerivAt (t - a))
    exact this
  -- two adjacent closed segments
  have main : ∀ (a t b : ℝ) (P Q : ℝ[X]) (x y : ℝ), a < t → t < b →
      (∀ u, a ≤ u → u ≤ t → pos u = P.eval (u - x) ∧ vel u = P.derivative.eval (u - x) ∧
        acc u = P.derivative.derivative.eval (u - x)) →
      (∀ u, t ≤ u → u ≤ b → pos u = Q.eval (u - y) ∧ vel u = Q.derivative.eval (u - y) ∧
        acc u = Q.derivative.derivative.eval (u - y)) →
      HasDerivAt pos (vel t) t ∧ HasDerivAt vel (acc t) t ∧ ContinuousAt acc t := by
    intro a t b P Q x y ha hb hP hQ
    refine ⟨hasDerivAt_glue ha hb (fun u h1 h2 => (hP u h1 h2).1) (fun u h1 h2 => (hQ u h1 h2).1) ?_ ?_,
      hasDerivAt_glue ha hb (fun u h1 h2 => (hP u h1 h2).2.1) (fun u h1 h2 => (hQ u h1 h2).2.1) ?_ ?_,
      continuousAt_glue ha hb (fun u h1 h2 => (hP u h1 h2).2.2) (fun u h1 h2 => (hQ u h1 h2).2.2) ?_ ?_⟩
    · rw [(hP t ha.le le_rfl).2.1]; exact hd _ _ _
    · rw [(hQ t le_rfl hb.le).2.1]; exact hd _ _ _
    · rw [(hP t ha.le le_rfl).2.2]; exact hd _ _ _
    · rw [(hQ t le_rfl hb.le).2.2]; exact hd _ _ _
    · exact (hd _ _ _).continuousAt
    · exact (hd _ _ _).continuousAt
  intro t h0 h1
  obtain ⟨k, s, hs, hk0, hk1⟩ := exists_segment c.splines t h0.le h1
  rcases hk0.lt_or_eq with hlt | heq
  · exact main (start c.splines k) t (start c.splines k + s.duration) (toPoly s.coeffs)
      (toPoly s.coeffs) _ _ hlt hk1 (fun u a b => key k s hs u a (by linarith))
      (fun u a b => key k s hs u (by linarith) b)
  · cases k with
    | zero => simp at heq; linarith
    | succ k =>
      have hk : k < c.splines.length := by
        by_contra hcon
        rw [List.getElem?_eq_none (by omega)] at hs; simp at hs
      have e := List.getElem?_eq_getElem hk
      have hsu := start_succ _ _ _ e
      have hps := hpos _ (List.mem_of_getElem? e)
      refine main (start c.splines k) t (start c.splines (k + 1) + s.duration)
        (toPoly c.splines[k].coeffs) (toPoly s.coeffs) _ _ (by linarith) hk1
        (fun u a b => key k _ e u a (by linarith)) (fun u a b => key (k + 1) s hs u (by linarith) b)

end Container
end real
end Verif.Container

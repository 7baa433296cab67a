import Verif.Hermite.SE3Props
import Verif.Hermite.E3Props
import Verif.Hermite.EquivLemmas
import Verif.Manager.MapLemmas

/-!
# The translation of an SE3 Hermite curve is an E3 Hermite curve

C123.
-/

set_option linter.unusedSectionVars false
set_option linter.dupNamespace false

namespace Verif.Hermite.SE3

open Verif.Manager Verif.Kindr

variable {V : Type} [AddCommGroup V] [Module ℝ V]

/-- Position and translational velocity of a knot, seen through a linear map (the identity, a coordinate, ...). -/
def knotShadow (φ : Vec3 →ₗ[ℝ] V) (k : HKnot) : Knot V :=
  ⟨φ k.transformation.position, φ k.derivative.translationalVelocity⟩

/-- The vector curve with the positions and translational velocities of a curve. -/
def shadow (φ : Vec3 →ₗ[ℝ] V) (c : SE3) : E3 ℝ V := ⟨c.w, c.m.conv (knotShadow φ)⟩

theorem slope_shadow (L : LogMap) (φ : Vec3 →ₗ[ℝ] V) (ta tb : ℝ) (a b : Pose) :
    E3.calculateSlope ta tb (φ a.position) (φ b.position) =
      φ (calculateSlope L ta tb a b).translationalVelocity := by
  simp [E3.calculateSlope, calculateSlope, map_smul, map_sub]

theorem deref_map {α β : Type} (f : α → β) (o : Option α) :
    Outcome.deref (o.map f) = (Outcome.deref o >>= fun a => .ok (f a)) := by cases o <;> rfl

theorem knotDerivative_shadow (L : LogMap) (φ : Vec3 →ₗ[ℝ] V) (ts : List ℝ) (vs : List Pose) (d0 dT : Twist)
    (i : Nat) :
    E3.knotDerivative ts (vs.map fun v => φ v.position) (φ d0.translationalVelocity) (φ dT.translationalVelocity) i =
      (knotDerivative L ts vs d0 dT i >>= fun d => .ok (φ d.translationalVelocity)) := by
  unfold E3.knotDerivative knotDerivative
  split
  · rfl
  · split
    · rfl
    · simp only [List.getElem?_map, deref_map]
      cases Outcome.deref ts[i - 1]? <;> try rfl
      cases Outcome.deref ts[i + 1]? <;> try rfl
      cases Outcome.deref vs[i - 1]? <;> try rfl
      cases Outcome.deref vs[i + 1]? <;> try rfl
      simp only [Outcome.ok_bind, slope_shadow L]

theorem fitLoop_shadow (L : LogMap) (φ : Vec3 →ₗ[ℝ] V) (ts : List ℝ) (vs : List Pose) (d0 dT : Twist) :
    ∀ n i, E3.fitLoop ts (vs.map fun v => φ v.position) (φ d0.translationalVelocity) (φ dT.translationalVelocity) n i =
      (fitLoop L ts vs d0 dT n i >>= fun cs => .ok (cs.map (knotShadow φ))) := by
  intro n
  induction n with
  | zero => intro i; rfl
  | succ n ih =>
    intro i
    simp only [E3.fitLoop, fitLoop, knotDerivative_shadow L, List.getElem?_map, deref_map, ih]
    cases knotDerivative L ts vs d0 dT i <;> try rfl
    cases Outcome.deref vs[i]? <;> try rfl
    simp only [Outcome.ok_bind]
    cases fitLoop L ts vs d0 dT n (i + 1) <;> rfl

/-- C123, fitting. Fitting an SE3 curve with given end derivatives does to its translation what clearing and
fitting the E3 curve to the positions does: same outcome, same keys. -/
theorem C123_fit (L : LogMap) (φ : Vec3 →ₗ[ℝ] V) (ts : List ℝ) (vs : List Pose) (d0 dT : Twist) (c : SE3) :
    E3.fitCurveWithDerivatives true ts (vs.map fun v => φ v.position) (φ d0.translationalVelocity)
        (φ dT.translationalVelocity) (shadow φ c).clear =
      (fitCurveWithDerivatives L ts vs d0 dT c >>= fun r => .ok (shadow φ r.1, r.2)) := by
  unfold E3.fitCurveWithDerivatives fitCurveWithDerivatives
  by_cases h : ts.length = vs.length
  · rw [if_neg (by simp [h]), if_neg (by simp [h]), fitLoop_shadow L]
    simp only
    cases fitLoop L ts vs d0 dT ts.length 0 with
    | ok cs =>
      simp only [Outcome.ok_bind]
      have := insertCoefficients_conv (knotShadow φ) c.w c.clear.m ts cs
      rw [show (shadow φ c).clear.m = c.clear.m.conv (knotShadow φ) from rfl,
        show (shadow φ c).clear.w = c.w from rfl, this, show c.clear.w = c.w from rfl]
      cases c.clear.m.insertCoefficients c.w ts cs <;> rfl
    | abort => rfl
    | throw => rfl
    | ub => rfl
  · rw [if_pos (by simp [h]), if_pos (by simp [h])]
    rfl

/-- C123, fitting at rest and periodic fitting. -/
theorem C123_fit_other (L : LogMap) (φ : Vec3 →ₗ[ℝ] V) (ts : List ℝ) (vs : List Pose) (c : SE3) :
    E3.fitCurve true ts (vs.map fun v => φ v.position) (shadow φ c).clear =
      (fitCurve L ts vs c >>= fun r => .ok (shadow φ r.1, r.2)) ∧
    E3.fitPeriodicCurve true ts (vs.map fun v => φ v.position) (shadow φ c).clear =
      (fitPeriodicCurve L ts vs c >>= fun r => .ok (shadow φ r.1, r.2)) := by
  constructor
  · have := C123_fit L φ ts vs Twist.zero Twist.zero c
    simpa [Twist.zero, fitCurve, E3.fitCurve] using this
  · unfold E3.fitPeriodicCurve fitPeriodicCurve
    split
    · rfl
    · simp only [List.getElem?_map, deref_map]
      cases Outcome.deref ts[ts.length - 2]? <;> try rfl
      cases Outcome.deref ts[1]? <;> try rfl
      cases Outcome.deref vs[ts.length - 2]? <;> try rfl
      cases Outcome.deref vs[1]? <;> try rfl
      simp only [Outcome.ok_bind, slope_shadow L]
      exact C123_fit L φ ts vs _ _ c

/-- First coordinates only: three poses, whatever was in the curve before. -/
example (L : LogMap) : ∃ c' ks, fitCurve L [0, 1, 3] [⟨0, 1⟩, ⟨![1, 2, 3], 1⟩, ⟨![6, 0, 0], quat 0 ![1, 0, 0]⟩] demo =
      .ok (c', ks) ∧
    E3.fitCurve true [0, 1, 3] [0, 1, 6] (E3.fresh demo.w) = .ok (shadow (LinearMap.proj 0) c', ks) := by
  obtain ⟨c', ks, e, -⟩ := C39_replaces L demo [0, 1, 3]
    [⟨0, 1⟩, ⟨![1, 2, 3], 1⟩, ⟨![6, 0, 0], quat 0 ![1, 0, 0]⟩] rfl (by norm_num) Twist.zero Twist.zero
  refine ⟨c', ks, e, ?_⟩
  have := (C123_fit_other L (LinearMap.proj 0) [0, 1, 3] [⟨0, 1⟩, ⟨![1, 2, 3], 1⟩, ⟨![6, 0, 0], quat 0 ![1, 0, 0]⟩] demo).1
  rw [show fitCurve L [0, 1, 3] [⟨0, 1⟩, ⟨![1, 2, 3], 1⟩, ⟨![6, 0, 0], quat 0 ![1, 0, 0]⟩] demo = .ok (c', ks) from e,
    show (shadow (LinearMap.proj 0) demo).clear = (E3.fresh demo.w : E3 ℝ ℝ) from rfl] at this
  simpa using this

/-- Evaluation of a vector curve with the positions and velocities of an SE3 curve. -/
theorem evaluate_shadow {L : LogMap} (φ : Vec3 →ₗ[ℝ] V) {c : SE3} (hs : Sorted c.m.nodes) {e : E3 ℝ V}
    (h : e.m.knots = c.m.knots.map fun p => (p.1, knotShadow φ p.2)) (t : ℝ) :
    E3.evaluate t e = (evaluate L t c >>= fun r => .ok (r.map fun x => φ x.position)) ∧
    E3.evaluateDerivative t 1 e = (evaluateDerivative L t 1 c >>= fun r => .ok (r.map fun x => φ x.translationalVelocity)) ∧
    E3.evaluateDerivative t 2 e = (evaluateLinearAcceleration t c >>= fun r => .ok (r.map φ)) := by
  refine ⟨?_, ?_, ?_⟩
  · rw [E3.evaluate_eq, evaluate_eq]
    refine evalWith_related hs (fun x : Pose => φ x.position) h (fun n _ => rfl) t ?_
    intro a b a' b' _ _ _ h1 h2 h3 h4
    simp only [E3.interpolate, interpolate, h1, h2, h3, h4, knotShadow, map_add, map_smul]
  · rw [E3.velocity_eq, evaluateDerivative_eq]
    refine evalWith_related hs (fun x : Twist => φ x.translationalVelocity) h (fun n _ => rfl) t ?_
    intro a b a' b' _ _ _ h1 h2 h3 h4
    rw [velocity_eq]
    simp only [E3.interpolateVelocity, tr, translationPart, h1, h2, h3, h4, knotShadow, map_add, map_smul]
  · rw [E3.evaluateDerivative, if_neg (by omega), if_pos rfl, E3.evaluateLinearAcceleration, evaluateLinearAcceleration]
    rcases related_getAt h hs t with ⟨e1, e2⟩ | ⟨a, b, a', b', e1, e2, h1, h2, h3, h4⟩
    · rw [e1, e2]; rfl
    · rw [e1, e2]
      simp only [E3.interpolateAcceleration, interpolateAcceleration, h1, h2, h3, h4, knotShadow, map_add, map_smul,
        Outcome.ok_bind, Option.map_some]

/-- C123, evaluating. Position, translational velocity and acceleration of an SE3 curve are what the E3 curve with
the same knots reports, including where there is no value. -/
theorem C123_evaluate {L : LogMap} (φ : Vec3 →ₗ[ℝ] V) {c : SE3} (hr : Reachable L c) (t : ℝ) :
    E3.evaluate t (shadow φ c) = (evaluate L t c >>= fun r => .ok (r.map fun x => φ x.position)) ∧
    E3.evaluateDerivative t 1 (shadow φ c) =
      (evaluateDerivative L t 1 c >>= fun r => .ok (r.map fun x => φ x.translationalVelocity)) ∧
    E3.evaluateDerivative t 2 (shadow φ c) = (evaluateLinearAcceleration t c >>= fun r => .ok (r.map φ)) :=
  evaluate_shadow φ hr.good.1 (conv_knots _ _) t

/-- The height of the demonstration curve at time 3, where it turns as well. -/
example (L : LogMap) : ∃ x, evaluate L 3 demo = .ok (some x) ∧
    E3.evaluate 3 (shadow (LinearMap.proj 1) demo) = .ok (some (x.position 1)) := by
  obtain ⟨⟨r, e, h⟩, -⟩ := C34_domain_partial (demo_reachable L) 3 (by simp [demo, Mgr.knots])
  obtain ⟨x, rfl⟩ := Option.isSome_iff_exists.1 (h.2 ⟨by simp [demo, Mgr.knots], by
    simp [demo, getMinTime, Mgr.getMinTime], by simp [demo, getMaxTime, Mgr.getMaxTime]; norm_num⟩)
  refine ⟨x, e, ?_⟩
  rw [(C123_evaluate (LinearMap.proj 1) (demo_reachable L) 3).1, e]
  rfl

end Verif.Hermite.SE3

namespace Verif.Hermite.E3

open Verif.Manager

variable {K V : Type} [Field K] [LinearOrder K] [IsStrictOrderedRing K] [AddCommGroup V] [Module K V]

/-- Every table of knots is held by some vector curve: it can be made by fitting one knot at a time. -/
theorem reach_knots (l : List (K × Knot V)) (hl : (l.map Prod.fst).Pairwise (· < ·)) :
    ∃ e : E3 K V, Reachable e ∧ e.m.knots = l := by
  induction l using List.reverseRecOn with
  | nil => exact ⟨fresh ⟨0, 0⟩, ⟨false, ⟨0, 0⟩, [], rfl⟩, rfl⟩
  | append_singleton l p ih =>
    obtain ⟨t, k⟩ := p
    rw [List.map_append, List.pairwise_append] at hl
    obtain ⟨e, hr, hk⟩ := ih hl.1
    have hs := hr.sorted
    obtain ⟨w', m', ks, e1, hs', hp, -⟩ := insertLoop_fresh [(t, k)] e.w e.m hs (by simp) (by
      intro p hp n hn
      obtain rfl := List.mem_singleton.1 hp
      have : (n.time, n.coef) ∈ l := by rw [← hk]; exact List.mem_map.2 ⟨n, hn, rfl⟩
      exact (hl.2.2 n.time (List.mem_map.2 ⟨_, this, rfl⟩) t (by simp)).ne)
    refine ⟨⟨w', m'⟩, ?_, ?_⟩
    · obtain ⟨debug, w, ops, hrun⟩ := hr
      have hone : step debug e (.fitDerivatives [t] [k.position] k.velocity 0) = .ok ⟨w', m'⟩ := by
        simp only [step, fitCurveWithDerivatives, List.length_singleton, ne_eq, not_true_eq_false, and_false, if_false,
          fitLoop, knotDerivative, if_true, Outcome.ok_bind, List.getElem?_cons_zero, Outcome.deref,
          Mgr.insertCoefficients, List.zip_cons_cons, List.zip_nil_right, e1]
      have hcat : ∀ (ops : List (Op K V)) (c c' : E3 K V) (op : Op K V) (c'' : E3 K V), run debug c ops = .ok c' →
          step debug c' op = .ok c'' → run debug c (ops ++ [op]) = .ok c'' := by
        intro ops
        induction ops with
        | nil => intro c c' op c'' h h'; simp only [run] at h; cases h; simp [run, h']
        | cons o ops ih =>
          intro c c' op c'' h h'
          obtain ⟨c1, h1, h2⟩ := Outcome.bind_eq_ok.1 h
          simp only [List.cons_append, run, h1, Outcome.ok_bind]
          exact ih c1 c' op c'' h2 h'
      exact ⟨debug, w, _, hcat ops _ _ _ _ hrun hone⟩
    · refine List.Perm.eq_of_pairwise (le := fun a b : K × Knot V => a.1 < b.1) ?_ ?_ ?_ (hp.trans ?_)
      · intro a b _ _ h1 h2
        exact absurd h2 (not_lt.2 h1.le)
      · exact List.pairwise_map.1 (sorted_iff_knots.1 hs')
      · rw [List.pairwise_append]
        rw [List.pairwise_map] at hl
        exact ⟨hl.1, by simp, fun a ha b hb => hl.2.2 a.1 (List.mem_map.2 ⟨a, ha, rfl⟩) b.1 (by
          obtain rfl := List.mem_singleton.1 hb; simp)⟩
      · rw [hk]
        exact List.perm_append_comm

end Verif.Hermite.E3

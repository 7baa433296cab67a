import Verif.Energy.ContainerProps
import Verif.Hermite.E3Props

/-!
# Property C111: Hermite curves of least energy
-/

set_option linter.unusedSectionVars false
set_option linter.dupNamespace false

namespace Verif.Energy

open MeasureTheory Set Verif.Manager Verif.Hermite Verif.Hermite.E3

variable {V : Type} [NormedAddCommGroup V] [InnerProductSpace ℝ V]

/-- The third derivative between two knots. -/
noncomputable def jerk (a b : Node ℝ (Hermite.Knot V)) : V :=
  let x := 1 / (b.time - a.time)
  x • (12 * x * x) • a.coef.position + (6 * x * x) • a.coef.velocity + x • (-12 * x * x) • b.coef.position +
    (6 * x * x) • b.coef.velocity

theorem hasDerivAt_acceleration (a b : Node ℝ (Hermite.Knot V)) (t : ℝ) :
    HasDerivAt (interpolateAcceleration a b) (jerk a b) t := by
  set dt := b.time - a.time with hdt
  have hα : HasDerivAt (fun s => (s - a.time) / dt) (1 / dt) t := ((hasDerivAt_id t).sub_const _).div_const dt
  have e0 := ((((hα.const_mul 2).sub_const 1).const_mul 6).mul_const (1 / dt)).smul_const a.coef.position |>.const_smul (1 / dt)
  have e1 := (((hα.const_mul 6).sub_const 4).mul_const (1 / dt)).smul_const a.coef.velocity
  have e2 := ((((hα.const_mul 2).const_sub 1).const_mul 6).mul_const (1 / dt)).smul_const b.coef.position |>.const_smul (1 / dt)
  have e3 := (((hα.const_mul 6).sub_const 2).mul_const (1 / dt)).smul_const b.coef.velocity
  refine (((e0.add e1).add e2).add e3).congr_deriv ?_
  simp only [jerk, ← hdt]
  congr 1
  congr 1
  congr 1
  · congr 2; ring
  · congr 2; ring

/-- The derivatives between two knots. -/
noncomputable def between (a b : Node ℝ (Hermite.Knot V)) : ℕ → ℝ → V
  | 0 => interpolate a b
  | 1 => interpolateVelocity a b
  | 2 => interpolateAcceleration a b
  | 3 => fun _ => jerk a b
  | _ => fun _ => 0

theorem between_deriv {a b : Node ℝ (Hermite.Knot V)} (h : a.time < b.time) : ∀ j t,
    HasDerivAt (between a b j) (between a b (j + 1) t) t
  | 0, t => hasDerivAt_interpolate a b h t
  | 1, t => hasDerivAt_velocity a b t
  | 2, t => hasDerivAt_acceleration a b t
  | 3, t => hasDerivAt_const t _
  | _ + 4, t => hasDerivAt_const t _

theorem nodes_split {α : Type} (l : List α) (i : ℕ) (h : i + 1 < l.length) :
    l = l.take i ++ l[i] :: l[i + 1] :: l.drop (i + 2) := by
  rw [← List.drop_eq_getElem_cons, ← List.drop_eq_getElem_cons, List.take_append_drop]

/-- Time of knot `i`. -/
noncomputable def tau (c : E3 ℝ V) (i : ℕ) : ℝ := (c.m.nodes[i]?.map Node.time).getD 0

theorem tau_eq {c : E3 ℝ V} {i : ℕ} (h : i < c.m.nodes.length) : tau c i = c.m.nodes[i].time := by
  simp [tau, List.getElem?_eq_getElem h]

/-- The pieces of a curve. -/
noncomputable def bits (c : E3 ℝ V) (i j : ℕ) : ℝ → V :=
  match c.m.nodes[i]?, c.m.nodes[i + 1]? with
  | some a, some b => between a b j
  | _, _ => fun _ => 0

theorem bits_eq {c : E3 ℝ V} {i : ℕ} (h : i + 1 < c.m.nodes.length) (j : ℕ) :
    bits c i j = between c.m.nodes[i] c.m.nodes[i + 1] j := by
  simp [bits, List.getElem?_eq_getElem h, List.getElem?_eq_getElem (show i < c.m.nodes.length by omega)]

/-- The values of a curve as a motion (0 where a call fails). -/
noncomputable def course (c : E3 ℝ V) : ℕ → ℝ → V
  | 0 => fun t => match evaluate t c with | .ok (some v) => v | _ => 0
  | j + 1 => fun t => match evaluateDerivative t (j + 1) c with | .ok (some v) => v | _ => 0

theorem course_pieces {c : E3 ℝ V} (hr : E3.Reachable c) {n : ℕ} (hn : c.m.nodes.length = n + 1) :
    Pieces 2 n (tau c) (bits c) (course c) := by
  have hs := hr.sorted
  have hlt : ∀ i < n, tau c i < tau c (i + 1) := by
    intro i hi
    rw [tau_eq (by omega), tau_eq (by omega)]
    exact neighbours_lt hs (nodes_split c.m.nodes i (by omega))
  refine ⟨fun i hi => (hlt i hi).le, fun i hi j t => ?_, fun i hi j hj t ht => ?_, fun i hi t ht => ?_⟩
  · rw [bits_eq (by omega), bits_eq (by omega)]
    exact between_deriv (neighbours_lt hs (nodes_split c.m.nodes i (by omega))) j t
  · rw [tau_eq (by omega), tau_eq (by omega)] at ht
    rw [bits_eq (by omega)]
    obtain rfl | rfl : j = 0 ∨ j = 1 := by omega
    · simp only [course, evaluate_between hs (nodes_split c.m.nodes i (by omega)) ht.1 ht.2]
      rfl
    · simp only [course, velocity_between hs (nodes_split c.m.nodes i (by omega)) ht.1 ht.2]
      rfl
  · rw [tau_eq (by omega), tau_eq (by omega)] at ht
    rw [bits_eq (by omega)]
    have : evaluateDerivative t 2 c = evaluateLinearAcceleration t c := by simp [evaluateDerivative]
    simp only [course, this, acceleration_between hs (nodes_split c.m.nodes i (by omega)) ht.1.le ht.2]
    rfl


theorem tau_min {c : E3 ℝ V} {n : ℕ} (hn : c.m.nodes.length = n + 1) : tau c 0 = c.getMinTime := by
  cases h : c.m.nodes with
  | nil => simp [h] at hn
  | cons a l => simp [tau, getMinTime, Mgr.getMinTime, h]

theorem tau_max {c : E3 ℝ V} {n : ℕ} (hn : c.m.nodes.length = n + 1) : tau c n = c.getMaxTime := by
  have : c.m.nodes.getLast? = c.m.nodes[n]? := by rw [List.getLast?_eq_getElem?, hn]; rfl
  rw [tau, getMaxTime, Mgr.getMaxTime, this, List.getElem?_eq_getElem (by omega)]
  rfl

theorem course_at {c : E3 ℝ V} (hr : E3.Reachable c) {t : ℝ} {k : Hermite.Knot V} (hk : (t, k) ∈ c.m.knots) :
    course c 0 t = k.position ∧ course c 1 t = k.velocity := by
  obtain ⟨h1, h2⟩ := C35_interpolates hr hk
  simp only [course, h1, h2, and_self]

/-- **C111.** Every Hermite curve that a program can hold, in any number of dimensions, has the least integral of the
squared acceleration among all motions that pass its knots with the velocities stored there; it is the only one. -/
theorem C111_hermite [CompleteSpace V] {c : E3 ℝ V} (hr : E3.Reachable c) (h2 : 2 ≤ c.m.knots.length) :
    ∃ pos acc : ℝ → V,
      (∀ t ∈ Icc c.getMinTime c.getMaxTime,
        evaluate t c = .ok (some (pos t)) ∧ evaluateDerivative t 2 c = .ok (some (acc t))) ∧
      ∀ g : ℕ → ℝ → V, Motion 2 c.getMinTime c.getMaxTime g →
        (∀ t k, (t, k) ∈ c.m.knots → g 0 t = k.position ∧ g 1 t = k.velocity) →
        ∫ t in c.getMinTime..c.getMaxTime, ‖acc t‖ ^ 2 ≤ ∫ t in c.getMinTime..c.getMaxTime, ‖g 2 t‖ ^ 2 ∧
        (∫ t in c.getMinTime..c.getMaxTime, ‖acc t‖ ^ 2 = ∫ t in c.getMinTime..c.getMaxTime, ‖g 2 t‖ ^ 2 →
          ∀ t ∈ Icc c.getMinTime c.getMaxTime, g 0 t = pos t) := by
  obtain ⟨n, hn⟩ : ∃ n, c.m.nodes.length = n + 1 := ⟨c.m.nodes.length - 1, by simp [Mgr.knots] at h2; omega⟩
  have P := course_pieces hr hn
  refine ⟨course c 0, course c 2, fun t ht => ?_, fun g hg hk => ?_⟩
  · have hne : c.m.knots ≠ [] := by rintro e; simp [e] at h2
    obtain ⟨⟨r, e, h⟩, -⟩ := C34_domain_partial hr t (Or.inl hne)
    obtain ⟨r', e', h'⟩ := C34_acceleration_domain hr t
    obtain ⟨v, rfl⟩ := Option.isSome_iff_exists.1 (h.2 ⟨hne, ht.1, ht.2⟩)
    obtain ⟨v', rfl⟩ := Option.isSome_iff_exists.1 (h'.2 ⟨h2, ht.1, ht.2⟩)
    simp only [course, e, e', and_self]
  · rw [← tau_min hn, ← tau_max hn] at hg ⊢
    have hat : ∀ i ≤ n, ∀ j < 2, g j (tau c i) = course c j (tau c i) := by
      intro i hi j hj
      have hm : (tau c i, c.m.nodes[i].coef) ∈ c.m.knots := by
        rw [tau_eq (by omega)]
        exact List.mem_map.2 ⟨c.m.nodes[i], List.getElem_mem _, rfl⟩
      have h1 := course_at hr hm
      have h3 := hk _ _ hm
      obtain rfl | rfl : j = 0 ∨ j = 1 := by omega
      · rw [h1.1, h3.1]
      · rw [h1.2, h3.2]
    have key := P.least (g := g) (k := 1) (fun i hi t => by rw [bits_eq (by omega)]; rfl) hg
      (fun i hi j hj => hat i hi j (by omega)) (hat 0 (by omega) 1 (by omega)) (hat n le_rfl 1 (by omega))
      (fun i hi => Or.inl (hat (i + 1) (by omega) 1 (by omega)))
    exact ⟨key.1, fun h t ht => key.2 h 0 (by omega) t ht⟩

theorem Motion.shift {k : ℕ} {b e : ℝ} {d : ℕ → ℝ → V} (h : Motion k b e d) (x : ℝ) :
    Motion k (b - x) (e - x) fun j t => d j (t + x) := by
  obtain ⟨s, hs, hd⟩ := h.deriv
  refine ⟨fun j hj => (h.cont j hj).comp (by fun_prop) fun t ht => ?_, ⟨(fun t => t - x) '' s, hs.image _, fun j hj t ht => ?_⟩,
    h.int.comp_add_right x, h.sq.comp_add_right x⟩
  · exact ⟨by linarith [ht.1], by linarith [ht.2]⟩
  · refine (hd j hj (t + x) ⟨⟨by linarith [ht.1.1], by linarith [ht.1.2]⟩, fun hm => ht.2 ⟨t + x, hm, by simp⟩⟩).comp_add_const t x


open Verif.Spline Verif.Container Verif.Container.Container in
/-- The cubic fit of `PolynomialSplineContainer` never needs more energy than the Hermite curve fitted to the same data,
with the same velocities at both ends. -/
theorem C111_compare (S : Solver ℝ) (debug : Bool) (ts ps : List ℝ) (h2 : 2 ≤ ts.length) (hb : ts.length ≤ 2 ^ 28)
    (hl : ps.length = ts.length) (hinc : ts.Pairwise (· < ·)) (v0 vT : ℝ) (c : Container .o3 ℝ) (w : World)
    (hw : w.calls + ts.length + 1 < 2 ^ 64) :
    ∃ (c' : Container .o3 ℝ) (h : E3 ℝ ℝ) (ks : List Key) (acc acc' : ℝ → ℝ),
      setDataVel S ts ps v0 vT c = .ok (true, c') ∧
      fitCurveWithDerivatives debug ts ps v0 vT (fresh w) = .ok (h, ks) ∧
      (∀ t, c'.getAccelerationAtTime t = .ok (acc t)) ∧
      (∀ t ∈ Icc ts[0] ts[ts.length - 1], evaluateDerivative t 2 h = .ok (some (acc' t))) ∧
      ∫ t in 0..ts[ts.length - 1] - ts[0], acc t ^ 2 ≤ ∫ t in ts[0]..ts[ts.length - 1], acc' t ^ 2 := by
  obtain ⟨c', pos, acc, e, -, ha, hmin⟩ := C110_cubic S ts ps h2 hb hl hinc v0 0 vT 0 c _ (Or.inl rfl)
  obtain ⟨h, ks, e', hk⟩ := C39_replaces_partial debug ts ps hl.symm hinc v0 vT w
  have hr : E3.Reachable h := ⟨debug, w, [.fitDerivatives ts ps v0 vT], by simp [E3.run, E3.step, e']⟩
  obtain ⟨h', ks', e'', hv⟩ := C38_slopes_partial (c := fresh w) ⟨debug, w, [], rfl⟩ debug ts ps hl.symm (hinc.imp ne_of_lt) v0 vT hw
  rw [e'] at e''
  cases e''
  have hlen : h.m.nodes.length = ts.length := by
    have := congrArg List.length hk
    simpa [Mgr.knots, hl] using this
  obtain ⟨n, hn⟩ : ∃ n, ts.length = n + 1 := ⟨ts.length - 1, by omega⟩
  have htau : ∀ i (hi : i < ts.length), tau h i = ts[i] := by
    intro i hi
    have h1 := congrArg (fun l => l[i]?) hk
    simp only [Mgr.knots, List.map_map, List.getElem?_map, List.getElem?_eq_getElem (show i < h.m.nodes.length by omega),
      List.getElem?_eq_getElem (show i < (ts.zip ps).length by simp; omega), List.getElem_zip, Option.map_some,
      Option.some.injEq] at h1
    rw [tau_eq (by omega)]
    exact congrArg Prod.fst h1
  have hlast : ts[ts.length - 1] = tau h n := by
    rw [htau n (by omega)]
    simp [hn]
  have P := (course_pieces hr (n := n) (by omega)).motion
  rw [htau 0 (by omega), ← hlast] at P
  refine ⟨c', h, ks, acc, course h 2, e, e', ha, fun t ht => ?_, ?_⟩
  · rw [← htau 0 (by omega), hlast, tau_min (n := n) (by omega), tau_max (by omega)] at ht
    obtain ⟨r', e1, h1⟩ := C34_acceleration_domain hr t
    obtain ⟨v', rfl⟩ := Option.isSome_iff_exists.1 (h1.2 ⟨by simp [Mgr.knots, hlen, h2], ht.1, ht.2⟩)
    simp only [course, e1]
  · have hsh := P.shift ts[0]
    rw [sub_self] at hsh
    have hat : ∀ i (hi : i < ts.length) (hi' : i < ps.length), course h 0 (ts[i] - ts[0] + ts[0]) = ps[i] := by
      intro i hi hi'
      obtain ⟨v, hm, -⟩ := hv i hi
      rw [sub_add_cancel]
      exact (course_at hr hm).1
    have key := (hmin _ hsh hat (by
      obtain ⟨v, hm, h0, -⟩ := hv 0 (by omega)
      show course h 1 ((0 : ℝ) + ts[0]) = v0
      rw [zero_add, (course_at hr hm).2, h0 rfl]) (by
      obtain ⟨v, hm, -, h0, -⟩ := hv (ts.length - 1) (by omega)
      show course h 1 (ts[ts.length - 1] - ts[0] + ts[0]) = vT
      rw [sub_add_cancel, (course_at hr hm).2, h0 (by omega) rfl])).1
    rwa [intervalIntegral.integral_comp_add_right (fun t => course h 2 t ^ 2), zero_add, sub_add_cancel] at key


/-- Hypotheses of `C111_hermite` met: the curve through (0, 0) and (1, 1) with the velocities 0 and 4; `t^4` passes there
with these velocities too and needs at least as much. -/
example : ∃ (c : E3 ℝ ℝ) (acc : ℝ → ℝ), E3.Reachable c ∧
    (∀ t ∈ Icc (0 : ℝ) 1, evaluateDerivative t 2 c = .ok (some (acc t))) ∧
    ∫ t in (0 : ℝ)..1, ‖acc t‖ ^ 2 ≤ ∫ t in (0 : ℝ)..1, ‖ders (Polynomial.X ^ 4) 2 t‖ ^ 2 := by
  have e : E3.run false (fresh ⟨0, 0⟩ : E3 ℝ ℝ) [.fitDerivatives [0, 1] [0, 1] 0 4] =
      .ok ⟨⟨2, 2⟩, ⟨[⟨0, 0, 1, ⟨0, 0⟩⟩, ⟨1, 1, 2, ⟨1, 4⟩⟩], [(1, 0), (2, 1)]⟩⟩ := by
    norm_num [E3.run, E3.step, fitCurveWithDerivatives, fitLoop, knotDerivative, fresh, Mgr.insertCoefficients, Mgr.insertLoop,
      Mgr.insertCoefficient, Mgr.empty, scanAtTime, getNextKey, newAddr, mapInsert, kmSet]
  have hr : E3.Reachable _ := ⟨_, _, _, e⟩
  obtain ⟨pos, acc, h1, h3⟩ := C111_hermite hr (by simp [Mgr.knots])
  simp only [getMinTime, getMaxTime, Mgr.getMinTime, Mgr.getMaxTime, List.getLast?_cons_cons,
    List.getLast?_singleton] at h1 h3
  refine ⟨_, acc, hr, fun t ht => (h1 t ht).2, (h3 (ders (Polynomial.X ^ 4)) (ders_motion _ _ (by norm_num)) ?_).1⟩
  intro t k hk
  simp only [Mgr.knots, List.map_cons, List.map_nil, List.mem_cons, Prod.mk.injEq, List.not_mem_nil, or_false] at hk
  rcases hk with ⟨rfl, rfl⟩ | ⟨rfl, rfl⟩ <;> norm_num [ders]

open Verif.Spline Verif.Container Verif.Container.Container in
/-- Hypotheses of `C111_compare` met. -/
example (S : Solver ℝ) : ∃ (c' : Container .o3 ℝ) (h : E3 ℝ ℝ) (ks : List Key),
    setDataVel S [1, 2, 4] [5, -1, 3] 0 0 fresh = .ok (true, c') ∧
    fitCurveWithDerivatives true [1, 2, 4] [5, -1, 3] 0 0 (E3.fresh ⟨0, 0⟩) = .ok (h, ks) := by
  obtain ⟨c', h, ks, _, _, e, e', -⟩ := C111_compare S true [1, 2, 4] [5, -1, 3] (by simp) (by simp) rfl (by norm_num) 0 0
    Container.fresh ⟨0, 0⟩ (by simp)
  exact ⟨c', h, ks, e, e'⟩

end Verif.Energy

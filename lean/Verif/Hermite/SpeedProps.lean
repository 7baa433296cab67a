import Verif.Hermite.SpeedLemmas
import Verif.Hermite.TurnProps

/-!
# The attitude of an SE3 Hermite curve: how fast it turns, and how far it is from the motion it was fitted to

C126.
-/

set_option linter.unusedSectionVars false
set_option linter.dupNamespace false

namespace Verif.Hermite.SE3

open Verif.Manager Verif.Kindr Quaternion Set

variable {L : LogMap}

theorem evaluate_unit {c : SE3} (hg : Good c) {t : ℝ} {p : Pose} (h : evaluate L t c = .ok (some p)) :
    IsUnit' p.rotation := by
  rw [evaluate_eq] at h
  unfold evalWith at h
  split at h
  · cases hh : c.m.nodes.head? with
    | none => rw [hh] at h; cases h
    | some n =>
      rw [hh] at h
      cases h
      exact hg.2 n (List.mem_of_head? hh)
  · split at h
    · cases h
    · next a b e =>
      cases h
      obtain ⟨pre, post, hm, -⟩ := getAt_some e
      exact isUnit_interpolate (hg.2 a (by simp [hm])) t

/-- The knots turn at most at the rate `Ω`, and from each to the next the attitude changes by at most `Ω` times the
time between them. -/
structure Moderate (Ω : ℝ) (c : SE3) : Prop where
  rate : ∀ x ∈ c.m.knots, vecNorm x.2.derivative.rotationalVelocity ≤ Ω
  steps : c.m.knots.IsChain fun x y => angle x.2.transformation.rotation y.2.transformation.rotation ≤ Ω * (y.1 - x.1)

theorem mod_knot {Ω : ℝ} {c : SE3} (h : Moderate Ω c) {n : Node ℝ HKnot} (hn : n ∈ c.m.nodes) :
    vecNorm n.coef.derivative.rotationalVelocity ≤ Ω := h.rate (n.time, n.coef) (List.mem_map.2 ⟨n, hn, rfl⟩)

theorem mod_paced {Ω : ℝ} {c : SE3} (hg : Good c) (h : Moderate Ω c) {pre post : List (Node ℝ HKnot)} {a b : Node ℝ HKnot}
    (hm : c.m.nodes = pre ++ a :: b :: post) : Paced Ω a b := by
  refine ⟨neighbours_lt hg.1 hm, hg.2 a (by simp [hm]), hg.2 b (by simp [hm]), mod_knot h (by simp [hm]),
    mod_knot h (by simp [hm]), ?_⟩
  have := h.steps
  simp only [Mgr.knots, hm, List.map_append, List.map_cons] at this
  rw [List.isChain_append_cons_cons] at this
  exact this.2.1

/-- Between any two knots. -/
theorem mod_knots {Ω : ℝ} {c : SE3} (hg : Good c) (h : Moderate Ω c) : ∀ (i j : ℕ) (hi : i < c.m.nodes.length)
    (hj : j < c.m.nodes.length), i ≤ j → angle c.m.nodes[i].coef.transformation.rotation
      c.m.nodes[j].coef.transformation.rotation ≤ Ω * (c.m.nodes[j].time - c.m.nodes[i].time) := by
  intro i j hi hj hij
  induction j with
  | zero =>
    obtain rfl : i = 0 := by omega
    rw [angle_self (hg.2 _ (List.getElem_mem _))]
    simp
  | succ j ih =>
    rcases hij.eq_or_lt with rfl | hlt
    · rw [angle_self (hg.2 _ (List.getElem_mem _))]
      simp
    · have h1 := ih (by omega) (by omega)
      have h2 := List.isChain_iff_getElem.1 h.steps j (by simp [Mgr.knots]; omega)
      simp only [Mgr.knots, List.getElem_map] at h2
      have h3 := angle_triangle (hg.2 _ (List.getElem_mem hi)) (hg.2 _ (List.getElem_mem (show j < c.m.nodes.length by omega)))
        (hg.2 _ (List.getElem_mem hj))
      linarith

theorem speed_good (hL : L.Shortest) {Ω : ℝ} {c : SE3} (hg : Good c) (h : Moderate Ω c) :
    (∀ t d, evaluateDerivative L t 1 c = .ok (some d) → vecNorm d.rotationalVelocity ≤ 3 * Ω) ∧
    ∀ s t p q, s ≤ t → evaluate L s c = .ok (some p) → evaluate L t c = .ok (some q) →
      angle p.rotation q.rotation ≤ 3 * Ω * (t - s) := by
  have bounds : ∀ {t a b}, c.m.getCoefficientsAt t = some (a, b) →
      ∃ pre post, c.m.nodes = pre ++ a :: b :: post ∧ a.time ≤ t ∧ t ≤ b.time := by
    intro t a b e
    obtain ⟨pre, post, hm, hh⟩ := getAt_some e
    have := neighbours_lt hg.1 hm
    refine ⟨pre, post, hm, ?_⟩
    rcases hh with ⟨rfl, -⟩ | ⟨h1, h2⟩
    · exact ⟨this.le, le_rfl⟩
    · exact ⟨h1, h2.le⟩
  constructor
  · intro t d hd
    rw [evaluateDerivative_eq] at hd
    unfold evalWith at hd
    split at hd
    · cases hh : c.m.nodes.head? with
      | none => rw [hh] at hd; cases hd
      | some n =>
        rw [hh] at hd
        cases hd
        have h1 := mod_knot h (List.mem_of_head? hh)
        have h2 := vecNorm_nonneg n.coef.derivative.rotationalVelocity
        linarith
    · split at hd
      · cases hd
      · next a b e =>
        cases hd
        obtain ⟨pre, post, hm, h1, h2⟩ := bounds e
        exact (mod_paced hg h hm).rate hL h1 h2
  · intro s t p q hst hp hq
    rcases hst.eq_or_lt with rfl | hlt
    · rw [hp] at hq
      cases hq
      rw [angle_self (evaluate_unit hg hp)]
      simp
    rw [evaluate_eq] at hp hq
    unfold evalWith at hp hq
    have n1 : ¬(c.m.getMaxTime = s ∧ c.m.getMinTime = s) := by
      rintro ⟨h1, h2⟩
      split at hq
      · next h3 => linarith [h3.1]
      · split at hq
        · cases hq
        · next a b e =>
          have := (getAt_isSome_iff hg.1 _).1 (Option.isSome_iff_exists.2 ⟨_, e⟩)
          have := this.2.2
          linarith
    have n2 : ¬(c.m.getMaxTime = t ∧ c.m.getMinTime = t) := by
      rintro ⟨h1, h2⟩
      rw [if_neg n1] at hp
      split at hp
      · cases hp
      · next a b e =>
        have := (getAt_isSome_iff hg.1 _).1 (Option.isSome_iff_exists.2 ⟨_, e⟩)
        have := this.2.1
        linarith
    rw [if_neg n1] at hp
    rw [if_neg n2] at hq
    split at hp
    · cases hp
    next a b e =>
    split at hq
    · cases hq
    next a' b' e' =>
    cases hp
    cases hq
    obtain ⟨pre, post, hm, h1, h2⟩ := bounds e
    obtain ⟨pre', post', hm', h1', h2'⟩ := bounds e'
    have P := mod_paced hg h hm
    have P' := mod_paced hg h hm'
    have ia : ∀ (hi : pre.length < c.m.nodes.length), c.m.nodes[pre.length] = a := by intro hi; simp [hm]
    have ib : ∀ (hi : pre.length + 1 < c.m.nodes.length), c.m.nodes[pre.length + 1] = b := by intro hi; simp [hm]
    have ia' : ∀ (hi : pre'.length < c.m.nodes.length), c.m.nodes[pre'.length] = a' := by intro hi; simp [hm']
    have ib' : ∀ (hi : pre'.length + 1 < c.m.nodes.length), c.m.nodes[pre'.length + 1] = b' := by intro hi; simp [hm']
    have lp : pre.length + 1 < c.m.nodes.length := by simp [hm]
    have lp' : pre'.length + 1 < c.m.nodes.length := by simp [hm']
    have mono : ∀ i j (hi : i < c.m.nodes.length) (hj : j < c.m.nodes.length), i ≤ j →
        c.m.nodes[i].time ≤ c.m.nodes[j].time := by
      intro i j hi hj hij
      rcases hij.eq_or_lt with rfl | hlt
      · exact le_rfl
      · exact (List.pairwise_iff_getElem.1 hg.1 i j hi hj hlt).le
    rcases lt_trichotomy pre.length pre'.length with hl | hl | hl
    · have k := mod_knots hg h (pre.length + 1) pre'.length lp (by omega) (by omega)
      have m := mono (pre.length + 1) pre'.length lp (by omega) (by omega)
      rw [ib, ia'] at k m
      have k1 := P.angle hL h1 h2 le_rfl
      have k2 := P'.angle hL le_rfl h1' h2'
      rw [interpolate_left] at k2
      have k1' : angle (interpolate L a b s).rotation b.coef.transformation.rotation ≤ 3 * Ω * (b.time - s) := by
        rcases rotation_right (L := L) P.time P.unitA P.unitB with e | e <;> rw [e] at k1
        · exact k1
        · rwa [angle_neg_right] at k1
      have us := isUnit_interpolate (L := L) (b := b) P.unitA s
      have ut := isUnit_interpolate (L := L) (b := b') P'.unitA t
      have t1 := angle_triangle us P.unitB ut
      have t2 := angle_triangle P.unitB P'.unitA ut
      have hΩ : 0 ≤ Ω := (vecNorm_nonneg _).trans P.rateA
      have := mul_nonneg hΩ (sub_nonneg.2 m)
      nlinarith
    · have ea : a = a' := by rw [← ia (by omega), ← ia' (by omega)]; simp only [hl]
      have eb : b = b' := by rw [← ib lp, ← ib' lp']; simp only [hl]
      subst ea eb
      exact P.angle hL h1 hst h2'
    · exfalso
      have m := mono (pre'.length + 1) pre.length lp' (by omega) (by omega)
      rw [ib', ia] at m
      linarith

/-- C126, turning. If the knots of a curve turn at most at the rate `Ω`, and neighbouring ones differ by an angle of at
most `Ω` times the time between them, the curve never turns faster than `3 Ω`: neither by what it reports as angular
velocity, nor by the angles between the attitudes it reports. -/
theorem C126_speed (hL : L.Shortest) {Ω : ℝ} {c : SE3} (hr : Reachable L c)
    (hrate : ∀ x ∈ c.m.knots, vecNorm x.2.derivative.rotationalVelocity ≤ Ω)
    (hsteps : c.m.knots.IsChain fun x y =>
      angle x.2.transformation.rotation y.2.transformation.rotation ≤ Ω * (y.1 - x.1)) :
    (∀ t d, evaluateDerivative L t 1 c = .ok (some d) → vecNorm d.rotationalVelocity ≤ 3 * Ω) ∧
    ∀ s t p q, s ≤ t → evaluate L s c = .ok (some p) → evaluate L t c = .ok (some q) →
      angle p.rotation q.rotation ≤ 3 * Ω * (t - s) :=
  speed_good hL hr.good ⟨hrate, hsteps⟩

/-- A curve that turns by 60 degrees within a second, from rest to rest: nowhere faster than 180 degrees a second. -/
example (L : LogMap) (hL : L.Shortest) (s t : ℝ) (p q : Pose) (hst : s ≤ t) (hp : evaluate L s turnDemo = .ok (some p))
    (hq : evaluate L t turnDemo = .ok (some q)) : angle p.rotation q.rotation ≤ Real.pi * (t - s) := by
  have hpi := Real.pi_pos
  have h := (C126_speed hL (Ω := Real.pi / 3) (turnDemo_reachable L) (by
    simp [turnDemo, Mgr.knots, Twist.zero, vecNorm]; positivity) (by
    simp only [turnDemo, Mgr.knots, List.map_cons, List.map_nil, List.isChain_cons_cons, List.isChain_singleton, and_true]
    have := angle_exp' isUnit_one ((Real.pi / 3) • ![0, 0, 1])
    rw [one_mul, vecNorm_smul, abs_of_pos (by positivity), show vecNorm ![0, 0, 1] = 1 by simp [vecNorm]] at this
    linarith)).2 s t p q hst hp hq
  rwa [show 3 * (Real.pi / 3) = Real.pi by ring] at h

/-! ## Fitting -/

/-- Fitting poses that differ by moderate angles gives moderate knots. -/
theorem fit_moderate (hL : L.Shortest) {ts : List ℝ} {vs : List Pose} (hl : ts.length = vs.length)
    (hinc : ts.Pairwise (· < ·)) (hu : ∀ v ∈ vs, normSq v.rotation = 1) {Ω : ℝ}
    (hsteps : ∀ (i : ℕ) (hi : i + 1 < ts.length), angle vs[i].rotation vs[i + 1].rotation ≤ Ω * (ts[i + 1] - ts[i]))
    {d0 dT : Twist} (h0 : vecNorm d0.rotationalVelocity ≤ Ω) (hT : vecNorm dT.rotationalVelocity ≤ Ω) (c : SE3) :
    ∃ c' ks, fitCurveWithDerivatives L ts vs d0 dT c = .ok (c', ks) ∧ Good c' ∧ Moderate Ω c' ∧
      c'.m.knots.map (fun x => (x.1, x.2.transformation)) = ts.zip vs := by
  obtain ⟨c', ks, cs, e, el, hcs, hs, hk⟩ := fit_increasing L hl hinc d0 dT c
  obtain ⟨cs', el', hcs', hc⟩ := fitLoop_ok L ts vs d0 dT hl.le ts.length 0 (by omega)
  rw [el] at el'
  cases el'
  simp only [zero_add] at hc
  have htr : c'.m.knots.map (fun x => (x.1, x.2.transformation)) = ts.zip vs := by
    rw [hk]
    refine List.ext_getElem (by simp; omega) fun i h1 h2 => ?_
    simp only [List.length_zip, lt_inf_iff] at h2
    obtain ⟨k, k1, k2, -⟩ := hc i h2.1
    simp only [List.getElem_map, List.getElem_zip, k1, k2]
  refine ⟨c', ks, e, fit_good hu e, ⟨?_, ?_⟩, htr⟩
  · intro x hx
    rw [hk] at hx
    obtain ⟨i, hi, ei⟩ := List.mem_iff_getElem.1 hx
    simp only [List.length_zip, lt_inf_iff] at hi
    obtain ⟨k, k1, k2, k3, k4, k5⟩ := hc i hi.1
    rw [← ei]
    simp only [List.getElem_zip, k1]
    by_cases hi0 : i = 0
    · rw [k3 hi0]; exact h0
    · by_cases hiT : i = ts.length - 1
      · rw [k4 hi0 hiT]; exact hT
      · rw [k5 hi0 hiT]
        obtain ⟨j, rfl⟩ : ∃ j, i = j + 1 := ⟨i - 1, by omega⟩
        have hlt : ts[j] < ts[j + 2] := List.pairwise_iff_getElem.1 hinc j (j + 2) (by omega) (by omega) (by omega)
        have uj := hu _ (List.getElem_mem (show j < vs.length by omega))
        have uj1 := hu _ (List.getElem_mem (show j + 1 < vs.length by omega))
        have uj2 := hu _ (List.getElem_mem (show j + 2 < vs.length by omega))
        simp only [calculateSlope, Nat.add_sub_cancel, boxMinus, inverted]
        rw [vecNorm_smul, hL.norm uj2 uj, one_div, abs_of_pos (inv_pos.2 (sub_pos.2 hlt)), inv_mul_le_iff₀ (sub_pos.2 hlt)]
        have s1 := hsteps j (by omega)
        have s2 := hsteps (j + 1) (by omega)
        have := angle_triangle uj uj1 uj2
        have e2 : vs[j + 1 + 1] = vs[j + 2] := rfl
        simp only [show j + 1 + 1 = j + 2 from rfl] at s2 ⊢
        linarith
  · have : (c'.m.knots.map (fun x => (x.1, x.2.transformation))).IsChain fun x y =>
        angle x.2.rotation y.2.rotation ≤ Ω * (y.1 - x.1) := by
      rw [htr, List.isChain_iff_getElem]
      intro i hi
      simp only [List.length_zip, lt_inf_iff] at hi
      simp only [List.getElem_zip]
      exact hsteps i hi.1
    rwa [List.isChain_map] at this

/-- C126, fitting. Whatever poses are fitted, if neighbouring ones differ by an angle of at most `Ω` times the time
between them, and the rates given for the ends are at most `Ω`, the fitted curve never turns faster than `3 Ω`. -/
theorem C126_fit (hL : L.Shortest) {ts : List ℝ} {vs : List Pose} (hl : ts.length = vs.length)
    (hinc : ts.Pairwise (· < ·)) (hu : ∀ v ∈ vs, normSq v.rotation = 1) {Ω : ℝ}
    (hsteps : ∀ (i : ℕ) (hi : i + 1 < ts.length), angle vs[i].rotation vs[i + 1].rotation ≤ Ω * (ts[i + 1] - ts[i]))
    {d0 dT : Twist} (h0 : vecNorm d0.rotationalVelocity ≤ Ω) (hT : vecNorm dT.rotationalVelocity ≤ Ω) (c : SE3) :
    ∃ c' ks, fitCurveWithDerivatives L ts vs d0 dT c = .ok (c', ks) ∧
      (∀ t d, evaluateDerivative L t 1 c' = .ok (some d) → vecNorm d.rotationalVelocity ≤ 3 * Ω) ∧
      ∀ s t p q, s ≤ t → evaluate L s c' = .ok (some p) → evaluate L t c' = .ok (some q) →
        angle p.rotation q.rotation ≤ 3 * Ω * (t - s) := by
  obtain ⟨c', ks, e, hg, hm, -⟩ := fit_moderate hL hl hinc hu hsteps h0 hT c
  exact ⟨c', ks, e, speed_good hL hg hm⟩

/-- Turns about two different axes, a second apart. -/
example (L : LogMap) (hL : L.Shortest) (c : SE3) : ∃ c' ks, fitCurve L [0, 1, 2]
      [⟨0, 1⟩, ⟨0, exponentialMap ![1, 0, 0]⟩, ⟨0, exponentialMap ![0, 1, 0]⟩] c = .ok (c', ks) ∧
      ∀ t d, evaluateDerivative L t 1 c' = .ok (some d) → vecNorm d.rotationalVelocity ≤ 6 := by
  have h1 : angle 1 (exponentialMap ![1, 0, 0]) ≤ 1 := by
    simpa [vecNorm] using angle_exp' isUnit_one ![1, 0, 0]
  have h2 : angle 1 (exponentialMap ![0, 1, 0]) ≤ 1 := by
    simpa [vecNorm] using angle_exp' isUnit_one ![0, 1, 0]
  have h3 := angle_triangle (isUnit_exp ![1, 0, 0]) isUnit_one (isUnit_exp ![0, 1, 0])
  obtain ⟨c', ks, e, h, -⟩ := C126_fit hL (ts := [0, 1, 2])
    (vs := [⟨0, 1⟩, ⟨0, exponentialMap ![1, 0, 0]⟩, ⟨0, exponentialMap ![0, 1, 0]⟩]) rfl (by norm_num) (by
      simp only [List.mem_cons, List.not_mem_nil, or_false, forall_eq_or_imp, forall_eq]
      exact ⟨isUnit_one, isUnit_exp _, isUnit_exp _⟩) (Ω := 2) (by
      intro i hi
      have : i = 0 ∨ i = 1 := by simp at hi; omega
      rcases this with rfl | rfl
      · simp only [List.getElem_cons_succ, List.getElem_cons_zero]; linarith
      · simp only [List.getElem_cons_succ, List.getElem_cons_zero]
        rw [angle_symm _ 1] at h3
        linarith) (d0 := Twist.zero) (dT := Twist.zero) (by simp [Twist.zero, vecNorm]) (by simp [Twist.zero, vecNorm]) c
  exact ⟨c', ks, e, fun t d hd => (h t d hd).trans (by norm_num)⟩

/-- The samples around a time. -/
theorem exists_gap {ts : List ℝ} (h2 : 2 ≤ ts.length) {t : ℝ} (ht : t ∈ Icc ts[0] ts[ts.length - 1]) :
    ∃ (i : ℕ) (hi : i + 1 < ts.length), t ∈ Icc ts[i] ts[i + 1] := by
  have key : ∀ k (hk : k + 1 < ts.length), t ≤ ts[k + 1] → ∃ (i : ℕ) (hi : i + 1 < ts.length), t ∈ Icc ts[i] ts[i + 1] := by
    intro k
    induction k with
    | zero => intro hk h; exact ⟨0, hk, ht.1, h⟩
    | succ k ih =>
      intro hk h
      rcases le_total ts[k + 1] t with h' | h'
      · exact ⟨k + 1, hk, h', h⟩
      · exact ih (by omega) h'
  refine key (ts.length - 2) (by omega) ?_
  have : ts.length - 2 + 1 = ts.length - 1 := by omega
  simp only [this]
  exact ht.2

/-- C126, accuracy. A curve fitted to samples, at most `h` apart, of any motion `R` that turns at most at the rate `Ω`, is
never further from the motion than `2 Ω h`. -/
theorem C126_accuracy (hL : L.Shortest) {ts : List ℝ} {vs : List Pose} (hl : ts.length = vs.length) (h2 : 2 ≤ ts.length)
    (hinc : ts.Pairwise (· < ·)) (hu : ∀ v ∈ vs, normSq v.rotation = 1) {Ω h : ℝ} {R : ℝ → Quat}
    (hR : ∀ t, normSq (R t) = 1)
    (hLip : ∀ s ∈ Icc ts[0] ts[ts.length - 1], ∀ t ∈ Icc ts[0] ts[ts.length - 1], s ≤ t → angle (R s) (R t) ≤ Ω * (t - s))
    (hv : ∀ (i : ℕ) (hi : i < ts.length), angle (R ts[i]) vs[i].rotation = 0)
    (hgap : ∀ (i : ℕ) (hi : i + 1 < ts.length), ts[i + 1] - ts[i] ≤ h)
    {d0 dT : Twist} (h0 : vecNorm d0.rotationalVelocity ≤ Ω) (hT : vecNorm dT.rotationalVelocity ≤ Ω) (c : SE3) :
    ∃ c' ks, fitCurveWithDerivatives L ts vs d0 dT c = .ok (c', ks) ∧
      ∀ t ∈ Icc ts[0] ts[ts.length - 1], ∃ p, evaluate L t c' = .ok (some p) ∧ angle p.rotation (R t) ≤ 2 * Ω * h := by
  have hle : ∀ i j (hi : i < ts.length) (hj : j < ts.length), i ≤ j → ts[i] ≤ ts[j] := by
    intro i j hi hj hij
    rcases hij.eq_or_lt with rfl | e
    · exact le_rfl
    · exact (List.pairwise_iff_getElem.1 hinc i j hi hj e).le
  have hin : ∀ i (hi : i < ts.length), ts[i] ∈ Icc ts[0] ts[ts.length - 1] := fun i hi =>
    ⟨hle _ _ _ _ (by omega), hle _ _ _ _ (by omega)⟩
  have uv : ∀ i (hi : i < ts.length), IsUnit' (vs[i]'(by omega)).rotation := fun i hi => hu _ (List.getElem_mem _)
  have hsteps : ∀ (i : ℕ) (hi : i + 1 < ts.length), angle vs[i].rotation vs[i + 1].rotation ≤ Ω * (ts[i + 1] - ts[i]) := by
    intro i hi
    have e1 := hv i (by omega)
    have e2 := hv (i + 1) hi
    have t1 := angle_triangle (uv i (by omega)) (hR ts[i]) (uv (i + 1) hi)
    have t2 := angle_triangle (hR ts[i]) (hR ts[i + 1]) (uv (i + 1) hi)
    have t3 := hLip _ (hin i (by omega)) _ (hin (i + 1) hi) (hle _ _ _ _ (by omega))
    rw [angle_symm] at e1
    linarith
  obtain ⟨c', ks, e, hg, hm, hk⟩ := fit_moderate hL hl hinc hu hsteps h0 hT c
  refine ⟨c', ks, e, fun t ht => ?_⟩
  have hts : c'.m.knots.map Prod.fst = ts := by
    have := congrArg (List.map Prod.fst) hk
    rw [List.map_map, List.map_fst_zip (by omega)] at this
    exact this
  obtain ⟨p, -, hp, -⟩ := domain_of_times (L := L) hts (by omega) hg.1 ht
  refine ⟨p, hp, ?_⟩
  obtain ⟨hd, hang⟩ := speed_good hL hg hm
  have hup : IsUnit' p.rotation := evaluate_unit hg hp
  have hreach : Reachable L c' := by
    refine ⟨c.w, [.fitDerivatives ts vs d0 dT], by simpa [Op.UnitRotations] using hu, ?_⟩
    have e' : fitCurveWithDerivatives L ts vs d0 dT (fresh c.w) = .ok (c', ks) := e
    simp only [run, step, e', Outcome.ok_bind]
  have knot : ∀ i (hi : i < ts.length), ∃ q, evaluate L ts[i] c' = .ok (some q) ∧ angle q.rotation (R ts[i]) = 0 := by
    intro i hi
    have hmem : (ts[i], vs[i]) ∈ c'.m.knots.map (fun x => (x.1, x.2.transformation)) := by
      rw [hk]
      exact List.mem_iff_getElem.2 ⟨i, by simp; omega, by simp⟩
    obtain ⟨x, hx, ex⟩ := List.mem_map.1 hmem
    simp only [Prod.mk.injEq] at ex
    obtain ⟨⟨q, hq, -, hrot, -⟩, -⟩ := C35_interpolates (L := L) hreach (t := x.1) (k := x.2) hx
    rw [ex.1] at hq
    rw [ex.2] at hrot
    refine ⟨q, hq, ?_⟩
    rcases hrot with e | e <;> rw [e]
    · rw [angle_symm]; exact hv i hi
    · rw [angle_neg_left, angle_symm]; exact hv i hi
  obtain ⟨i, hi, hti⟩ := exists_gap h2 ht
  have hΩ : 0 ≤ Ω := (vecNorm_nonneg _).trans h0
  obtain ⟨q, hq, eq⟩ := knot i (by omega)
  obtain ⟨q', hq', eq'⟩ := knot (i + 1) hi
  have g := hgap i hi
  have uq : IsUnit' q.rotation := evaluate_unit hg hq
  have uq' : IsUnit' q'.rotation := evaluate_unit hg hq'
  rcases le_total (t - ts[i]) (ts[i + 1] - t) with hh | hh
  · have k1 := hang _ _ _ _ hti.1 hq hp
    have k2 := hLip _ (hin i (by omega)) _ ht hti.1
    have t1 := angle_triangle hup uq (hR t)
    have t2 := angle_triangle uq (hR ts[i]) (hR t)
    rw [angle_symm] at k1
    have := mul_nonneg hΩ (show 0 ≤ h - 2 * (t - ts[i]) by linarith)
    nlinarith
  · have k1 := hang _ _ _ _ hti.2 hp hq'
    have k2 := hLip _ ht _ (hin (i + 1) hi) hti.2
    have t1 := angle_triangle hup uq' (hR t)
    have t2 := angle_triangle uq' (hR ts[i + 1]) (hR t)
    rw [angle_symm (R t)] at k2
    have := mul_nonneg hΩ (show 0 ≤ h - 2 * (ts[i + 1] - t) by linarith)
    nlinarith

/-- A tumbling motion, about two axes at a time, sampled eight times a second. -/
example (L : LogMap) (hL : L.Shortest) (c : SE3) : ∃ c' ks p, fitCurve L [0, 1 / 8, 1 / 4]
      ([0, 1 / 8, 1 / 4].map fun t : ℝ => ⟨0, exponentialMap (t • ![1, 0, 0]) * exponentialMap (t • ![0, 1, 0])⟩) c =
        .ok (c', ks) ∧ evaluate L (1 / 5) c' = .ok (some p) ∧
      angle p.rotation (exponentialMap ((1 / 5 : ℝ) • ![1, 0, 0]) * exponentialMap ((1 / 5 : ℝ) • ![0, 1, 0])) ≤ 1 / 2 := by
  have hu : ∀ t : ℝ, IsUnit' (exponentialMap (t • ![1, 0, 0]) * exponentialMap (t • ![0, 1, 0])) := fun t =>
    isUnit_mul (isUnit_exp _) (isUnit_exp _)
  obtain ⟨c', ks, e, h⟩ := C126_accuracy hL (ts := [0, 1 / 8, 1 / 4])
    (vs := [0, 1 / 8, 1 / 4].map fun t : ℝ => ⟨0, exponentialMap (t • ![1, 0, 0]) * exponentialMap (t • ![0, 1, 0])⟩)
    rfl (by simp) (by norm_num) (by
      intro v hv
      obtain ⟨t, -, rfl⟩ := List.mem_map.1 hv
      exact hu t) (Ω := 2) (h := 1 / 8)
    (R := fun t => exponentialMap (t • ![1, 0, 0]) * exponentialMap (t • ![0, 1, 0])) hu (by
      intro s _ t _ hst
      refine (angle_mul_mul (isUnit_exp _) (isUnit_exp _) (isUnit_exp _) (isUnit_exp _)).trans ?_
      refine (add_le_add (angle_exps _ _ _) (angle_exps _ _ _)).trans ?_
      rw [abs_of_nonneg (by linarith)]
      simp [vecNorm]
      linarith) (by
      intro i hi
      simp only [List.getElem_map]
      exact angle_self (hu _)) (by
      intro i hi
      have : i = 0 ∨ i = 1 := by simp at hi; omega
      rcases this with rfl | rfl <;> norm_num) (d0 := Twist.zero) (dT := Twist.zero) (by simp [Twist.zero, vecNorm])
    (by simp [Twist.zero, vecNorm]) c
  obtain ⟨p, hp, hb⟩ := h (1 / 5) (by norm_num)
  exact ⟨c', ks, p, e, hp, hb.trans (by norm_num)⟩

end Verif.Hermite.SE3

import Verif.Hermite.TranslationProps
import Verif.Energy.HermiteProps
import Verif.Accuracy.Props
import Verif.Sensitivity.HermiteProps
import Mathlib.Analysis.InnerProductSpace.PiL2

/-!
# What the E3 curve's energy, accuracy and noise say about SE3 curves

C123, consequences.
-/

set_option linter.unusedSectionVars false
set_option linter.dupNamespace false

namespace Verif.Hermite.SE3

open Verif.Manager Verif.Kindr Verif.Energy Verif.Accuracy MeasureTheory Set

/-- A vector with its Euclidean length. -/
noncomputable def euclid : Vec3 →ₗ[ℝ] EuclideanSpace ℝ (Fin 3) := (WithLp.linearEquiv 2 ℝ (Fin 3 → ℝ)).symm.toLinearMap

theorem euclid_injective : Function.Injective euclid := (WithLp.linearEquiv 2 ℝ (Fin 3 → ℝ)).symm.injective

theorem bind_some {α β : Type} {f : α → β} {o : Outcome (Option α)} {b : β}
    (h : (o >>= fun r => .ok (r.map f)) = .ok (some b)) : ∃ a, o = .ok (some a) ∧ f a = b := by
  cases o with
  | ok r =>
    cases r with
    | none => simp at h
    | some a => exact ⟨a, rfl, by simpa using h⟩
  | abort => cases h
  | throw => cases h
  | ub => cases h

/-- C123, energy. Of all motions of a point with the positions and velocities of the knots, the translation of the curve
has the least squared acceleration, and is the only one. -/
theorem C123_energy {L : LogMap} {c : SE3} (hr : Reachable L c) (h2 : 2 ≤ c.m.knots.length) :
    ∃ pos acc : ℝ → Vec3,
      (∀ t ∈ Icc c.getMinTime c.getMaxTime, ∃ x, evaluate L t c = .ok (some x) ∧ x.position = pos t ∧
        evaluateLinearAcceleration t c = .ok (some (acc t))) ∧
      ∀ g : ℕ → ℝ → EuclideanSpace ℝ (Fin 3), Motion 2 c.getMinTime c.getMaxTime g →
        (∀ t k, (t, k) ∈ c.m.knots → g 0 t = euclid k.transformation.position ∧
          g 1 t = euclid k.derivative.translationalVelocity) →
        ∫ t in c.getMinTime..c.getMaxTime, ‖euclid (acc t)‖ ^ 2 ≤ ∫ t in c.getMinTime..c.getMaxTime, ‖g 2 t‖ ^ 2 ∧
        (∫ t in c.getMinTime..c.getMaxTime, ‖euclid (acc t)‖ ^ 2 = ∫ t in c.getMinTime..c.getMaxTime, ‖g 2 t‖ ^ 2 →
          ∀ t ∈ Icc c.getMinTime c.getMaxTime, g 0 t = euclid (pos t)) := by
  have hs := hr.good.1
  obtain ⟨e, he, hk⟩ := E3.reach_knots (c.m.knots.map fun p => (p.1, knotShadow euclid p.2)) (by
    have := sorted_iff_knots.1 hs
    simpa [Function.comp_def] using this)
  have hmin : e.getMinTime = c.getMinTime := related_min hk
  have hmax : e.getMaxTime = c.getMaxTime := related_max hk
  obtain ⟨pos, acc, hev, hmot⟩ := C111_hermite he (by rw [hk]; simpa using h2)
  rw [hmin, hmax] at hev hmot
  have hval : ∀ t ∈ Icc c.getMinTime c.getMaxTime, ∃ x a, evaluate L t c = .ok (some x) ∧ euclid x.position = pos t ∧
      evaluateLinearAcceleration t c = .ok (some a) ∧ euclid a = acc t := by
    intro t ht
    obtain ⟨h1, h2⟩ := hev t ht
    obtain ⟨s1, -, s3⟩ := evaluate_shadow (L := L) euclid hs hk t
    rw [s1] at h1
    rw [s3] at h2
    obtain ⟨x, hx, hx'⟩ := bind_some h1
    obtain ⟨a, ha, ha'⟩ := bind_some h2
    exact ⟨x, a, hx, hx', ha, ha'⟩
  have : Nonempty Pose := ⟨⟨0, 1⟩⟩
  choose! X A hX hXp hA hAa using hval
  refine ⟨fun t => (X t).position, A, fun t ht => ⟨X t, hX t ht, rfl, hA t ht⟩, fun g hg hgk => ?_⟩
  have hint : ∫ t in c.getMinTime..c.getMaxTime, ‖euclid (A t)‖ ^ 2 = ∫ t in c.getMinTime..c.getMaxTime, ‖acc t‖ ^ 2 := by
    refine intervalIntegral.integral_congr fun t ht => ?_
    have hle : c.getMinTime ≤ c.getMaxTime := by
      obtain ⟨n, l, hn⟩ := List.exists_cons_of_ne_nil (l := c.m.nodes) (by
        rintro h; simp [Mgr.knots, h] at h2)
      have := min_le_node hs (n := n) (by simp [hn])
      exact this.1.trans this.2
    rw [uIcc_of_le hle] at ht
    simp only [hAa t ht]
  obtain ⟨g1, g2⟩ := hmot g hg (by
    intro t k hm
    rw [hk] at hm
    obtain ⟨p, hp, hpe⟩ := List.mem_map.1 hm
    cases hpe
    exact hgk p.1 p.2 hp)
  rw [hint]
  exact ⟨g1, fun h t ht => by rw [g2 h t ht, hXp t ht]⟩

/-- The demonstration curve uses no more energy than any motion through its two knots. -/
example (L : LogMap) : ∃ acc : ℝ → Vec3, evaluateLinearAcceleration 3 demo = .ok (some (acc 3)) ∧
    ∀ g : ℕ → ℝ → EuclideanSpace ℝ (Fin 3), Motion 2 1 4 g → g 0 1 = euclid ![5, 0, 0] → g 1 1 = 0 →
      g 0 4 = euclid ![7, 1, 0] → g 1 4 = 0 → ∫ t in (1 : ℝ)..4, ‖euclid (acc t)‖ ^ 2 ≤ ∫ t in (1 : ℝ)..4, ‖g 2 t‖ ^ 2 := by
  have e1 : demo.getMinTime = 1 := by simp [demo, getMinTime, Mgr.getMinTime]
  have e2 : demo.getMaxTime = 4 := by simp [demo, getMaxTime, Mgr.getMaxTime]
  obtain ⟨pos, acc, h, hm⟩ := C123_energy (demo_reachable L) (by simp [demo, Mgr.knots])
  rw [e1, e2] at h hm
  obtain ⟨x, -, -, ha⟩ := h 3 (by norm_num)
  refine ⟨acc, ha, fun g hg h1 h2 h3 h4 => (hm g hg ?_).1⟩
  intro t k hk
  simp only [demo, Mgr.knots, List.map_cons, List.map_nil, List.mem_cons, Prod.mk.injEq, List.not_mem_nil, or_false] at hk
  rcases hk with ⟨rfl, rfl⟩ | ⟨rfl, rfl⟩
  · exact ⟨h1, by simp [h2]⟩
  · exact ⟨h3, by simp [h4, Twist.zero]⟩

theorem shadow_clear (φ : Vec3 →ₗ[ℝ] EuclideanSpace ℝ (Fin 3)) (c : SE3) : (shadow φ c).clear = E3.fresh c.w := rfl

theorem fit_sorted {L : LogMap} {ts : List ℝ} {vs : List Pose} {d0 dT : Twist} {c c' : SE3} {ks : List Key}
    (e : fitCurveWithDerivatives L ts vs d0 dT c = .ok (c', ks)) : Sorted c'.m.nodes := by
  unfold fitCurveWithDerivatives at e
  split at e
  · cases e
  · obtain ⟨cs, -, e⟩ := Outcome.bind_eq_ok.1 e
    obtain ⟨⟨w1, m1, k1⟩, e1, e⟩ := Outcome.bind_eq_ok.1 e
    cases e
    exact insertCoefficients_sorted (by simp [clear, Mgr.clear, Sorted]) e1

/-- C123, accuracy. A curve fitted to samples of a motion whose velocity has Lipschitz constant `M`, at most `h` apart,
with the true velocities at the ends, is nowhere further than `M h² / 4` from the motion. -/
theorem C123_accuracy {L : LogMap} {c : SE3} (ts : List ℝ) (vs : List Pose) (hl : vs.length = ts.length)
    (h2 : 2 ≤ ts.length) (hinc : ts.Pairwise (· < ·)) (d0 dT : Twist)
    {M h : ℝ} {f v : ℝ → EuclideanSpace ℝ (Fin 3)} (hf : Gentle M ts[0] ts[ts.length - 1] f v)
    (hsample : ∀ (i : ℕ) (hi : i < ts.length), euclid vs[i].position = f ts[i])
    (hgap : ∀ (i : ℕ) (hi : i + 1 < ts.length), ts[i + 1] - ts[i] ≤ h) :
    ∃ c' ks, fitCurveWithDerivatives L ts vs d0 dT c = .ok (c', ks) ∧
      ∀ (i : ℕ) (hi : i + 1 < ts.length), (i = 0 → euclid d0.translationalVelocity = v ts[0]) →
        (i + 2 = ts.length → euclid dT.translationalVelocity = v ts[ts.length - 1]) →
        ∀ t ∈ Icc ts[i] ts[i + 1], ∃ p q, evaluate L t c' = .ok (some p) ∧ evaluateDerivative L t 1 c' = .ok (some q) ∧
          ‖euclid p.position - f t‖ ≤ M / 4 * h ^ 2 ∧ ‖euclid q.translationalVelocity - v t‖ ≤ M * h := by
  have hvs : (vs.map fun v => euclid v.position) = ts.map f := by
    refine List.ext_getElem (by simpa using hl) fun i h1 h2 => ?_
    simpa using hsample i (by simpa using h2)
  obtain ⟨e, ks, he, hev⟩ := C112_hermite true ts h2 hinc (euclid d0.translationalVelocity) (euclid dT.translationalVelocity)
    c.w hf hgap
  have hfit := C123_fit L euclid ts vs d0 dT c
  rw [hvs, shadow_clear, he] at hfit
  obtain ⟨⟨c', ks'⟩, hc', hpair⟩ := Outcome.bind_eq_ok.1 hfit.symm
  cases hpair
  refine ⟨c', ks', hc', fun i hi h0 hT t ht => ?_⟩
  obtain ⟨p, q, hp, hq', b1, b2⟩ := hev i hi h0 hT t ht
  obtain ⟨s1, s2, -⟩ := evaluate_shadow (L := L) (e := shadow euclid c') euclid (fit_sorted hc') (conv_knots _ _) t
  rw [s1] at hp
  rw [s2] at hq'
  obtain ⟨x, hx, rfl⟩ := bind_some hp
  obtain ⟨y, hy, rfl⟩ := bind_some hq'
  exact ⟨x, y, hx, hy, b1, b2⟩

/-- Samples of the motion `(t², 0, 0)`, with any rotations. -/
example (L : LogMap) (q r : Quat) : ∃ c' ks, fitCurveWithDerivatives L [0, 1, 2]
      [⟨![0, 0, 0], q⟩, ⟨![1, 0, 0], r⟩, ⟨![4, 0, 0], q⟩] ⟨![0, 0, 0], 0⟩ ⟨![4, 0, 0], 0⟩ demo = .ok (c', ks) ∧
    ∃ p u, evaluate L (3 / 2) c' = .ok (some p) ∧ evaluateDerivative L (3 / 2) 1 c' = .ok (some u) ∧
      ‖euclid p.position - euclid ![9 / 4, 0, 0]‖ ≤ 1 / 2 ∧ ‖euclid u.translationalVelocity - euclid ![3, 0, 0]‖ ≤ 2 := by
  have hsmul : ∀ x : ℝ, (![x, 0, 0] : Vec3) = x • ![1, 0, 0] := fun x => by
    ext i; fin_cases i <;> simp
  have hone : ‖euclid ![1, 0, 0]‖ = 1 := by
    rw [EuclideanSpace.norm_eq]
    simp [euclid, Fin.sum_univ_three]
  have hG : Gentle 2 0 2 (fun t : ℝ => euclid ![t ^ 2, 0, 0]) (fun t => euclid ![2 * t, 0, 0]) := by
    refine ⟨fun t _ => ?_, fun s _ t _ h => ?_⟩
    · have h := ((hasDerivAt_pow 2 t).smul_const (euclid ![1, 0, 0])).hasDerivWithinAt (s := Icc 0 2)
      have e1 : (fun t : ℝ => euclid ![t ^ 2, 0, 0]) = fun t : ℝ => t ^ 2 • euclid ![1, 0, 0] := by
        funext t; rw [hsmul, map_smul]
      have e2 : euclid ![2 * t, 0, 0] = (2 * t) • euclid ![1, 0, 0] := by rw [hsmul, map_smul]
      simp only [e1, e2]
      simpa using h
    · rw [hsmul, hsmul (2 * s), map_smul, map_smul, ← sub_smul, norm_smul, hone, ← mul_sub, norm_mul,
        Real.norm_eq_abs (t - s), abs_of_nonneg (sub_nonneg.2 h)]
      norm_num
  obtain ⟨c', ks, e, k⟩ := C123_accuracy (L := L) (c := demo) [0, 1, 2]
    [⟨![0, 0, 0], q⟩, ⟨![1, 0, 0], r⟩, ⟨![4, 0, 0], q⟩] rfl (by simp) (by norm_num) ⟨![0, 0, 0], 0⟩ ⟨![4, 0, 0], 0⟩
    (M := 2) (h := 1) hG (fun i hi => by
      have : i = 0 ∨ i = 1 ∨ i = 2 := by simp at hi; omega
      rcases this with rfl | rfl | rfl <;> norm_num) (fun i hi => by
      have : i = 0 ∨ i = 1 := by simp at hi; omega
      rcases this with rfl | rfl <;> norm_num)
  refine ⟨c', ks, e, ?_⟩
  obtain ⟨p, u, h1, h2, h3, h4⟩ := k 1 (by simp) (by simp) (by norm_num) (3 / 2) (by norm_num)
  refine ⟨p, u, h1, h2, ?_, ?_⟩
  · norm_num at h3; norm_num; exact h3
  · norm_num at h4; exact h4

/-- C123, noise. The translations of two curves, fitted to positions that differ by at most `ε` and end velocities that
differ by at most `δ`, differ by no more than E3 curves do. -/
theorem C123_noise {L L' : LogMap} {c d : SE3} (ts : List ℝ) (vs us : List Pose) (hv : vs.length = ts.length)
    (hu : us.length = ts.length) (h2 : 2 ≤ ts.length) (hinc : ts.Pairwise (· < ·))
    (d0 dT e0 eT : Twist) (ε δ m H : ℝ) (hm : 0 < m)
    (hgap : ∀ (i : ℕ) (hi : i + 1 < ts.length), m ≤ ts[i + 1] - ts[i] ∧ ts[i + 1] - ts[i] ≤ H)
    (hpq : ∀ (i : ℕ) (hi : i < ts.length), ‖euclid vs[i].position - euclid us[i].position‖ ≤ ε)
    (h0 : ‖euclid d0.translationalVelocity - euclid e0.translationalVelocity‖ ≤ δ)
    (hT : ‖euclid dT.translationalVelocity - euclid eT.translationalVelocity‖ ≤ δ) :
    ∃ c' ks d' ks', fitCurveWithDerivatives L ts vs d0 dT c = .ok (c', ks) ∧
      fitCurveWithDerivatives L' ts us e0 eT d = .ok (d', ks') ∧
      ∀ t, ts[0] ≤ t → t ≤ ts[ts.length - 1] → ∃ p q u v,
        evaluate L t c' = .ok (some p) ∧ evaluate L' t d' = .ok (some q) ∧
        evaluateDerivative L t 1 c' = .ok (some u) ∧ evaluateDerivative L' t 1 d' = .ok (some v) ∧
        ‖euclid p.position - euclid q.position‖ ≤ ε + H / 4 * max δ (ε / m) ∧
        ‖euclid u.translationalVelocity - euclid v.translationalVelocity‖ ≤ 3 * ε / m + max δ (ε / m) := by
  obtain ⟨e, ks, f, ks', he, hf, hev⟩ := Sensitivity.C118_hermite true true ts (vs.map fun v => euclid v.position)
    (us.map fun v => euclid v.position) h2 (by simpa) (by simpa) hinc (euclid d0.translationalVelocity)
    (euclid dT.translationalVelocity) (euclid e0.translationalVelocity) (euclid eT.translationalVelocity) c.w d.w
    ε δ m H hm hgap (by
      intro i p q hp hq
      obtain ⟨h1, rfl⟩ := List.getElem?_eq_some_iff.1 hp
      obtain ⟨h2, rfl⟩ := List.getElem?_eq_some_iff.1 hq
      simpa using hpq i (by simp at h1; omega)) h0 hT
  have hfit := C123_fit L euclid ts vs d0 dT c
  have hfit' := C123_fit L' euclid ts us e0 eT d
  rw [shadow_clear, he] at hfit
  rw [shadow_clear, hf] at hfit'
  obtain ⟨⟨c', ks1⟩, hc', hpair⟩ := Outcome.bind_eq_ok.1 hfit.symm
  cases hpair
  obtain ⟨⟨d', ks2⟩, hd', hpair⟩ := Outcome.bind_eq_ok.1 hfit'.symm
  cases hpair
  refine ⟨c', ks1, d', ks2, hc', hd', fun t ht0 htT => ?_⟩
  obtain ⟨p, q, u, v, hp, hq, hu', hv', b1, b2⟩ := hev t ht0 htT
  have hs : Sorted c'.m.nodes := fit_sorted hc'
  have hs' : Sorted d'.m.nodes := fit_sorted hd'
  obtain ⟨s1, s2, -⟩ := evaluate_shadow (L := L) (e := shadow euclid c') euclid hs (conv_knots _ _) t
  obtain ⟨r1, r2, -⟩ := evaluate_shadow (L := L') (e := shadow euclid d') euclid hs' (conv_knots _ _) t
  rw [s1] at hp
  rw [s2] at hu'
  rw [r1] at hq
  rw [r2] at hv'
  obtain ⟨x, hx, rfl⟩ := bind_some hp
  obtain ⟨y, hy, rfl⟩ := bind_some hu'
  obtain ⟨x', hx', rfl⟩ := bind_some hq
  obtain ⟨y', hy', rfl⟩ := bind_some hv'
  exact ⟨x, x', y, y', hx, hx', hy, hy', b1, b2⟩

/-- Positions known to a hundredth, rotations to nothing at all. -/
example (L : LogMap) (q1 q2 q3 r1 r2 r3 : Quat) (x : Vec3) (hx : ‖euclid x - euclid ![1, 2, 3]‖ ≤ 1 / 100) :
    ∃ c' ks d' ks', fitCurve L [0, 1, 2] [⟨0, q1⟩, ⟨![1, 2, 3], q2⟩, ⟨0, q3⟩] demo = .ok (c', ks) ∧
      fitCurve L [0, 1, 2] [⟨0, r1⟩, ⟨x, r2⟩, ⟨0, r3⟩] demo = .ok (d', ks') ∧
      ∃ p q, evaluate L (3 / 2) c' = .ok (some p) ∧ evaluate L (3 / 2) d' = .ok (some q) ∧
        ‖euclid p.position - euclid q.position‖ ≤ 1 / 80 := by
  obtain ⟨c', ks, d', ks', e, e', h⟩ := C123_noise (L := L) (L' := L) (c := demo) (d := demo) [0, 1, 2]
    [⟨0, q1⟩, ⟨![1, 2, 3], q2⟩, ⟨0, q3⟩] [⟨0, r1⟩, ⟨x, r2⟩, ⟨0, r3⟩] rfl rfl (by simp) (by norm_num)
    Twist.zero Twist.zero Twist.zero Twist.zero (1 / 100) 0 1 1 one_pos (fun i hi => by
      have : i = 0 ∨ i = 1 := by simp at hi; omega
      rcases this with rfl | rfl <;> norm_num) (fun i hi => by
      have : i = 0 ∨ i = 1 ∨ i = 2 := by simp at hi; omega
      rcases this with rfl | rfl | rfl
      · simp
      · rw [norm_sub_rev]; exact hx
      · simp) (by simp) (by simp)
  obtain ⟨p, q, -, -, h1, h2, -, -, h3, -⟩ := h (3 / 2) (by norm_num) (by norm_num)
  exact ⟨c', ks, d', ks', e, e', p, q, h1, h2, h3.trans (by norm_num)⟩

end Verif.Hermite.SE3

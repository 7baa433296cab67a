import Verif.Accuracy.HermiteLemmas

/-!
# Property C112: a curve fitted to samples of a motion stays near the motion
-/

set_option linter.unusedSectionVars false
set_option linter.dupNamespace false

namespace Verif.Accuracy

open Set Verif.Manager Verif.Hermite Verif.Hermite.E3

variable {V : Type} [NormedAddCommGroup V] [InnerProductSpace ℝ V]

theorem nodes_split {α : Type} (l : List α) (i : ℕ) (h : i + 1 < l.length) :
    l = l.take i ++ l[i] :: l[i + 1] :: l.drop (i + 2) := by
  rw [← List.drop_eq_getElem_cons, ← List.drop_eq_getElem_cons, List.take_append_drop]

/-- **C112**, Hermite curves. `f` is a motion with velocity `v` and acceleration at most `M`, in any number of dimensions,
sampled at times at most `h` apart. Between two samples the fitted curve is within `M h^2 / 4` of the motion, and
its velocity within `M h`. In the first and in the last segment this needs the end velocity given to
`fitCurveWithDerivatives` to be that of the motion; in the others nothing. -/
theorem C112_hermite (debug : Bool) (ts : List ℝ) (h2 : 2 ≤ ts.length) (hinc : ts.Pairwise (· < ·)) (d0 dT : V) (w : World)
    {M h : ℝ} {f v : ℝ → V} (hf : Gentle M ts[0] ts[ts.length - 1] f v)
    (hgap : ∀ (i : ℕ) (hi : i + 1 < ts.length), ts[i + 1] - ts[i] ≤ h) :
    ∃ c' ks, fitCurveWithDerivatives debug ts (ts.map f) d0 dT (fresh w) = .ok (c', ks) ∧
      ∀ (i : ℕ) (hi : i + 1 < ts.length), (i = 0 → d0 = v ts[0]) → (i + 2 = ts.length → dT = v ts[ts.length - 1]) →
        ∀ t ∈ Icc ts[i] ts[i + 1], ∃ p q, evaluate t c' = .ok (some p) ∧ evaluateDerivative t 1 c' = .ok (some q) ∧
          ‖p - f t‖ ≤ M / 4 * h ^ 2 ∧ ‖q - v t‖ ≤ M * h := by
  have hlt : ∀ i j (hi : i < ts.length) (hj : j < ts.length), i < j → ts[i] < ts[j] := List.pairwise_iff_getElem.1 hinc
  have hle : ∀ i j (hi : i < ts.length) (hj : j < ts.length), i ≤ j → ts[i] ≤ ts[j] := by
    intro i j hi hj hij
    rcases hij.eq_or_lt with rfl | e
    · exact le_rfl
    · exact (hlt i j hi hj e).le
  have sub : ∀ i j (hi : i < ts.length) (hj : j < ts.length), Gentle M ts[i] ts[j] f v := fun i j hi hj =>
    hf.mono (hle 0 i (by omega) hi (by omega)) (hle j (ts.length - 1) hj (by omega) (by omega))
  obtain ⟨cs, e, hcs, hc⟩ := fitLoop_ok ts (ts.map f) d0 dT (by simp) ts.length 0 (by omega)
  obtain ⟨w', m', ks, e', hs, hk, -⟩ := fill_empty w (cs := cs) (by omega) hinc
  refine ⟨⟨w', m'⟩, ks, ?_, fun i hi h0 hT t ht => ?_⟩
  · rw [fitCurveWithDerivatives, if_neg (by simp), e, Outcome.ok_bind, fresh, e']
    rfl
  have hlen : m'.nodes.length = ts.length := by
    have := congrArg List.length hk
    simpa [Mgr.knots, hcs] using this
  have hnode : ∀ j (hj : j < ts.length), m'.nodes[j].time = ts[j] ∧ m'.nodes[j].coef = cs[j] := by
    intro j hj
    have h1 := congrArg (fun l => l[j]?) hk
    simp only [Mgr.knots, List.getElem?_map, List.getElem?_eq_getElem (show j < m'.nodes.length by omega),
      List.getElem?_eq_getElem (show j < (ts.zip cs).length by simp; omega), List.getElem_zip, Option.map_some,
      Option.some.injEq, Prod.mk.injEq] at h1
    exact h1
  have hsplit := nodes_split m'.nodes i (by omega)
  set a := m'.nodes[i]'(by omega) with ha
  set b := m'.nodes[i + 1]'(by omega) with hb
  have ta : a.time = ts[i] := (hnode i (by omega)).1
  have tb : b.time = ts[i + 1] := (hnode (i + 1) (by omega)).1
  rw [← ta, ← tb] at ht
  have hab : a.time < b.time := by rw [ta, tb]; exact hlt i (i + 1) _ _ (by omega)
  have hgi := hgap i hi
  have hG := sub i (i + 1) (by omega) (by omega)
  have hM := hf.nonneg (hlt 0 (ts.length - 1) (by omega) (by omega) (by omega))
  have hh : 0 < ts[i + 1] - ts[i] := sub_pos.2 (hlt i (i + 1) _ _ (by omega))
  obtain ⟨ka, ea, pa, va0, vaT, va⟩ := hc i (by omega)
  obtain ⟨kb, eb, pb, vb0, vbT, vb⟩ := hc (i + 1) (by omega)
  simp only [Nat.zero_add] at pa va0 vaT va pb vb0 vbT vb
  have ca : a.coef = ka := (hnode i (by omega)).2.trans ea
  have cb : b.coef = kb := (hnode (i + 1) (by omega)).2.trans eb
  have eA : ‖a.coef.velocity - (1 / (b.time - a.time)) • (f b.time - f a.time)‖ ≤ M / 2 * h := by
    rw [ta, tb, ca]
    by_cases hi0 : i = 0
    · have hsl := slope_near (hlt i (i + 1) (by omega) hi (by omega)) hG (left_mem_Icc.2 (hle i (i + 1) _ _ (by omega)))
      rw [norm_sub_rev, va0 hi0, h0 hi0]
      subst hi0
      exact hsl.trans (mul_le_mul_of_nonneg_left hgi (by linarith))
    · rw [va hi0 (by omega)]
      have hsl := slope_right (hlt (i - 1) i (by omega) (by omega) (by omega)) (hlt i (i + 1) (by omega) hi (by omega))
        (sub (i - 1) (i + 1) (by omega) hi)
      have hg := hgap (i - 1) (by omega)
      simp only [show i - 1 + 1 = i by omega] at hg
      simp only [List.getElem_map]
      exact hsl.trans (mul_le_mul_of_nonneg_left hg (by linarith))
  have eB : ‖b.coef.velocity - (1 / (b.time - a.time)) • (f b.time - f a.time)‖ ≤ M / 2 * h := by
    rw [ta, tb, cb]
    by_cases hiT : i + 2 = ts.length
    · have hsl := slope_near (hlt i (i + 1) (by omega) hi (by omega)) hG (right_mem_Icc.2 (hle i (i + 1) _ _ (by omega)))
      rw [norm_sub_rev, vbT (by omega) (by omega), hT hiT]
      simp only [show ts.length - 1 = i + 1 by omega]
      exact hsl.trans (mul_le_mul_of_nonneg_left hgi (by linarith))
    · rw [vb (by omega) (by omega)]
      have hsl := slope_left (hlt i (i + 1) (by omega) hi (by omega)) (hlt (i + 1) (i + 2) (by omega) (by omega) (by omega))
        (sub i (i + 2) (by omega) (by omega))
      have hg := hgap (i + 1) (by omega)
      simp only [List.getElem_map, Nat.add_sub_cancel]
      exact hsl.trans (mul_le_mul_of_nonneg_left hg (by linarith))
  have key := hermite_near hab (by rw [ta, tb]; exact hG) (by rw [ca, pa, ta, List.getElem_map]) (by rw [cb, pb, tb, List.getElem_map]) eA eB ht
  refine ⟨_, _, evaluate_between hs hsplit ht.1 ht.2, velocity_between hs hsplit ht.1 ht.2, key.1.trans ?_, key.2.trans ?_⟩
  · rw [ta, tb]
    have h3 : (ts[i + 1] - ts[i]) ^ 2 ≤ h ^ 2 := by nlinarith
    have h4 : h * (ts[i + 1] - ts[i]) ≤ h * h := mul_le_mul_of_nonneg_left hgi (by linarith)
    have h5 := mul_le_mul_of_nonneg_left h3 hM
    have h6 := mul_le_mul_of_nonneg_left h4 hM
    linarith
  · rw [ta, tb]
    have h3 := mul_le_mul_of_nonneg_left hgi hM
    linarith

/-- Hypotheses of `C112_hermite` met: samples of `t^2` at the times 0, 1 and 2, with the true velocities at both ends. -/
example (w : World) : ∃ c' ks, fitCurveWithDerivatives true [0, 1, 2] [0, 1, 4] 0 4 (fresh w : E3 ℝ ℝ) = .ok (c', ks) ∧
    ∃ p q, evaluate (3 / 2) c' = .ok (some p) ∧ evaluateDerivative (3 / 2) 1 c' = .ok (some q) ∧ ‖p - 9 / 4‖ ≤ 1 / 2 ∧ ‖q - 3‖ ≤ 2 := by
  have hG : Gentle 2 0 2 (fun t : ℝ => t ^ 2) (fun t => 2 * t) :=
    ⟨fun t _ => by simpa using (hasDerivAt_pow 2 t).hasDerivWithinAt, fun s _ t _ h => by
      rw [← mul_sub, norm_mul, Real.norm_eq_abs (t - s), abs_of_nonneg (sub_nonneg.2 h)]
      norm_num⟩
  obtain ⟨c', ks, e, k⟩ := C112_hermite true [0, 1, 2] (by simp) (by norm_num) (0 : ℝ) 4 w (M := 2) (h := 1) hG (fun i hi => by
      match i, hi with
      | 0, _ => norm_num
      | 1, _ => norm_num)
  have k1 := k 1 (by simp) (by simp) (by norm_num) (3 / 2) (by norm_num)
  norm_num at e k1 ⊢
  exact ⟨c', ⟨ks, e⟩, k1⟩

end Verif.Accuracy

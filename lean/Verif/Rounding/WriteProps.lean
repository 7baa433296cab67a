import Verif.Rounding.Props
import Verif.Manager.EvalLemmas
import Verif.Hermite.WriteProps

/-!
# Property C100: `writeEvalToFile` with rounding
-/

set_option linter.unusedSectionVars false
set_option linter.dupNamespace false

namespace Verif.Rounding

section
variable {K : Type} [Field K] [LinearOrder K] [IsStrictOrderedRing K] (R : Rounding K)

open Verif.Manager Verif.Hermite

/-- The numbers of a line. -/
def numbers (t : K) (p v : Vec3 K) : List K := [t, p 0, p 1, p 2, v 0, v 1, v 2]

theorem evaluate_eq (t : K) (m : Mgr K (Knot (Vec3 K))) :
    evaluate R t m = evalWith Knot.position (interpolate R) t m := by
  unfold evaluate evalWith
  split
  · rfl
  · cases m.getCoefficientsAt t <;> rfl

theorem evaluateVelocity_eq (t : K) (m : Mgr K (Knot (Vec3 K))) :
    evaluateVelocity R t m = evalWith Knot.velocity (interpolateVelocity R) t m := by
  unfold evaluateVelocity evalWith
  split
  · rfl
  · cases m.getCoefficientsAt t <;> rfl

/-- The values in the domain of a curve. -/
theorem values {m : Mgr K (Knot (Vec3 K))} (hs : Sorted m.nodes) (hne : m.knots ≠ []) :
    ∃ p v : K → Vec3 K, ∀ t, m.getMinTime ≤ t → t ≤ m.getMaxTime →
      evaluate R t m = .ok (some (p t)) ∧ evaluateVelocity R t m = .ok (some (v t)) := by
  have H : ∀ t, ∃ p v : Vec3 K, m.getMinTime ≤ t → t ≤ m.getMaxTime →
      evaluate R t m = .ok (some p) ∧ evaluateVelocity R t m = .ok (some v) := by
    intro t
    by_cases h : m.getMinTime ≤ t ∧ t ≤ m.getMaxTime
    · obtain ⟨r, e, hr⟩ := evalWith_domain (single := Knot.position) (f := interpolate R) hs t (Or.inl hne)
      obtain ⟨r', e', hr'⟩ := evalWith_domain (single := Knot.velocity) (f := interpolateVelocity R) hs t
        (Or.inl hne)
      obtain ⟨p, rfl⟩ := Option.isSome_iff_exists.1 (hr.2 ⟨hne, h⟩)
      obtain ⟨v, rfl⟩ := Option.isSome_iff_exists.1 (hr'.2 ⟨hne, h⟩)
      exact ⟨p, v, fun _ _ => ⟨by rw [evaluate_eq, e], by rw [evaluateVelocity_eq, e']⟩⟩
    · exact ⟨0, 0, fun h0 h1 => absurd ⟨h0, h1⟩ h⟩
  choose p v h using H
  exact ⟨p, v, h⟩

variable {R} in
theorem evalLine_ok {m : Mgr K (Knot (Vec3 K))} {t : K} {p v : Vec3 K} (h1 : evaluate R t m = .ok (some p))
    (h2 : evaluateVelocity R t m = .ok (some v)) : evalLine R m t = .ok (some (numbers t p v)) := by
  simp only [evalLine, h1, h2, Outcome.ok_bind]
  rfl

/-- What the loop does from a time in the domain on. -/
theorem evalLoop_spec {m : Mgr K (Knot (Vec3 K))} {p v : K → Vec3 K} (hv : ∀ t, m.getMinTime ≤ t → t ≤ m.getMaxTime →
      evaluate R t m = .ok (some (p t)) ∧ evaluateVelocity R t m = .ok (some (v t))) {dt : K}
    (hdt : 0 ≤ dt) : ∀ (turns : ℕ) (t : K) (acc : List (List K)), m.getMinTime ≤ t → R.rnd t = t →
    ∃ r, evalLoop R (evalLine R m) m.getMaxTime dt turns t acc = .ok r ∧
      ∀ b ls, r = some (b, ls) → b = true ∧ ∃ ts : List K,
        ls = acc ++ ts.map (fun t => numbers t (p t) (v t)) ∧
        ts.Pairwise (· ≤ ·) ∧ (∀ x ∈ ts, t ≤ x ∧ x < m.getMaxTime) ∧ (t < m.getMaxTime → ts.head? = some t) := by
  intro turns
  induction turns with
  | zero => exact fun t acc _ _ => ⟨none, rfl, by simp⟩
  | succ n ih =>
    intro t acc h0 hr
    rw [evalLoop]
    by_cases ht : t < m.getMaxTime
    · rw [if_pos ht]
      obtain ⟨e1, e2⟩ := hv t h0 ht.le
      have hle : t ≤ R.rnd (t + dt) := by
        conv_lhs => rw [← hr]
        exact R.mono (by linarith)
      obtain ⟨r, er, hrr⟩ := ih (R.rnd (t + dt)) (acc ++ [numbers t (p t) (v t)]) (h0.trans hle) (R.idem _)
      refine ⟨r, by rw [evalLine_ok e1 e2]; exact er, fun b ls hb => ?_⟩
      obtain ⟨hb', ts, h1, h2, h3, -⟩ := hrr b ls hb
      refine ⟨hb', t :: ts, ?_, List.pairwise_cons.2 ⟨fun x hx => hle.trans (h3 x hx).1, h2⟩, ?_, fun _ => rfl⟩
      · rw [h1]
        simp
      · intro x hx
        rcases List.mem_cons.1 hx with rfl | hx
        · exact ⟨le_rfl, ht⟩
        · exact ⟨hle.trans (h3 x hx).1, (h3 x hx).2⟩
    · rw [if_neg ht]
      refine ⟨_, rfl, fun b ls hb => ?_⟩
      cases hb
      exact ⟨rfl, [], by simp, List.Pairwise.nil, by simp, fun h => absurd h ht⟩

/-- The loop when the sample times are not rounded. -/
theorem evalLoop_exact {m : Mgr K (Knot (Vec3 K))} {p v : K → Vec3 K} (hv : ∀ t, m.getMinTime ≤ t → t ≤ m.getMaxTime →
      evaluate R t m = .ok (some (p t)) ∧ evaluateVelocity R t m = .ok (some (v t))) {dt : K} (hdt : 0 < dt) (n : ℕ)
    (hn : m.getMinTime + n * dt = m.getMaxTime)
    (he : ∀ k : ℕ, k ≤ n → R.rnd (m.getMinTime + k * dt) = m.getMinTime + k * dt) :
    ∀ (l k turns : ℕ) (acc : List (List K)), k + l = n → l < turns →
    evalLoop R (evalLine R m) m.getMaxTime dt turns (m.getMinTime + k * dt) acc =
      .ok (some (true, acc ++ (List.range' k l).map fun j : ℕ =>
        let t := m.getMinTime + j * dt
        numbers t (p t) (v t))) := by
  intro l
  induction l with
  | zero =>
    rintro k turns acc rfl ht
    obtain ⟨turns, rfl⟩ : ∃ u, turns = u + 1 := ⟨turns - 1, by omega⟩
    rw [evalLoop, if_neg (by rw [← hn]; simp)]
    simp
  | succ l ih =>
    intro k turns acc hk ht
    obtain ⟨turns, rfl⟩ : ∃ u, turns = u + 1 := ⟨turns - 1, by omega⟩
    have hkn : (k : K) < n := Nat.cast_lt.2 (by omega)
    have hlt : m.getMinTime + k * dt < m.getMaxTime := by
      rw [← hn]
      have := mul_lt_mul_of_pos_right hkn hdt
      linarith
    obtain ⟨e1, e2⟩ := hv (m.getMinTime + k * dt) (by
      have : 0 ≤ (k : K) * dt := mul_nonneg (Nat.cast_nonneg k) hdt.le
      linarith) hlt.le
    rw [evalLoop, if_pos hlt, evalLine_ok e1 e2]
    have hs : R.rnd (m.getMinTime + k * dt + dt) = m.getMinTime + ((k + 1 : ℕ) : K) * dt := by
      rw [← he (k + 1) (by omega)]
      congr 1
      push_cast
      ring
    simp only [Outcome.ok_bind, hs]
    rw [ih (k + 1) turns _ (by omega) (by omega)]
    simp [List.range'_succ]

variable {c : St K (Knot (Vec3 K))}

/-- **C100 (partial).** Whatever the rounding: `writeEvalToFile` never fails on a curve of `double`s with at
least two knots. If its loop ends, it has written the values and velocities at times that start with the first
knot, do not decrease and stay before the last knot. If the step and its sums are `double`s, it ends and
writes `n + 1` lines for `nSamples = n + 2`. Missing: that it ends, see `C100_endless`, and the number of
lines, see `C100_lines_refuted`. -/
theorem C100_write_partial (hr : Manager.Reachable c) (hc : c.w.calls + 1 < 2 ^ 64) (h2 : 2 ≤ c.m.knots.length)
    (hd : R.rnd c.m.getMinTime = c.m.getMinTime) (n : ℕ) :
    ∃ p v : K → Vec3 K, (∀ t, c.m.getMinTime ≤ t → t ≤ c.m.getMaxTime →
      evaluate R t c.m = .ok (some (p t)) ∧ evaluateVelocity R t c.m = .ok (some (v t))) ∧
      (∀ turns, ∃ r, writeEval R c.m turns n = .ok r ∧ ∀ b ls, r = some (b, ls) → b = true ∧
        ∃ ts : List K, ls = ts.map (fun t => numbers t (p t) (v t)) ∧ ts.head? = some c.m.getMinTime ∧
          ts.Pairwise (· ≤ ·) ∧ ∀ t ∈ ts, t < c.m.getMaxTime) ∧
      ∀ dt, c.m.getMinTime + (n + 1 : ℕ) * dt = c.m.getMaxTime →
        R.rnd (c.m.getMaxTime - c.m.getMinTime) = c.m.getMaxTime - c.m.getMinTime → R.rnd dt = dt →
        (∀ k : ℕ, k ≤ n + 1 → R.rnd (c.m.getMinTime + k * dt) = c.m.getMinTime + k * dt) →
        ∀ turns, n + 1 < turns → writeEval R c.m turns n =
          .ok (some (true, (List.range (n + 1)).map fun k : ℕ =>
            let t := c.m.getMinTime + k * dt
            numbers t (p t) (v t))) := by
  have hs := (hr.WF hc).sorted
  have hne : c.m.knots ≠ [] := by rintro e; rw [e] at h2; simp at h2
  obtain ⟨p, v, hv⟩ := values R hs hne
  have hlt : c.m.getMinTime < c.m.getMaxTime := Hermite.min_lt_max hs h2
  refine ⟨p, v, hv, fun turns => ?_, fun dt hn hspan hstep he turns ht => ?_⟩
  · have hdt : 0 ≤ timeStep R c.m.getMinTime c.m.getMaxTime n :=
      rnd_nonneg R (div_nonneg (rnd_nonneg R (by linarith)) (Nat.cast_nonneg _))
    obtain ⟨r, e, h⟩ := evalLoop_spec R hv hdt turns c.m.getMinTime [] le_rfl hd
    refine ⟨r, e, fun b ls hb => ?_⟩
    obtain ⟨h1, ts, h2, h3, h4, h5⟩ := h b ls hb
    exact ⟨h1, ts, by simpa using h2, h5 hlt, h3, fun t ht => (h4 t ht).2⟩
  · have hpos : 0 < dt := by
      by_contra hn'
      have : ((n + 1 : ℕ) : K) * dt ≤ 0 := mul_nonpos_of_nonneg_of_nonpos (Nat.cast_nonneg _) (not_lt.1 hn')
      linarith
    have := evalLoop_exact R hv hpos (n + 1) hn he (n + 1) 0 turns [] (by omega) ht
    simp only [Nat.cast_zero, zero_mul, add_zero, List.nil_append] at this
    have hdt : timeStep R c.m.getMinTime c.m.getMaxTime n = dt := by
      have hn0 : ((n + 1 : ℕ) : K) ≠ 0 := Nat.cast_ne_zero.2 (by omega)
      rw [timeStep, hspan, ← hn, add_sub_cancel_left, mul_div_cancel_left₀ _ hn0, hstep]
    rw [writeEval, hdt, this, List.range_eq_range']

/-- **C100 is false of the code**: if the step is lost when added to the first time, `writeEvalToFile` does not
return, whatever the curve. -/
theorem C100_endless (hr : Manager.Reachable c) (hc : c.w.calls + 1 < 2 ^ 64) (h2 : 2 ≤ c.m.knots.length) (n : ℕ)
    (hd : R.rnd (c.m.getMinTime + R.rnd (R.rnd (c.m.getMaxTime - c.m.getMinTime) / (n + 1 : ℕ))) =
      c.m.getMinTime) (turns : ℕ) :
    writeEval R c.m turns n = .ok none := by
  have hs := (hr.WF hc).sorted
  have hne : c.m.knots ≠ [] := by rintro e; rw [e] at h2; simp at h2
  obtain ⟨p, v, hv⟩ := values R hs hne
  have hlt : c.m.getMinTime < c.m.getMaxTime := Hermite.min_lt_max hs h2
  obtain ⟨e1, e2⟩ := hv _ le_rfl hlt.le
  rw [writeEval]
  generalize ([] : List (List K)) = acc
  induction turns generalizing acc with
  | zero => rfl
  | succ turns ih =>
    rw [evalLoop, if_pos hlt, evalLine_ok e1 e2]
    simp only [Outcome.ok_bind, timeStep, hd]
    exact ih _

end

/-- Two knots at `a` and `b`, at rest in the origin. -/
def rest (a b : ℚ) : Manager.St ℚ (Hermite.Knot (Vec3 ℚ)) :=
  ⟨⟨2, 2⟩, ⟨[⟨0, a, 1, ⟨fun _ => 0, fun _ => 0⟩⟩, ⟨1, b, 2, ⟨fun _ => 0, fun _ => 0⟩⟩], [(1, 0), (2, 1)]⟩⟩

open Verif.Manager in
theorem rest_reachable {a b : ℚ} (h : a < b) : Manager.Reachable (rest a b) := by
  refine ⟨⟨0, 0⟩, [.insert a ⟨fun _ => 0, fun _ => 0⟩, .insert b ⟨fun _ => 0, fun _ => 0⟩],
    by simp [SafeRun, SafeOp], ?_⟩
  simp [Manager.run, Manager.step, Mgr.insertCoefficient, Mgr.empty, scanAtTime, getNextKey, newAddr, mapInsert,
    kmSet, rest, not_le.2 h, not_lt.2 h.le, h]

/-- The number of lines, if the function has returned `true`. -/
def lineCount : Outcome (Option (Bool × List (List ℚ))) → Option ℕ
  | .ok (some (true, ls)) => some ls.length
  | _ => none

/-- **C100 is false of the code**: over one second, asking for 6 samples gives 5 lines, asking for 11 samples
gives 11 lines. -/
theorem C100_lines_refuted : Manager.Reachable (rest 0 1) ∧
    lineCount (writeEval (double ℚ) (rest 0 1).m 20 4) = some 5 ∧
    lineCount (writeEval (double ℚ) (rest 0 1).m 20 9) = some 11 :=
  ⟨rest_reachable (by norm_num), by decide +kernel, by decide +kernel⟩

/-- The guard of the last part of `C100_write_partial`: five samples over one second. -/
example : (0 : ℚ) + (3 + 1 : ℕ) * (1 / 4) = 1 ∧ (double ℚ).rnd (1 - 0) = 1 - 0 ∧ (double ℚ).rnd (1 / 4) = 1 / 4 ∧
    ∀ k : ℕ, k ≤ 4 → (double ℚ).rnd (0 + k * (1 / 4)) = 0 + k * (1 / 4) := by
  decide +kernel

/-- `writeEvalToFile(name, 3)` of a curve from 2^53 to 2^53 + 2 does not return. -/
example (turns : ℕ) : writeEval (double ℚ) (rest (2 ^ 53) (2 ^ 53 + 2)).m turns 1 = .ok none :=
  C100_endless (double ℚ) (rest_reachable (by norm_num)) (by simp [rest]) (by simp [rest, Manager.Mgr.knots]) 1
    (by change (double ℚ).rnd ((2 ^ 53) + (double ℚ).rnd ((double ℚ).rnd ((2 ^ 53 + 2) - 2 ^ 53) / (1 + 1 : ℕ))) =
          2 ^ 53
        decide +kernel) turns

end Verif.Rounding

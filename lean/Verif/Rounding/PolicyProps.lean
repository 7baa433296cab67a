import Verif.Rounding.Link
import Verif.Rounding.Double
import Verif.Hermite.ExtendProps

/-!
# Property C101: the sampling period of `SamplingPolicy`
-/

set_option linter.unusedSectionVars false
set_option linter.dupNamespace false

namespace Verif.Rounding

section
variable {K : Type} [Field K] [LinearOrder K] [IsStrictOrderedRing K] (R : Rounding K)

theorem picked_snoc (n : Int) (period : K) (ts : List K) (t : K) :
    picked R n period (ts ++ [t]) = pick R n period (picked R n period ts) t := by
  simp [picked, List.foldl_append]

/-- **C101**, with rounding: of the times chosen by the policy each is, exactly, more than the sampling period
after the one chosen before. -/
theorem C101_rounded (n : Int) (period : K) (ts : List K) (hd : ∀ t ∈ ts, R.rnd t = t) :
    (picked R n period ts).1.IsChain fun a b => a + period < b := by
  induction ts using List.reverseRecOn with
  | nil => simp [picked]
  | append_singleton ts t ih =>
    have ih := ih fun x hx => hd x (by simp [hx])
    rw [picked_snoc, pick]
    cases h : (picked R n period ts).1.getLast? with
    | none => simp
    | some k =>
      by_cases hc : n ≤ (picked R n period ts).2 ∧ R.rnd (k + period) < t
      · simp only [hc, and_self, if_true]
        refine List.isChain_append.2 ⟨ih, by simp, ?_⟩
        intro x hx y hy
        rw [h] at hx
        simp only [Option.mem_def, Option.some.injEq, List.head?_cons] at hx hy
        subst hx hy
        by_contra hn
        have := R.mono (not_lt.1 hn)
        rw [hd t (by simp)] at this
        exact absurd hc.2 (not_lt.2 this)
      · simpa only [hc, if_false] using ih

end

open Verif.Hermite Verif.Hermite.HPol Verif.Manager Verif.Kindr

/-- **C101 (partial).** After extending an empty curve through a policy, neighbouring knots are more than the
sampling period apart, except possibly the last two. Missing: the last two, see `C101_last_refuted`. -/
theorem C101_spacing_partial (L : LogMap) (w : World) (n : Int) (hn : 1 ≤ n) (period : ℝ) (xs : List (ℝ × Pose))
    (hinc : xs.Pairwise fun a b => a.1 < b.1) (hu : ∀ x ∈ xs, Quaternion.normSq x.2.rotation = 1)
    (hl : xs.length < 2 ^ 31) (hw : w.calls + xs.length < 2 ^ 64) :
    ∃ p' c', extend L (make n period) (SE3.fresh w) (xs.map Prod.fst) (xs.map Prod.snd) = .ok (p', c') ∧
      (c'.m.knots.map Prod.fst).dropLast.IsChain fun a b => a + period < b := by
  obtain ⟨p', c', e, hk, -⟩ := C78_newest L w n hn period xs hinc hu hl hw
  refine ⟨p', c', e, ?_⟩
  have h1 := C101_rounded (exact ℝ) n period (xs.map Prod.fst) fun _ _ => rfl
  rw [link_picked] at h1
  have h2 : c'.m.knots.map Prod.fst = (picked (exact ℝ) n period (xs.map Prod.fst)).1 ++
      (if (Hermite.picked n period xs).2 = 0 then [] else xs.getLast?.toList).map Prod.fst := by
    have := congrArg (List.map Prod.fst) hk
    rw [List.map_map, List.map_append] at this
    rw [link_picked]
    exact this
  rw [link_picked] at h2
  rw [h2]
  by_cases h0 : (Hermite.picked n period xs).2 = 0
  · rw [if_pos h0]
    simp only [List.map_nil, List.append_nil]
    rw [List.dropLast_eq_take]
    exact h1.take _
  · rw [if_neg h0]
    cases hlast : xs.getLast? with
    | none =>
      simp only [Option.toList_none, List.map_nil, List.append_nil]
      rw [List.dropLast_eq_take]
      exact h1.take _
    | some x => simpa using h1

/-- **C101 is false of the code**: the second of two measurements becomes a knot however close it is. -/
theorem C101_last_refuted (L : LogMap) (w : World) (n : Int) (hn : 1 ≤ n) (period : ℝ) (x y : ℝ × Pose)
    (hxy : x.1 < y.1) (hu : Quaternion.normSq x.2.rotation = 1) (hu' : Quaternion.normSq y.2.rotation = 1)
    (hw : w.calls + 2 < 2 ^ 64) :
    ∃ p' c', extend L (make n period) (SE3.fresh w) [x.1, y.1] [x.2, y.2] = .ok (p', c') ∧
      c'.m.knots.map Prod.fst = [x.1, y.1] := by
  obtain ⟨p', c', e, hk, -⟩ := C78_newest L w n hn period [x, y] (by simpa using hxy)
    (by simp [hu, hu']) (by simp) (by simpa using hw)
  refine ⟨p', c', e, ?_⟩
  have h2 : ¬ (n ≤ ((0 : ℕ) : ℤ) ∧ x.1 + period < y.1) := fun h => by have := h.1; simp at this; omega
  have h3 : Hermite.picked n period [x, y] = ([x], 1) := by
    simp only [Hermite.picked, List.foldl_cons, List.foldl_nil, Hermite.pick, List.getLast?_nil,
      List.getLast?_singleton, if_neg h2]
  rw [h3] at hk
  have := congrArg (List.map Prod.fst) hk
  rw [List.map_map] at this
  exact this.trans (by simp)

/-- **C101 is false of the code** in the other direction: a measurement more than the sampling period after the
last chosen one is dropped in `double`, and chosen with exact arithmetic. -/
theorem C101_dropped_refuted :
    (∀ t ∈ [(2 : ℚ) ^ 53, 2 ^ 53 + 2, 2 ^ 53 + 4, 3], (double ℚ).rnd t = t) ∧
    (picked (exact ℚ) 1 3 [2 ^ 53, 2 ^ 53 + 2, 2 ^ 53 + 4]).1 = [2 ^ 53, 2 ^ 53 + 4] ∧
    (picked (double ℚ) 1 3 [2 ^ 53, 2 ^ 53 + 2, 2 ^ 53 + 4]).1 = [2 ^ 53] := by
  decide +kernel

/-- Hypotheses met by `C101_rounded`, with something chosen and something dropped. -/
example : (∀ t ∈ [(0 : ℚ), 1 / 2, 1, 3 / 2, 2], (double ℚ).rnd t = t) ∧
    (picked (double ℚ) 1 (3 / 4) [0, 1 / 2, 1, 3 / 2, 2]).1 = [0, 1, 2] := by
  decide +kernel

/-- Hypotheses met by `C101_spacing_partial`: three measurements. -/
example : ([(0, demoPose 0), (1, demoPose 2), (3, demoPose 5)] : List (ℝ × Pose)).Pairwise
      (fun a b => a.1 < b.1) ∧
    (∀ x ∈ ([(0, demoPose 0), (1, demoPose 2), (3, demoPose 5)] : List (ℝ × Pose)),
      Quaternion.normSq x.2.rotation = 1) := by
  constructor
  · norm_num
  · intro x hx
    simp only [List.mem_cons, List.not_mem_nil, or_false] at hx
    rcases hx with rfl | rfl | rfl <;> simp [demoPose]

end Verif.Rounding

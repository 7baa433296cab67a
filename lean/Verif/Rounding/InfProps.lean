import Verif.Rounding.InfModel
import Verif.Rounding.SpecialLemmas
import Verif.Rounding.Double
import Verif.Manager.EvalLemmas
import Verif.Manager.History

/-!
# Property C155: infinite knot times
-/

set_option linter.unusedSectionVars false
set_option linter.dupNamespace false

namespace Verif.Rounding

open Verif.Manager Verif.Hermite Verif.Discrete Fl

variable {K : Type} [Field K] [LinearOrder K] [IsStrictOrderedRing K] (R : Rounding K)

theorem Ti.cases (t : Ti K) : t = ⊥ ∨ t = ((⊤ : WithTop K) : Ti K) ∨ ∃ x : K, t = Ti.num x := by
  induction t using WithBot.recBotCoe with
  | bot => exact .inl rfl
  | coe t =>
    induction t using WithTop.recTopCoe with
    | top => exact .inr (.inl rfl)
    | coe x => exact .inr (.inr ⟨x, rfl⟩)

@[simp] theorem toFl_bot : Ti.toFl (⊥ : Ti K) = inf true := rfl
@[simp] theorem toFl_top : Ti.toFl ((⊤ : WithTop K) : Ti K) = inf false := rfl
@[simp] theorem toFl_num (x : K) : Ti.toFl (Ti.num x) = num x := rfl

theorem num_lt_top (x : K) : Ti.num x < ((⊤ : WithTop K) : Ti K) := WithBot.coe_lt_coe.2 (WithTop.coe_lt_top x)
theorem bot_lt_num (x : K) : (⊥ : Ti K) < Ti.num x := WithBot.bot_lt_coe _

theorem le_top' (t : Ti K) : t ≤ ((⊤ : WithTop K) : Ti K) := by
  rcases Ti.cases t with rfl | rfl | ⟨x, rfl⟩
  · exact bot_le
  · exact le_rfl
  · exact (num_lt_top x).le

/-- With the last knot at infinity the parameter is 0 before it and NaN at it. -/
theorem alphaI_top (a : K) (t : Ti K) (h : Ti.num a ≤ t) : alphaI R (Ti.num a) ((⊤ : WithTop K) : Ti K) t = num 0 ∨
    alphaI R (Ti.num a) ((⊤ : WithTop K) : Ti K) t = nan := by
  rcases Ti.cases t with rfl | rfl | ⟨x, rfl⟩
  · exact absurd (bot_lt_num a) (not_lt.2 h)
  · exact .inr rfl
  · exact .inl rfl

theorem alphaI_bot (b : K) (t : Ti K) (h : t < Ti.num b) : alphaI R ⊥ (Ti.num b) t = nan := by
  rcases Ti.cases t with rfl | rfl | ⟨x, rfl⟩
  · rfl
  · exact absurd (num_lt_top b) (not_lt.2 h.le)
  · rfl

theorem evaluateI_eq (t : Ti K) (m : Mgr (Ti K) (Knot (Vec3 (Fl K)))) :
    evaluateI R t m = evalWith (fun k => k.position) (interpolateI R) t m := by
  unfold evaluateI evalWith
  split
  · rfl
  · cases m.getCoefficientsAt t <;> rfl

variable {G V : Type} [Group G] [AddCommGroup V] [Module K V] (L : ExpLog K G V)

theorem exp_zero' : L.exp 0 = 1 := by rw [← L.log_one, L.exp_log]

/-- **C155 is false of the Hermite curve**: between a knot at a number and the next one at infinity the value is NaN in all
coordinates, at the knots themselves too, whatever the coefficients are; and so it is between a knot at minus infinity and the
next one. The call returns `true`. -/
theorem C155_hermite_refuted {s : Manager.St (Ti K) (Knot (Vec3 (Fl K)))} (hr : Manager.Reachable s) (hc : s.w.calls + 1 < 2 ^ 64) {x : K}
    {va vb : Knot (Vec3 (Fl K))} :
    ((Ti.num x, va) ∈ s.m.knots → (((⊤ : WithTop K) : Ti K), vb) ∈ s.m.knots →
      (∀ y k, (y, k) ∈ s.m.knots → ¬ (Ti.num x < y ∧ y < ((⊤ : WithTop K) : Ti K))) →
      ∀ t, Ti.num x ≤ t → evaluateI R t s.m = .ok (some fun _ => nan)) ∧
    ((⊥, va) ∈ s.m.knots → (Ti.num x, vb) ∈ s.m.knots → (∀ y k, (y, k) ∈ s.m.knots → ¬ (⊥ < y ∧ y < Ti.num x)) →
      ∀ t, t < Ti.num x → evaluateI R t s.m = .ok (some fun _ => nan)) := by
  have hs := (hr.WF (by omega)).sorted
  refine ⟨fun ha hb hno t ht => ?_, fun ha hb hno t ht => ?_⟩
  · obtain ⟨pre, a, b, post, hm, ea, -, eb, -⟩ := exists_segment hs ha hb (num_lt_top x) hno
    have hf : ∀ t, Ti.num x ≤ t → interpolateI R a b t = fun _ => nan := by
      intro t ht
      funext i
      rw [interpolateI, ea, eb]
      rcases alphaI_top R x t ht with e | e
      · have e1 : mul R (num 0) (inf false) = nan := by simp [mul]
        have e2 : sub R (inf false) (num x) = inf false := rfl
        simp only [e, toFl_top, toFl_num, mul_num, mul_zero, rnd_zero, sub_num, sub_self, add_num, add_zero, e1, e2,
          mul_nan, add_nan]
      · simp only [e, nan_mul, mul_nan, add_nan, nan_add]
    have ht1 : t ≤ b.time := by
      rw [eb]
      exact le_top' t
    rw [evaluateI_eq, evalWith, if_neg (not_single hs hm t)]
    rcases getAt_between hs hm (by rw [ea]; exact ht) ht1 with h | ⟨y, -, -, hlt, h⟩
    · rw [h]
      simp only [hf t ht]
    · exfalso
      rw [eb] at hlt
      exact not_lt.2 (le_top' _) hlt
  · obtain ⟨pre, a, b, post, hm, ea, -, eb, -⟩ := exists_segment hs ha hb (bot_lt_num x) hno
    rw [evaluateI_eq, evalWith_interior hs hm (by rw [ea]; exact bot_le) (by rw [eb]; exact ht)]
    congr 2
    funext i
    rw [interpolateI, ea, eb, alphaI_bot R x t ht]
    simp only [nan_mul, mul_nan, add_nan, nan_add]

/-- **C155** away from the infinite knots: between knots at numbers the formulas are those for numbers. -/
theorem C155_finite_partial {s : Manager.St (Ti K) (Knot (Vec3 (Fl K)))} (hr : Manager.Reachable s) (hc : s.w.calls + 1 < 2 ^ 64) {x y z : K}
    {va vb : Knot (Vec3 (Fl K))} (ha : (Ti.num x, va) ∈ s.m.knots) (hb : (Ti.num y, vb) ∈ s.m.knots) (hxy : x < y)
    (hno : ∀ u k, (u, k) ∈ s.m.knots → ¬ (Ti.num x < u ∧ u < Ti.num y)) (h0 : x ≤ z) (h1 : z < y) :
    ∀ i j k l, evaluateI R (Ti.num z) s.m = .ok (some (interpolateS R ⟨i, x, k, va⟩ ⟨j, y, l, vb⟩ z)) := by
  intro i j k l
  have hs := (hr.WF (by omega)).sorted
  have hlt : ∀ {x y : K}, x < y → Ti.num x < Ti.num y := fun h => WithBot.coe_lt_coe.2 (WithTop.coe_lt_coe.2 h)
  have hle : Ti.num x ≤ Ti.num z := WithBot.coe_le_coe.2 (WithTop.coe_le_coe.2 h0)
  obtain ⟨pre, a, b, post, hm, ea, ca, eb, cb⟩ := exists_segment hs ha hb (hlt hxy) hno
  rw [evaluateI_eq, evalWith_interior hs hm (by rw [ea]; exact hle) (by rw [eb]; exact hlt h1), interpolateI, ea, eb, ca, cb]
  rfl

/-- **C155** for the discrete curve, in full: the value between a knot at a number and a knot at an infinity is that of the
former, which is the nearer one. A slerp curve does the same before a knot at infinity; after a knot at minus infinity its
parameter is NaN. -/
theorem C155_discrete {s : Manager.St (Ti K) G} (hr : Manager.Reachable s) (hc : s.w.calls + 1 < 2 ^ 64) {x y : K} {va vb : G} :
    ((Ti.num x, va) ∈ s.m.knots → (((⊤ : WithTop K) : Ti K), vb) ∈ s.m.knots →
      (∀ u k, (u, k) ∈ s.m.knots → ¬ (Ti.num x < u ∧ u < ((⊤ : WithTop K) : Ti K))) → x ≤ y →
      evaluateDiscreteI R (Ti.num y) s.m = .ok va ∧ evaluateSlerpI R L (Ti.num y) s.m = .ok (some va) ∧
      evaluateDiscreteI R ((⊤ : WithTop K) : Ti K) s.m = .ok vb ∧ evaluateSlerpI R L ((⊤ : WithTop K) : Ti K) s.m = .ok (some vb)) ∧
    ((⊥, va) ∈ s.m.knots → (Ti.num x, vb) ∈ s.m.knots → (∀ u k, (u, k) ∈ s.m.knots → ¬ (⊥ < u ∧ u < Ti.num x)) → y < x →
      evaluateDiscreteI R (Ti.num y) s.m = .ok vb ∧ evaluateSlerpI R L (Ti.num y) s.m = .ok none) := by
  have hs := (hr.WF (by omega)).sorted
  have hlt : ∀ {x y : K}, x < y → Ti.num x < Ti.num y := fun h => WithBot.coe_lt_coe.2 (WithTop.coe_lt_coe.2 h)
  have hle : ∀ {x y : K}, x ≤ y → Ti.num x ≤ Ti.num y := fun h => WithBot.coe_le_coe.2 (WithTop.coe_le_coe.2 h)
  refine ⟨fun ha hb hno h => ?_, fun ha hb hno h => ?_⟩
  · obtain ⟨pre, a, b, post, hm, ea, ca, eb, cb⟩ := exists_segment hs ha hb (num_lt_top x) hno
    have hpost : post = [] := by
      cases post with
      | nil => rfl
      | cons c post =>
        have hm' : s.m.nodes = (pre ++ [a]) ++ b :: c :: post := by rw [hm]; simp
        have := neighbours_lt hs hm'
        rw [eb] at this
        exact absurd this (not_lt.2 (le_top' _))
    subst hpost
    have hmax : s.m.getMaxTime = ((⊤ : WithTop K) : Ti K) := by simp [Mgr.getMaxTime, hm, eb]
    have hlast : s.m.nodes.getLast? = some b := by simp [hm]
    have hget := getAt_interior hs hm (t := Ti.num y) (by rw [ea]; exact hle h) (by rw [eb]; exact num_lt_top y)
    have hne : Ti.num y ≠ s.m.getMaxTime := by rw [hmax]; exact (num_lt_top y).ne
    refine ⟨?_, ?_, ?_, ?_⟩
    · rw [evaluateDiscreteI, if_neg (not_single hs hm _), if_neg hne, hget]
      simp only [ea, eb, ca]
      rfl
    · rw [evaluateSlerpI, if_neg (not_single hs hm _), if_neg hne, hget]
      simp only [slerpAtI, ea, eb, ca, cb]
      change Outcome.ok (some (va * L.exp ((0 : K) • L.log (va⁻¹ * vb)))) = _
      rw [zero_smul, exp_zero', mul_one]
    · rw [evaluateDiscreteI, if_neg (not_single hs hm _), if_pos hmax.symm, hlast]
      simp [cb]
    · rw [evaluateSlerpI, if_neg (not_single hs hm _), if_pos hmax.symm, hlast]
      simp [cb]
  · obtain ⟨pre, a, b, post, hm, ea, ca, eb, cb⟩ := exists_segment hs ha hb (bot_lt_num x) hno
    have hget := getAt_interior hs hm (t := Ti.num y) (by rw [ea]; exact bot_le) (by rw [eb]; exact hlt h)
    have hne : Ti.num y ≠ s.m.getMaxTime := by
      have h1 := (min_le_node hs (n := b) (by simp [hm])).2
      rw [eb] at h1
      have := (hlt h).trans_le h1
      exact this.ne
    refine ⟨?_, ?_⟩
    · rw [evaluateDiscreteI, if_neg (not_single hs hm _), if_neg hne, hget]
      simp only [ea, eb, cb]
      rfl
    · rw [evaluateSlerpI, if_neg (not_single hs hm _), if_neg hne, hget]
      simp only [slerpAtI, ea, eb, alphaI_bot R x _ (hlt h)]

/-- Knots at 1, at 2 and at infinity, put in one after the other. -/
def infDemo (C : Type) (u v w : C) : Manager.St (Ti ℚ) C :=
  ⟨⟨3, 3⟩, ⟨[⟨0, Ti.num 1, 1, u⟩, ⟨1, Ti.num 2, 2, v⟩, ⟨2, ((⊤ : WithTop ℚ) : Ti ℚ), 3, w⟩], [(1, 0), (2, 1), (3, 2)]⟩⟩

theorem infDemo_reachable (C : Type) (u v w : C) : Manager.Reachable (infDemo C u v w) :=
  ⟨⟨0, 0⟩, [.insert (Ti.num 1) u, .insert (Ti.num 2) v, .insert ((⊤ : WithTop ℚ) : Ti ℚ) w],
    by simp [Manager.SafeRun, Manager.SafeOp], rfl⟩

theorem infDemo_gap (C : Type) (u v w : C) : (∀ y k, (y, k) ∈ (infDemo C u v w).m.knots → ¬ (Ti.num 1 < y ∧ y < Ti.num 2)) ∧
    ∀ y k, (y, k) ∈ (infDemo C u v w).m.knots → ¬ (Ti.num 2 < y ∧ y < ((⊤ : WithTop ℚ) : Ti ℚ)) := by
  have key : ∀ y k, (y, k) ∈ (infDemo C u v w).m.knots → y = Ti.num 1 ∨ y = Ti.num 2 ∨ y = ((⊤ : WithTop ℚ) : Ti ℚ) := by
    intro y k h
    simp only [infDemo, Mgr.knots, List.map_cons, List.map_nil, List.mem_cons, Prod.mk.injEq, List.not_mem_nil, or_false] at h
    rcases h with h | h | h
    · exact .inl h.1
    · exact .inr (.inl h.1)
    · exact .inr (.inr h.1)
  have h12 : Ti.num (1 : ℚ) < Ti.num 2 := WithBot.coe_lt_coe.2 (WithTop.coe_lt_coe.2 (by norm_num))
  refine ⟨fun y k h => ?_, fun y k h => ?_⟩
  · rcases key y k h with rfl | rfl | rfl
    · exact fun h => lt_irrefl _ h.1
    · exact fun h => lt_irrefl _ h.2
    · exact fun h => not_lt.2 (le_top' _) h.2
  · rcases key y k h with rfl | rfl | rfl
    · exact fun h => lt_asymm h12 h.1
    · exact fun h => lt_irrefl _ h.1
    · exact fun h => lt_irrefl _ h.2

/-- Instances of C155: a Hermite curve with knots at 1, 2 and infinity is NaN at time 5 and a number at 3/2; a slerp curve keeps
the pose of time 2. -/
example (u v w : Knot (Vec3 (Fl ℚ))) : evaluateI (double ℚ) (Ti.num 5) (infDemo _ u v w).m = .ok (some fun _ => nan) :=
  (C155_hermite_refuted (double ℚ) (infDemo_reachable _ u v w) (by simp [infDemo]) (x := 2) (va := v) (vb := w)).1
    (by simp [infDemo, Mgr.knots]) (by simp [infDemo, Mgr.knots]) (infDemo_gap _ u v w).2 (Ti.num 5)
    (WithBot.coe_le_coe.2 (WithTop.coe_le_coe.2 (by norm_num)))

example (u v w : Knot (Vec3 (Fl ℚ))) := C155_finite_partial (double ℚ) (infDemo_reachable _ u v w) (by simp [infDemo])
  (x := 1) (y := 2) (z := 3 / 2) (va := u) (vb := v) (by simp [infDemo, Mgr.knots]) (by simp [infDemo, Mgr.knots]) (by norm_num)
  (infDemo_gap _ u v w).1 (by norm_num) (by norm_num)

example (L : ExpLog ℚ G ℚ) (u v w : G) : evaluateSlerpI (double ℚ) L (Ti.num 5) (infDemo _ u v w).m = .ok (some v) :=
  ((C155_discrete (double ℚ) L (infDemo_reachable _ u v w) (by simp [infDemo]) (x := 2) (y := 5) (va := v) (vb := w)).1
    (by simp [infDemo, Mgr.knots]) (by simp [infDemo, Mgr.knots]) (infDemo_gap _ u v w).2 (by norm_num)).2.1

end Verif.Rounding

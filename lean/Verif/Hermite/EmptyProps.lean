import Verif.Hermite.ExtendProps
import Verif.Hermite.E3Props

/-!
# C82 for the cubic Hermite curves: `isEmpty`, `size`, `clear`
-/

set_option linter.unusedSectionVars false
set_option linter.dupNamespace false

namespace Verif.Hermite

open Verif.Manager Verif.Kindr

namespace E3

variable {K V : Type} [Field K] [LinearOrder K] [IsStrictOrderedRing K] [AddCommGroup V] [Module K V]

/-- **C82 for `CubicHermiteE3Curve`.** `size` counts the knots and `isEmpty` says whether there are none. A
curve that says it is not empty can be evaluated at its first and at its last time, one that says it is
empty at no time. -/
theorem C82_empty {c : E3 K V} (hr : Reachable c) :
    c.size = c.m.knots.length ∧ (c.isEmpty = true ↔ c.size = 0) ∧
    (c.isEmpty = false → (∃ x, evaluate c.getMinTime c = .ok (some x)) ∧
      ∃ x, evaluate c.getMaxTime c = .ok (some x)) ∧
    (c.isEmpty = true → ∀ t x, evaluate t c ≠ .ok (some x)) := by
  have hk : c.isEmpty = true ↔ c.m.knots = [] := by simp [isEmpty, Mgr.getTimes, Mgr.knots]
  refine ⟨by simp [size, Mgr.size, Mgr.knots], by rw [hk]; simp [size, Mgr.size, Mgr.knots], fun h => ?_,
    fun h t x hx => ?_⟩
  · have hne : c.m.knots ≠ [] := fun h' => by simp [hk.2 h'] at h
    have hle : c.getMinTime ≤ c.getMaxTime := by
      cases hn : c.m.nodes with
      | nil => simp [Mgr.knots, hn] at hne
      | cons a l =>
        have ha : a ∈ c.m.nodes := by simp [hn]
        exact (min_le_node hr.sorted ha).1.trans (min_le_node hr.sorted ha).2
    constructor
    · obtain ⟨r, e, h1⟩ := (C34_domain_partial hr c.getMinTime (.inl hne)).1
      obtain ⟨x, rfl⟩ := Option.isSome_iff_exists.1 (h1.2 ⟨hne, le_rfl, hle⟩)
      exact ⟨x, e⟩
    · obtain ⟨r, e, h1⟩ := (C34_domain_partial hr c.getMaxTime (.inl hne)).1
      obtain ⟨x, rfl⟩ := Option.isSome_iff_exists.1 (h1.2 ⟨hne, hle, le_rfl⟩)
      exact ⟨x, e⟩
  · have h0 := hk.1 h
    by_cases ht : t = 0
    · rw [ht, (C34_refuted c h0).1] at hx; cases hx
    · obtain ⟨r, e, h1⟩ := (C34_domain_partial hr t (.inr ht)).1
      rw [e] at hx
      cases hx
      exact (h1.1 rfl).1 h0

/-- **C82, clearing.** A cleared curve is empty, and whatever is done next gives the same as on a new
curve. -/
theorem C82_clear (c : E3 K V) :
    c.clear.isEmpty = true ∧ c.clear.size = 0 ∧
    ∀ debug ops, run debug c.clear ops = run debug (fresh c.w) ops := by
  refine ⟨rfl, rfl, fun debug ops => rfl⟩

example : (∃ x, evaluate demo.getMinTime demo = .ok (some x)) ∧ isEmpty demo = false ∧
    isEmpty (clear demo) = true := by
  have h : isEmpty demo = false := by simp [demo, isEmpty, Mgr.getTimes]
  exact ⟨((C82_empty demo_reachable).2.2.1 h).1, h, (C82_clear demo).1⟩

end E3

namespace SE3

/-- **C82 for `CubicHermiteSE3Curve`.** -/
theorem C82_empty {L : LogMap} {c : SE3} (hr : Reachable L c) :
    c.size = c.m.knots.length ∧ (c.isEmpty = true ↔ c.size = 0) ∧
    (c.isEmpty = false → (∃ x, evaluate L c.getMinTime c = .ok (some x)) ∧
      ∃ x, evaluate L c.getMaxTime c = .ok (some x)) ∧
    (c.isEmpty = true → ∀ t x, evaluate L t c ≠ .ok (some x)) := by
  have hk : c.isEmpty = true ↔ c.m.knots = [] := by simp [isEmpty, Mgr.getTimes, Mgr.knots]
  refine ⟨by simp [size, Mgr.size, Mgr.knots], by rw [hk]; simp [size, Mgr.size, Mgr.knots], fun h => ?_,
    fun h t x hx => ?_⟩
  · have hne : c.m.knots ≠ [] := fun h' => by simp [hk.2 h'] at h
    have hle : c.getMinTime ≤ c.getMaxTime := by
      cases hn : c.m.nodes with
      | nil => simp [Mgr.knots, hn] at hne
      | cons a l =>
        have ha : a ∈ c.m.nodes := by simp [hn]
        exact (min_le_node hr.good.1 ha).1.trans (min_le_node hr.good.1 ha).2
    constructor
    · obtain ⟨r, e, h1⟩ := (C34_domain_partial hr c.getMinTime (.inl hne)).1
      obtain ⟨x, rfl⟩ := Option.isSome_iff_exists.1 (h1.2 ⟨hne, le_rfl, hle⟩)
      exact ⟨x, e⟩
    · obtain ⟨r, e, h1⟩ := (C34_domain_partial hr c.getMaxTime (.inl hne)).1
      obtain ⟨x, rfl⟩ := Option.isSome_iff_exists.1 (h1.2 ⟨hne, hle, le_rfl⟩)
      exact ⟨x, e⟩
  · have h0 := hk.1 h
    by_cases ht : t = 0
    · rw [ht, (C34_refuted L c h0).1] at hx; cases hx
    · obtain ⟨r, e, h1⟩ := (C34_domain_partial hr t (.inr ht)).1
      rw [e] at hx
      cases hx
      exact (h1.1 rfl).1 h0

/-- **C82, clearing.** A cleared curve is empty, and whatever is done next gives the same as on a new
curve. -/
theorem C82_clear (L : LogMap) (c : SE3) :
    c.clear.isEmpty = true ∧ c.clear.size = 0 ∧ ∀ ops, run L c.clear ops = run L (fresh c.w) ops :=
  ⟨rfl, rfl, fun _ => rfl⟩

example (L : LogMap) : (∃ x, evaluate L (getMinTime demo) demo = .ok (some x)) ∧ isEmpty demo = false ∧
    isEmpty (clear demo) = true := by
  have h : isEmpty demo = false := by simp [demo, isEmpty, Mgr.getTimes]
  exact ⟨((C82_empty (demo_reachable L)).2.2.1 h).1, h, (C82_clear L demo).1⟩

end SE3

/-- **C82, the policy.** `clear` does not reset the sampling policy, but the first measurement afterwards
does: extending a cleared curve through a policy that has been used gives the same curve, and the same
results of all later extensions, as a new policy with the same settings. -/
theorem HPol.C82_policy (L : LogMap) (p : HPol) (c : SE3) (t : ℝ) (v : Pose) (ts : List ℝ) (vs : List Pose) :
    HPol.extend L p c.clear (t :: ts) (v :: vs) =
      HPol.extend L (HPol.make p.minMeas p.period) (SE3.fresh c.w) (t :: ts) (v :: vs) := by
  have : HPol.extendOne L p c.clear t v =
      HPol.extendOne L (HPol.make p.minMeas p.period) (SE3.fresh c.w) t v := by
    simp [HPol.extendOne, HPol.defaultExtend, HPol.make, SE3.clear, SE3.fresh, Mgr.clear, Mgr.empty,
      Mgr.size]
  simp only [HPol.extend, this]

/-- A policy in the middle of a period, with a stale time of the last extension. -/
example (L : LogMap) (c : SE3) : HPol.extend L ⟨3, 4, 0, 17⟩ (SE3.clear c) [1] [HPol.demoPose 0] =
    HPol.extend L (HPol.make 4 0) (SE3.fresh c.w) [1] [HPol.demoPose 0] :=
  HPol.C82_policy L ⟨3, 4, 0, 17⟩ c 1 _ [] []

end Verif.Hermite

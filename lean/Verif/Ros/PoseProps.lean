import Verif.Ros.PoseModel
import Verif.Ros.Props
import Verif.Hermite.SE3EquivProps

/-!
# C137: what becomes of the quaternions of a pose message
-/

set_option linter.unusedSectionVars false
set_option linter.dupNamespace false

namespace Verif.Ros

open Verif.Kindr Verif.Hermite Verif.Hermite.SE3 Verif.Manager Quaternion

/-- The squared length of the quaternion in a message. -/
def Transform.length2 (g : Transform) : ℝ := g.w ^ 2 + g.x ^ 2 + g.y ^ 2 + g.z ^ 2

/-! ### Lemmas -/

theorem normSq_convert (g : Transform) : normSq (convert g).rotation = g.length2 := by
  rw [normSq_def']
  simp [convert, quat, Transform.length2]

theorem normSq_interpolate (L : LogMap) (a b : Node ℝ HKnot) (t : ℝ) :
    normSq (interpolate L a b t).rotation = normSq a.coef.transformation.rotation := by
  simp only [interpolate, map_mul]
  rw [show normSq (exponentialMap _) = 1 from isUnit_exp _, show normSq (exponentialMap _) = 1 from isUnit_exp _,
    show normSq (exponentialMap _) = 1 from isUnit_exp _]
  simp

/-- The nodes of two neighbouring points of a fit. -/
theorem segment_nodes {ts : List ℝ} {cs : List HKnot} {m : Mgr ℝ HKnot} (hk : m.knots = ts.zip cs)
    (hcs : cs.length = ts.length) {i : ℕ} (hi : i + 1 < ts.length) :
    ∃ pre a b post, m.nodes = pre ++ a :: b :: post ∧ pre.length = i ∧ a.time = ts[i] ∧ b.time = ts[i + 1] ∧
      cs[i]? = some a.coef ∧ cs[i + 1]? = some b.coef ∧ m.nodes.length = ts.length := by
  have hlen : m.nodes.length = ts.length := by
    have := congrArg List.length hk
    simpa [Mgr.knots, hcs] using this
  have key : ∀ j (hj : j < ts.length), (m.nodes[j]).time = ts[j] ∧ cs[j]? = some (m.nodes[j]).coef := by
    intro j hj
    have := congrArg (fun l => l[j]?) hk
    simp only [Mgr.knots, List.getElem?_map] at this
    rw [List.getElem?_eq_getElem (by omega), List.getElem?_eq_getElem (by simp; omega)] at this
    simp only [Option.map_some, List.getElem_zip, Option.some.injEq, Prod.mk.injEq] at this
    rw [List.getElem?_eq_getElem (by omega), this.2]
    exact ⟨this.1, rfl⟩
  refine ⟨m.nodes.take i, m.nodes[i], m.nodes[i + 1], m.nodes.drop (i + 2), ?_, by simp; omega, (key i (by omega)).1,
    (key (i + 1) hi).1, (key i (by omega)).2, (key (i + 1) hi).2, hlen⟩
  rw [← List.drop_eq_getElem_cons, ← List.drop_eq_getElem_cons, List.take_append_drop]

/-- What the import makes of a message. -/
theorem import_ok (L : LogMap) {m : Msg ℝ Transform} {name : String} {pre post : List String}
    (hm : m.names = pre ++ name :: post) (h : name ∉ pre) {vals : List Transform}
    (hv : m.points.map (fun p => p.2[pre.length]?) = vals.map some)
    (hinc : (m.points.map (·.1)).Pairwise (· < ·)) (c : SE3) :
    ∃ (c' : SE3) (cs : List HKnot), poseFromRos L m name c = .ok (true, c') ∧ Sorted c'.m.nodes ∧
      c'.m.knots = (m.points.map (·.1)).zip cs ∧ cs.length = m.points.length ∧ vals.length = m.points.length ∧
      ∀ (i : ℕ) (k : HKnot) (g : Transform), cs[i]? = some k → vals[i]? = some g → k.transformation = convert g := by
  have hl : vals.length = m.points.length := by
    have := congrArg List.length hv; simpa using this.symm
  obtain ⟨c', ks, cs, e, f, hcs, hs, hk⟩ := fit_increasing L (vs := vals.map convert) (by simp [hl]) hinc Twist.zero Twist.zero c
  refine ⟨c', cs, ?_, hs, hk, by simpa using hcs, hl, ?_⟩
  · have hp : m.converted.points.map (·.1) = m.points.map (·.1) := by
      simp [Msg.converted, Function.comp_def]
    have hv' : m.converted.points.map (fun p => p.2[pre.length]?) = (vals.map convert).map some := by
      have := congrArg (List.map (Option.map convert)) hv
      simpa [Msg.converted, Function.comp_def] using this
    rw [poseFromRos, poseFromMessage, C47_known _ (m := m.converted) hm h hv', hp]
    simp only [SE3.fitCurve, e, Outcome.ok_bind]
  · intro i k g hki hg
    obtain ⟨cs', e', hcs', hh⟩ := SE3.fitLoop_ok L (m.points.map (·.1)) (vals.map convert) Twist.zero Twist.zero
      (by simp [hl]) (m.points.map (·.1)).length 0 (by omega)
    obtain rfl : cs' = cs := by rw [e'] at f; exact Outcome.ok.inj f
    have hi : i < (m.points.map (·.1)).length := by
      have := (List.getElem?_eq_some_iff.1 hki).1; omega
    obtain ⟨k', k1, k2, -⟩ := hh i hi
    rw [List.getElem?_eq_getElem (by omega), k1] at hki
    cases hki
    rw [k2]
    obtain ⟨_, rfl⟩ := List.getElem?_eq_some_iff.1 hg
    simp

/-! ### The theorems -/

/-- C137. The quaternion the imported curve answers with has the length of the quaternion the message has at the beginning
of the segment, whatever the quaternions of the message are: `fromMessage` neither checks nor normalises them. -/
theorem C137_length (L : LogMap) {m : Msg ℝ Transform} {name : String} {pre post : List String}
    (hm : m.names = pre ++ name :: post) (h : name ∉ pre) {vals : List Transform}
    (hv : m.points.map (fun p => p.2[pre.length]?) = vals.map some)
    (hinc : (m.points.map (·.1)).Pairwise (· < ·)) (c : SE3) :
    ∃ c', poseFromRos L m name c = .ok (true, c') ∧
      (∀ t g, m.points.map (·.1) = [t] → vals = [g] → evaluate L t c' = .ok (some (convert g))) ∧
      ∀ (i : ℕ) (t0 t1 : ℝ) (g : Transform) (t : ℝ), (m.points.map (·.1))[i]? = some t0 →
        (m.points.map (·.1))[i + 1]? = some t1 → vals[i]? = some g →
        t0 ≤ t → t < t1 ∨ t = t1 ∧ i + 2 = m.points.length →
        ∃ p, evaluate L t c' = .ok (some p) ∧ normSq p.rotation = g.length2 ∧
          (t = t0 → p.rotation = quat g.w ![g.x, g.y, g.z]) := by
  obtain ⟨c', cs, e, hs, hk, hcs, hl, hc⟩ := import_ok L hm h hv hinc c
  refine ⟨c', e, ?_, ?_⟩
  · intro t g ht hg
    have hp : m.points.length = 1 := by simpa using congrArg List.length ht
    have hks : c'.m.knots.length = 1 := by rw [hk]; simp [hcs, hp]
    rw [ht] at hk
    obtain ⟨k, rfl⟩ : ∃ k, cs = [k] := List.length_eq_one_iff.1 (by omega)
    have hkg := hc 0 k g rfl (by rw [hg]; rfl)
    have hn : ∃ n, c'.m.nodes = [n] := List.length_eq_one_iff.1 (by simpa [Mgr.knots] using hks)
    obtain ⟨n, hn⟩ := hn
    have hn1 : n.time = t ∧ n.coef = k := by simpa [Mgr.knots, hn] using hk
    rw [evaluate, if_pos (by simp [Mgr.getMaxTime, Mgr.getMinTime, hn, hn1.1]), hn]
    simp [hn1.2, hkg]
  · intro i t0 t1 g t h0 h1 hg ht0 ht1
    obtain ⟨hi0, e0⟩ := List.getElem?_eq_some_iff.1 h0
    obtain ⟨hi1, e1⟩ := List.getElem?_eq_some_iff.1 h1
    obtain ⟨npre, a, b, npost, hn, hpl, ta, tb, ca, cb, hlen⟩ := segment_nodes hk (by simpa using hcs) hi1
    rw [e0] at ta
    rw [e1] at tb
    have hca := hc i _ g ca hg
    have hev : evaluate L t c' = .ok (some (interpolate L a b t)) := by
      rcases ht1 with ht1 | ⟨rfl, hlast⟩
      · rw [evaluate_eq, evalWith_interior hs hn (by rw [ta]; exact ht0) (by rw [tb]; exact ht1)]
      · have hnil : npost = [] := by
          rw [hn] at hlen
          simp at hlen
          exact List.eq_nil_of_length_eq_zero (by omega)
        subst hnil
        rw [evaluate, if_neg (not_single hs hn t)]
        rcases getAt_between hs hn (t := t) (by rw [ta]; exact ht0) (by rw [tb]) with hh | ⟨x, hx, -⟩
        · rw [hh]
        · simp at hx
    refine ⟨_, hev, ?_, ?_⟩
    · rw [normSq_interpolate, hca, normSq_convert]
    · rintro rfl
      rw [← ta, interpolate_left, hca]
      rfl

/-- C137 (partial). If every quaternion of the joint has unit length, so has every answer of the imported curve. Missing:
messages in which some have not, for which it is false, see `C137_refuted`. -/
theorem C137_unit_partial (L : LogMap) {m : Msg ℝ Transform} {name : String} {pre post : List String}
    (hm : m.names = pre ++ name :: post) (h : name ∉ pre) {vals : List Transform}
    (hv : m.points.map (fun p => p.2[pre.length]?) = vals.map some)
    (hinc : (m.points.map (·.1)).Pairwise (· < ·)) (hu : ∀ g ∈ vals, g.length2 = 1) (c : SE3) :
    ∃ c', poseFromRos L m name c = .ok (true, c') ∧
      ∀ t p, evaluate L t c' = .ok (some p) → normSq p.rotation = 1 := by
  obtain ⟨c', cs, e, hs, hk, hcs, hl, hc⟩ := import_ok L hm h hv hinc c
  refine ⟨c', e, fun t p hp => ?_⟩
  have hun : ∀ n ∈ c'.m.nodes, normSq n.coef.transformation.rotation = 1 := by
    intro n hn
    have : (n.time, n.coef) ∈ c'.m.knots := List.mem_map.2 ⟨n, hn, rfl⟩
    rw [hk] at this
    obtain ⟨i, hi, ei⟩ := List.mem_iff_getElem.1 ((List.of_mem_zip this).2)
    have := hc i n.coef (vals[i]'(by omega)) (by rw [List.getElem?_eq_getElem hi, ei]) (List.getElem?_eq_getElem _)
    rw [this, normSq_convert]
    exact hu _ (List.getElem_mem _)
  rw [evaluate] at hp
  split at hp
  · obtain ⟨n, h1, h2⟩ := Outcome.bind_eq_ok.1 hp
    cases h2
    cases hh : c'.m.nodes.head? with
    | none => rw [hh] at h1; cases h1
    | some x =>
      rw [hh] at h1; cases h1
      exact hun _ (List.mem_of_head? hh)
  · cases hg : c'.m.getCoefficientsAt t with
    | none => rw [hg] at hp; cases hp
    | some ab =>
      obtain ⟨a, b⟩ := ab
      rw [hg] at hp; cases hp
      obtain ⟨p1, p2, hm', -⟩ := getAt_some hg
      rw [normSq_interpolate]
      exact hun a (by simp [hm'])

/-- C137, refuted. Every message whose joint has, at a point that is not the last, a quaternion that is not of unit length
is accepted, and the curve answers with exactly that quaternion at the time of the point; at all times until the next point
the answer is no rotation either. If the last two quaternions differ in length the curve does not end in the last one, nor
in its negative. -/
theorem C137_refuted (L : LogMap) {m : Msg ℝ Transform} {name : String} {pre post : List String}
    (hm : m.names = pre ++ name :: post) (h : name ∉ pre) {vals : List Transform}
    (hv : m.points.map (fun p => p.2[pre.length]?) = vals.map some)
    (hinc : (m.points.map (·.1)).Pairwise (· < ·)) (c : SE3) :
    ∃ c', poseFromRos L m name c = .ok (true, c') ∧
      (∀ (i : ℕ) (t0 t1 : ℝ) (g : Transform), (m.points.map (·.1))[i]? = some t0 → (m.points.map (·.1))[i + 1]? = some t1 →
        vals[i]? = some g → g.length2 ≠ 1 →
        (∃ p, evaluate L t0 c' = .ok (some p) ∧ p.rotation = quat g.w ![g.x, g.y, g.z]) ∧
        ∀ t, t0 ≤ t → t < t1 → ∃ p, evaluate L t c' = .ok (some p) ∧ normSq p.rotation ≠ 1) ∧
      (∀ (i : ℕ) (t0 t1 : ℝ) (g0 g1 : Transform), (m.points.map (·.1))[i]? = some t0 →
        (m.points.map (·.1))[i + 1]? = some t1 → vals[i]? = some g0 → vals[i + 1]? = some g1 → i + 2 = m.points.length →
        g0.length2 ≠ g1.length2 →
        ∃ p, evaluate L t1 c' = .ok (some p) ∧ p.rotation ≠ quat g1.w ![g1.x, g1.y, g1.z] ∧
          p.rotation ≠ -quat g1.w ![g1.x, g1.y, g1.z]) := by
  obtain ⟨c', e, -, hh⟩ := C137_length L hm h hv hinc c
  have hlt : ∀ (i : ℕ) (t0 t1 : ℝ), (m.points.map (·.1))[i]? = some t0 → (m.points.map (·.1))[i + 1]? = some t1 →
      t0 < t1 := by
    intro i t0 t1 h0 h1
    obtain ⟨hi0, rfl⟩ := List.getElem?_eq_some_iff.1 h0
    obtain ⟨hi1, rfl⟩ := List.getElem?_eq_some_iff.1 h1
    exact List.pairwise_iff_getElem.1 hinc i (i + 1) hi0 hi1 (by omega)
  refine ⟨c', e, ?_, ?_⟩
  · intro i t0 t1 g h0 h1 hg hne
    refine ⟨?_, ?_⟩
    · obtain ⟨p, ep, -, hp⟩ := hh i t0 t1 g t0 h0 h1 hg le_rfl (.inl (hlt i t0 t1 h0 h1))
      exact ⟨p, ep, hp rfl⟩
    · intro t ht0 ht1
      obtain ⟨p, ep, hp, -⟩ := hh i t0 t1 g t h0 h1 hg ht0 (.inl ht1)
      exact ⟨p, ep, by rw [hp]; exact hne⟩
  · intro i t0 t1 g0 g1 h0 h1 hg0 hg1 hlast hne
    obtain ⟨p, ep, hp, -⟩ := hh i t0 t1 g0 t1 h0 h1 hg0 (hlt i t0 t1 h0 h1).le (.inr ⟨rfl, hlast⟩)
    have hq : normSq (quat g1.w ![g1.x, g1.y, g1.z]) = g1.length2 := normSq_convert g1
    refine ⟨p, ep, ?_, ?_⟩
    · intro he; rw [he, hq] at hp; exact hne hp.symm
    · intro he; rw [he, normSq_neg, hq] at hp; exact hne hp.symm

/-- A message whose quaternions were never filled in (all zero), as a default-constructed one is. -/
example (L : LogMap) (c : SE3) : ∃ c', poseFromRos L ⟨["base"], [(0, [⟨0, 0, 0, 0, 0⟩]), (1, [⟨0, 0, 0, 0, 0⟩])]⟩ "base" c =
      .ok (true, c') ∧
    (∃ p, evaluate L 0 c' = .ok (some p) ∧ p.rotation = quat 0 ![0, 0, 0]) ∧
    ∃ p, evaluate L (1 / 2) c' = .ok (some p) ∧ normSq p.rotation ≠ 1 := by
  obtain ⟨c', e, h, -⟩ := C137_refuted L (m := ⟨["base"], [(0, [⟨0, 0, 0, 0, 0⟩]), (1, [⟨0, 0, 0, 0, 0⟩])]⟩) (name := "base")
    (pre := []) (post := []) rfl (by simp) (vals := [⟨0, 0, 0, 0, 0⟩, ⟨0, 0, 0, 0, 0⟩]) rfl (by simp) c
  obtain ⟨h1, h2⟩ := h 0 0 1 ⟨0, 0, 0, 0, 0⟩ rfl rfl rfl (by simp [Transform.length2])
  exact ⟨c', e, h1, h2 _ (by norm_num) (by norm_num)⟩

example (L : LogMap) (c : SE3) : ∃ c', poseFromRos L ⟨["base"], [(0, [⟨0, 0, 0, 0, 1⟩]), (1, [⟨0, 1, 0, 0, 0⟩])]⟩ "base" c =
      .ok (true, c') ∧ ∀ t p, evaluate L t c' = .ok (some p) → normSq p.rotation = 1 :=
  C137_unit_partial L (m := ⟨["base"], [(0, [⟨0, 0, 0, 0, 1⟩]), (1, [⟨0, 1, 0, 0, 0⟩])]⟩) (name := "base") (pre := [])
    (post := []) rfl (by simp) (vals := [⟨0, 0, 0, 0, 1⟩, ⟨0, 1, 0, 0, 0⟩]) rfl (by simp) (by simp [Transform.length2]) c

end Verif.Ros

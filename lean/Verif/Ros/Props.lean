import Verif.Ros.Model
import Verif.PolyCurve.Props
import Verif.Hermite.SE3Props

/-!
# Properties of the ROS interfaces

C47.
-/

set_option linter.unusedSectionVars false
set_option linter.dupNamespace false

namespace Verif.Ros

open Verif.Spline Verif.PolyCurve Verif.Hermite Verif.Kindr

theorem search_unknown {name : String} {n : Nat} {names : List String} : ∀ {j : Nat},
    name ∉ names → names ≠ [] → j + names.length = n → search name n names j = none := by
  induction names with
  | nil => intro j _ h; exact absurd rfl h
  | cons x rest ih =>
    intro j h _ hn
    simp only [List.mem_cons, not_or] at h
    rw [search, if_neg (Ne.symm h.1)]
    split
    · rfl
    · rename_i hj
      simp only [List.length_cons] at hn
      exact ih h.2 (by rintro rfl; simp at hn; omega) (by omega)

theorem search_known {name : String} {n : Nat} {pre post : List String} : ∀ {j : Nat},
    name ∉ pre → j + (pre ++ name :: post).length = n →
    search name n (pre ++ name :: post) j = some (j + pre.length) := by
  induction pre with
  | nil => intro j _ _; simp [search]
  | cons x rest ih =>
    intro j h hn
    simp only [List.mem_cons, not_or] at h
    simp only [List.cons_append, List.length_cons, List.length_append] at hn
    rw [List.cons_append, search, if_neg (Ne.symm h.1), if_neg (by omega), ih h.2 (by simp; omega)]
    simp only [List.length_cons]
    congr 1
    omega

theorem collect_ok {K P : Type} {j : Nat} {ps : List (K × List P)} : ∀ {vals : List P},
    ps.map (fun p => p.2[j]?) = vals.map some → collect j ps = .ok (ps.map (·.1), vals) := by
  induction ps with
  | nil => intro vals h; cases vals <;> simp_all [collect]
  | cons p ps ih =>
    intro vals h
    cases vals with
    | nil => simp at h
    | cons v vs =>
      simp only [List.map_cons, List.cons.injEq] at h
      simp [collect, h.1, ih h.2]

theorem collect_ub {K P : Type} {j : Nat} {ps : List (K × List P)} (h : ∃ p ∈ ps, p.2[j]? = none) :
    collect j ps = .ub := by
  induction ps with
  | nil => simp at h
  | cons p ps ih =>
    obtain ⟨t, l⟩ := p
    cases hl : l[j]? with
    | none => simp [collect, hl]
    | some x =>
      obtain ⟨q, hq, h⟩ := h
      rcases List.mem_cons.1 hq with rfl | hq
      · simp [hl] at h
      · simp [collect, hl, ih ⟨q, hq, h⟩]

variable {K P S : Type}

/-- C47, unknown joint. When the message names joints and `name` is none of them, `fromMessage` returns
`false` and leaves the curve as it was. -/
theorem C47_unknown_partial (fit : List K → List P → S → Outcome S) {m : Msg K P} {name : String}
    (hne : m.names ≠ []) (h : name ∉ m.names) (s : S) : fromMessage fit m name s = .ok (false, s) := by
  rw [fromMessage, search_unknown h hne (by simp)]

/-- C47, known joint. When the first occurrence of `name` is at index `pre.length` and every point has a
value for it, `fromMessage` fits the curve to these values at the time stamps and returns `true` if
the fit returns. -/
theorem C47_known (fit : List K → List P → S → Outcome S) {m : Msg K P} {name : String}
    {pre post : List String} (hm : m.names = pre ++ name :: post) (h : name ∉ pre) {vals : List P}
    (hv : m.points.map (fun p => p.2[pre.length]?) = vals.map some) (s : S) :
    fromMessage fit m name s = (fit (m.points.map (·.1)) vals s >>= fun s' => .ok (true, s')) := by
  have := search_known (n := m.names.length) (post := post) (j := 0) h (by simp [hm])
  rw [← hm, Nat.zero_add] at this
  rw [fromMessage, this]
  simp [collect_ok hv]

/-- C47, malformed messages: a point without a value for the joint found is read beyond the end of its
array. -/
theorem C47_short (fit : List K → List P → S → Outcome S) {m : Msg K P} {name : String}
    {pre post : List String} (hm : m.names = pre ++ name :: post) (h : name ∉ pre)
    (hv : ∃ p ∈ m.points, p.2[pre.length]? = none) (s : S) : fromMessage fit m name s = .ub := by
  have := search_known (n := m.names.length) (post := post) (j := 0) h (by simp [hm])
  rw [← hm, Nat.zero_add] at this
  rw [fromMessage, this]
  simp [collect_ub hv]

/-- C47, refuted for messages that name no joint: whatever name is asked for is taken to be joint 0. With
values present they are fitted and the result is `true`; without, the array is read beyond its end
as soon as there is a point. -/
theorem C47_refuted (fit : List K → List P → S → Outcome S) {m : Msg K P} (name : String)
    (hm : m.names = []) (s : S) :
    (∀ vals, m.points.map (fun p => p.2[0]?) = vals.map some → fromMessage fit m name s =
      (fit (m.points.map (·.1)) vals s >>= fun s' => .ok (true, s'))) ∧
    ((∃ p ∈ m.points, p.2 = []) → fromMessage fit m name s = .ub) ∧
    ∀ s', fromMessage fit m name s ≠ .ok (false, s') := by
  have hs : search name m.names.length m.names 0 = some 0 := by rw [hm]; rfl
  refine ⟨fun vals hv => ?_, fun ⟨p, hp, e⟩ => ?_, fun s' h => ?_⟩
  · rw [fromMessage, hs]; simp [collect_ok hv]
  · rw [fromMessage, hs]; simp [collect_ub ⟨p, hp, by simp [e]⟩]
  · rw [fromMessage, hs] at h
    obtain ⟨r, -, h⟩ := Outcome.bind_eq_ok.1 h
    obtain ⟨r, -, h⟩ := Outcome.bind_eq_ok.1 h
    cases h

section Field

variable [Field K] [LinearOrder K] [IsStrictOrderedRing K]

/-- C47 for the scalar curve: importing a known joint from a message with at least two points with
increasing stamps gives a curve over exactly the stamps' range that passes through the joint's
positions at the stamps, whatever the curve held before. -/
theorem C47_scalar (S : Solver K) {m : Msg K K} {name : String} {pre post : List String}
    (hm : m.names = pre ++ name :: post) (h : name ∉ pre) {vals : List K}
    (hv : m.points.map (fun p => p.2[pre.length]?) = vals.map some) (h2 : 2 ≤ m.points.length)
    (hb : m.points.length ≤ 2 ^ 28) (hinc : (m.points.map (·.1)).Pairwise (· < ·))
    (c : ScalarCurve .o5 K) :
    ∃ c', scalarFromMessage S m name c = .ok (true, c') ∧
      c'.getMinTime = m.points[0].1 ∧ c'.getMaxTime = m.points[m.points.length - 1].1 ∧
      ∀ (i : Nat) (hi : i < m.points.length) (hi' : i < vals.length),
        c'.evaluate m.points[i].1 = .ok vals[i] := by
  have hl : vals.length = (m.points.map (·.1)).length := by
    have := congrArg List.length hv; simpa using this.symm
  obtain ⟨c', e, e0, e1, hev, -⟩ := C30_domain_and_interpolation S (m.points.map (·.1)) vals (by simpa using h2)
    (by simpa using hb) hl hinc 0 0 0 0 c _ (.inr rfl)
  refine ⟨c', ?_, by simpa using e0, by simpa using e1, ?_⟩
  · rw [scalarFromMessage, C47_known _ hm h hv]
    simp only [e, Outcome.ok_bind]
  · intro i hi hi'
    have := hev i (by simpa using hi) hi'
    simpa using this

/-- C47 for the translation curve, partial: the same for messages whose first stamp is 0. Missing: other
stamps, at which this curve class is shifted (C33). -/
theorem C47_translation_partial (S : Solver K) {m : Msg K (Fin 3 → K)} {name : String}
    {pre post : List String} (hm : m.names = pre ++ name :: post) (h : name ∉ pre)
    {vals : List (Fin 3 → K)}
    (hv : m.points.map (fun p => p.2[pre.length]?) = vals.map some) (h2 : 2 ≤ m.points.length)
    (hb : m.points.length ≤ 2 ^ 28) (hinc : (m.points.map (·.1)).Pairwise (· < ·))
    (h0 : m.points[0].1 = 0) (c : VectorCurve 3 K) :
    ∃ c', translationFromMessage S m name c = .ok (true, c') ∧
      ∀ (k : Nat) (hk : k < m.points.length) (hk' : k < vals.length) (i : Fin 3),
        c'.evaluate m.points[k].1 i = .ok (vals[k] i) := by
  have hl : vals.length = (m.points.map (·.1)).length := by
    have := congrArg List.length hv; simpa using this.symm
  obtain ⟨c', e, -, -, hev⟩ := C33_vector_partial S (m.points.map (·.1)) vals [] [] (by simpa using h2)
    (by simpa using hb) hl hinc (by simpa using h0) (by norm_num) (fun _ => 0) (fun _ => 0) (fun _ => 0)
    (fun _ => 0) c _ (.inl rfl)
  refine ⟨c', ?_, ?_⟩
  · rw [translationFromMessage, C47_known _ hm h hv]
    simp only [e, Outcome.ok_bind]
  · intro k hk hk' i
    have := hev k (by simpa using hk) hk' i
    simpa using this

end Field

/-- C47 for the pose curve: importing a known joint from a message with distinct stamps makes the knots of
the curve exactly the joint's poses at the stamps. -/
theorem C47_pose (L : LogMap) {m : Msg ℝ Pose} {name : String} {pre post : List String}
    (hm : m.names = pre ++ name :: post) (h : name ∉ pre) {vals : List Pose}
    (hv : m.points.map (fun p => p.2[pre.length]?) = vals.map some)
    (hd : (m.points.map (·.1)).Nodup) (c : SE3) :
    ∃ c', poseFromMessage L m name c = .ok (true, c') ∧
      (c'.m.knots.map fun x => (x.1, x.2.transformation)).Perm ((m.points.map (·.1)).zip vals) := by
  have hl : (m.points.map (·.1)).length = vals.length := by
    have := congrArg List.length hv; simpa using this
  obtain ⟨c', ks, e, hp, -⟩ := SE3.C39_replaces L c _ vals hl hd Twist.zero Twist.zero
  refine ⟨c', ?_, hp⟩
  rw [poseFromMessage, C47_known _ hm h hv]
  simp only [SE3.fitCurve, e, Outcome.ok_bind]

/-- Two joints, two points. -/
def demo : Msg ℚ ℚ := ⟨["hip", "knee", "hip"], [(1, [10, 20, 30]), (3, [11, 21, 31])]⟩

example (S : Solver ℚ) (c : ScalarCurve .o5 ℚ) :=
  C47_scalar S (m := demo) (name := "knee") (pre := ["hip"]) (post := ["hip"]) rfl (by decide)
    (vals := [20, 21]) rfl (by decide) (by decide) (by decide +kernel) c

example (fit : List ℚ → List ℚ → Unit → Outcome Unit) :
    fromMessage fit demo "hip" () = (fit [1, 3] [10, 11] () >>= fun s => .ok (true, s)) ∧
    fromMessage fit demo "toe" () = .ok (false, ()) ∧
    fromMessage fit ⟨[], demo.points⟩ "toe" () = (fit [1, 3] [10, 11] () >>= fun s => .ok (true, s)) ∧
    fromMessage fit ⟨["toe"], [(1, [])]⟩ "toe" () = .ub :=
  ⟨C47_known fit (m := demo) (pre := []) (post := ["knee", "hip"]) rfl (by simp) (vals := [10, 11]) rfl (),
    C47_unknown_partial fit (by simp [demo]) (by decide) (),
    (C47_refuted fit (m := ⟨[], demo.points⟩) "toe" rfl ()).1 [10, 11] rfl,
    C47_short fit (m := ⟨["toe"], [(1, [])]⟩) (pre := []) (post := []) rfl (by simp) ⟨_, .head _, rfl⟩ ()⟩

end Verif.Ros

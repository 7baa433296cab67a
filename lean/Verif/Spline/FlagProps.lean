import Verif.Spline.FlagModel
import Mathlib.Algebra.Order.Field.Rat
import Mathlib.Tactic.NormNum

/-!
# C138: what the flag `didEvaluateCoeffs_` says, and which splines may be copied
-/

set_option linter.unusedSectionVars false
set_option linter.dupNamespace false

namespace Verif.Spline

variable {K : Type} [Field K] [LinearOrder K] [IsStrictOrderedRing K] {o : Order}

theorem change_computed (S : RawSolver K) (cs : List (Change o K)) (s : Flagged o K) :
    (cs.foldl (Flagged.change S) s).computed = s.computed := by
  induction cs generalizing s with
  | nil => rfl
  | cons c cs ih => rw [List.foldl_cons, ih]; cases c <;> rfl

/-- C138 (partial). A spline that was not constructed from options can be copied, whatever was done to it, and the copy is
the spline. Missing: splines constructed from options, see `C138_refuted`. -/
theorem C138_copies_partial (S : RawSolver K) (c : Ctor o K) (hc : ∀ p, c ≠ .options p) (cs : List (Change o K)) :
    (cs.foldl (Flagged.change S) (c.make S)).copy = .ok (cs.foldl (Flagged.change S) (c.make S)) := by
  have h := change_computed S cs (c.make S)
  generalize cs.foldl (Flagged.change S) (c.make S) = s at h
  obtain ⟨s, b⟩ := s
  cases c with
  | default => simp only [Ctor.make] at h; rw [h]; rfl
  | coefficients v d => simp only [Ctor.make] at h; rw [h]; rfl
  | options p => exact absurd rfl (hc p)

/-- C138, refuted. Copying or moving a spline constructed from options is undefined behaviour, whatever was done to it in
between; so is adding it to any container. -/
theorem C138_refuted (S : RawSolver K) (p : Options K) (cs : List (Change o K)) :
    (cs.foldl (Flagged.change S) (Ctor.make S (.options p : Ctor o K))).copy = .ub ∧
    ∀ l grow, addSpline l (cs.foldl (Flagged.change S) (Ctor.make S (.options p : Ctor o K))) grow = .ub := by
  have h := change_computed S cs (Ctor.make S (.options p : Ctor o K))
  generalize cs.foldl (Flagged.change S) (Ctor.make S (.options p : Ctor o K)) = s at h
  obtain ⟨s, b⟩ := s
  simp only [Ctor.make] at h
  subst h
  exact ⟨rfl, fun l grow => rfl⟩

/-- C138. `fitCurve` from a list of options is undefined behaviour as soon as the list has an element; it returns only for the
empty list, with the container as it was. -/
theorem C138_fit_options_refuted (S : RawSolver K) (l : List (Flagged o K)) (ps : List (Options K × Bool)) :
    (ps ≠ [] → addMade S l (ps.map fun p => (.options p.1, p.2)) = .ub) ∧
    (ps = [] → addMade S l (ps.map fun p => (.options p.1, p.2)) = .ok l) := by
  cases ps with
  | nil => exact ⟨fun h => absurd rfl h, fun _ => rfl⟩
  | cons p ps =>
    refine ⟨fun _ => ?_, fun h => absurd h (List.cons_ne_nil _ _)⟩
    have := (C138_refuted (o := o) S p.1 []).2 l p.2
    simp only [List.foldl_nil] at this
    rw [List.map_cons, addMade, this]
    rfl

/-- C138. The fits that make their splines from coefficients (`setData`, `setDataLinear`) do not meet this: added to a
container without splines from options they return, whenever the array has to be enlarged, and the container then holds the
splines in order. -/
theorem C138_fit_coefficients (S : RawSolver K) (l : List (Flagged o K)) (hl : ∀ s ∈ l, s.computed.isSome)
    (cs : List ((Vec o K × K) × Bool)) :
    addMade S l (cs.map fun c => (.coefficients c.1.1 c.1.2, c.2)) =
      .ok (l ++ cs.map fun c => ⟨⟨c.1.1, c.1.2⟩, some true⟩) := by
  have hmove : ∀ l : List (Flagged o K), (∀ s ∈ l, s.computed.isSome) → addSpline.moveAll l = .ok l := by
    intro l hl
    induction l with
    | nil => rfl
    | cons x rest ih =>
      obtain ⟨x, b⟩ := x
      cases b with
      | none => have := hl _ (.head _); simp at this
      | some b =>
        rw [addSpline.moveAll, ih fun s hs => hl s (.tail _ hs)]
        rfl
  induction cs generalizing l with
  | nil => simp [addMade]
  | cons c cs ih =>
    rw [List.map_cons, addMade]
    have h1 : addSpline l (Ctor.make S (.coefficients c.1.1 c.1.2)) c.2 = .ok (l ++ [⟨⟨c.1.1, c.1.2⟩, some true⟩]) := by
      rw [addSpline]
      simp only [Ctor.make, Flagged.copy, Outcome.ok_bind]
      cases c.2
      · rfl
      · rw [if_pos rfl, hmove l hl]; rfl
    rw [h1, Outcome.ok_bind, ih]
    · simp
    · intro s hs
      rcases List.mem_append.1 hs with h | h
      · exact hl s h
      · simp only [List.mem_singleton] at h; subst h; rfl

/-- C138. The flag never says whether the coefficients have been computed: it is `true` exactly for the splines whose
coefficients were handed to the constructor, however often they are computed later. In particular a spline that begins empty
has the flag `false` after its coefficients have been computed. -/
theorem C138_flag_refuted (S : RawSolver K) (c : Ctor o K) (cs : List (Change o K)) :
    ((cs.foldl (Flagged.change S) (c.make S)).computed = some true ↔ ∃ v d, c = .coefficients v d) ∧
    (c = .default → ∀ p, ((cs ++ [Change.compute p]).foldl (Flagged.change S) (c.make S)).computed = some false) := by
  refine ⟨?_, ?_⟩
  · rw [change_computed]
    cases c <;> simp [Ctor.make]
  · rintro rfl p
    rw [change_computed]
    rfl

/-- A straight spline from options: it answers, but cannot be copied. -/
example (S : RawSolver ℚ) : ((Ctor.options ⟨2, 0, 4, 0, 0, 0, 0⟩ : Ctor .o1 ℚ).make S).spline.getPositionAtTime 1 = 2 ∧
    ((Ctor.options ⟨2, 0, 4, 0, 0, 0, 0⟩ : Ctor .o1 ℚ).make S).copy = .ub ∧
    ((Ctor.coefficients ![2, 0] 2 : Ctor .o1 ℚ).make S).copy = .ok ⟨⟨![2, 0], 2⟩, some true⟩ := by
  refine ⟨?_, (C138_refuted S _ []).1, C138_copies_partial S (Ctor.coefficients (o := .o1) (K := ℚ) ![2, 0] 2) (by simp) []⟩
  unfold Spline.getPositionAtTime inner
  rw [show ∀ f : Fin (Order.o1.deg + 1) → ℚ, ∑ i, f i = f 0 + f 1 from fun f => Fin.sum_univ_two (f : Fin 2 → ℚ)]
  norm_num [Ctor.make, Spline.computeCoefficients, compute, tau, clamp]
  decide +kernel

end Verif.Spline

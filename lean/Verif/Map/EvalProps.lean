import Verif.Map.EvalModel
import Verif.Map.ListProps
import Verif.Manager.EvalLemmas
import Verif.Hermite.EquivLemmas
import Verif.Discrete.Model

/-!
# Property C154: a curve made of knots, asked at a time that is not a number
-/

set_option linter.unusedSectionVars false
set_option linter.dupNamespace false

namespace Verif.Map

open Verif.Manager Verif.Map.Tree

variable {T C X : Type} [LinearOrder T]

theorem nan_lt (x : Option T) : (Cmp.nan T).lt none x = false := rfl

theorem nan_gt (x : Option T) : (Cmp.nan T).lt x none = false := by cases x <;> rfl

theorem nan_eq (x : Option T) : (Cmp.nan T).eq none x = false := rfl

theorem eq_nan (x : Option T) : (Cmp.nan T).eq x none = false := by cases x <;> rfl

theorem nan_le (x : Option T) : (Cmp.nan T).le none x = false := rfl

theorem le_nan (x : Option T) : (Cmp.nan T).le x none = false := by cases x <;> rfl

/-- Nothing is found around a time that is not a number, whatever the tree holds. -/
theorem getCoefficientsAt_nan (z : Option T) (t : Nodes (Option T) C) : getCoefficientsAt (Cmp.nan T) z t none = none := by
  rw [getCoefficientsAt]
  split
  · rfl
  · have hup : t.upperBound (Cmp.nan T) Node.time none = t.size := by
      rw [upperBound_spec _ _ _ t t.toList [] (by simp) (fun x _ => nan_lt _) (by simp), size_eq]
    simp [nan_eq, hup]

/-- **C154**: at a time that is not a number every curve made of knots refuses, whatever its knots are (none, one, many, some
of them at times that are not numbers): a Hermite curve returns `false` for its value and its derivative, and a discrete or
slerp curve fails a `CHECK` for both. -/
theorem C154_time (z : Option T) (t : Nodes (Option T) C) (single : C → X) (f : Node (Option T) C → Node (Option T) C → Option T → X)
    (g : Node (Option T) C → Node (Option T) C → Option T → C) :
    evaluateHermite (Cmp.nan T) z single f none t = .ok none ∧
    evaluateKnots (Cmp.nan T) z g none t = .abort ∧
    evaluateKnotsDerivative (Cmp.nan T) z f none t = .abort := by
  refine ⟨?_, ?_, ?_⟩
  · rw [evaluateHermite, eq_nan, if_neg (by simp), getCoefficientsAt_nan]
  · rw [evaluateKnots, eq_nan, if_neg (by simp), nan_eq, if_neg (by simp), getCoefficientsAt_nan]
  · rw [evaluateKnotsDerivative, le_nan, if_pos (by simp)]

/-- **C154**, a curve that was given a time that is not a number first (and then, by `C151_first`, holds that knot alone)
refuses at every time. -/
theorem C154_knot (shape : Nat → List (Node (Option T) C) → Nodes (Option T) C)
    (hshape : ∀ i l, (shape i l).toList = l) (w : World) (v : C) (l : List (Option T × C)) :
    ∃ w' m' keys, insertLoop (Cmp.nan T) shape w leaf [] ((none, v) :: l) = .ok (w', m', keys) ∧
      ∀ (t : Nodes (Option T) C), t.toList = m'.nodes → ∀ (k z : Option T) (single : C → X)
        (f : Node (Option T) C → Node (Option T) C → Option T → X) (g : Node (Option T) C → Node (Option T) C → Option T → C),
        evaluateHermite (Cmp.nan T) z single f k t = .ok none ∧
        evaluateKnots (Cmp.nan T) z g k t = .abort ∧
        evaluateKnotsDerivative (Cmp.nan T) z f k t = .abort := by
  obtain ⟨w', n, km, keys, e, hn, -⟩ := C151_first shape hshape w v l
  refine ⟨w', _, keys, e, fun t ht k z single f g => ?_⟩
  have ht : t.toList = [n] := ht
  have hmax : maxTime z t = none := by rw [maxTime, ht]; exact hn
  have hmin : minTime z t = none := by rw [minTime, ht]; exact hn
  have hget : getCoefficientsAt (Cmp.nan T) z t k = none := by
    have hlt : (Cmp.nan T).lt k n.time = false := by rw [hn, nan_gt]
    have hu : t.upperBound (Cmp.nan T) Node.time k = 1 :=
      upperBound_spec _ _ _ t [n] [] (by simpa using ht) (by simpa using hlt) (by simp)
    rw [getCoefficientsAt, hmax, eq_nan, hu, size_eq, ht]
    rfl
  refine ⟨?_, ?_, ?_⟩
  · rw [evaluateHermite, hmax, nan_eq, if_neg (by simp), hget]
  · rw [evaluateKnots, hmax, nan_eq, if_neg (by simp), eq_nan, if_neg (by simp), hget]
  · rw [evaluateKnotsDerivative, hmin, nan_le, if_pos (by simp)]

/-! ## At numbers -/

/-- **C154**, at numbers: on every reachable manager, whatever the shape of the tree, these evaluations are those of the
models of the curves. -/
theorem C154_number [Zero T] {s : St T C} (hr : Reachable s) (hc : s.w.calls + 1 < 2 ^ 64) {t : Nodes T C}
    (ht : t.toList = s.m.nodes) (single : C → X) (f : Node T C → Node T C → T → X) (g : Node T C → Node T C → T → C) (k : T) :
    evaluateHermite (Cmp.number T) 0 single f k t = evalWith single f k s.m ∧
    evaluateKnots (Cmp.number T) 0 g k t =
      (if s.m.getMaxTime = k ∧ s.m.getMinTime = k then Outcome.deref s.m.nodes.head? >>= fun n => .ok n.coef
       else if k = s.m.getMaxTime then Outcome.deref s.m.nodes.getLast? >>= fun n => .ok n.coef
       else match s.m.getCoefficientsAt k with
        | none => .abort
        | some (a, b) => .ok (g a b k)) ∧
    evaluateKnotsDerivative (Cmp.number T) 0 f k t =
      (if k < s.m.getMinTime then .abort else if s.m.getMaxTime < k then .abort
       else match s.m.getCoefficientsAt k with
        | none => .abort
        | some (a, b) => .ok (f a b k)) := by
  have hmax : maxTime 0 t = s.m.getMaxTime := by rw [maxTime, ht]; rfl
  have hmin : minTime 0 t = s.m.getMinTime := by rw [minTime, ht, Mgr.getMinTime]; cases s.m.nodes <;> rfl
  have hget : getCoefficientsAt (Cmp.number T) 0 t k = s.m.getCoefficientsAt k := by
    cases hn : s.m.nodes with
    | nil =>
      rw [getCoefficientsAt, if_pos (by rw [size_eq, ht, hn]; rfl), Mgr.getCoefficientsAt, hn]
    | cons n l => exact (C149_number hr hc ht k n.coef).2.2.2.2
  refine ⟨?_, ?_, ?_⟩
  · rw [evaluateHermite, evalWith, hmax, hmin, hget, ht]
    simp only [Cmp.number, decide_eq_true_eq]
    rfl
  · rw [evaluateKnots, hmax, hmin, hget, ht]
    simp only [Cmp.number, decide_eq_true_eq]
    rfl
  · rw [evaluateKnotsDerivative, hmax, hmin, hget]
    simp only [Cmp.number, decide_eq_true_eq, not_le]
    rfl

/-- `C154_number` for the curves themselves. -/
theorem C154_discrete {K G V : Type} [Field K] [LinearOrder K] [IsStrictOrderedRing K] [Group G] [AddCommGroup V] [Module K V]
    (L : Discrete.ExpLog K G V) {s : St K G} (hr : Reachable s) (hc : s.w.calls + 1 < 2 ^ 64) {t : Nodes K G}
    (ht : t.toList = s.m.nodes) (k : K) :
    evaluateKnots (Cmp.number K) 0 Discrete.nearer k t = Discrete.evaluate L .discrete k s.m ∧
    evaluateKnots (Cmp.number K) 0 (Discrete.slerpAt L) k t = Discrete.evaluate L .slerp k s.m ∧
    ∀ order, evaluateKnotsDerivative (Cmp.number K) 0 (fun a b _ => if order = 1 then
      (1 / (b.time - a.time)) • L.log (b.coef⁻¹ * a.coef) else 0) k t = Discrete.evaluateDerivative L k order s.m := by
  refine ⟨?_, ?_, fun order => ?_⟩
  · rw [(C154_number (X := G) hr hc ht (fun x => x) (fun a _ _ => a.coef) Discrete.nearer k).2.1]
    rfl
  · rw [(C154_number (X := G) hr hc ht (fun x => x) (fun a _ _ => a.coef) (Discrete.slerpAt L) k).2.1]
    rfl
  · rw [(C154_number (X := V) hr hc ht (fun _ => 0) _ (fun a _ _ => a.coef) k).2.2, Discrete.evaluateDerivative]
    split
    · rfl
    · split
      · rfl
      · cases s.m.getCoefficientsAt k with
        | none => rfl
        | some p => by_cases h : order = 1 <;> simp [h]

/-- `C154_number` for the E3 Hermite curve: value and first derivative. -/
theorem C154_hermite {K V : Type} [Field K] [LinearOrder K] [IsStrictOrderedRing K] [AddCommGroup V] [Module K V]
    {s : St K (Hermite.Knot V)} (hr : Reachable s) (hc : s.w.calls + 1 < 2 ^ 64) {t : Nodes K (Hermite.Knot V)}
    (ht : t.toList = s.m.nodes) (k : K) :
    evaluateHermite (Cmp.number K) 0 (fun n : Hermite.Knot V => n.position) Hermite.E3.interpolate k t = Hermite.E3.evaluate k ⟨s.w, s.m⟩ ∧
    evaluateHermite (Cmp.number K) 0 (fun n : Hermite.Knot V => n.velocity) Hermite.E3.interpolateVelocity k t =
      Hermite.E3.evaluateDerivative k 1 ⟨s.w, s.m⟩ := by
  refine ⟨?_, ?_⟩
  · rw [(C154_number hr hc ht _ _ (fun a _ _ => a.coef) k).1, Hermite.E3.evaluate_eq]
  · rw [(C154_number hr hc ht _ _ (fun a _ _ => a.coef) k).1, Hermite.E3.velocity_eq]

/-- Instances of C154: three knots in a crooked tree, asked at NaN, and a curve whose first time is NaN. -/
example : evaluateHermite (Cmp.nan Nat) (some 0) id (fun a b _ => a.coef + b.coef) none crooked = .ok none ∧
    evaluateHermite (Cmp.nan Nat) (some 0) id (fun a b _ => a.coef + b.coef) (some 3) crooked = .ok (some 500) ∧
    evaluateKnots (Cmp.nan Nat) (some 0) (fun a _ _ => a.coef) none crooked = .abort ∧
    evaluateKnots (Cmp.nan Nat) (some 0) (fun a _ _ => a.coef) (some 4) crooked = .ok 200 := ⟨rfl, rfl, rfl, rfl⟩

example := C154_knot (X := Nat) (fun _ => slope) (fun _ => slope_toList) ⟨0, 0⟩ 7 [(some 1, 8), (some 2, 9)]

example : ∃ t : Nodes Nat Nat, t.toList = demo.m.nodes ∧ evaluateHermite (Cmp.number Nat) 0 id (fun a b _ => a.coef + b.coef) 2 t =
    evalWith id (fun a b _ => a.coef + b.coef) 2 demo.m := by
  have key : ∀ l : List (Node Nat Nat), ∃ t : Nodes Nat Nat, t.toList = l := by
    intro l
    induction l with
    | nil => exact ⟨.leaf, rfl⟩
    | cons a l ih =>
      obtain ⟨t, e⟩ := ih
      exact ⟨.node .leaf a t, by simp [toList, e]⟩
  obtain ⟨t, e⟩ := key demo.m.nodes
  exact ⟨t, e, (C154_number demo_reachable (by decide) e id _ (fun a _ _ => a.coef) 2).1⟩

end Verif.Map

import Verif.PolyCurve.Model
import Verif.Container.PlayProps

/-! # Lemmas about polynomial-spline curves -/

set_option linter.unusedSectionVars false
set_option linter.dupNamespace false

namespace Verif.Container.Container

open Verif.Spline

variable {K : Type} [Field K] [LinearOrder K] [IsStrictOrderedRing K] {o : Order}

/-! ## `setData` only sees differences of times -/

theorem segDurations_shift (s : K) (ts : List K) (k : ℕ) : ∀ i,
    segDurations (ts.map (· + s)) k i = segDurations ts k i := by
  induction k with
  | zero => intro i; rfl
  | succ k ih =>
    intro i
    simp only [segDurations, List.getElem?_map, ih]
    cases ts[i + 1]? <;> cases ts[i]? <;> simp

theorem linearLoop_shift (s : K) (ts ps : List K) (k : ℕ) : ∀ i (c : Container o K),
    linearLoop (ts.map (· + s)) ps k i c = linearLoop ts ps k i c := by
  induction k with
  | zero => intro i c; rfl
  | succ k ih =>
    intro i c
    simp only [linearLoop, List.getElem?_map, ih]
    cases ts[i + 1]? <;> cases ts[i]? <;> simp

theorem linear_shift (s : K) (ts ps : List K) (c : Container o K) :
    setDataLinear (ts.map (· + s)) ps c = setDataLinear ts ps c := by
  simp only [setDataLinear, List.length_map, linearLoop_shift]

theorem numSplines_shift (s : K) (ts : List K) : numSplines (ts.map (· + s)) = numSplines ts := by
  simp [numSplines]

theorem fit_shift (S : Solver K) (e : ℕ) (s : K) (ts ps ini fin : List K) (c : Container o K) :
    fit S e (ts.map (· + s)) ps ini fin c = fit S e ts ps ini fin c := by
  rw [fit, fit, numSplines_shift, fitWith, fitWith, segDurations_shift]

theorem vel_shift (S : Solver K) (s : K) (ts ps : List K) (v0 vT : K) (c : Container o K) :
    setDataVel S (ts.map (· + s)) ps v0 vT c = setDataVel S ts ps v0 vT c := by
  rw [setDataVel, setDataVel, numSplines_shift, linear_shift, fit_shift]

theorem acc_shift (S : Solver K) (s : K) (ts ps : List K) (v0 a0 vT aT : K) (c : Container o K) :
    setDataAcc S (ts.map (· + s)) ps v0 a0 vT aT c = setDataAcc S ts ps v0 a0 vT aT c := by
  rw [setDataAcc, setDataAcc, numSplines_shift, vel_shift, fit_shift]

/-! ## `setData` with derivatives forgets the previous content -/

theorem reset_eq (c d : Container o K) : c.reset = d.reset := rfl

theorem acc_forgets (S : Solver K) (ts ps : List K) (v0 a0 vT aT : K) (c d : Container o K) :
    setDataAcc S ts ps v0 a0 vT aT c = setDataAcc S ts ps v0 a0 vT aT d := rfl

end Verif.Container.Container

namespace Verif.PolyCurve.VectorCurve

open Verif.Spline Verif.Container

variable {K : Type} [Field K] [LinearOrder K] [IsStrictOrderedRing K] {N : ℕ}

theorem collect_ok (vs : List (Fin N → K)) (i : Fin N) (k : ℕ) : ∀ t, t + k ≤ vs.length →
    collect vs i k t = .ok (((vs.drop t).take k).map (· i)) := by
  induction k with
  | zero => intro t _; simp [collect]
  | succ k ih =>
    intro t h
    rw [collect, List.getElem?_eq_getElem (by omega)]
    simp only [Outcome.ok_bind]
    rw [ih (t + 1) (by omega), List.drop_eq_getElem_cons (by omega : t < vs.length)]
    simp only [Outcome.ok_bind, List.take_succ_cons, List.map_cons]

theorem loop_ok (f : Fin N → Container .o5 K → Outcome (Container .o5 K))
    (d : Fin N → Container .o5 K) (hf : ∀ i c, f i c = .ok (d i)) (is : List (Fin N)) :
    ∀ cs, ∃ cs', loop f is cs = .ok cs' ∧ (∀ i ∈ is, cs' i = d i) ∧ ∀ i, i ∉ is → cs' i = cs i := by
  induction is with
  | nil => intro cs; exact ⟨cs, rfl, by simp, by simp⟩
  | cons i is ih =>
    intro cs
    obtain ⟨cs', e, h1, h2⟩ := ih (Function.update cs i (d i))
    refine ⟨cs', by rw [loop, hf]; exact e, ?_, ?_⟩
    · intro j hj
      by_cases hji : j ∈ is
      · exact h1 j hji
      · have : j = i := by simpa [hji] using hj
        subst this
        rw [h2 j hji]; simp
    · intro j hj
      simp at hj
      rw [h2 j hj.2]; simp [hj.1]

theorem loop_all (f : Fin N → Container .o5 K → Outcome (Container .o5 K))
    (d : Fin N → Container .o5 K) (hf : ∀ i c, f i c = .ok (d i)) (cs : Fin N → Container .o5 K) :
    loop f (List.finRange N) cs = .ok d := by
  obtain ⟨cs', e, h1, -⟩ := loop_ok f d hf (List.finRange N) cs
  rw [e]; congr 1; funext i; exact h1 i (List.mem_finRange i)

/-- If the loop body does not look at the previous container, the loop does not either. -/
theorem loop_forgets (f : Fin N → Container .o5 K → Outcome (Container .o5 K))
    (hf : ∀ i c d, f i c = f i d) (is : List (Fin N)) : ∀ cs ds,
    (∀ j, j ∉ is → cs j = ds j) → loop f is cs = loop f is ds := by
  induction is with
  | nil => intro cs ds h; rw [show cs = ds from funext fun j => h j (by simp)]
  | cons i is ih =>
    intro cs ds h
    rw [loop, loop, hf i (cs i) (ds i)]
    cases f i (ds i) with
    | ok d =>
      simp only [Outcome.ok_bind]
      refine ih _ _ fun j hj => ?_
      by_cases hji : j = i
      · subst hji; simp
      · simp [hji, h j (by simp [hji, hj])]
    | abort => rfl
    | throw => rfl
    | ub => rfl

end Verif.PolyCurve.VectorCurve

import Verif.PolyCurve.ThrowModel
import Verif.PolyCurve.OutcomeProps

/-!
# C134: what a fit of a vector curve leaves behind when it throws
-/

set_option linter.unusedSectionVars false
set_option linter.dupNamespace false

namespace Verif.PolyCurve

open Verif.Spline Verif.Container

variable {K : Type} [Field K] [LinearOrder K] [IsStrictOrderedRing K] {N : ℕ}

/-- Running the loop with the state kept agrees with the loop that keeps it on success only. -/
theorem loopKeep_eq (f : Fin N → Container .o5 K → Outcome (Container .o5 K)) (is : List (Fin N))
    (cs : Fin N → Container .o5 K) : ((loopKeep f is cs).1 >>= fun _ => .ok (loopKeep f is cs).2) = VectorCurve.loop f is cs := by
  induction is generalizing cs with
  | nil => rfl
  | cons i is ih =>
    simp only [loopKeep, VectorCurve.loop]
    cases f i (cs i) with
    | ok d => simpa using ih _
    | _ => rfl

/-- A body that throws for every component, or for none. -/
def Uniform (f : Fin N → Container .o5 K → Outcome (Container .o5 K)) : Prop :=
  (∀ i d, f i d = .throw) ∨ ∀ i d, f i d ≠ .throw

/-- If the loop throws, the first turn did, and nothing has been changed. -/
theorem loopKeep_throw {f : Fin N → Container .o5 K → Outcome (Container .o5 K)} (hf : Uniform f) (is : List (Fin N))
    (cs : Fin N → Container .o5 K) (h : (loopKeep f is cs).1 = .throw) : (loopKeep f is cs).2 = cs := by
  rcases hf with hf | hf
  · cases is with
    | nil => rfl
    | cons i is => simp [loopKeep, hf]
  · exfalso
    induction is generalizing cs with
    | nil => simp [loopKeep] at h
    | cons i is ih =>
      simp only [loopKeep] at h
      cases e : f i (cs i) with
      | ok d => rw [e] at h; exact ih _ h
      | throw => exact hf i _ e
      | _ => rw [e] at h; simp at h

theorem uniform_acc (S : RawSolver K) (ts : List K) (vs : List (Fin N → K)) (v0 a0 vT aT : Fin N → K) :
    Uniform fun i d => VectorCurve.collect vs i ts.length 0 >>= fun ps =>
      Container.setDataAcc S ts ps (v0 i) (a0 i) (vT i) (aT i) d >>= fun r => .ok r.2 := by
  by_cases h : vs.length < ts.length
  · exact .inl fun i d => by beta_reduce; rw [collect_short vs i _ _ (by omega) (by omega)]; rfl
  · refine .inr fun i d => ?_
    beta_reduce
    rw [VectorCurve.collect_ok vs i _ 0 (by omega), Outcome.ok_bind]
    exact ((tame_acc ..).bind fun _ => tame_ok _).2

theorem uniform_derivatives (S : RawSolver K) (ts : List K) (vs ds es : List (Fin N → K)) :
    Uniform fun i d => VectorCurve.collect vs i ts.length 0 >>= fun ps =>
      VectorCurve.collect ds i ts.length 0 >>= fun d1 => VectorCurve.collect es i ts.length 0 >>= fun d2 =>
      Outcome.deref d1.head? >>= fun v0 => Outcome.deref d2.head? >>= fun a0 =>
      Outcome.deref d1.getLast? >>= fun vT => Outcome.deref d2.getLast? >>= fun aT =>
      Container.setDataAcc S ts ps v0 a0 vT aT d >>= fun r => .ok r.2 := by
  by_cases h : vs.length < ts.length
  · exact .inl fun i d => by beta_reduce; rw [collect_short vs i _ _ (by omega) (by omega)]; rfl
  by_cases h' : ds.length < ts.length
  · exact .inl fun i d => by
      beta_reduce
      rw [VectorCurve.collect_ok vs i _ 0 (by omega), Outcome.ok_bind, collect_short ds i _ _ (by omega) (by omega)]; rfl
  by_cases h'' : es.length < ts.length
  · exact .inl fun i d => by
      beta_reduce
      rw [VectorCurve.collect_ok vs i _ 0 (by omega), Outcome.ok_bind, VectorCurve.collect_ok ds i _ 0 (by omega),
        Outcome.ok_bind, collect_short es i _ _ (by omega) (by omega)]; rfl
  · refine .inr fun i d => ?_
    beta_reduce
    rw [VectorCurve.collect_ok vs i _ 0 (by omega), Outcome.ok_bind, VectorCurve.collect_ok ds i _ 0 (by omega),
      Outcome.ok_bind, VectorCurve.collect_ok es i _ 0 (by omega), Outcome.ok_bind]
    exact ((tame_deref _).bind fun _ => (tame_deref _).bind fun _ => (tame_deref _).bind fun _ =>
      (tame_deref _).bind fun _ => (tame_acc ..).bind fun _ => tame_ok _).2

/-- What a call that ended as `x` returned. -/
def result (x : Outcome Unit × VectorCurve N K) : Outcome (VectorCurve N K) := x.1 >>= fun _ => .ok x.2

theorem result_throw (x : Outcome Unit × VectorCurve N K) : result x = .throw ↔ x.1 = .throw := by
  obtain ⟨o, c⟩ := x
  cases o <;> simp [result, Bind.bind, Outcome.bind]

theorem keep_acc (S : RawSolver K) (c : VectorCurve N K) (ts : List K) (vs : List (Fin N → K)) (v0 a0 vT aT : Fin N → K)
    (h : (c.fitCurveKeep S ts vs v0 a0 vT aT).1 = .throw) :
    (c.fitCurveKeep S ts vs v0 a0 vT aT).2.containers = c.containers ∧
    ts.head? = some (c.fitCurveKeep S ts vs v0 a0 vT aT).2.minTime := by
  have hu := uniform_acc S ts vs v0 a0 vT aT
  revert hu h
  generalize ht : ts = ts'
  cases ts' with
  | nil => intro h; simp [VectorCurve.fitCurveKeep] at h
  | cons t0 rest =>
    rw [VectorCurve.fitCurveKeep]
    intro h hu
    exact ⟨loopKeep_throw hu _ _ h, rfl⟩

theorem keep_derivatives (S : RawSolver K) (c : VectorCurve N K) (ts : List K) (vs ds es : List (Fin N → K))
    (h : (c.fitDerivativesKeep S ts vs ds es).1 = .throw) :
    (c.fitDerivativesKeep S ts vs ds es).2.containers = c.containers ∧
    ts.head? = some (c.fitDerivativesKeep S ts vs ds es).2.minTime := by
  have hu := uniform_derivatives S ts vs ds es
  revert hu h
  generalize ht : ts = ts'
  cases ts' with
  | nil => intro h; simp [VectorCurve.fitDerivativesKeep] at h
  | cons t0 rest =>
    rw [VectorCurve.fitDerivativesKeep]
    intro h hu
    exact ⟨loopKeep_throw hu _ _ h, rfl⟩

theorem keep (S : RawSolver K) (c : VectorCurve N K) (ts : List K) (vs ds es : List (Fin N → K)) (v0 a0 vT aT : Fin N → K) :
    ∀ x ∈ [c.fitCurveKeep S ts vs v0 a0 vT aT, c.fitDerivativesKeep S ts vs ds es], x.1 = .throw →
      x.2.containers = c.containers ∧ ts.head? = some x.2.minTime := by
  intro x hx h
  simp only [List.mem_cons, List.not_mem_nil, or_false] at hx
  rcases hx with rfl | rfl
  · exact keep_acc _ _ _ _ _ _ _ _ h
  · exact keep_derivatives _ _ _ _ _ _ h

/-- C134. With the state kept, a fit of a vector curve ends as it did before: the same outcome, and when it returns, the same
curve. It throws exactly when there are times and components but too few values (or derivatives). When it throws, the curve
left behind is the old one, except that it claims to begin at the first of the new times: it ends when it ended, and every
value and derivative is what it was. -/
theorem C134_left (S : Solver K) (c : VectorCurve N K) (ts : List K) (vs ds es : List (Fin N → K))
    (hz : ts.length ≤ 2 ^ 28) (v0 a0 vT aT : Fin N → K) :
    result (c.fitCurveKeep S ts vs v0 a0 vT aT) = c.fitCurveWith S ts vs v0 a0 vT aT ∧
    result (c.fitDerivativesKeep S ts vs ds es) = c.fitCurveDerivatives S ts vs ds es ∧
    ((c.fitCurveKeep S ts vs v0 a0 vT aT).1 = .throw ↔ ts ≠ [] ∧ 0 < N ∧ vs.length < ts.length) ∧
    ((c.fitDerivativesKeep S ts vs ds es).1 = .throw ↔
      ts ≠ [] ∧ 0 < N ∧ (vs.length < ts.length ∨ ds.length < ts.length ∨ es.length < ts.length)) ∧
    ∀ x ∈ [c.fitCurveKeep S ts vs v0 a0 vT aT, c.fitDerivativesKeep S ts vs ds es], x.1 = .throw →
      ts.head? = some x.2.getMinTime ∧ x.2.getMaxTime = c.getMaxTime ∧
      (∀ t i, x.2.evaluate t i = c.evaluate t i) ∧
      ∀ t order i, x.2.evaluateDerivative t order i = c.evaluateDerivative t order i := by
  have e1 : result (c.fitCurveKeep S ts vs v0 a0 vT aT) = c.fitCurveWith S ts vs v0 a0 vT aT := by
    cases ts with
    | nil => rfl
    | cons t0 rest =>
      simp only [VectorCurve.fitCurveKeep, VectorCurve.fitCurveWith, List.head?_cons, Outcome.deref_some, Outcome.ok_bind]
      rw [← loopKeep_eq, result]
      cases (loopKeep _ _ c.containers).1 <;> rfl
  have e2 : result (c.fitDerivativesKeep S ts vs ds es) = c.fitCurveDerivatives S ts vs ds es := by
    cases ts with
    | nil => rfl
    | cons t0 rest =>
      simp only [VectorCurve.fitDerivativesKeep, VectorCurve.fitCurveDerivatives, List.head?_cons, Outcome.deref_some,
        Outcome.ok_bind]
      rw [← loopKeep_eq, result]
      cases (loopKeep _ _ c.containers).1 <;> rfl
  have hv := C131_vector S c ts vs ds es hz v0 a0 vT aT
  refine ⟨e1, e2, by rw [← result_throw, e1]; exact hv.1.2.1, by rw [← result_throw, e2]; exact hv.2.1.2.1, ?_⟩
  have same : ∀ x : Outcome Unit × VectorCurve N K, x.2.containers = c.containers → x.2.getMaxTime = c.getMaxTime ∧
      (∀ t i, x.2.evaluate t i = c.evaluate t i) ∧
      ∀ t order i, x.2.evaluateDerivative t order i = c.evaluateDerivative t order i := by
    intro x h
    simp only [VectorCurve.getMaxTime, VectorCurve.evaluate, VectorCurve.evaluateDerivative, h]
    exact ⟨trivial, fun _ _ => trivial, fun _ _ _ => trivial⟩
  intro x hx h
  have := keep S.toRawSolver c ts vs ds es v0 a0 vT aT x hx h
  exact ⟨this.2, same x this.1⟩

/-- Two values missing out of three: the fit throws; the curve, fitted before from 0 on, now claims to begin at 7. -/
example : (VectorCurve.fresh (N := 1) (K := ℚ)).getMinTime = 0 ∧
    ([7, 8, 9] : List ℚ) ≠ [] ∧ 0 < 1 ∧ ([fun _ => 5] : List (Fin 1 → ℚ)).length < ([7, 8, 9] : List ℚ).length := by
  decide +kernel

/-- C134, refuted: that a fit that throws leaves the curve as it was. It never does when the first new time is not the time
at which the curve began. -/
theorem C134_refuted (S : Solver K) (c : VectorCurve N K) (t0 : K) (rest : List K) (vs : List (Fin N → K))
    (hz : rest.length < 2 ^ 28) (v0 a0 vT aT : Fin N → K) (hN : 0 < N) (hlt : vs.length ≤ rest.length)
    (hne : t0 ≠ c.getMinTime) :
    (c.fitCurveKeep S (t0 :: rest) vs v0 a0 vT aT).1 = .throw ∧
    (c.fitCurveKeep S (t0 :: rest) vs v0 a0 vT aT).2 ≠ c := by
  obtain ⟨-, -, h1, -, h2⟩ := C134_left S c (t0 :: rest) vs [] [] (by simpa using hz) v0 a0 vT aT
  have h := h1.2 ⟨by simp, hN, by simp; omega⟩
  refine ⟨h, fun e => hne ?_⟩
  have := (h2 _ (by simp) h).1
  rw [e] at this
  simpa using this

/-- The witness: a curve that has never been fitted begins at 0; after a fit from 7 on that throws, at 7. -/
example (S : Solver ℚ) :
    ((VectorCurve.fresh (N := 1) (K := ℚ)).fitCurveKeep S [7, 8] [] 0 0 0 0).1 = .throw ∧
    ((VectorCurve.fresh (N := 1) (K := ℚ)).fitCurveKeep S [7, 8] [] 0 0 0 0).2 ≠ VectorCurve.fresh :=
  C134_refuted S VectorCurve.fresh 7 [8] [] (by decide) 0 0 0 0 (by decide) (by decide) (by decide +kernel)

/-- C134, the part that holds. A fit that throws leaves the curve as it was when the first of the new times is the time at
which it began. -/
theorem C134_unchanged_partial (S : Solver K) (c : VectorCurve N K) (ts : List K) (vs ds es : List (Fin N → K))
    (v0 a0 vT aT : Fin N → K) (h0 : ts.head? = some c.getMinTime) :
    ∀ x ∈ [c.fitCurveKeep S ts vs v0 a0 vT aT, c.fitDerivativesKeep S ts vs ds es], x.1 = .throw → x.2 = c := by
  intro x hx h
  have := keep S.toRawSolver c ts vs ds es v0 a0 vT aT x hx h
  rw [h0] at this
  obtain ⟨o, cs, m⟩ := x
  obtain ⟨cs', m'⟩ := c
  simp only [VectorCurve.getMinTime, Option.some.injEq] at this
  rw [this.1, this.2]

example : ([0, 8] : List ℚ).head? = some (VectorCurve.fresh (N := 1) (K := ℚ)).getMinTime := by decide +kernel

/-- C134, the way out. Whatever fit is tried after one that threw ends as if the one that threw had not been tried, and
unless it is undefined behaviour leaves the same curve. -/
theorem C134_recovers (S : Solver K) (c : VectorCurve N K) (ts ts' : List K) (vs ds es vs' ds' es' : List (Fin N → K))
    (v0 a0 vT aT v0' a0' vT' aT' : Fin N → K) (hne : ts' ≠ []) :
    ∀ x ∈ [c.fitCurveKeep S ts vs v0 a0 vT aT, c.fitDerivativesKeep S ts vs ds es], x.1 = .throw →
      x.2.fitCurveKeep S ts' vs' v0' a0' vT' aT' = c.fitCurveKeep S ts' vs' v0' a0' vT' aT' ∧
      x.2.fitDerivativesKeep S ts' vs' ds' es' = c.fitDerivativesKeep S ts' vs' ds' es' := by
  intro x hx h
  have hc := (keep S.toRawSolver c ts vs ds es v0 a0 vT aT x hx h).1
  obtain ⟨t0, rest, rfl⟩ := List.exists_cons_of_ne_nil hne
  simp only [VectorCurve.fitCurveKeep, VectorCurve.fitDerivativesKeep, hc]
  exact ⟨trivial, trivial⟩

example (S : Solver ℚ) : ((VectorCurve.fresh (N := 1) (K := ℚ)).fitCurveKeep S [7, 8] [] 0 0 0 0).1 = .throw ∧
    ([1, 2] : List ℚ) ≠ [] :=
  ⟨(C134_refuted S VectorCurve.fresh 7 [8] [] (by decide) 0 0 0 0 (by decide) (by decide) (by decide +kernel)).1, by simp⟩

end Verif.PolyCurve

import Verif.PolyCurve.Props
import Verif.Hermite.SE3Model
import Verif.Hermite.E3Props
import Verif.Composition.Model
import Verif.Policy.Model
import Verif.Csv.Model

/-!
# Property C108: lists of different lengths

What the functions do that take a list of times and a list of values, when the lists do not have the same length.
Also the functions of the polynomial curves that are not implemented (C50).
-/

set_option linter.unusedSectionVars false
set_option linter.dupNamespace false

namespace Verif.PolyCurve

open Verif.Spline Verif.Container

/-! ## Refused -/

section refused
open Verif.Manager Verif.Policy Verif.Hermite Verif.Kindr

/-- **C108 (partial).** As many times as values are required, and nothing returns otherwise: `insertCoefficients` and
`modifyCoefficientsValuesInBatch` of the manager; `extend`, `fitCurve` and `setCurve` of the slerp and discrete curves;
the three fits of the SE3 Hermite curve; the three fits of the E3 Hermite curve in builds with `assert`; `extend` of a
composition; writing a CSV file. Missing: the E3 Hermite curve without `assert`, see `C108_e3_release`, and
the polynomial curves, see `C108_refuted`, `C108_vector`. -/
theorem C108_refused_partial {T C : Type} [LinearOrder T] [Zero T] {ts : List T} {vs : List C}
    (h : ts.length ≠ vs.length) (w : World) (m : Mgr T C) (c : Curve T C) :
    m.insertCoefficients w ts vs = .abort ∧ m.modifyCoefficientsValuesInBatch ts vs = .abort ∧
      c.extend w ts vs = .abort ∧ c.fitCurve w ts vs = .abort ∧ c.setCurve w ts vs = .abort := by
  refine ⟨?_, ?_, ?_, ?_, ?_⟩
  · rw [Mgr.insertCoefficients, if_neg h]
  · unfold Mgr.modifyCoefficientsValuesInBatch; rw [if_neg h]
  · unfold Curve.extend; rw [if_pos h]
  · rw [Curve.fitCurve, if_pos h]
  · rw [Curve.setCurve, if_pos h]

/-- **C108 (partial)**, the Hermite curves. -/
theorem C108_hermite_partial (L : LogMap) {ts : List ℝ} {vs : List Pose} (h : ts.length ≠ vs.length) (d0 dT : Twist)
    (c : SE3) :
    SE3.fitCurveWithDerivatives L ts vs d0 dT c = .abort ∧ SE3.fitCurve L ts vs c = .abort ∧
      ∀ r, SE3.fitPeriodicCurve L ts vs c ≠ .ok r := by
  have key : ∀ d0 dT, SE3.fitCurveWithDerivatives L ts vs d0 dT c = .abort := fun d0 dT => by
    rw [SE3.fitCurveWithDerivatives, if_pos h]
  refine ⟨key _ _, key _ _, fun r hr => ?_⟩
  rw [SE3.fitPeriodicCurve] at hr
  split at hr
  · cases hr
  · obtain ⟨_, -, hr⟩ := Outcome.bind_eq_ok.1 hr
    obtain ⟨_, -, hr⟩ := Outcome.bind_eq_ok.1 hr
    obtain ⟨_, -, hr⟩ := Outcome.bind_eq_ok.1 hr
    obtain ⟨_, -, hr⟩ := Outcome.bind_eq_ok.1 hr
    rw [key] at hr
    cases hr

/-- **C108 (partial)**, a composition and the CSV files. -/
theorem C108_others_partial {K G V : Type} [Field K] [LinearOrder K] [IsStrictOrderedRing K] [Group G] [AddCommGroup V]
    [Module K V] (L : Discrete.ExpLog K G V) (kc : Discrete.Kind) {ts : List K} {vs : List G}
    (h : ts.length ≠ vs.length) (s : Composition.Comp K G) (F : Csv.Fmt K) (fs : Csv.FS) (name : Csv.Str)
    {xs : List (List K)} (h' : ts.length ≠ xs.length) :
    Composition.extend L kc ts vs s = .abort ∧ Csv.writeTimeVectorCSV F fs name ts xs = .abort := by
  constructor
  · unfold Composition.extend
    split
    · exact absurd rfl h
    · rfl
  · unfold Csv.writeTimeVectorCSV; rw [if_pos h']

end refused

/-! ## `CubicHermiteE3Curve` -/

section hermite
open Verif.Manager Verif.Hermite

variable {K V : Type} [Field K] [LinearOrder K] [IsStrictOrderedRing K] [AddCommGroup V] [Module K V]

theorem deref_none {X : Type} {l : List X} {i : ℕ} (h : l.length ≤ i) : Outcome.deref l[i]? = .ub := by
  rw [List.getElem?_eq_none h]
  rfl

theorem fitLoop_short {ts : List K} {vs : List V} (d0 dT : V) : ∀ n i, i + n = ts.length → vs.length < ts.length →
    i ≤ vs.length → E3.fitLoop ts vs d0 dT n i = .ub := by
  intro n
  induction n with
  | zero => intro i h1 h2 h3; omega
  | succ n ih =>
    intro i h1 h2 h3
    rw [E3.fitLoop]
    have hk : E3.knotDerivative ts vs d0 dT i = .ub ∨ ∃ d, E3.knotDerivative ts vs d0 dT i = .ok d := by
      unfold E3.knotDerivative
      split
      · exact .inr ⟨_, rfl⟩
      · split
        · exact .inr ⟨_, rfl⟩
        · cases ts[i - 1]? <;> cases ts[i + 1]? <;> cases vs[i - 1]? <;> cases vs[i + 1]? <;>
            simp [Outcome.deref]
    rcases hk with e | ⟨d, e⟩
    · rw [e]; rfl
    · rw [e, Outcome.ok_bind]
      rcases h3.eq_or_lt with rfl | h3
      · rw [deref_none le_rfl]; rfl
      · rw [List.getElem?_eq_getElem h3, ih (i + 1) (by omega) h2 (by omega)]
        rfl

theorem fitLoop_congr {ts : List K} {vs vs' : List V} (d0 dT : V) (h : ∀ i, i < ts.length → vs[i]? = vs'[i]?) :
    ∀ n i, i + n = ts.length → E3.fitLoop ts vs d0 dT n i = E3.fitLoop ts vs' d0 dT n i := by
  intro n
  induction n with
  | zero => intro i _; rfl
  | succ n ih =>
    intro i hi
    have hk : E3.knotDerivative ts vs d0 dT i = E3.knotDerivative ts vs' d0 dT i := by
      unfold E3.knotDerivative
      by_cases h0 : i = 0
      · rw [if_pos h0, if_pos h0]
      · rw [if_neg h0, if_neg h0]
        by_cases h1 : i = ts.length - 1
        · rw [if_pos h1, if_pos h1]
        · rw [if_neg h1, if_neg h1, h (i - 1) (by omega), h (i + 1) (by omega)]
    rw [E3.fitLoop, E3.fitLoop, hk, h i (by omega), ih (i + 1) (by omega)]

/-- **C108 is false of `CubicHermiteE3Curve`** when `assert` is compiled out. With `assert` a fit of lists of different
lengths aborts. Without it, with too few values it reads beyond the end of the values; with too many it
does the same as without the surplus values. -/
theorem C108_e3_release {ts : List K} {vs : List V} (h : ts.length ≠ vs.length) (d0 dT : V) (c : E3 K V) :
    E3.fitCurveWithDerivatives true ts vs d0 dT c = .abort ∧
    (vs.length < ts.length → E3.fitCurveWithDerivatives false ts vs d0 dT c = .ub) ∧
    (ts.length < vs.length → E3.fitCurveWithDerivatives false ts vs d0 dT c =
      E3.fitCurveWithDerivatives true ts (vs.take ts.length) d0 dT c) := by
  refine ⟨?_, fun h1 => ?_, fun h1 => ?_⟩
  · rw [E3.fitCurveWithDerivatives, if_pos ⟨rfl, h⟩]
  · rw [E3.fitCurveWithDerivatives, if_neg (by simp), fitLoop_short d0 dT _ 0 (by omega) h1 (by omega)]
    rfl
  · rw [E3.fitCurveWithDerivatives, E3.fitCurveWithDerivatives, if_neg (by simp), if_neg (by simp; omega),
      fitLoop_congr d0 dT (vs' := vs.take ts.length) (fun i hi => by rw [List.getElem?_take, if_pos hi]) _ 0 (by omega)]

/-- Both cases of `C108_e3_release` occur; the surplus value 9 is dropped without notice. -/
example : E3.fitCurve false [0, 1] [(5 : ℚ)] (E3.fresh ⟨0, 0⟩ : E3 ℚ ℚ) = .ub ∧
    E3.fitCurve false [0, 1] [5, 7, (9 : ℚ)] (E3.fresh ⟨0, 0⟩ : E3 ℚ ℚ) =
      E3.fitCurve true [0, 1] [5, 7] (E3.fresh ⟨0, 0⟩) :=
  ⟨(C108_e3_release (by simp) 0 0 _).2.1 (by simp), (C108_e3_release (by simp) 0 0 _).2.2 (by simp)⟩

end hermite

/-! ## Polynomial curves -/

section poly
variable {K : Type} [Field K] [LinearOrder K] [IsStrictOrderedRing K] {o : Order}

theorem addJunctions_congr {ds ps ps' : List K} : ∀ k j (s : Sys K), (∀ i, 1 ≤ i → i < j + k + 1 → ps[i]? = ps'[i]?) →
    s.addJunctions o ds ps k j = s.addJunctions o ds ps' k j
  | 0, _, _, _ => rfl
  | k + 1, j, s, h => by
    have e1 : s.addJunction o ds ps j = s.addJunction o ds ps' j := by
      rw [Sys.addJunction, Sys.addJunction, h (j + 1) (by omega) (by omega)]
    rw [Sys.addJunctions, Sys.addJunctions, e1]
    congr 1
    funext s
    exact addJunctions_congr k (j + 1) s fun i h1 h2 => h i h1 (by omega)

/-- Which values the constrained `setData` looks at. -/
theorem fit_congr (S : Solver K) (e : ℕ) {ts ps ps' : List K} (hb : ts.length ≤ 2 ^ 28) (h2 : 2 ≤ ts.length)
    (ini fin : List K) (c : Container o K) (h0 : ps.head? = ps'.head?) (h1 : ps.getLast? = ps'.getLast?)
    (h : ∀ i, 1 ≤ i → i < ts.length - 1 → ps[i]? = ps'[i]?) :
    Container.fit S e ts ps ini fin c = Container.fit S e ts ps' ini fin c := by
  have hn : Container.numSplines ts = ts.length - 1 := by
    rw [Container.numSplines, Container.u32, Container.sizeMinus1, if_neg (by omega), Nat.mod_eq_of_lt (by omega)]
  unfold Container.fit Container.fitWith
  congr 1
  funext r
  cases r with
  | none => rfl
  | some ds =>
    simp only []
    have : Container.assembleWith o (Container.numConstraints e (Container.numSplines ts))
        (Container.solutionDim o (Container.numSplines ts)) (Container.numJunctions (Container.numSplines ts)) ps ds ini fin =
      Container.assembleWith o (Container.numConstraints e (Container.numSplines ts))
        (Container.solutionDim o (Container.numSplines ts)) (Container.numJunctions (Container.numSplines ts)) ps' ds ini fin := by
      unfold Container.assembleWith
      rw [h0, h1]
      congr 1; funext p0
      congr 1; funext s
      congr 1; funext pT
      congr 1; funext d
      congr 1; funext s
      refine addJunctions_congr _ _ _ fun i hi hi' => h i hi ?_
      rw [hn, Container.numJunctions, if_neg (by omega)] at hi'
      omega
    rw [this]

/-- Which values a quintic fit looks at: the first, the last of the list, and those of the inner times. -/
theorem setDataAcc_congr (S : Solver K) {ts ps ps' : List K} (hb : ts.length ≤ 2 ^ 28) (h2 : 2 ≤ ts.length)
    (v0 a0 vT aT : K) (c : Container .o5 K) (h0 : ps.head? = ps'.head?) (h1 : ps.getLast? = ps'.getLast?)
    (h : ∀ i, 1 ≤ i → i < ts.length - 1 → ps[i]? = ps'[i]?) :
    Container.setDataAcc S ts ps v0 a0 vT aT c = Container.setDataAcc S ts ps' v0 a0 vT aT c := by
  rw [(Container.C23_choice S ts ps h2 hb v0 a0 vT aT c).2.2 (Or.inr rfl),
    (Container.C23_choice S ts ps' h2 hb v0 a0 vT aT c).2.2 (Or.inr rfl)]
  exact fit_congr S 3 hb h2 _ _ _ h0 h1 h

/-- **C108 is false of the scalar curve**, for all data. With surplus values, `fitCurve` returns, and the curve ends at
the last of them instead of at the value given for the last time. With the last value missing, it returns as well, and
repeats the value before. -/
theorem C108_refuted (S : Solver K) (ts vs : List K) (h2 : 2 ≤ ts.length) (hb : ts.length ≤ 2 ^ 28)
    (hl : vs.length = ts.length) (hinc : ts.Pairwise (· < ·)) (v0 a0 vT aT : K) (c : ScalarCurve .o5 K) :
    (∀ (xs : List K) (x : K), ∃ c', c.fitCurveWith S ts (vs ++ xs ++ [x]) v0 a0 vT aT = .ok c' ∧
      c'.getMaxTime = ts[ts.length - 1] ∧ c'.evaluate ts[ts.length - 1] = .ok x ∧
      ∀ (i : ℕ) (h : i < ts.length - 1), c'.evaluate ts[i] = .ok vs[i]) ∧
    ∃ c', c.fitCurveWith S ts vs.dropLast v0 a0 vT aT = .ok c' ∧
      c'.evaluate ts[ts.length - 1] = .ok vs[ts.length - 2] ∧
      ∀ (i : ℕ) (h : i < ts.length - 1), c'.evaluate ts[i] = .ok vs[i] := by
  have key : ∀ (ps ps' : List K), ps.head? = ps'.head? → ps.getLast? = ps'.getLast? →
      (∀ i, 1 ≤ i → i < ts.length - 1 → ps[i]? = ps'[i]?) →
      c.fitCurveWith S ts ps v0 a0 vT aT = c.fitCurveWith S ts ps' v0 a0 vT aT := by
    intro ps ps' q0 q1 q
    rw [ScalarCurve.fitCurveWith, ScalarCurve.fitCurveWith, setDataAcc_congr S hb h2 v0 a0 vT aT _ q0 q1 q]
  have hne : vs ≠ [] := by rintro rfl; simp at hl; omega
  obtain ⟨y, l, rfl⟩ := List.exists_cons_of_ne_nil hne
  have hlen : l.length + 1 = ts.length := by simpa using hl
  have put : ∀ x : K, ∃ c', c.fitCurveWith S ts ((y :: l).dropLast ++ [x]) v0 a0 vT aT = .ok c' ∧
      c'.getMaxTime = ts[ts.length - 1] ∧ c'.evaluate ts[ts.length - 1] = .ok x ∧
      ∀ (i : ℕ) (h : i < ts.length - 1), c'.evaluate ts[i] = .ok (y :: l)[i] := by
    intro x
    obtain ⟨c', e, -, e1, e2, -⟩ := C30_domain_and_interpolation S ts ((y :: l).dropLast ++ [x]) h2 hb (by simp; omega)
      hinc v0 a0 vT aT c _ (Or.inl rfl)
    refine ⟨c', e, e1, ?_, fun i hi => ?_⟩
    · have := e2 (ts.length - 1) (by omega) (by simp; omega)
      rw [this, List.getElem_append_right (by simp; omega)]
      simp
    · have := e2 i (by omega) (by simp; omega)
      rw [this, List.getElem_append_left (by simp; omega), List.getElem_dropLast]
  constructor
  · intro xs x
    obtain ⟨c', e, h⟩ := put x
    refine ⟨c', ?_, h⟩
    rw [← e]
    refine key _ _ ?_ (by rw [List.getLast?_concat, List.getLast?_concat]) fun i hi hi' => ?_
    · cases l with
      | nil => simp at hlen; omega
      | cons z l => simp
    · rw [List.append_assoc, List.getElem?_append_left (by simp; omega), List.getElem?_append_left (by simp; omega),
        List.getElem?_dropLast, if_pos (by simp; omega)]
  · obtain ⟨c', e, -, h⟩ := put ((y :: l)[ts.length - 2]'(by simp; omega))
    refine ⟨c', ?_, h⟩
    rw [← e]
    have hlast : (y :: l).dropLast.getLast? = some ((y :: l)[ts.length - 2]'(by simp; omega)) := by
      have e : (y :: l).dropLast.length - 1 = ts.length - 2 := by simp; omega
      rw [List.getLast?_eq_getElem?, List.getElem?_dropLast, if_pos (by simp; omega), e]
      exact List.getElem?_eq_getElem _
    refine key _ _ ?_ ?_ fun i hi hi' => ?_
    · cases l with
      | nil => simp at hlen; omega
      | cons z l => simp
    · rw [hlast]; simp
    · rw [List.getElem?_append_left (by simp; omega)]

/-- Hypotheses of `C108_refuted` met: the third value, for which there is no time, becomes the end. -/
example (S : Solver ℚ) : ∃ c', (ScalarCurve.fresh : ScalarCurve .o5 ℚ).fitCurveWith S [0, 2] [5, 7, 9] 0 0 0 0 = .ok c' ∧
    c'.evaluate 2 = .ok 9 := by
  obtain ⟨c', e, -, h, -⟩ := (C108_refuted S [0, 2] [5, 7] (by simp) (by norm_num) rfl (by simp) 0 0 0 0
    ScalarCurve.fresh).1 [] 9
  exact ⟨c', e, h⟩

variable {N : ℕ}

theorem collect_short (vs : List (Fin N → K)) (i : Fin N) : ∀ k t, t ≤ vs.length → vs.length < t + k →
    VectorCurve.collect vs i k t = .throw
  | 0, t, h, h' => by omega
  | k + 1, t, h, h' => by
    rw [VectorCurve.collect]
    rcases h.eq_or_lt with rfl | h
    · rw [List.getElem?_eq_none le_rfl]
      rfl
    · rw [List.getElem?_eq_getElem h, collect_short vs i k (t + 1) (by omega) (by omega)]
      rfl

/-- **C108 (partial)**, the vector-valued curve: with too few values a fit throws; surplus values are dropped without
notice. -/
theorem C108_vector (S : Solver K) {ts : List K} {vs : List (Fin N → K)} (hne : ts ≠ []) (hN : 0 < N)
    (v0 a0 vT aT : Fin N → K) (c : VectorCurve N K) :
    (vs.length < ts.length → c.fitCurveWith S ts vs v0 a0 vT aT = .throw) ∧
    ∀ xs, ts.length = vs.length → c.fitCurveWith S ts (vs ++ xs) v0 a0 vT aT = c.fitCurveWith S ts vs v0 a0 vT aT := by
  obtain ⟨t0, l, rfl⟩ := List.exists_cons_of_ne_nil hne
  constructor
  · intro h
    obtain ⟨M, rfl⟩ : ∃ M, N = M + 1 := ⟨N - 1, by omega⟩
    rw [VectorCurve.fitCurveWith, List.finRange_succ, VectorCurve.loop, collect_short vs _ _ _ (by omega) (by omega)]
    rfl
  · intro xs h
    have : ∀ i, VectorCurve.collect (vs ++ xs) i (t0 :: l).length 0 = VectorCurve.collect vs i (t0 :: l).length 0 := by
      intro i
      rw [VectorCurve.collect_ok _ _ _ _ (by simp at h ⊢; omega), VectorCurve.collect_ok _ _ _ _ (by simp at h ⊢; omega)]
      rw [h]
      simp
    simp only [VectorCurve.fitCurveWith, this]

/-- Both cases of `C108_vector` occur. -/
example (S : Solver ℚ) (c : VectorCurve 2 ℚ) :
    c.fitCurveWith S [0, 1] [![1, 2]] ![0, 0] ![0, 0] ![0, 0] ![0, 0] = .throw ∧
    c.fitCurveWith S [0, 1] [![1, 2], ![3, 4], ![5, 6]] ![0, 0] ![0, 0] ![0, 0] ![0, 0] =
      c.fitCurveWith S [0, 1] [![1, 2], ![3, 4]] ![0, 0] ![0, 0] ![0, 0] ![0, 0] :=
  ⟨(C108_vector S (List.cons_ne_nil _ _) (by norm_num) _ _ _ _ c).1 (by simp),
    (C108_vector S (vs := [![1, 2], ![3, 4]]) (List.cons_ne_nil _ _) (by norm_num) _ _ _ _ c).2 [![5, 6]] rfl⟩

/-- **C50 (partial)**, polynomial curves: `extend` and `transformCurve` never return, nor does the fit from spline options of
the vector-valued curve. -/
theorem C50_polynomial_partial (c : ScalarCurve o K) (d : VectorCurve N K) :
    (∀ ts vs r, c.extend ts vs ≠ .ok r) ∧ (∀ T r, c.transformCurve T ≠ .ok r) ∧ (∀ ts vs r, d.extend ts vs ≠ .ok r) ∧
      (∀ T r, d.transformCurve T ≠ .ok r) ∧ ∀ l r, d.fitCurveOptions l ≠ .ok r :=
  ⟨fun _ _ _ h => (nomatch h), fun _ _ h => (nomatch h), fun _ _ _ h => (nomatch h), fun _ _ h => (nomatch h),
    fun _ _ h => (nomatch h)⟩

end poly

end Verif.PolyCurve

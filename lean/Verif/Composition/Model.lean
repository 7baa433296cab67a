import Verif.Discrete.Model

/-!
# Model of `SE3CompositionCurve`

`curves/include/curves/SE3CompositionCurve-inl.hpp`. The class is a template over the classes of its two
members; `kb` and `kc` say which `evaluate` the base and the correction have. Both draw keys from the
same process-wide generator (`World`).
-/

namespace Verif.Composition

open Verif.Manager Verif.Policy Verif.Discrete

variable {K G V : Type} [Field K] [LinearOrder K] [Group G] [AddCommGroup V] [Module K V]

/-- Process state and the two members `baseCurve_` and `correctionCurve_`
(`SE3CompositionCurve.hpp`, private members). -/
structure Comp (K G : Type) where
  w : World
  base : Curve K G
  corr : Curve K G

/-- A freshly constructed composition curve (21-24). -/
def Comp.fresh (w : World) : Comp K G := ⟨w, ⟨Mgr.empty, Pol.fresh⟩, ⟨Mgr.empty, Pol.fresh⟩⟩

/-- `setSamplingRatio` (115-119). -/
def setSamplingRatio (n : Int) (s : Comp K G) : Comp K G :=
  { s with
    base := { s.base with pol := s.base.pol.setRatio 1 }
    corr := { s.corr with pol := s.corr.pol.setRatio n } }

/-- Locals of `extend` while it extends the correction: process state, `correctionCurve_`,
`correctionTimes`, `correctionValues`. -/
structure Work (K G : Type) where
  w : World
  corr : Curve K G
  ts : List K
  vs : List G

/-- `push_back` on both vectors, then `correctionCurve_.extend` with the whole vectors (154-156, 160-162,
166-168). -/
def Work.push (x : Work K G) (t : K) (v : G) : Outcome (Work K G) :=
  x.corr.extend x.w (x.ts ++ [t]) (x.vs ++ [v]) >>= fun r =>
    .ok ⟨r.1, r.2.1, x.ts ++ [t], x.vs ++ [v]⟩

/-- First `if` (153-157): an empty correction gets the identity at `newMinTime`. -/
def growEmpty (lo : K) (x : Work K G) : Outcome (Work K G) :=
  if x.corr.mgr.isEmpty then x.push lo 1 else .ok x

/-- Second `if` (159-163): grow to `newMaxTime`, repeating the last value. -/
def growMax (L : ExpLog K G V) (kc : Kind) (hi : K) (x : Work K G) : Outcome (Work K G) :=
  if x.corr.mgr.getMaxTime < hi then
    evaluate L kc x.corr.mgr.getMaxTime x.corr.mgr >>= fun q => x.push hi q
  else .ok x

/-- Third `if` (165-169): grow to `newMinTime`, repeating the first value. -/
def growMin (L : ExpLog K G V) (kc : Kind) (lo : K) (x : Work K G) : Outcome (Work K G) :=
  if lo < x.corr.mgr.getMinTime then
    evaluate L kc x.corr.mgr.getMinTime x.corr.mgr >>= fun q => x.push lo q
  else .ok x

/-- `newMaxTime` (130-147): the base's last time (zero if it is empty), or `t` if later. -/
def newMax (s : Comp K G) (t : K) : K :=
  let m := if s.base.mgr.isEmpty then 0 else s.base.mgr.getMaxTime
  if m < t then t else m

/-- `newMinTime` (130-147). -/
def newMin (s : Comp K G) (t : K) : K :=
  let m := if s.base.mgr.isEmpty then 0 else s.base.mgr.getMinTime
  if t < m then t else m

/-- `extend` (122-179), with the keys appended to `*outKeys`. -/
def extend (L : ExpLog K G V) (kc : Kind) (ts : List K) (vs : List G) (s : Comp K G) :
    Outcome (Comp K G × List Nat) :=
  match ts, vs with
  | [t], [v] =>
    growEmpty (newMin s t) ⟨s.w, s.corr, [], []⟩ >>= fun x =>
    growMax L kc (newMax s t) x >>= fun x =>
    growMin L kc (newMin s t) x >>= fun x =>
    evaluate L kc t x.corr.mgr >>= fun q =>
    s.base.extend x.w [t] [q⁻¹ * v] >>= fun r => .ok (⟨r.1, r.2.1, x.corr⟩, r.2.2)
  | _, _ => .abort

/-- `evaluate` (226-230, `COMPOSITION_STRATEGY` is 1). C++ does not say which operand of `*` is evaluated first; here it is
the correction. `evalBaseFirst` is the other order; `C132_either_order` says where the two differ. -/
def eval (L : ExpLog K G V) (kb kc : Kind) (t : K) (s : Comp K G) : Outcome G :=
  evaluate L kc t s.corr.mgr >>= fun q => evaluate L kb t s.base.mgr >>= fun b => .ok (q * b)

/-- `evaluate` (226-230) with the base evaluated first. -/
def evalBaseFirst (L : ExpLog K G V) (kb kc : Kind) (t : K) (s : Comp K G) : Outcome G :=
  evaluate L kb t s.base.mgr >>= fun b => evaluate L kc t s.corr.mgr >>= fun q => .ok (q * b)

/-- The loops that collect `evaluate(*it)` (187-189, 213-215). -/
def collect (f : K → Outcome G) : List K → Outcome (List G)
  | [] => .ok []
  | t :: rest => f t >>= fun v => collect f rest >>= fun vs => .ok (v :: vs)

/-- `foldInCorrections` (182-200). -/
def foldInCorrections (L : ExpLog K G V) (kb kc : Kind) (s : Comp K G) : Outcome (Comp K G) :=
  collect (fun t => eval L kb kc t s) (s.base.mgr.getTimes []) >>= fun vals =>
  s.base.clear.extend s.w (s.base.mgr.getTimes []) vals >>= fun r =>
  s.corr.clear.extend r.1 (s.corr.mgr.getTimes []) ((s.corr.mgr.getTimes []).map fun _ => 1) >>=
    fun r' => .ok ⟨r'.1, r.2.1, r'.2.1⟩

/-- `fitCurve` (202-207). -/
def fitCurve (L : ExpLog K G V) (kc : Kind) (ts : List K) (vs : List G) (s : Comp K G) :
    Outcome (Comp K G × List Nat) := extend L kc ts vs s

/-- The two `CHECK_EQ` that close `setCorrectionTimes`, `resetCorrectionCurve`, `setBaseCurve`,
`setBaseCurvePart` and `modifyBaseCoefficientsValuesInBatch` (221-222, 396-397, 403-404, 410-411,
417-418). -/
def checkEnds (s : Comp K G) : Outcome (Comp K G) :=
  if s.corr.mgr.getMinTime = s.base.mgr.getMinTime ∧ s.corr.mgr.getMaxTime = s.base.mgr.getMaxTime
  then .ok s else .abort

/-- `setCorrectionTimes` (209-223). -/
def setCorrectionTimes (L : ExpLog K G V) (kc : Kind) (ts : List K) (s : Comp K G) :
    Outcome (Comp K G) :=
  collect (fun t => evaluate L kc t s.corr.mgr) ts >>= fun vals =>
  s.corr.clear.extend s.w ts vals >>= fun r => checkEnds ⟨r.1, s.base, r.2.1⟩

/-- `clear` (362-366). -/
def clear (s : Comp K G) : Comp K G := ⟨s.w, s.base.clear, s.corr.clear⟩

/-- `removeCorrectionCoefficientAtTime` (368-372). -/
def removeCorrection (t : K) (s : Comp K G) : Outcome (Comp K G) :=
  if s.corr.mgr.hasCoefficientAtTime t then
    s.corr.mgr.removeCoefficientAtTime t >>= fun m => .ok { s with corr := { s.corr with mgr := m } }
  else .abort

/-- `setCorrectionCoefficientAtTime` (373-377). -/
def setCorrection (t : K) (v : G) (s : Comp K G) : Outcome (Comp K G) :=
  if s.corr.mgr.hasCoefficientAtTime t then
    s.corr.mgr.insertCoefficient s.w t v >>= fun r =>
      .ok { s with w := r.1, corr := { s.corr with mgr := r.2.1 } }
  else .abort

/-- `transformCurve` (379-384): the base only. -/
def transformCurve (L : ExpLog K G V) (kb : Kind) (X : G) (s : Comp K G) : Outcome (Comp K G) :=
  Discrete.transformCurve L kb X s.w s.base >>= fun r => .ok { s with w := r.1, base := r.2 }

/-- `resetCorrectionCurve` (386-398). -/
def resetCorrectionCurve (ts : List K) (s : Comp K G) : Outcome (Comp K G) :=
  s.corr.fitCurve s.w ts (ts.map fun _ => 1) >>= fun r => checkEnds ⟨r.1, s.base, r.2.1⟩

/-- `setBaseCurve` (400-405). -/
def setBaseCurve (ts : List K) (vs : List G) (s : Comp K G) : Outcome (Comp K G) :=
  s.base.fitCurve s.w ts vs >>= fun r => checkEnds ⟨r.1, r.2.1, s.corr⟩

/-- `setBaseCurvePart` (407-412). -/
def setBaseCurvePart (ts : List K) (vs : List G) (s : Comp K G) : Outcome (Comp K G) :=
  s.base.setCurve s.w ts vs >>= fun r => checkEnds ⟨r.1, r.2, s.corr⟩

/-- `modifyBaseCoefficientsValuesInBatch` (414-419). -/
def modifyBase (ts : List K) (vs : List G) (s : Comp K G) : Outcome (Comp K G) :=
  s.base.mgr.modifyCoefficientsValuesInBatch ts vs >>= fun m =>
    checkEnds { s with base := { s.base with mgr := m } }

/-- `getMinTime` (78-81): that of the base. -/
def getMinTime (s : Comp K G) : K := s.base.mgr.getMinTime

/-- `getMaxTime` (83-86): that of the base. -/
def getMaxTime (s : Comp K G) : K := s.base.mgr.getMaxTime

/-- `isEmpty` (88-91): that of the base. -/
def isEmpty (s : Comp K G) : Bool := s.base.mgr.isEmpty

/-- `size` (93-97): that of the correction. -/
def size (s : Comp K G) : Nat := s.corr.mgr.size

/-- What the velocity and derivative evaluators and `evaluateDerivative` return (278-360): a zero vector
(`evaluateDerivative` a default-constructed, uninitialised one). -/
def evaluateTwist (_ : K) (_ : Comp K G) : Outcome V := .ok 0

/-- `setTimeRange` (285-288): an empty body. -/
def setTimeRange (_ _ : K) (s : Comp K G) : Outcome (Comp K G) := .ok s

/-! ### Histories -/

/-- The public mutating operations, plus `others` (other managers draw keys and allocate nodes). -/
inductive Op (K G : Type) where
  | extend (ts : List K) (vs : List G)
  | fold
  | setTimes (ts : List K)
  | clear
  | remove (t : K)
  | setCorr (t : K) (v : G)
  | transform (X : G)
  | reset (ts : List K)
  | setBase (ts : List K) (vs : List G)
  | setPart (ts : List K) (vs : List G)
  | modify (ts : List K) (vs : List G)
  | setRatio (n : Int)
  | others (keys allocs : Nat)

/-- One operation. -/
def step (L : ExpLog K G V) (kb kc : Kind) (s : Comp K G) : Op K G → Outcome (Comp K G)
  | .extend ts vs => extend L kc ts vs s >>= fun r => .ok r.1
  | .fold => foldInCorrections L kb kc s
  | .setTimes ts => setCorrectionTimes L kc ts s
  | .clear => .ok (clear s)
  | .remove t => removeCorrection t s
  | .setCorr t v => setCorrection t v s
  | .transform X => transformCurve L kb X s
  | .reset ts => resetCorrectionCurve ts s
  | .setBase ts vs => setBaseCurve ts vs s
  | .setPart ts vs => setBaseCurvePart ts vs s
  | .modify ts vs => modifyBase ts vs s
  | .setRatio n => .ok (setSamplingRatio n s)
  | .others k a => .ok { s with w := ⟨s.w.calls + k, s.w.nextAddr + a⟩ }

/-- A sequence of operations. -/
def run (L : ExpLog K G V) (kb kc : Kind) (s : Comp K G) : List (Op K G) → Outcome (Comp K G)
  | [] => .ok s
  | op :: rest => step L kb kc s op >>= fun s' => run L kb kc s' rest

/-- States reached from a freshly constructed curve by operations all of which returned normally. No
restriction is needed: the composition curve never moves a knot onto another one. -/
def Reachable (L : ExpLog K G V) (kb kc : Kind) (s : Comp K G) : Prop :=
  ∃ (w : World) (ops : List (Op K G)), run L kb kc (Comp.fresh w) ops = .ok s

end Verif.Composition

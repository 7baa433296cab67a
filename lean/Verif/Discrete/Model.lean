import Verif.Policy.Model
import Verif.Manager.History
import Mathlib.Algebra.Module.Basic
import Mathlib.Algebra.Order.Field.Basic
import Mathlib.Tactic.NormNum

/-!
# Model of the discrete, semi-discrete and slerp curves

`curves/src/DiscreteSE3Curve.cpp`, `SemiDiscreteSE3Curve.cpp`, `SlerpSE2Curve.cpp` and
`SlerpSE3Curve.cpp`. Their state is a manager and a sampling policy (`Verif.Policy.Curve`, which also
models `fitCurve`, `setCurve`, `extend` and `clear`). Only `SlerpSE3Curve.cpp` is in the present build
(`curves/CMakeLists.txt` 44-57); the other three are modelled from their text.

Values live in an arbitrary group `G` (rigid motions of the plane or of space, where `q` and `-q`
denote the same rotation), times in an ordered field `K` (`double` without rounding).
-/

namespace Verif.Discrete

open Verif.Manager Verif.Policy

/-- What the code uses of the exponential and logarithm of the library that supplies the group:
`gtsam::Pose2::Expmap` / `Logmap` (`SlerpSE2Curve.cpp` 172-175) and
`transformationExpImplementation` / `transformationLogImplementation` (`SemiDiscreteSE3Curve.cpp`
166-168). Only the two stated facts are assumed of them; `Verif.Discrete.se2Maps` shows that the
textbook maps of the plane satisfy them. -/
structure ExpLog (K G V : Type) [Field K] [Group G] [AddCommGroup V] [Module K V] where
  exp : V → G
  log : G → V
  exp_log : ∀ g, exp (log g) = g
  log_one : log 1 = 0

/-- Which `evaluate` a curve has. -/
inductive Kind where
  /-- `DiscreteSE3Curve` -/
  | discrete
  /-- `SemiDiscreteSE3Curve` and `SlerpSE2Curve` -/
  | slerp
  /-- `SlerpSE3Curve` -/
  | slerpSE3
  deriving DecidableEq

variable {K G V : Type} [Field K] [LinearOrder K] [Group G] [AddCommGroup V] [Module K V]

/-- The end of `DiscreteSE3Curve::evaluate` (`DiscreteSE3Curve.cpp` 162-170). -/
def nearer (a b : Node K G) (t : K) : G :=
  if b.time - t ≥ t - a.time then a.coef else b.coef

/-- The end of `SemiDiscreteSE3Curve::evaluate` (`SemiDiscreteSE3Curve.cpp` 159-169) and of
`SlerpSE2Curve::evaluate` (`SlerpSE2Curve.cpp` 167-176). -/
def slerpAt (L : ExpLog K G V) (a b : Node K G) (t : K) : G :=
  a.coef * L.exp (((t - a.time) / (b.time - a.time)) • L.log (a.coef⁻¹ * b.coef))

/-- `evaluate` (`DiscreteSE3Curve.cpp` 148-173, `SemiDiscreteSE3Curve.cpp` 146-172,
`SlerpSE2Curve.cpp` 155-179, `SlerpSE3Curve.cpp` 156-158). `coefficientBegin()` and
`--coefficientEnd()` of an empty map are not valid iterators: dereferencing them is undefined
behaviour. -/
def evaluate (L : ExpLog K G V) (kind : Kind) (t : K) (m : Mgr K G) : Outcome G :=
  match kind with
  | .slerpSE3 => .abort
  | .discrete =>
    if m.getMaxTime = t ∧ m.getMinTime = t then
      Outcome.deref m.nodes.head? >>= fun n => .ok n.coef
    else if t = m.getMaxTime then
      Outcome.deref m.nodes.getLast? >>= fun n => .ok n.coef
    else
      match m.getCoefficientsAt t with
      | none => .abort
      | some (a, b) => .ok (nearer a b t)
  | .slerp =>
    if m.getMaxTime = t ∧ m.getMinTime = t then
      Outcome.deref m.nodes.head? >>= fun n => .ok n.coef
    else if t = m.getMaxTime then
      Outcome.deref m.nodes.getLast? >>= fun n => .ok n.coef
    else
      match m.getCoefficientsAt t with
      | none => .abort
      | some (a, b) => .ok (slerpAt L a b t)

/-- The loop of `transformCurve`: the times are those listed before the loop, the curve evaluated is
the one being changed. -/
def transformLoop (L : ExpLog K G V) (kind : Kind) (X : G) (w : World) (m : Mgr K G) :
    List K → Outcome (World × Mgr K G)
  | [] => .ok (w, m)
  | t :: rest =>
    evaluate L kind t m >>= fun v =>
    m.insertCoefficient w t (X * v) >>= fun r =>
    transformLoop L kind X r.1 r.2.1 rest

/-- `transformCurve` (`DiscreteSE3Curve.cpp` 289-296, `SemiDiscreteSE3Curve.cpp` 287-294,
`SlerpSE2Curve.cpp` 233-240, `SlerpSE3Curve.cpp` 261-268). -/
def transformCurve (L : ExpLog K G V) (kind : Kind) (X : G) (w : World) (c : Curve K G) :
    Outcome (World × Curve K G) :=
  transformLoop L kind X w c.mgr (c.mgr.getTimes []) >>= fun r => .ok (r.1, { c with mgr := r.2 })

/-- `evaluateDerivative` of the two discrete curves (`DiscreteSE3Curve.cpp` 94-118,
`SemiDiscreteSE3Curve.cpp` 92-116); the slerp curves abort (`SlerpSE2Curve.cpp` 97-101,
`SlerpSE3Curve.cpp` 94-98). `gtsam::traits<..>::Local(p, q)` is the logarithm of `p⁻¹ q`. -/
def evaluateDerivative (L : ExpLog K G V) (t : K) (order : Nat) (m : Mgr K G) : Outcome V :=
  if t < m.getMinTime then .abort
  else if m.getMaxTime < t then .abort
  else
    match m.getCoefficientsAt t with
    | none => .abort
    | some (a, b) =>
      if order = 1 then .ok ((1 / (b.time - a.time)) • L.log (b.coef⁻¹ * a.coef)) else .ok 0

/-- A `gtsam::Expression` built by `getValueExpression`: one key, or the slerp of two
(`Pose2_Expressions.hpp` 124-129). -/
inductive Expr (K : Type) where
  | leaf (k : Nat)
  | slerp (k0 k1 : Nat) (alpha : K)

/-- `getValueExpression` of the two discrete curves (`DiscreteSE3Curve.cpp` 123-141,
`SemiDiscreteSE3Curve.cpp` 121-139). -/
def valueExprDiscrete (t : K) (m : Mgr K G) : Outcome (Expr K) :=
  match m.getCoefficientsAt t with
  | none => .abort
  | some (a, b) => .ok (if b.time - t ≥ t - a.time then .leaf a.key else .leaf b.key)

/-- `getValueExpression` of `SlerpSE2Curve` (`SlerpSE2Curve.cpp` 121-147). The two evaluations it does
for the debug print (138, 140) are kept: they are what could make it fail. -/
def valueExprSlerp (L : ExpLog K G V) (t : K) (m : Mgr K G) : Outcome (Expr K) :=
  match m.getCoefficientsAt t with
  | none => .abort
  | some (a, b) =>
    if (t - a.time) / (b.time - a.time) = 0 then .ok (.leaf a.key)
    else if (t - a.time) / (b.time - a.time) = 1 then .ok (.leaf b.key)
    else
      evaluate L .slerp a.time m >>= fun _ =>
      evaluate L .slerp b.time m >>= fun _ =>
      .ok (.slerp a.key b.key ((t - a.time) / (b.time - a.time)))

/-- Value of an expression for given values of the keys (`Pose2_Expressions.hpp` 31-46, 87-129). -/
def Expr.value (L : ExpLog K G V) (vals : Nat → Outcome G) : Expr K → Outcome G
  | .leaf k => vals k
  | .slerp k0 k1 al =>
    vals k0 >>= fun a => vals k1 >>= fun b => .ok (a * L.exp (al • L.log (a⁻¹ * b)))

/-- `addPriorFactors` (`DiscreteSE3Curve.cpp` 262-287, `SlerpSE2Curve.cpp` 211-231): the two keys that
get a prior and the values they are tied to. The result of `getCoefficientsAt` is ignored, so when it
fails two uninitialised iterators are dereferenced. -/
def addPriorFactors (t : K) (m : Mgr K G) : Outcome (List (Nat × G)) :=
  match m.getCoefficientsAt t with
  | none => .ub
  | some (a, b) => .ok [(a.key, a.coef), (b.key, b.coef)]

/-- The operations that only consist of `CHECK(false)`: `setTimeRange` and the twelve velocity
evaluators and `getDerivativeExpression` (`DiscreteSE3Curve.cpp` 143-147, 175-234, the same in
`SemiDiscreteSE3Curve.cpp` 141-145, 174-233; `SlerpSE2Curve.cpp` 97-106, 149-153, 181-184;
`SlerpSE3Curve.cpp` 94-98, 118-120, 137-139, 183-244). -/
inductive Missing where
  | setTimeRange | angularVelocityA | angularVelocityB | linearVelocityA | linearVelocityB
  | twistA | twistB | angularDerivativeA | angularDerivativeB | linearDerivativeA
  | linearDerivativeB | derivativeA | derivativeB | derivativeExpression | transformationPower

/-- See `Missing`. -/
def callMissing (_ : Missing) (_ : Mgr K G) : Outcome Unit := .abort

/-! ### Histories -/

/-- Process state and one curve. -/
structure St (K G : Type) where
  w : World
  c : Curve K G

/-- The public mutating operations of the curves, plus `others` (other managers draw keys and allocate
nodes in between) and `update` (`updateFromGTSAMValues` hands new values for keys to the manager). -/
inductive Op (K G : Type) where
  | fit (ts : List K) (vs : List G)
  | set (ts : List K) (vs : List G)
  | extend (ts : List K) (vs : List G)
  | clear
  | transform (X : G)
  | setRatio (n : Int)
  | update (l : List (Nat × G))
  | others (keys allocs : Nat)

/-- One operation. -/
def step (L : ExpLog K G V) (kind : Kind) (s : St K G) : Op K G → Outcome (St K G)
  | .fit ts vs => s.c.fitCurve s.w ts vs >>= fun r => .ok ⟨r.1, r.2.1⟩
  | .set ts vs => s.c.setCurve s.w ts vs >>= fun r => .ok ⟨r.1, r.2⟩
  | .extend ts vs => s.c.extend s.w ts vs >>= fun r => .ok ⟨r.1, r.2.1⟩
  | .clear => .ok ⟨s.w, s.c.clear⟩
  | .transform X => transformCurve L kind X s.w s.c >>= fun r => .ok ⟨r.1, r.2⟩
  | .setRatio n => .ok ⟨s.w, { s.c with pol := s.c.pol.setRatio n }⟩
  | .update l => s.c.mgr.updateCoefficients l >>= fun m => .ok ⟨s.w, { s.c with mgr := m }⟩
  | .others k a => .ok ⟨⟨s.w.calls + k, s.w.nextAddr + a⟩, s.c⟩

/-- A sequence of operations. -/
def run (L : ExpLog K G V) (kind : Kind) (s : St K G) : List (Op K G) → Outcome (St K G)
  | [] => .ok s
  | op :: rest => step L kind s op >>= fun s' => run L kind s' rest

/-- The one restriction on histories: a thinning curve is not extended by a single measurement at the
time of one of its knots (the policy would move the last knot there; see C11 and C56). -/
def Safe (s : St K G) : Op K G → Prop
  | .extend [t] [_] => s.c.pol.minMeas = 1 ∨ s.c.mgr.size ≤ 1 ∨ ∀ x ∈ s.c.mgr.contents, x.1 ≠ t
  | _ => True

/-- Every operation of the history respects `Safe` in the state it is executed in. -/
def SafeRun (L : ExpLog K G V) (kind : Kind) (s : St K G) : List (Op K G) → Prop
  | [] => True
  | op :: rest => Safe s op ∧ ∀ s', step L kind s op = .ok s' → SafeRun L kind s' rest

/-- States reached from a freshly constructed curve, at any point of the life of the process, by a
history of operations all of which returned normally. -/
def Reachable (L : ExpLog K G V) (kind : Kind) (s : St K G) : Prop :=
  ∃ (w : World) (ops : List (Op K G)),
    SafeRun L kind ⟨w, ⟨Mgr.empty, Pol.fresh⟩⟩ ops ∧
      run L kind ⟨w, ⟨Mgr.empty, Pol.fresh⟩⟩ ops = .ok s

end Verif.Discrete

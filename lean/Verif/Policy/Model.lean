import Verif.Manager.Model

/-!
# Model of the sampling policy of the slerp / discrete curves

`curves/include/curves/SamplingPolicy.hpp` and the four identical specialisations of
`SamplingPolicy::extend`:
`SlerpSE3Curve.hpp` 207-237, `DiscreteSE3Curve.hpp` 214-244, `SemiDiscreteSE3Curve.hpp` 216-245,
`SlerpSE2Curve.hpp` 128-158 (all in `curves/include/curves`).
-/

namespace Verif.Policy

open Verif.Manager

/-- `SamplingPolicy` (`SamplingPolicy.hpp` 17-38). `minSamplingPeriod_` and `lastExtend_` are not
modelled: `extend` does not read them. -/
structure Pol where
  /-- `measurementsSinceLastExtend_` -/
  since : Int
  /-- `minimumMeasurements_` -/
  minMeas : Int
  deriving Repr, DecidableEq

/-- Default constructor (`SamplingPolicy.hpp` 27-31). -/
def Pol.fresh : Pol := ⟨0, 1⟩

/-- `setMinimumMeasurements` (`SamplingPolicy.hpp` 86-88), called by `setSamplingRatio`
(`SlerpSE3Curve.cpp` 253-255, `DiscreteSE3Curve.cpp` 253-255, `SemiDiscreteSE3Curve.cpp` 253-255,
`SlerpSE2Curve.cpp` 203-205). -/
def Pol.setRatio (p : Pol) (m : Int) : Pol := { p with minMeas := m }

/-- A slerp or discrete curve: its manager and its policy (private members of the curve classes). -/
structure Curve (T C : Type) where
  mgr : Mgr T C
  pol : Pol

/-- A freshly constructed curve on which `setSamplingRatio(m)` was called. -/
def Curve.fresh {T C : Type} (m : Int) : Curve T C := ⟨Mgr.empty, Pol.fresh.setRatio m⟩

variable {T C : Type} [LinearOrder T] [Zero T]

/-- The inner `if` of the policy (`SlerpSE3Curve.hpp` 224-229): append a knot, or move the last one.
`--coefficientEnd()` on an empty map is undefined behaviour. -/
def addOrMove (w : World) (m : Mgr T C) (since : Int) (t : T) (v : C) :
    Outcome (World × Mgr T C × List Key) :=
  if since = 1 then
    (m.addCoefficientAtEnd w t v) >>= fun r => .ok (r.1, r.2.1, [r.2.2])
  else
    match m.nodes.getLast? with
    | none => .ub
    | some itPrev => (m.modifyCoefficient w itPrev.addr t v) >>= fun r => .ok (r.1, r.2, [])

/-- `Curve::extend` (`SlerpSE3Curve.cpp` 84-92, `DiscreteSE3Curve.cpp` 86-92,
`SemiDiscreteSE3Curve.cpp` 85-90, `SlerpSE2Curve.cpp` 89-95) followed by the policy.
The increment of an `int` equal to `2^31 - 1` is undefined behaviour. The last component lists the
keys appended to `*outKeys` (`modifyCoefficient` appends none). -/
def Curve.extend (w : World) (c : Curve T C) (ts : List T) (vs : List C) :
    Outcome (World × Curve T C × List Key) :=
  if ts.length ≠ vs.length then .abort
  else
    match ts, vs with
    | [t], [v] =>
      if c.mgr.isEmpty ∨ c.mgr.size = 1 then do
        let (w', m', ks) ← c.mgr.insertCoefficients w [t] [v]
        return (w', { c with mgr := m' }, ks)
      else if c.pol.minMeas = 1 then do
        let (w', m', k) ← c.mgr.addCoefficientAtEnd w t v
        return (w', { c with mgr := m' }, [k])
      else if c.pol.since = 2 ^ 31 - 1 then .ub
      else
        (addOrMove w c.mgr (c.pol.since + 1) t v) >>= fun r =>
          .ok (r.1, ⟨r.2.1, { c.pol with
            since := if c.pol.since + 1 = c.pol.minMeas then 0 else c.pol.since + 1 }⟩, r.2.2)
    | _, _ => do
      let (w', m', ks) ← c.mgr.insertCoefficients w ts vs
      return (w', { c with mgr := m' }, ks)

/-- `clear` (`SlerpSE3Curve.cpp` 257-259, `DiscreteSE3Curve.cpp` 257-259,
`SemiDiscreteSE3Curve.cpp` 257-259, `SlerpSE2Curve.cpp` 207-209): clears the manager only. -/
def Curve.clear (c : Curve T C) : Curve T C := { c with mgr := c.mgr.clear }

/-- `fitCurve` (`SlerpSE3Curve.cpp` 66-74, `DiscreteSE3Curve.cpp` 67-75,
`SemiDiscreteSE3Curve.cpp` 67-75, `SlerpSE2Curve.cpp` 71-79). -/
def Curve.fitCurve (w : World) (c : Curve T C) (ts : List T) (vs : List C) :
    Outcome (World × Curve T C × List Key) :=
  if ts.length ≠ vs.length then .abort
  else if 0 < ts.length then do
    let (w', m', ks) ← c.clear.mgr.insertCoefficients w ts vs
    return (w', { c.clear with mgr := m' }, ks)
  else .ok (w, c, [])

/-- `setCurve` (`SlerpSE3Curve.cpp` 76-82, `DiscreteSE3Curve.cpp` 77-83,
`SemiDiscreteSE3Curve.cpp` 77-83, `SlerpSE2Curve.cpp` 81-87): inserts without clearing. -/
def Curve.setCurve (w : World) (c : Curve T C) (ts : List T) (vs : List C) :
    Outcome (World × Curve T C) :=
  if ts.length ≠ vs.length then .abort
  else if 0 < ts.length then do
    let (w', m', _) ← c.mgr.insertCoefficients w ts vs
    return (w', { c with mgr := m' })
  else .ok (w, c)

/-- A user feeding single measurements one after the other. -/
def Curve.feed (w : World) (c : Curve T C) : List (T × C) → Outcome (World × Curve T C)
  | [] => .ok (w, c)
  | (t, v) :: rest => do
    let (w', c', _) ← c.extend w [t] [v]
    Curve.feed w' c' rest

/-- Times and values of the knots of a curve. -/
def Curve.knots (c : Curve T C) : List (T × C) := c.mgr.contents.map fun x => (x.1, x.2.2)

end Verif.Policy

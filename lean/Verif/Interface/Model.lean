import Verif.Composition.Model
import Verif.Csv.Model

/-!
# Model of the curves as seen through `SE3Curve`

`curves/src/SE3CurveFactory.cpp` makes a curve from its name; callers then use it through the virtual
functions of `curves/include/curves/SE3Curve.hpp` and `Curve.hpp`. The five classes behind it are those of
`Verif.Discrete` and `Verif.Composition`.

The factory is not in the present build (`curves/CMakeLists.txt` 44-57), and the classes it makes have an
`evaluate` that returns its value where `Curve.hpp` 54 now has one that sets it. They are modelled from
their text.
-/

namespace Verif.Interface

open Verif.Manager Verif.Policy Verif.Discrete Verif.Composition

variable {K G V : Type} [Field K] [LinearOrder K] [Group G] [AddCommGroup V] [Module K V]

/-- What a pointer to `SE3Curve` made by the factory points to: one of the curves of `Verif.Discrete`, or
a composition of two of them. -/
inductive Any (K G : Type) where
  | single (kind : Kind) (s : Discrete.St K G)
  | comp (kb kc : Kind) (s : Comp K G)

/-- `SE3CurveFactory::create_curve` (`SE3CurveFactory.cpp` 11-31). -/
def create (w : World) (name : String) : Outcome (Any K G) :=
  if name = "slerp_curve" then .ok (.single .slerpSE3 ⟨w, ⟨Mgr.empty, Pol.fresh⟩⟩)
  else if name = "discrete_curve" then .ok (.single .discrete ⟨w, ⟨Mgr.empty, Pol.fresh⟩⟩)
  else if name = "composition_curve" then .ok (.comp .slerpSE3 .slerpSE3 (Comp.fresh w))
  else if name = "discrete_composition_curve" then .ok (.comp .discrete .discrete (Comp.fresh w))
  else if name = "semi_discrete_composition_curve" then .ok (.comp .slerp .slerp (Comp.fresh w))
  else .abort

namespace Any

/-- The state of the process. -/
def world : Any K G → World
  | single _ s => s.w
  | comp _ _ s => s.w

/-- `getMinTime` (`DiscreteSE3Curve.cpp` 55-57, `SlerpSE3Curve.cpp` 54-56,
`SE3CompositionCurve-inl.hpp` 78-81). -/
def getMinTime : Any K G → K
  | single _ s => s.c.mgr.getMinTime
  | comp _ _ s => Composition.getMinTime s

/-- `getMaxTime` (`DiscreteSE3Curve.cpp` 51-53, `SlerpSE3Curve.cpp` 50-52,
`SE3CompositionCurve-inl.hpp` 83-86). -/
def getMaxTime : Any K G → K
  | single _ s => s.c.mgr.getMaxTime
  | comp _ _ s => Composition.getMaxTime s

/-- `isEmpty` (`DiscreteSE3Curve.cpp` 59-61, `SlerpSE3Curve.cpp` 58-60,
`SE3CompositionCurve-inl.hpp` 88-91). -/
def isEmpty : Any K G → Bool
  | single _ s => s.c.mgr.isEmpty
  | comp _ _ s => Composition.isEmpty s

/-- `size` (`DiscreteSE3Curve.cpp` 63-65, `SlerpSE3Curve.cpp` 62-64,
`SE3CompositionCurve-inl.hpp` 93-97). -/
def size : Any K G → Nat
  | single _ s => s.c.mgr.size
  | comp _ _ s => Composition.size s

/-- `baseSize` (`DiscreteSE3Curve.hpp` 200, `SlerpSE3Curve.hpp` 187, `SE3CompositionCurve-inl.hpp`
99-102). -/
def baseSize : Any K G → Nat
  | single k s => size (single k s)
  | comp _ _ s => s.base.mgr.size

/-- `correctionSize` (`DiscreteSE3Curve.hpp` 166, `SlerpSE3Curve.hpp` 153, `SE3CompositionCurve-inl.hpp`
104-107). -/
def correctionSize : Any K G → Nat
  | single _ _ => 0
  | comp _ _ s => s.corr.mgr.size

/-- `extend` (`Verif.Policy.Curve.extend`, `Verif.Composition.extend`), with the keys appended to
`*outKeys`. -/
def extend (L : ExpLog K G V) (ts : List K) (vs : List G) : Any K G → Outcome (Any K G × List Key)
  | single k s => s.c.extend s.w ts vs >>= fun r => .ok (single k ⟨r.1, r.2.1⟩, r.2.2)
  | comp kb kc s => Composition.extend L kc ts vs s >>= fun r => .ok (comp kb kc r.1, r.2)

/-- `evaluate` (`Verif.Discrete.evaluate`, `Verif.Composition.eval`). -/
def evaluate (L : ExpLog K G V) (t : K) : Any K G → Outcome G
  | single k s => Discrete.evaluate L k t s.c.mgr
  | comp kb kc s => Composition.eval L kb kc t s

/-- `getCurveTimes` (`DiscreteSE3Curve.cpp` 324-326, `SlerpSE3Curve.cpp` 292-294,
`SE3CompositionCurve-inl.hpp` 480-483). `out` is what `*outTimes` holds before. -/
def getCurveTimes (out : List K) : Any K G → List K
  | single _ s => s.c.mgr.getTimes out
  | comp _ _ s => s.corr.mgr.getTimes out

/-- `getBaseCurveTimes` (`DiscreteSE3Curve.hpp` 195, `SlerpSE3Curve.hpp` 182: empty bodies;
`SE3CompositionCurve-inl.hpp` 469-472). `out` is what `*outTimes` holds before. -/
def getBaseCurveTimes (out : List K) : Any K G → List K
  | single _ _ => out
  | comp _ _ s => s.base.mgr.getTimes out

/-- `getBaseCurveTimesInWindow` (`DiscreteSE3Curve.hpp` 197, `SlerpSE3Curve.hpp` 184: empty bodies;
`SE3CompositionCurve-inl.hpp` 474-478). `out` is what `*outTimes` holds before. -/
def getBaseCurveTimesInWindow (beg en : K) (out : List K) : Any K G → Outcome (List K)
  | single _ _ => .ok out
  | comp _ _ s => s.base.mgr.getTimesInWindow beg en

/-- The functions of `SE3Curve.hpp` 105-130 that edit the base or the correction. -/
inductive Edit (K G : Type) where
  | foldInCorrections
  | setCorrectionTimes (ts : List K)
  | removeCorrectionCoefficientAtTime (t : K)
  | setCorrectionCoefficientAtTime (t : K) (v : G)
  | resetCorrectionCurve (ts : List K)
  | setBaseCurve (ts : List K) (vs : List G)
  | setBaseCurvePart (ts : List K) (vs : List G)
  | modifyBaseCoefficientsValuesInBatch (ts : List K) (vs : List G)

/-- The editing functions: empty bodies in the curves that are no compositions (`DiscreteSE3Curve.hpp`
170-193, `SemiDiscreteSE3Curve.hpp` 170-193, `SlerpSE3Curve.hpp` 157-180, `CubicHermiteSE3Curve.hpp`
236-259), otherwise those of `Verif.Composition`. -/
def edit (L : ExpLog K G V) : Edit K G → Any K G → Outcome (Any K G)
  | _, single k s => .ok (single k s)
  | .foldInCorrections, comp kb kc s => foldInCorrections L kb kc s >>= fun s' => .ok (comp kb kc s')
  | .setCorrectionTimes ts, comp kb kc s => setCorrectionTimes L kc ts s >>= fun s' => .ok (comp kb kc s')
  | .removeCorrectionCoefficientAtTime t, comp kb kc s =>
    removeCorrection t s >>= fun s' => .ok (comp kb kc s')
  | .setCorrectionCoefficientAtTime t v, comp kb kc s =>
    setCorrection t v s >>= fun s' => .ok (comp kb kc s')
  | .resetCorrectionCurve ts, comp kb kc s => resetCorrectionCurve ts s >>= fun s' => .ok (comp kb kc s')
  | .setBaseCurve ts vs, comp kb kc s => setBaseCurve ts vs s >>= fun s' => .ok (comp kb kc s')
  | .setBaseCurvePart ts vs, comp kb kc s => setBaseCurvePart ts vs s >>= fun s' => .ok (comp kb kc s')
  | .modifyBaseCoefficientsValuesInBatch ts vs, comp kb kc s =>
    modifyBase ts vs s >>= fun s' => .ok (comp kb kc s')

/-- A caller handing measurements to `extend` one after the other. -/
def feed (L : ExpLog K G V) (a : Any K G) : List (K × G) → Outcome (Any K G)
  | [] => .ok a
  | (t, v) :: rest => a.extend L [t] [v] >>= fun r => feed L r.1 rest

/-! ### Saving

`toVec` are the seven numbers written for a pose (position and quaternion). -/

open Verif.Csv

/-- `saveCurveAtTimes` (`DiscreteSE3Curve.cpp` 309-322, `SlerpSE3Curve.cpp` 277-290,
`SE3CompositionCurve-inl.hpp` 429-443). -/
def saveCurveAtTimes (L : ExpLog K G V) (F : Fmt K) (toVec : G → List K) (fs : FS) (name : Str)
    (times : List K) (a : Any K G) : Outcome FS :=
  saveAtTimes F (fun t => a.evaluate L t) toVec fs name times

/-- `saveCurveTimesAndValues` (`DiscreteSE3Curve.cpp` 302-307, `SlerpSE3Curve.cpp` 270-275: the times of
the curve; `SE3CompositionCurve-inl.hpp` 421-427: the times of the base). -/
def saveCurveTimesAndValues (L : ExpLog K G V) (F : Fmt K) (toVec : G → List K) (fs : FS) (name : Str) :
    Any K G → Outcome FS
  | single k s => saveCurveAtTimes L F toVec fs name (s.c.mgr.getTimes []) (single k s)
  | comp kb kc s => saveCurveAtTimes L F toVec fs name (s.base.mgr.getTimes []) (comp kb kc s)

/-- `saveCorrectionCurveAtTimes` (`DiscreteSE3Curve.hpp` 158, `SlerpSE3Curve.hpp` 145: empty bodies;
`SE3CompositionCurve-inl.hpp` 453-467). -/
def saveCorrectionCurveAtTimes (L : ExpLog K G V) (F : Fmt K) (toVec : G → List K) (fs : FS) (name : Str)
    (times : List K) : Any K G → Outcome FS
  | single _ _ => .ok fs
  | comp _ kc s => saveAtTimes F (fun t => Discrete.evaluate L kc t s.corr.mgr) toVec fs name times

/-- `saveCorrectionCurveTimesAndValues` (`DiscreteSE3Curve.hpp` 202, `SlerpSE3Curve.hpp` 189: empty
bodies; `SE3CompositionCurve-inl.hpp` 445-451). -/
def saveCorrectionCurveTimesAndValues (L : ExpLog K G V) (F : Fmt K) (toVec : G → List K) (fs : FS)
    (name : Str) : Any K G → Outcome FS
  | single _ _ => .ok fs
  | comp kb kc s =>
    saveCorrectionCurveAtTimes L F toVec fs name (s.corr.mgr.getTimes []) (comp kb kc s)

end Any

open Verif.Csv

/-- `SE3CompositionCurve::saveCurves` (`SE3CompositionCurve-inl.hpp` 39-76): the three loops come first
(44-69), then the three files are written (71-73). -/
def saveCurves (L : ExpLog K G V) (F : Fmt K) (toVec : G → List K) (kb kc : Kind) (fs : FS) (name : Str)
    (s : Comp K G) : Outcome FS :=
  saveAtTimes.collect (fun t => evaluate L kb t s.base.mgr) toVec (s.base.mgr.getTimes []) >>= fun bv =>
  saveAtTimes.collect (fun t => evaluate L kc t s.corr.mgr) toVec (s.corr.mgr.getTimes []) >>= fun cv =>
  saveAtTimes.collect (fun t => eval L kb kc t s) toVec (s.base.mgr.getTimes []) >>= fun xv =>
  writeTimeVectorCSV F fs (name ++ "_base.csv".toList) (s.base.mgr.getTimes []) bv >>= fun fs1 =>
  writeTimeVectorCSV F fs1 (name ++ "_correction.csv".toList) (s.corr.mgr.getTimes []) cv >>= fun fs2 =>
  writeTimeVectorCSV F fs2 (name ++ "_composed.csv".toList) (s.base.mgr.getTimes []) xv

end Verif.Interface

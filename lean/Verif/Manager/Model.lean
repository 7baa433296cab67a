import Verif.Outcome
import Mathlib.Order.Defs.LinearOrder

/-!
# Model of `LocalSupport2CoefficientManager`

All line numbers refer to
`curves/include/curves/LocalSupport2CoefficientManager-inl.hpp` unless another file is named.

* `T` is `Time` (`double`): only comparisons are used, so any linear order will do; a `0` is needed
  because `getMinTime`/`getMaxTime` return `0` on an empty manager.  NaN is not modelled.
* `C` is the coefficient type.
* `std::map<Time, KeyCoefficient>` is the list of its nodes in iteration order.  A node carries an
  address (`addr`): that is what an iterator to it is.
* `boost::unordered_map<Key, CoefficientIter>` is an association list from keys to addresses.  The
  iteration order of that map is never used.
-/

namespace Verif.Manager

/- `size_t` keys (`curves/include/curves/Curve.hpp`, `typedef size_t Key`). -/
notation "Key" => Nat

/-- One node of `timeToCoefficient_`
(`LocalSupport2CoefficientManager.hpp` 27-41 `KeyCoefficient`, 46 `TimeToKeyCoefficientMap`). -/
structure Node (T C : Type) where
  /-- address of the map node: the identity of iterators pointing to it -/
  addr : Nat
  /-- the map key -/
  time : T
  /-- `KeyCoefficient::key` -/
  key : Key
  /-- `KeyCoefficient::coefficient` -/
  coef : C
  deriving Repr, DecidableEq

/-- The two members of the manager (`LocalSupport2CoefficientManager.hpp`, private section). -/
structure Mgr (T C : Type) where
  /-- `timeToCoefficient_`, in iteration order -/
  nodes : List (Node T C)
  /-- `keyToCoefficient_`: key to iterator (= node address) -/
  keyMap : List (Key × Nat)
  deriving Repr, DecidableEq

/-- Process-wide state the manager depends on. `calls` counts the calls made so far to
`KeyGenerator::getNextKey` (by anybody); the C++ static variable is `calls % 2^64`
(`curves/src/KeyGenerator.cpp` 13-18).  `nextAddr` is the allocator: every new map node gets an
address never used before (reuse of freed addresses cannot be observed without undefined
behaviour). -/
structure World where
  calls : Nat
  nextAddr : Nat
  deriving Repr, DecidableEq

/-- `KeyGenerator::getNextKey` (`curves/src/KeyGenerator.cpp` 13-18): `return ++key` on a `size_t`
(64 bit), seen from a single caller; the concurrent model is in `Verif.KeyGen.Model`. -/
def getNextKey (w : World) : Key × World :=
  ((w.calls + 1) % 2 ^ 64, { w with calls := w.calls + 1 })

/-- Allocation of a map node (not in the source: part of `std::map::insert`). -/
def newAddr (w : World) : Nat × World :=
  (w.nextAddr, { w with nextAddr := w.nextAddr + 1 })

section
variable {T C : Type}

/-- Constructor (18-20): both containers empty. -/
def Mgr.empty : Mgr T C := ⟨[], []⟩

/-- `unordered_map::find` followed by dereferencing the pair (234, 242, 248). -/
def kmFind (km : List (Key × Nat)) (k : Key) : Option Nat :=
  match km with
  | [] => none
  | (k', a) :: rest => if k' = k then some a else kmFind rest k

/-- `keyToCoefficient_[k] = a` (126, 187): overwrite or add. -/
def kmSet (km : List (Key × Nat)) (k : Key) (a : Nat) : List (Key × Nat) :=
  match km with
  | [] => [(k, a)]
  | (k', a') :: rest => if k' = k then (k, a) :: rest else (k', a') :: kmSet rest k a

/-- `keyToCoefficient_.insert(pair)` (174): no effect if the key is present. -/
def kmInsert (km : List (Key × Nat)) (k : Key) (a : Nat) : List (Key × Nat) :=
  match kmFind km k with
  | some _ => km
  | none => (k, a) :: km

/-- `keyToCoefficient_.erase(iterator)` for the entry of key `k` (211). -/
def kmErase (km : List (Key × Nat)) (k : Key) : List (Key × Nat) :=
  match km with
  | [] => []
  | (k', a') :: rest => if k' = k then rest else (k', a') :: kmErase rest k

/-- Dereferencing an iterator (address) into `timeToCoefficient_`: `none` if it dangles. -/
def nodeAt (ns : List (Node T C)) (a : Nat) : Option (Node T C) :=
  ns.find? (fun n => n.addr == a)

/-- Assigning to the coefficient of the node an iterator points to (236, 159). -/
def setCoefAt (ns : List (Node T C)) (a : Nat) (c : C) : List (Node T C) :=
  ns.map (fun n => if n.addr = a then { n with coef := c } else n)

end

section
variable {T C : Type} [LinearOrder T]

/-- `std::map::insert(value)`, with or without a hint (124, 171, 185): inserts the new node in key
order unless the key is present; returns the list and the address of the node with that key. -/
def mapInsert (ns : List (Node T C)) (n : Node T C) : List (Node T C) × Nat :=
  match ns with
  | [] => ([n], n.addr)
  | m :: rest =>
    if n.time < m.time then (n :: m :: rest, n.addr)
    else if m.time < n.time then
      let r := mapInsert rest n
      (m :: r.1, r.2)
    else (m :: rest, m.addr)

/-- `std::map::find(time)` (207, 218). -/
def mapFind (ns : List (Node T C)) (t : T) : Option (Node T C) :=
  ns.find? (fun n => decide (n.time = t))

/-- `std::map::erase(iterator)` (189, 210): unlink the node with that address. -/
def mapErase (ns : List (Node T C)) (a : Nat) : List (Node T C) :=
  ns.filter (fun n => n.addr ≠ a)

/-- `hasCoefficientAtTime(time, &it, tol)` (401-413) with the default tolerance `0`
(`LocalSupport2CoefficientManager.hpp`, declaration; the only call, 118, uses the default): scan for
the first node with time `>= time`, accept it iff its time is `<= time`. The result is what `*it`
points to on success.  Simplification: `time - 0` and `time + 0` are written `time`. -/
def scanAtTime (ns : List (Node T C)) (t : T) : Option (Node T C) :=
  match ns with
  | [] => none
  | n :: rest => if t ≤ n.time then (if n.time ≤ t then some n else none) else scanAtTime rest t

/-- `updateCoefficientByKey` (233-237): `CHECK` that the key is there, then write through the stored
iterator. Writing through a dangling iterator is undefined behaviour. -/
def Mgr.updateCoefficientByKey (m : Mgr T C) (k : Key) (c : C) : Outcome (Mgr T C) :=
  match kmFind m.keyMap k with
  | none => .abort
  | some a =>
    match nodeAt m.nodes a with
    | none => .ub
    | some _ => .ok { m with nodes := setCoefAt m.nodes a c }

/-- `getCoefficientByKey` (240-245). -/
def Mgr.getCoefficientByKey (m : Mgr T C) (k : Key) : Outcome C :=
  match kmFind m.keyMap k with
  | none => .abort
  | some a => (Outcome.deref (nodeAt m.nodes a)) >>= fun n => .ok n.coef

/-- `getCoefficientTimeByKey` (246-251). -/
def Mgr.getCoefficientTimeByKey (m : Mgr T C) (k : Key) : Outcome T :=
  match kmFind m.keyMap k with
  | none => .abort
  | some a => (Outcome.deref (nodeAt m.nodes a)) >>= fun n => .ok n.time

/-- `insertCoefficient` (113-129). -/
def Mgr.insertCoefficient (w : World) (m : Mgr T C) (t : T) (c : C) :
    Outcome (World × Mgr T C × Key) :=
  match scanAtTime m.nodes t with
  | some n => do
    let m' ← m.updateCoefficientByKey n.key c
    return (w, m', n.key)
  | none =>
    let (key, w1) := getNextKey w
    let (a, w2) := newAddr w1
    let (ns, it) := mapInsert m.nodes ⟨a, t, key, c⟩
    .ok (w2, ⟨ns, kmSet m.keyMap key it⟩, key)

/-- The loop of `insertCoefficients` (137-143) over the paired lists; returns the keys pushed to
`outKeys` (when `outKeys` is null they are dropped). -/
def Mgr.insertLoop (w : World) (m : Mgr T C) : List (T × C) → Outcome (World × Mgr T C × List Key)
  | [] => .ok (w, m, [])
  | (t, c) :: rest => do
    let (w1, m1, k) ← m.insertCoefficient w t c
    let (w2, m2, ks) ← Mgr.insertLoop w1 m1 rest
    return (w2, m2, k :: ks)

/-- `insertCoefficients` (132-144): `CHECK_EQ` of the lengths, then one insertion per pair. The last
component is what is appended to `*outKeys`. -/
def Mgr.insertCoefficients (w : World) (m : Mgr T C) (ts : List T) (cs : List C) :
    Outcome (World × Mgr T C × List Key) :=
  if ts.length = cs.length then m.insertLoop w (ts.zip cs) else .abort

/-- Backward search of `modifyCoefficientsValuesInBatch` (151-156), on the reversed node list:
decrement until the time is found; running past `begin()` is undefined behaviour. Returns the
remaining nodes from the found one on, in forward order (`acc` are the nodes already passed). -/
def searchBack (t0 : T) : List (Node T C) → List (Node T C) → Option (List (Node T C) × List (Node T C))
  | [], _ => none
  | n :: prev, acc => if n.time = t0 then some (prev.reverse, n :: acc) else searchBack t0 prev (n :: acc)

/-- Assignment loop of `modifyCoefficientsValuesInBatch` (157-161): `CHECK_EQ(it->first, times[i])`,
assign, advance. Dereferencing `end()` is undefined behaviour. -/
def assignRun : List (Node T C) → List (T × C) → Outcome (List (Node T C))
  | ns, [] => .ok ns
  | [], _ :: _ => .ub
  | n :: ns, (t, c) :: rest =>
    if n.time = t then do
      let ns' ← assignRun ns rest
      return { n with coef := c } :: ns'
    else .abort

/-- `modifyCoefficientsValuesInBatch` (147-162). With an empty `times` the loop condition reads
`times[0]`: undefined behaviour. -/
def Mgr.modifyCoefficientsValuesInBatch (m : Mgr T C) (ts : List T) (cs : List C) :
    Outcome (Mgr T C) :=
  if ts.length = cs.length then
    match ts with
    | [] => .ub
    | t0 :: _ =>
      match searchBack t0 m.nodes.reverse [] with
      | none => .ub
      | some (before, from_) => do
        let ns ← assignRun from_ (ts.zip cs)
        return { m with nodes := before ++ ns }
  else .abort

/-- `getMinTime` (359-365). -/
def Mgr.getMinTime [Zero T] (m : Mgr T C) : T :=
  match m.nodes with
  | [] => 0
  | n :: _ => n.time

/-- `getMaxTime` (367-373). -/
def Mgr.getMaxTime [Zero T] (m : Mgr T C) : T :=
  match m.nodes.getLast? with
  | none => 0
  | some n => n.time

/-- `addCoefficientAtEnd` (164-178). The hint `--end()` on an empty map is undefined behaviour
(evaluated after the `CHECK`). The result key is what is appended to `*outKeys`. -/
def Mgr.addCoefficientAtEnd [Zero T] (w : World) (m : Mgr T C) (t : T) (c : C) :
    Outcome (World × Mgr T C × Key) :=
  if m.getMaxTime < t then
    match m.nodes with
    | [] => .ub
    | _ :: _ =>
      let (key, w1) := getNextKey w
      let (a, w2) := newAddr w1
      let (ns, it) := mapInsert m.nodes ⟨a, t, key, c⟩
      .ok (w2, ⟨ns, kmInsert m.keyMap key it⟩, key)
  else .abort

/-- `modifyCoefficient(it, time, coefficient)` (180-190), `it` given as an address. `map::insert` does
not overwrite; afterwards `it` is erased even if the insertion returned `it` itself. -/
def Mgr.modifyCoefficient (w : World) (m : Mgr T C) (it : Nat) (t : T) (c : C) :
    Outcome (World × Mgr T C) :=
  match nodeAt m.nodes it with
  | none => .ub
  | some old =>
    let (a, w1) := newAddr w
    let (ns, newIt) := mapInsert m.nodes ⟨a, t, old.key, c⟩
    .ok (w1, ⟨mapErase ns it, kmSet m.keyMap old.key newIt⟩)

/-- `hasCoefficientAtTime(time)` (215-219). -/
def Mgr.hasCoefficientAtTime (m : Mgr T C) (t : T) : Bool := (mapFind m.nodes t).isSome

/-- `removeCoefficientAtTime` (203-212). Erasing `keyToCoefficient_.end()` is undefined behaviour. -/
def Mgr.removeCoefficientAtTime (m : Mgr T C) (t : T) : Outcome (Mgr T C) :=
  match mapFind m.nodes t with
  | none => .abort
  | some n =>
    match kmFind m.keyMap n.key with
    | none => .ub
    | some _ => .ok ⟨mapErase m.nodes n.addr, kmErase m.keyMap n.key⟩

/-- `std::map::upper_bound(time)` as a split: nodes before, nodes from the result on (270). -/
def upperSplit (t : T) : List (Node T C) → List (Node T C) × List (Node T C)
  | [] => ([], [])
  | n :: rest =>
    if t < n.time then ([], n :: rest)
    else
      let r := upperSplit t rest
      (n :: r.1, r.2)

/-- `getCoefficientsAt` (254-286): the two nodes the output iterators point to, or `none` when the
function returns `false` (the output iterators are then not written). `it` is `--end()` when
`time == getMaxTime()` and `upper_bound(time)` otherwise, represented by splitting the node list. -/
def Mgr.getCoefficientsAt [Zero T] (m : Mgr T C) (t : T) : Option (Node T C × Node T C) :=
  match m.nodes with
  | [] => none
  | _ :: _ =>
    let split :=
      if t = m.getMaxTime then (m.nodes.dropLast, m.nodes.getLast?.toList)
      else upperSplit t m.nodes
    match split.1.getLast?, split.2 with
    | some a, b :: _ => some (a, b)   -- `it` is neither `begin()` nor `end()`
    | _, _ => none

/-- `appendKeys` (65-74): what is appended to `*outKeys`. -/
def Mgr.appendKeys (m : Mgr T C) (out : List Key) : List Key := out ++ m.nodes.map (·.key)

/-- `getKeys` (58-63): clears `*outKeys` first. -/
def Mgr.getKeys (m : Mgr T C) (_out : List Key) : List Key := m.appendKeys []

/-- `getTimes` (76-86): clears `*outTimes` first. -/
def Mgr.getTimes (m : Mgr T C) (_out : List T) : List T := m.nodes.map (·.time)

/-- The do-while loop of `getTimesInWindow` (98-103) on the reversed list of times; `x :: rest`
means `it` points to `x`. `--it` at `begin()` is undefined behaviour; the loop goes on while the new
`it->first >= begTime` and the new `it` is not `begin()`. The result lists what is pushed, in push
order. -/
def windowLoop (beg : T) : List T → Outcome (List T)
  | [] => .ub
  | x :: rest =>
    let pushed := if beg ≤ x then [x] else []
    match rest with
    | [] => .ub
    | [_first] => .ok pushed
    | y :: z :: more =>
      if beg ≤ y then do
        let r ← windowLoop beg (y :: z :: more)
        return pushed ++ r
      else .ok pushed

/-- `getTimesInWindow` (88-106): two `CHECK`s, the backward loop, then `std::reverse`. -/
def Mgr.getTimesInWindow [Zero T] (m : Mgr T C) (beg en : T) : Outcome (List T) :=
  if en = m.getMaxTime then
    if m.getMinTime ≤ beg then do
      let r ← windowLoop beg (m.nodes.map (·.time)).reverse
      return r.reverse
    else .abort
  else .abort

/-- `size` (342-345). -/
def Mgr.size (m : Mgr T C) : Nat := m.nodes.length

/-- `empty` (347-350). -/
def Mgr.isEmpty (m : Mgr T C) : Bool := m.nodes.isEmpty

/-- `clear` (352-357). -/
def Mgr.clear (_m : Mgr T C) : Mgr T C := ⟨[], []⟩

/-- `updateCoefficients` (331-339): `updateCoefficientByKey` for every entry, in iteration order of
the caller's map. -/
def Mgr.updateCoefficients (m : Mgr T C) : List (Key × C) → Outcome (Mgr T C)
  | [] => .ok m
  | (k, c) :: rest => do
    let m' ← m.updateCoefficientByKey k c
    Mgr.updateCoefficients m' rest

/-- Iteration over the knots `coefficientBegin() .. coefficientEnd()`
(`LocalSupport2CoefficientManager.hpp` `coefficientBegin`, `coefficientEnd`): time, key and value of
every knot in order. This is the observable content of the manager. -/
def Mgr.contents (m : Mgr T C) : List (T × Key × C) := m.nodes.map fun n => (n.time, n.key, n.coef)

end

end Verif.Manager

import Verif.Manager.Model

/-!
# `std::map` as a search tree, and times that are not a number

The other models take `std::map<Time, KeyCoefficient>` to be the list of its nodes in order. Here it is a binary tree of
any shape, searched as libstdc++ does (`bits/stl_tree.h`, part of the compiler, not of /repo; written down here from its
published source), with the comparison of the code as a parameter. A position in the tree is the number of nodes before it
in order; the number of all nodes is `end()`. Balancing the tree changes its shape and not the order, so it is not
modelled: what is shown holds for every shape.

`Cmp` collects the comparisons of `double`. `Cmp.number` is that of a linear order; `Cmp.nan` adds NaN (`none`), of which
all comparisons are false. By the letter of the C++ standard a NaN as a key breaks the requirements of `std::map`; the
model says what the implementation does.

Line numbers refer to `curves/include/curves/LocalSupport2CoefficientManager-inl.hpp`.
-/

set_option linter.unusedSectionVars false
set_option linter.dupNamespace false

namespace Verif.Map

open Verif.Manager

/-- The comparisons of `double`. -/
structure Cmp (T : Type) where
  /-- `<` -/
  lt : T → T → Bool
  /-- `<=` -/
  le : T → T → Bool
  /-- `==` -/
  eq : T → T → Bool

/-- Comparisons of numbers. -/
def Cmp.number (T : Type) [LinearOrder T] : Cmp T :=
  ⟨fun x y => decide (x < y), fun x y => decide (x ≤ y), fun x y => decide (x = y)⟩

/-- Comparisons of numbers and NaN (`none`). -/
def Cmp.nan (T : Type) [LinearOrder T] : Cmp (Option T) where
  lt x y := match x, y with
    | some x, some y => decide (x < y)
    | _, _ => false
  le x y := match x, y with
    | some x, some y => decide (x ≤ y)
    | _, _ => false
  eq x y := match x, y with
    | some x, some y => decide (x = y)
    | _, _ => false

/-- A binary tree. -/
inductive Tree (N : Type) where
  | leaf
  | node (l : Tree N) (x : N) (r : Tree N)

namespace Tree

variable {N T : Type}

/-- The nodes in order. -/
def toList : Tree N → List N
  | leaf => []
  | node l x r => l.toList ++ x :: r.toList

/-- The number of nodes. -/
def size : Tree N → Nat
  | leaf => 0
  | node l _ r => l.size + 1 + r.size

variable (c : Cmp T) (time : N → T) (k : T)

/-- `_M_lower_bound(x, y, k)`: from the node `x` down; `y` is the last node from which the search went to the left.
`base` nodes are before the subtree. -/
def lower : Tree N → Nat → Nat → Nat
  | leaf, _, y => y
  | node l x r, base, y =>
    if c.lt (time x) k then lower r (base + l.size + 1) y else lower l base (base + l.size)

/-- `_M_upper_bound(x, y, k)`. -/
def upper : Tree N → Nat → Nat → Nat
  | leaf, _, y => y
  | node l x r, base, y =>
    if c.lt k (time x) then upper l base (base + l.size) else upper r (base + l.size + 1) y

/-- `upper_bound(k)`. -/
def upperBound (t : Tree N) : Nat := t.upper c time k 0 t.size

/-- `find(k)`: `lower_bound`, then one more comparison; `none` is `end()`. -/
def find (t : Tree N) : Option N :=
  match t.toList[t.lower c time k 0 t.size]? with
  | none => none
  | some x => if c.lt k (time x) then none else some x

/-- The descent of `_M_get_insert_unique_pos(k)`: the last node visited and whether the last comparison was true. -/
def descend : Tree N → Nat → Nat × Bool → Nat × Bool
  | leaf, _, y => y
  | node l x r, base, _ =>
    if c.lt k (time x) then descend l base (base + l.size, true)
    else descend r (base + l.size + 1) (base + l.size, false)

/-- Where `insert` puts a new node: before node number `g`, or nowhere because node `j` is taken to be equal. -/
inductive Pos where
  | gap (g : Nat)
  | taken (j : Nat)
  deriving DecidableEq

/-- The comparison with the node before the place found (`_M_get_insert_unique_pos`, second half). -/
def compareBefore (t : Tree N) (j g : Nat) : Outcome Pos :=
  Outcome.deref t.toList[j]? >>= fun x => if c.lt (time x) k then .ok (.gap g) else .ok (.taken j)

/-- `_M_get_insert_unique_pos(k)`. In an empty tree the last node visited is the header and the comparison counts as
true; `begin()` is then `end()`. -/
def uniquePos (t : Tree N) : Outcome Pos :=
  let y := t.descend c time k 0 (0, true)
  if y.2 then if y.1 = 0 then .ok (.gap 0) else compareBefore c time k t (y.1 - 1) y.1
  else compareBefore c time k t y.1 (y.1 + 1)

/-- `_M_get_insert_hint_unique_pos(pos, k)` for `pos` in front of `end()`. -/
def hintPos (t : Tree N) (pos : Nat) : Outcome Pos :=
  Outcome.deref t.toList[pos]? >>= fun p =>
    if c.lt k (time p) then
      if pos = 0 then .ok (.gap 0)
      else Outcome.deref t.toList[pos - 1]? >>= fun b =>
        if c.lt (time b) k then .ok (.gap pos) else uniquePos c time k t
    else if c.lt (time p) k then
      if pos + 1 = t.size then .ok (.gap (pos + 1))
      else Outcome.deref t.toList[pos + 1]? >>= fun a =>
        if c.lt k (time a) then .ok (.gap (pos + 1)) else uniquePos c time k t
    else .ok (.taken pos)

end Tree

section
variable {T C : Type} (c : Cmp T)

/-- The nodes of the manager in a tree. -/
abbrev Nodes (T C : Type) := Tree (Node T C)

/-- What `insert` does with the place found: the nodes in order and the address of the node returned. -/
def place (t : Nodes T C) (n : Node T C) : Tree.Pos → Outcome (List (Node T C) × Nat)
  | .gap g => .ok (t.toList.take g ++ n :: t.toList.drop g, n.addr)
  | .taken j => Outcome.deref t.toList[j]? >>= fun m => .ok (t.toList, m.addr)

/-- `timeToCoefficient_.insert(value)` (124). -/
def insert (t : Nodes T C) (n : Node T C) : Outcome (List (Node T C) × Nat) :=
  t.uniquePos c Node.time n.time >>= place t n

/-- `timeToCoefficient_.insert(hint, value)` (171, 185). -/
def insertHint (t : Nodes T C) (pos : Nat) (n : Node T C) : Outcome (List (Node T C) × Nat) :=
  t.hintPos c Node.time n.time pos >>= place t n

/-- `hasCoefficientAtTime(time, &it, tol)` (401-413) with tolerance 0. -/
def scan : List (Node T C) → T → Option (Node T C)
  | [], _ => none
  | n :: rest, t => if c.le t n.time then if c.le n.time t then some n else none else scan rest t

/-- `getMaxTime` (367-373). -/
def maxTime (zero : T) (t : Nodes T C) : T :=
  match t.toList.getLast? with
  | none => zero
  | some n => n.time

/-- `insertCoefficient` (113-129). -/
def insertCoefficient (w : World) (t : Nodes T C) (km : List (Key × Nat)) (time : T) (v : C) :
    Outcome (World × Mgr T C × Key) :=
  match scan c t.toList time with
  | some n =>
    match kmFind km n.key with
    | none => .abort
    | some a => Outcome.deref (nodeAt t.toList a) >>= fun _ => .ok (w, ⟨setCoefAt t.toList a v, km⟩, n.key)
  | none =>
    let g := getNextKey w
    let a := newAddr g.2
    insert c t ⟨a.1, time, g.1, v⟩ >>= fun r => .ok (a.2, ⟨r.1, kmSet km g.1 r.2⟩, g.1)

/-- `addCoefficientAtEnd` (164-178). -/
def addCoefficientAtEnd (zero : T) (w : World) (t : Nodes T C) (km : List (Key × Nat)) (time : T) (v : C) :
    Outcome (World × Mgr T C × Key) :=
  if c.lt (maxTime zero t) time then
    let g := getNextKey w
    let a := newAddr g.2
    if t.size = 0 then .ub
    else insertHint c t (t.size - 1) ⟨a.1, time, g.1, v⟩ >>= fun r => .ok (a.2, ⟨r.1, kmInsert km g.1 r.2⟩, g.1)
  else .abort

/-- `hasCoefficientAtTime(time)` (215-219). -/
def hasCoefficientAtTime (t : Nodes T C) (time : T) : Bool := (t.find c Node.time time).isSome

/-- `removeCoefficientAtTime` (203-212). -/
def removeCoefficientAtTime (t : Nodes T C) (km : List (Key × Nat)) (time : T) : Outcome (Mgr T C) :=
  match t.find c Node.time time with
  | none => .abort
  | some n =>
    match kmFind km n.key with
    | none => .ub
    | some _ => .ok ⟨mapErase t.toList n.addr, kmErase km n.key⟩

/-- `getCoefficientsAt` (254-286). -/
def getCoefficientsAt (zero : T) (t : Nodes T C) (time : T) : Option (Node T C × Node T C) :=
  if t.size = 0 then none
  else
    let it := if c.eq time (maxTime zero t) then t.size - 1 else t.upperBound c Node.time time
    if it = 0 ∨ it = t.size then none
    else match t.toList[it - 1]?, t.toList[it]? with
      | some a, some b => some (a, b)
      | _, _ => none

end

end Verif.Map

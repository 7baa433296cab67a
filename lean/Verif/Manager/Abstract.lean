import Verif.Manager.History

/-!
# The manager as a table

What the coefficient manager is meant to be: a table of entries (time, key, value) ordered by time, and a
count of the keys drawn so far in the process.  There are no nodes, iterators or key maps here.
-/

namespace Verif.Manager.Table

variable {T C : Type} [LinearOrder T] [Zero T]

/-- A time, its key, its value. -/
abbrev Entry (T C : Type) := T × Nat × C

/-- The number of keys drawn so far and the table. -/
structure Abs (T C : Type) where
  calls : Nat
  tab : List (Entry T C)

/-- The operations; a knot to be moved is named by its key, `none` for an iterator to no knot. -/
inductive AOp (T C : Type) where
  | insert (t : T) (c : C)
  | insertMany (ts : List T) (cs : List C)
  | addEnd (t : T) (c : C)
  | removeAt (t : T)
  | updKey (k : Nat) (c : C)
  | updKeys (l : List (Nat × C))
  | modBatch (ts : List T) (cs : List C)
  | move (k : Option Nat) (t : T) (c : C)
  | clear
  | others (keys : Nat)

/-- A new entry goes between the entries before and the entries after its time. -/
def add (e : Entry T C) (l : List (Entry T C)) : List (Entry T C) :=
  l.filter (fun x => x.1 < e.1) ++ e :: l.filter (fun x => e.1 < x.1)

/-- Write a value at a time: replace it there, or add an entry with a new key. -/
def put (a : Abs T C) (t : T) (c : C) : Abs T C × Nat :=
  match a.tab.find? (fun x => x.1 = t) with
  | some x => (⟨a.calls, a.tab.map fun y => if y.1 = t then (y.1, y.2.1, c) else y⟩, x.2.1)
  | none => (⟨a.calls + 1, add (t, a.calls + 1, c) a.tab⟩, a.calls + 1)

/-- Write values one after the other; the keys in order. -/
def putAll (a : Abs T C) : List (T × C) → Abs T C × List Nat
  | [] => (a, [])
  | (t, c) :: rest => ((putAll (put a t c).1 rest).1, (put a t c).2 :: (putAll (put a t c).1 rest).2)

/-- Replace the value of the entry with a key. -/
def setKey (k : Nat) (c : C) (l : List (Entry T C)) : List (Entry T C) :=
  l.map fun x => if x.2.1 = k then (x.1, x.2.1, c) else x

/-- Replace values by key one after the other; an unknown key aborts. -/
def setKeys (l : List (Entry T C)) : List (Nat × C) → Outcome (List (Entry T C))
  | [] => .ok l
  | (k, c) :: rest => if k ∈ l.map (·.2.1) then setKeys (setKey k c l) rest else .abort

/-- Lay values over the first entries, whose times must be the ones given. A different time aborts; no
entry left is undefined behaviour. -/
def overlay : List (Entry T C) → List (T × C) → Outcome (List (Entry T C))
  | l, [] => .ok l
  | [], _ :: _ => .ub
  | x :: l, (t, c) :: rest =>
    if x.1 = t then overlay l rest >>= fun l' => .ok ((x.1, x.2.1, c) :: l') else .abort

/-- Time of the last entry, `0` if there is none. -/
def maxTime (l : List (Entry T C)) : T := (l.getLast?.map (·.1)).getD 0

/-- Time of the first entry, `0` if there is none. -/
def minTime (l : List (Entry T C)) : T := (l.head?.map (·.1)).getD 0

/-- One call: the new state and the keys handed to the caller. -/
def call (a : Abs T C) : AOp T C → Outcome (Abs T C × List Nat)
  | .insert t c => .ok ((put a t c).1, [(put a t c).2])
  | .insertMany ts cs => if ts.length = cs.length then .ok (putAll a (ts.zip cs)) else .abort
  | .addEnd t c =>
    if maxTime a.tab < t then
      if a.tab = [] then .ub else .ok (⟨a.calls + 1, a.tab ++ [(t, a.calls + 1, c)]⟩, [a.calls + 1])
    else .abort
  | .removeAt t =>
    if t ∈ a.tab.map (·.1) then .ok (⟨a.calls, a.tab.filter (fun x => x.1 ≠ t)⟩, []) else .abort
  | .updKey k c => if k ∈ a.tab.map (·.2.1) then .ok (⟨a.calls, setKey k c a.tab⟩, []) else .abort
  | .updKeys l => setKeys a.tab l >>= fun t => .ok (⟨a.calls, t⟩, [])
  | .modBatch ts cs =>
    if ts.length = cs.length then
      match ts with
      | [] => .ub
      | t :: _ =>
        if t ∈ a.tab.map (·.1) then
          overlay (a.tab.filter (fun x => t ≤ x.1)) (ts.zip cs) >>= fun l =>
            .ok (⟨a.calls, a.tab.filter (fun x => x.1 < t) ++ l⟩, [])
        else .ub
    else .abort
  | .move none _ _ => .ub
  | .move (some k) t c => .ok (⟨a.calls, add (t, k, c) (a.tab.filter (fun x => x.2.1 ≠ k))⟩, [])
  | .clear => .ok (⟨a.calls, []⟩, [])
  | .others n => .ok (⟨a.calls + n, a.tab⟩, [])

/-- A sequence of calls. -/
def run (a : Abs T C) : List (AOp T C) → Outcome (Abs T C)
  | [] => .ok a
  | op :: rest => call a op >>= fun r => run r.1 rest

/-- Value and time of a key; unknown keys abort. -/
def byKey (l : List (Entry T C)) (k : Nat) : Outcome (Entry T C) :=
  match l.find? (fun x => x.2.1 = k) with
  | some x => .ok x
  | none => .abort

/-- The entries around a time: the last two at the last time, otherwise the last entry at or before the time
and the first after it. -/
def around (l : List (Entry T C)) (t : T) : Option (Entry T C × Entry T C) :=
  if t = maxTime l then
    match l.dropLast.getLast?, l.getLast? with
    | some a, some b => some (a, b)
    | _, _ => none
  else
    match (l.filter fun x => x.1 ≤ t).getLast?, (l.filter fun x => t < x.1).head? with
    | some a, some b => some (a, b)
    | _, _ => none

/-- The window query as it is: the window must end at the last time and not begin before the first; then the
times from its beginning on, never the first; undefined behaviour with fewer than two entries. -/
def window (l : List (Entry T C)) (b e : T) : Outcome (List T) :=
  if e = maxTime l ∧ minTime l ≤ b then
    if l.length ≤ 1 then .ub else .ok ((l.tail.map (·.1)).filter fun t => b ≤ t)
  else .abort

end Verif.Manager.Table

import Verif.Manager.History

/-!
# Specification vocabulary for histories of manager operations

What a user expects a sequence of operations to do to one knot, written without reference to how the
manager works.
-/

namespace Verif.Manager

variable {T C : Type} [LinearOrder T] [Zero T]

/-- The value a time gets from a list of writes to times; the last write to that time wins. -/
def lastWrite (t : T) : List (T × C) → C → C
  | [], cur => cur
  | (t', c) :: rest, cur => lastWrite t rest (if t' = t then c else cur)

/-- The value a key gets from a list of writes to keys; the last write to that key wins. -/
def lastWriteKey (k : Key) : List (Key × C) → C → C
  | [], cur => cur
  | (k', c) :: rest, cur => lastWriteKey k rest (if k' = k then c else cur)

/-- What an operation writes to the knot with time `t` and key `k` whose value is `cur`. -/
def written (t : T) (k : Key) (cur : C) : Op T C → C
  | .insert t' c => if t' = t then c else cur
  | .insertMany ts cs => lastWrite t (ts.zip cs) cur
  | .updKey k' c => if k' = k then c else cur
  | .updKeys l => lastWriteKey k l cur
  | .modBatch ts cs => lastWrite t (ts.zip cs) cur
  | _ => cur

/-- The value last written to the knot with time `t` and key `k` by a history. -/
def lastWritten (t : T) (k : Key) : C → List (Op T C) → C
  | cur, [] => cur
  | cur, op :: rest => lastWritten t k (written t k cur op) rest

/-- The operation does not remove (or move) the knot with time `t` and key `k`. -/
def Keeps (t : T) (k : Key) (s : St T C) : Op T C → Prop
  | .removeAt t' => t' ≠ t
  | .clear => False
  | .move it _ _ => ∀ n ∈ s.m.nodes, n.addr = it → n.key ≠ k
  | _ => True

/-- No operation of the history removes or moves the knot with time `t` and key `k`. -/
def KeepsRun (t : T) (k : Key) : St T C → List (Op T C) → Prop
  | _, [] => True
  | s, op :: rest => Keeps t k s op ∧ ∀ s', step s op = .ok s' → KeepsRun t k s' rest

end Verif.Manager

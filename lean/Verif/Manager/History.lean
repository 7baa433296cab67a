import Verif.Manager.Model

/-!
# Histories of manager operations, and copying a manager
-/

namespace Verif.Manager

variable {T C : Type} [LinearOrder T] [Zero T]

/-- The public mutating operations of `LocalSupport2CoefficientManager`
(`LocalSupport2CoefficientManager.hpp` 75-165), plus `others`: other managers in the process draw
keys and allocate nodes in between. `modifyCoefficient` takes the address of a node as iterator. -/
inductive Op (T C : Type) where
  | insert (t : T) (c : C)
  | insertMany (ts : List T) (cs : List C)
  | addEnd (t : T) (c : C)
  | removeAt (t : T)
  | updKey (k : Key) (c : C)
  | updKeys (l : List (Key × C))
  | modBatch (ts : List T) (cs : List C)
  | move (it : Nat) (t : T) (c : C)
  | clear
  | others (keys allocs : Nat)

/-- Process state and one manager. -/
structure St (T C : Type) where
  w : World
  m : Mgr T C

/-- One operation. -/
def step (s : St T C) : Op T C → Outcome (St T C)
  | .insert t c => (s.m.insertCoefficient s.w t c) >>= fun r => .ok ⟨r.1, r.2.1⟩
  | .insertMany ts cs => (s.m.insertCoefficients s.w ts cs) >>= fun r => .ok ⟨r.1, r.2.1⟩
  | .addEnd t c => (s.m.addCoefficientAtEnd s.w t c) >>= fun r => .ok ⟨r.1, r.2.1⟩
  | .removeAt t => (s.m.removeCoefficientAtTime t) >>= fun m => .ok ⟨s.w, m⟩
  | .updKey k c => (s.m.updateCoefficientByKey k c) >>= fun m => .ok ⟨s.w, m⟩
  | .updKeys l => (s.m.updateCoefficients l) >>= fun m => .ok ⟨s.w, m⟩
  | .modBatch ts cs => (s.m.modifyCoefficientsValuesInBatch ts cs) >>= fun m => .ok ⟨s.w, m⟩
  | .move it t c => (s.m.modifyCoefficient s.w it t c) >>= fun r => .ok ⟨r.1, r.2⟩
  | .clear => .ok ⟨s.w, s.m.clear⟩
  | .others k a => .ok ⟨⟨s.w.calls + k, s.w.nextAddr + a⟩, s.m⟩

/-- A sequence of operations. -/
def run (s : St T C) : List (Op T C) → Outcome (St T C)
  | [] => .ok s
  | op :: rest => (step s op) >>= fun s' => run s' rest

/-- The one restriction on histories: `modifyCoefficient` may only move a knot to a time that holds
no knot. (What happens otherwise is the subject of C11.) -/
def SafeOp (s : St T C) : Op T C → Prop
  | .move _ t _ => ∀ x ∈ s.m.contents, x.1 ≠ t
  | _ => True

/-- Every operation of the history respects `SafeOp` in the state it is executed in. -/
def SafeRun (s : St T C) : List (Op T C) → Prop
  | [] => True
  | op :: rest => SafeOp s op ∧ ∀ s', step s op = .ok s' → SafeRun s' rest

/-- States reached from a freshly constructed manager, at any point of the life of the process, by a
history of operations all of which returned normally. -/
def Reachable (s : St T C) : Prop :=
  ∃ (w : World) (ops : List (Op T C)),
    SafeRun ⟨w, Mgr.empty⟩ ops ∧ run ⟨w, Mgr.empty⟩ ops = .ok s

/-! ### Copying -/

/-- The implicit copy constructor / copy assignment of the manager
(`LocalSupport2CoefficientManager.hpp` 20-21, 224-232: members only, no user-defined copy):
`timeToCoefficient_` is copied into new nodes, `keyToCoefficient_` is copied verbatim, so its
iterators still point to the nodes of the source. -/
def Mgr.copyNodes (a : Nat) : List (Node T C) → List (Node T C)
  | [] => []
  | n :: rest => { n with addr := a } :: Mgr.copyNodes (a + 1) rest

/-- See `Mgr.copyNodes`. -/
def Mgr.copy (w : World) (m : Mgr T C) : World × Mgr T C :=
  (⟨w.calls, w.nextAddr + m.nodes.length⟩, ⟨Mgr.copyNodes w.nextAddr m.nodes, m.keyMap⟩)

/-- `updateCoefficientByKey` (233-237) on `self` while another manager `other` is alive: the stored
iterator is followed wherever it points. -/
def updateByKeyIn (self other : Mgr T C) (k : Key) (c : C) : Outcome (Mgr T C × Mgr T C) :=
  match kmFind self.keyMap k with
  | none => .abort
  | some a =>
    match nodeAt self.nodes a, nodeAt other.nodes a with
    | none, none => .ub
    | _, _ => .ok ({ self with nodes := setCoefAt self.nodes a c },
                   { other with nodes := setCoefAt other.nodes a c })

/-- `getCoefficientByKey` (240-245) on `self` while `other` is alive. -/
def getByKeyIn (self other : Mgr T C) (k : Key) : Outcome C :=
  match kmFind self.keyMap k with
  | none => .abort
  | some a =>
    match nodeAt self.nodes a with
    | some n => .ok n.coef
    | none => (Outcome.deref (nodeAt other.nodes a)) >>= fun n => .ok n.coef

end Verif.Manager

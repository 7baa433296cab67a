import Verif.Manager.History

/-!
# Model of `checkInternalConsistency`

Line numbers refer to `curves/include/curves/LocalSupport2CoefficientManager-inl.hpp`.
-/

set_option linter.unusedSectionVars false

namespace Verif.Manager

variable {T C : Type} [LinearOrder T] [DecidableEq C]

/-- How a call that neither aborts nor is undefined ends: it comes back to the caller, or it ends
the process with `exit(0)` (395-397). -/
inductive Ended where
  | returned
  | exited
  deriving Repr, DecidableEq

/-- The loop (380-394) over the remaining nodes; `look` follows an iterator stored in
`keyToCoefficient_`. `itc->first` and `itc->second->second.key` are read (383) before `itc` is
compared with `end()` (384), so a key that is not in the map is undefined behaviour and the `CHECK`
of line 384 never fails. `itc->first` is the key searched for. Simplification: `==` of coefficients
(393) is equality. -/
def checkLoop (look : Nat → Option (Node T C)) (km : List (Key × Nat)) :
    List (Node T C) → Outcome Unit
  | [] => .ok ()
  | n :: rest =>
    (Outcome.deref (kmFind km n.key)) >>= fun a =>
      (Outcome.deref (look a)) >>= fun x =>
        if n.key = x.key then
          if x.coef = n.coef then checkLoop look km rest else .abort
        else .abort

/-- `checkInternalConsistency(doExit)` (376-398) on `self` while another manager `other` is alive:
iterators are followed wherever they point (see `getByKeyIn`). -/
def Mgr.checkIn (self other : Mgr T C) (doExit : Bool) : Outcome Ended :=
  if self.keyMap.length = self.nodes.length then
    (checkLoop (fun a => (nodeAt self.nodes a).or (nodeAt other.nodes a)) self.keyMap self.nodes)
      >>= fun _ => .ok (if doExit then .exited else .returned)
  else .abort

/-- `checkInternalConsistency(doExit)` (376-398) when no other manager is alive. -/
def Mgr.checkInternalConsistency (m : Mgr T C) (doExit : Bool) : Outcome Ended :=
  m.checkIn Mgr.empty doExit

end Verif.Manager

import Verif.Map.Model

/-!
# Inserting lists of times some of which are not a number
-/

set_option linter.unusedSectionVars false
set_option linter.dupNamespace false

namespace Verif.Map

open Verif.Manager

variable {T C : Type}

/-- The loop of `insertCoefficients` (LocalSupport2CoefficientManager-inl.hpp:137-143). After each insertion the tree is
balanced; `shape` says into which tree (of the nodes in order), and may choose differently each time: its first argument
is the number of insertions still to come. -/
def insertLoop (c : Cmp T) (shape : Nat → List (Node T C) → Nodes T C) (w : World) (t : Nodes T C) (km : List (Key × Nat)) :
    List (T × C) → Outcome (World × Mgr T C × List Key)
  | [] => .ok (w, ⟨t.toList, km⟩, [])
  | (k, v) :: rest =>
    insertCoefficient c w t km k v >>= fun r =>
      insertLoop c shape r.1 (shape rest.length r.2.1.nodes) r.2.1.keyMap rest >>= fun q => .ok (q.1, q.2.1, r.2.2 :: q.2.2)

end Verif.Map

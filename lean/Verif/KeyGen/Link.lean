import Verif.KeyGen.Props
import Verif.Manager.Model

/-!
# The key generator as the manager sees it

The manager model draws keys through `Manager.getNextKey`, an atomic function of the number of calls made so
far. This is what the concurrent model of the generator gives an undisturbed caller.
-/

namespace Verif.KeyGen

variable {Tid : Type} [DecidableEq Tid]

/-- C07, link. After any history, when no thread holds the mutex, a thread outside `getNextKey` that runs
without interruption returns the key `Manager.getNextKey` gives for the number of calls returned so far, and
that number grows by one, as there. -/
theorem C07_undisturbed_caller (sched : List Tid) (t : Tid) (ho : (run (init Tid) sched).owner = none)
    (hp : (run (init Tid) sched).pc t = .idle) (a : Nat) :
    let s := run (init Tid) sched
    let s' := run s [t, t, t, t, t, t]
    let w : Manager.World := ⟨s.log.length, a⟩
    s'.log = s.log ++ [(t, (Manager.getNextKey w).1)] ∧ s'.log.length = (Manager.getNextKey w).2.calls ∧
      s'.owner = none ∧ s'.pc t = .idle := by
  have h := (Inv.init (Tid := Tid)).run sched
  have hk := h.free ho
  generalize run (init Tid) sched = s at *
  simp [run, step, hp, ho, Manager.getNextKey, hk]

example : (run (run (init Nat) [0, 1, 0, 0, 0, 0, 0]) [2, 2, 2, 2, 2, 2]).log = [(0, 1), (2, 2)] := by
  decide

end Verif.KeyGen

import Mathlib.Data.Nat.Basic
import Mathlib.Logic.Function.Basic

/-!
# Concurrent model of `KeyGenerator::getNextKey`

`curves/src/KeyGenerator.cpp` 13-18:

```
size_t KeyGenerator::getNextKey() {
  static size_t key = 0;
  static boost::mutex mutex;
  boost::lock_guard<boost::mutex> guard(mutex);
  return ++key;
}
```

Any number of threads (a type `Tid`), each of which may call the function any number of times; the
scheduler picks which thread makes the next step.  `++key` is *not* atomic: it is a load, a store and
a load of the value to return.

Simplifications: the mutex gives mutual exclusion and sequential consistency (the contract of
`boost::mutex`); the initialisation of the two local statics is not modelled (`key` is
constant-initialised before any thread runs; `mutex` by the compiler's thread-safe static
initialisation).
-/

namespace Verif.KeyGen

/-- Where a thread is. -/
inductive Pc where
  /-- not inside `getNextKey` -/
  | idle
  /-- waiting in the constructor of `lock_guard` (line 16) -/
  | waiting
  /-- holds the mutex, about to evaluate `++key` (line 17) -/
  | locked
  /-- has loaded `key` -/
  | loaded (v : Nat)
  /-- has stored `v + 1` to `key` -/
  | stored
  /-- has copied the return value, about to release the mutex -/
  | done (r : Nat)
  deriving DecidableEq, Repr

/-- Shared state: the static variable, the owner of the mutex, every thread's position, and (ghost)
the list of all `(thread, key)` returned so far, oldest first. -/
structure St (Tid : Type) where
  key : Nat
  owner : Option Tid
  pc : Tid → Pc
  log : List (Tid × Nat)

/-- Program start (lines 14-15). -/
def init (Tid : Type) : St Tid := ⟨0, none, fun _ => .idle, []⟩

variable {Tid : Type} [DecidableEq Tid]

/-- One step of thread `t`; `none` if the thread cannot move (it waits for the mutex). -/
def step (s : St Tid) (t : Tid) : Option (St Tid) :=
  match s.pc t with
  | .idle => some { s with pc := Function.update s.pc t .waiting }
  | .waiting =>
    match s.owner with
    | some _ => none
    | none => some { s with owner := some t, pc := Function.update s.pc t .locked }
  | .locked => some { s with pc := Function.update s.pc t (.loaded s.key) }
  | .loaded v => some { s with key := (v + 1) % 2 ^ 64, pc := Function.update s.pc t .stored }
  | .stored => some { s with pc := Function.update s.pc t (.done s.key) }
  | .done r => some { s with owner := none, pc := Function.update s.pc t .idle,
                             log := s.log ++ [(t, r)] }

/-- Run a schedule; a thread that cannot move just loses its turn. -/
def run (s : St Tid) : List Tid → St Tid
  | [] => s
  | t :: rest => run ((step s t).getD s) rest

end Verif.KeyGen

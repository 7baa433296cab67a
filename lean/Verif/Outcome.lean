/-!
# Outcomes of a C++ call

A call to the library either returns normally, terminates the process through a failed glog
`CHECK`, throws a C++ exception, or runs into undefined behaviour.
-/

namespace Verif

/-- Result of running a piece of C++ code. `ub` is undefined behaviour (invalid iterator,
out-of-bounds access, ...): once it happens nothing is known about the program. -/
inductive Outcome (α : Type _) where
  /-- normal return -/
  | ok (a : α)
  /-- a glog `CHECK` failed: the process is aborted -/
  | abort
  /-- a C++ exception escaped -/
  | throw
  /-- undefined behaviour -/
  | ub
  deriving Repr, DecidableEq

namespace Outcome

/-- Sequencing: the first call that does not return normally decides the outcome. -/
def bind {α β : Type _} (x : Outcome α) (f : α → Outcome β) : Outcome β :=
  match x with
  | ok a => f a
  | abort => abort
  | throw => throw
  | ub => ub

instance : Monad Outcome where
  pure := ok
  bind := bind

@[simp] theorem pure_eq {α : Type _} (a : α) : (pure a : Outcome α) = ok a := rfl
@[simp] theorem ok_bind {α β : Type _} (a : α) (f : α → Outcome β) : (ok a >>= f) = f a := rfl
@[simp] theorem abort_bind {α β : Type _} (f : α → Outcome β) :
    ((abort : Outcome α) >>= f) = abort := rfl
@[simp] theorem throw_bind {α β : Type _} (f : α → Outcome β) :
    ((throw : Outcome α) >>= f) = throw := rfl
@[simp] theorem ub_bind {α β : Type _} (f : α → Outcome β) :
    ((ub : Outcome α) >>= f) = ub := rfl

theorem bind_eq_ok {α β : Type _} {x : Outcome α} {f : α → Outcome β} {b : β} :
    (x >>= f) = ok b ↔ ∃ a, x = ok a ∧ f a = ok b := by
  cases x <;> simp

/-- glog `CHECK(b)`: abort unless `b`. -/
def check (b : Bool) : Outcome Unit := if b then ok () else abort

@[simp] theorem check_true : check true = ok () := rfl
@[simp] theorem check_false : check false = abort := rfl

/-- Dereferencing something that may be invalid: undefined behaviour on `none`. -/
def deref {α : Type _} (x : Option α) : Outcome α :=
  match x with
  | some a => ok a
  | none => ub

@[simp] theorem deref_some {α : Type _} (a : α) : deref (some a) = ok a := rfl
@[simp] theorem deref_none {α : Type _} : deref (none : Option α) = ub := rfl

end Outcome
end Verif

/-!
# Outcomes of C++ operations

Undefined behaviour and exceptions are explicit results of the model, not assumptions.
-/

namespace Mcl3dl

/-- Result of running a piece of C++ code: a value, a thrown exception, or undefined behaviour.
Used for every modelled function that can index a container, divide integers, shift a signed
integer or read an uninitialised object. -/
inductive Outcome (α : Type u) where
  | ok (a : α)
  | throws (msg : String)
  | ub (why : String)
  deriving Repr, DecidableEq

namespace Outcome

/-- Sequencing: the first exception or undefined behaviour ends the execution. -/
def bind {α : Type u} {β : Type v} (x : Outcome α) (f : α → Outcome β) : Outcome β :=
  match x with
  | ok a => f a
  | throws m => throws m
  | ub w => ub w

instance : Monad Outcome where
  pure := ok
  bind := bind

/-- The execution neither threw nor was undefined. -/
def isOk {α : Type u} : Outcome α → Bool
  | ok _ => true
  | _ => false

/-- The execution was undefined. -/
def isUb {α : Type u} : Outcome α → Bool
  | ub _ => true
  | _ => false

@[simp] theorem bind_ok {α : Type u} {β : Type v} (a : α) (f : α → Outcome β) :
    (ok a).bind f = f a := rfl
@[simp] theorem bind_throws {α : Type u} {β : Type v} (m : String) (f : α → Outcome β) :
    (throws m : Outcome α).bind f = throws m := rfl
@[simp] theorem bind_ub {α : Type u} {β : Type v} (m : String) (f : α → Outcome β) :
    (ub m : Outcome α).bind f = ub m := rfl
@[simp] theorem monad_bind {α β : Type u} (x : Outcome α) (f : α → Outcome β) :
    (x >>= f) = x.bind f := rfl
@[simp] theorem monad_pure {α : Type u} (a : α) : (pure a : Outcome α) = ok a := rfl

end Outcome
end Mcl3dl

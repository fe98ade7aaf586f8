/-
Common result type of the models: a C++ call either returns normally, throws, or has undefined
behaviour.  Undefined behaviour is a distinct outcome and is never given a meaning.
-/
namespace Verif

/-- Causes of undefined behaviour that the models detect. -/
inductive UB
  | outOfBounds      -- index past the end of a `std::vector`
  | nullDeref        -- dereference of an empty `unique_ptr`
  | badCast          -- float to `size_t` conversion of a value that does not fit (negative, NaN, inf)
  | missingReturn    -- control flows off the end of a non-void function
  | emptyContainer   -- `top()`/`back()`/`front()` of an empty container
  | uninitialised    -- read of an object that was never written
  | pastEnd          -- dereference of an end iterator
  | dangling         -- use of a pointer to a destroyed object
  | overflow         -- signed integer overflow
  deriving DecidableEq, Repr

/-- C++ exceptions the code throws. -/
inductive Exn
  | outOfRange
  | invalidArgument
  | runtimeError
  | badAlloc         -- `std::bad_alloc`, `std::length_error` of a container that cannot grow
  deriving DecidableEq, Repr

/-- Outcome of a C++ call. -/
inductive Res (α : Type u)
  | ok (a : α)
  | throw (e : Exn)
  | ub (u : UB)
  deriving DecidableEq, Repr

namespace Res

variable {α : Type u} {β : Type v} {γ : Type w}

/-- Sequencing of C++ statements: an exception or undefined behaviour stops the execution. -/
def bind (x : Res α) (f : α → Res β) : Res β :=
  match x with
  | ok a => f a
  | throw e => throw e
  | ub u => ub u

/-- Post-processing of a normal result. -/
def map (f : α → β) (x : Res α) : Res β := x.bind fun a => ok (f a)

@[simp] theorem bind_ok (a : α) (f : α → Res β) : (ok a).bind f = f a := rfl
@[simp] theorem bind_throw (e : Exn) (f : α → Res β) : (throw e : Res α).bind f = throw e := rfl
@[simp] theorem bind_ub (u : UB) (f : α → Res β) : (ub u : Res α).bind f = ub u := rfl
@[simp] theorem map_ok (a : α) (f : α → β) : (ok a).map f = ok (f a) := rfl
@[simp] theorem map_throw (e : Exn) (f : α → β) : (throw e : Res α).map f = throw e := rfl
@[simp] theorem map_ub (u : UB) (f : α → β) : (ub u : Res α).map f = ub u := rfl

instance : Monad Res where
  pure := ok
  bind := bind

@[simp] theorem pure_eq (a : α) : (pure a : Res α) = ok a := rfl
@[simp] theorem bind_eq {α β : Type u} (x : Res α) (f : α → Res β) : (x >>= f) = x.bind f := rfl

theorem bind_eq_ok {x : Res α} {f : α → Res β} {b : β} :
    x.bind f = ok b ↔ ∃ a, x = ok a ∧ f a = ok b := by
  cases x <;> simp

theorem map_eq_ok {x : Res α} {f : α → β} {b : β} :
    x.map f = ok b ↔ ∃ a, x = ok a ∧ f a = b := by
  cases x <;> simp

/-- The outcome is undefined behaviour. -/
def IsUB (x : Res α) : Prop := ∃ u, x = ub u

/-- The call returns normally. -/
def IsOk (x : Res α) : Prop := ∃ a, x = ok a

end Res

end Verif

import Verif.Model.Basic
/-
Model of src/Stack.c: a stack of pointers over a caller-supplied array of `maxElements` slots.
-/
namespace ONA

/-- `Stack` (src/Stack.h 41-46). `items` is the slot array, `none` a NULL/unused slot. -/
structure Stack (α : Type) where
  items : Nat → Option α
  stackpointer : Nat
  maxElements : Nat

namespace Stack
variable {α : Type}

/-- `Stack_INIT` (src/Stack.c 27-32). -/
def init (items : Nat → Option α) (maxElements : Nat) : Stack α :=
  { items := items, stackpointer := 0, maxElements := maxElements }

/-- `Stack_Push` (src/Stack.c 34-39). The write precedes the check: on a full stack it goes one slot past
the array before the assertion terminates the program, which is reported as `ub`. -/
def push (s : Stack α) (item : α) : R (Stack α) :=
  if s.stackpointer < s.maxElements then
    .ok { s with items := upd s.items s.stackpointer (some item), stackpointer := s.stackpointer + 1 }
  else .error (.ub "Stack_Push writes past the array")

/-- `Stack_Pop` (src/Stack.c 41-46). -/
def pop (s : Stack α) : R (Option α × Stack α) :=
  if s.stackpointer = 0 then .error (.assertFail "VMEntry stack underflow")
  else .ok (s.items (s.stackpointer - 1), { s with stackpointer := s.stackpointer - 1 })

/-- `Stack_IsEmpty` (src/Stack.c 48-51). -/
def isEmpty (s : Stack α) : Bool := s.stackpointer == 0

end Stack
end ONA

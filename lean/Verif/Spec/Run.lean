import Verif.Spec.System
/-
What a call of the interface may do to the state: a sequence of elementary changes, executions of operations, inputs,
answers and clock ticks.
-/
namespace ONA
variable [Arith]

/-- The line is an answer to a question. -/
def Output.IsAnswer : Output → Prop
  | .answerNone => True
  | .answer .. => True
  | _ => False

/-- The number of executed operations in the printed lines. -/
def executions (log : List Output) : Nat :=
  (log.filter fun o => match o with | .executed .. => true | _ => false).length

/-- `Run n s0 t x s`: from `s0` to `s` with `t` ticks of the clock and `x` executed operations, the vocabulary being
`n`. -/
inductive Run (n : Narsese) (s0 : Sys) : Nat → Nat → Sys → Prop where
  | refl : Run n s0 0 0 s0
  | step {t x s s'} : Run n s0 t x s → Step n s s' → Run n s0 t x s'
  | execute {t x s} (k : Nat) (action : Term → Feedback) (args : Term) : Run n s0 t x s →
      (s.operations k).action = some action → Justified s (k + 1) → OwnArguments n args →
      Run n s0 t (x + 1) { s with output := s.output ++ [.executed (s.operations k).term args] }
  | input {t x s} (term : Term) (type : EventType) (truth : Truth) (offset : ℚ) : Run n s0 t x s →
      Run n s0 t x { s with event := (Event_InputEvent s.event term type truth offset s.currentTime).2 }
  | answer {t x s} (lines : List Output) : Run n s0 t x s → (∀ o ∈ lines, o.IsAnswer) →
      Run n s0 t x { s with output := s.output ++ lines }
  | tick {t x s} : Run n s0 t x s → Run n s0 (t + 1) x { s with currentTime := s.currentTime + 1 }

end ONA

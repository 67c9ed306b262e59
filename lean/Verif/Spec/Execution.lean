import Verif.Spec.Anticipation
/-
The execution of an operation (C84): what is called, and what the system learns from it.
-/
namespace ONA
variable [Arith]

/-- The statement that the operation was executed with these arguments: `<arguments --> op>`, or `op` if there are none. -/
inductive Execution (op : Term) (arguments : Term) : Term → Prop
  | plain : arguments.get 0 = 0 → Execution op arguments op
  | applied (t : Term) : arguments.get 0 ≠ 0 → buildCompound (copulaAtom INHERITANCE) arguments op = (true, t) → Execution op arguments t

/-- The state after a line has been printed. -/
abbrev Sys.printing (s : Sys) (o : Output) : Sys := { s with output := s.output ++ [o] }

/-- The result of an operation: the values returned by the registered function, or, if the operation reports on the standard input,
the values with which its arguments become the ones on the next line. There is none if the input has ended or they do not match. -/
inductive Result (n : Narsese) (op : Operation) (arguments : Term) (returned : Substitution) (s : Sys) : Option Substitution → Sys → Prop
  | returned : op.stdinOutput = false → Result n op arguments returned s (some { returned with success := true }) s
  | ended : op.stdinOutput = true → s.stdin = [] → Result n op arguments returned s none s
  | nothing (rest : List (Option Term)) : op.stdinOutput = true → s.stdin = none :: rest →
      Result n op arguments returned s none { s with stdin := rest }
  | different (reported : Term) (rest : List (Option Term)) (subs : Substitution) : op.stdinOutput = true →
      s.stdin = some reported :: rest → Variable_Unify n (Term_ExtractSubterm arguments 2) reported = .ok subs → subs.success = false →
      Result n op arguments returned s none { s with stdin := rest }
  | reported (reported : Term) (rest : List (Option Term)) (subs : Substitution) : op.stdinOutput = true →
      s.stdin = some reported :: rest → Variable_Unify n (Term_ExtractSubterm arguments 2) reported = .ok subs → subs.success = true →
      Result n op arguments returned s (some subs) { s with stdin := rest }

/-- The assumption that the operation fails in a case not experienced before. If the decision was taken because of a link with
variables, and the system has no experience with their present values, then it is assumed that the specific link will fail: its evidence
is weakened, in the concept of its consequence. -/
inductive AssumesFailure (n : Narsese) (now : Int) (d : Decision) (s : Sys) : Sys → Prop
  | experienced : d.missing_specific_implication.term.get 0 = 0 → AssumesFailure n now d s s
  | refused (s' : Sys) : d.missing_specific_implication.term.get 0 ≠ 0 →
      Memory_Conceptualize n (Term_ExtractSubterm d.missing_specific_implication.term 2) now s = .ok (none, s') →
      AssumesFailure n now d s s'
  | new (c p : Nat) (v : Truth) (s1 s' : Sys) : d.missing_specific_implication.term.get 0 ≠ 0 →
      Memory_Conceptualize n (Term_ExtractSubterm d.missing_specific_implication.term 2) now s = .ok (some c, s1) →
      d.reason = some p → Disappointment s1 (s1.concept_storage p).belief_spike d.missing_specific_implication v →
      Weakens d.operationID c d.missing_specific_implication v s1 s' → AssumesFailure n now d s s'

/-- The operation of the decision is executed. The line is printed, and then the function registered for it is called with the
arguments, exactly if the statement that it was executed fits into a term. If the function fails, or there is no result, this is all.
Otherwise the system is `told` that the operation was executed with these arguments, with the values of the result in the place of the
variables. -/
inductive Executed (n : Narsese) (told : Term → Sys → Sys → Prop) (now : Int) (d : Decision) (s : Sys) : Sys → Prop
  | large : (∀ t, ¬ Execution (s.operations (d.operationID - 1)).term d.arguments t) → Executed n told now d s s
  | failed (t : Term) (action : Term → Feedback) : Execution (s.operations (d.operationID - 1)).term d.arguments t →
      (s.operations (d.operationID - 1)).action = some action → (action d.arguments).failed = true →
      Executed n told now d s (s.printing (.executed (s.operations (d.operationID - 1)).term d.arguments))
  | unknown (t : Term) (action : Term → Feedback) (s1 : Sys) : Execution (s.operations (d.operationID - 1)).term d.arguments t →
      (s.operations (d.operationID - 1)).action = some action → (action d.arguments).failed = false →
      Result n (s.operations (d.operationID - 1)) d.arguments (action d.arguments).subs
        (s.printing (.executed (s.operations (d.operationID - 1)).term d.arguments)) none s1 → Executed n told now d s s1
  | unfit (t : Term) (action : Term → Feedback) (subs : Substitution) (t' : Term) (s1 : Sys) :
      Execution (s.operations (d.operationID - 1)).term d.arguments t →
      (s.operations (d.operationID - 1)).action = some action → (action d.arguments).failed = false →
      Result n (s.operations (d.operationID - 1)) d.arguments (action d.arguments).subs
        (s.printing (.executed (s.operations (d.operationID - 1)).term d.arguments)) (some subs) s1 →
      Variable_ApplySubstitute n t subs = .ok (t', false) → Executed n told now d s s1
  | done (t : Term) (action : Term → Feedback) (subs : Substitution) (t' : Term) (s1 s2 s' : Sys) :
      Execution (s.operations (d.operationID - 1)).term d.arguments t →
      (s.operations (d.operationID - 1)).action = some action → (action d.arguments).failed = false →
      Result n (s.operations (d.operationID - 1)) d.arguments (action d.arguments).subs
        (s.printing (.executed (s.operations (d.operationID - 1)).term d.arguments)) (some subs) s1 →
      Variable_ApplySubstitute n t subs = .ok (t', true) → told t' s1 s2 → AssumesFailure n now d s2 s' → Executed n told now d s s'

end ONA

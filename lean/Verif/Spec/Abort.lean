import Verif.Spec.API
/-
The ways in which a call of the API can end abnormally. Every assertion of the code, every array access and every pointer
dereference of the model which is not listed here is shown not to fail (property C71).
-/
namespace ONA

/-- The abnormal ends of a call. The comments say what brings them about. -/
inductive Abort : Err → Prop where
  /-- src/Memory.c 372: the stack is used up by `Memory_AddEvent`, which calls itself for a revised belief. A belief with an empty
  stamp can be revised with itself again and again; such a belief can come from src/Decision.c 40. -/
  | stack : Abort (.ub "stack overflow")
  /-- A division by zero in a truth function or a similarity: a confidence of exactly 1 (src/Truth.c 38), or
  `*similaritydistance=0` (src/Variable.c 104). -/
  | nan : Abort .nan
  /-- src/Variable.c 74: a variable which is not one of `$1`..`$9`, `#1`..`#9`, `?1`..`?9`, such as `$x`. -/
  | unify : Abort (.assertFail "Variable_Unify: Problematic variable encountered")
  /-- src/Variable.c 137: the same. -/
  | substitute : Abort (.assertFail "Variable_ApplySubstitute: Problematic variable encountered")
  /-- src/Variable.c 443: more than nine different variables of a kind. -/
  | normalize : Abort (.assertFail "Variable overflow in variable normalization!")
  /-- src/Narsese.c 863: similarity of atoms, one of the terms being shorter. -/
  | noAtom : Abort (.assertFail "Narsese_hasAtomValue: Atom was zero")
  /-- src/Inference.c 175: rounding, or a confidence above `MAX_CONFIDENCE` (property C26). -/
  | revision : Abort (.assertFail "Revision outcome can't be lower in confidence than existing event")
  /-- src/Memory.c 424: a goal whose time is -1, such as one derived after `*currenttime=-1`. -/
  | eternalGoal : Abort (.assertFail "Eternal goals are not supported")
  /-- src/Memory.c 430: the concept of a revised belief was forgotten while the belief was being added. -/
  | eventType : Abort (.assertFail "Erroneous event type")
  /-- src/NAL.c 291: a conjunction or disjunction sign in the second half of the array of atoms. -/
  | junction : Abort (.ub "read outside term")
  /-- src/Memory.c 469: a link of another term, left by a concept which was forgotten in the middle of a function. -/
  | link : Abort (.assertFail "Link should not be in this table")
  /-- src/Decision.c 549: no link was considered, but `DECISION_THRESHOLD` is not positive. -/
  | reason : Abort (.ub "NULL reason")
  /-- src/Decision.c 208: an operation without procedure. -/
  | action : Abort (.ub "NULL action")
  /-- src/Decision.c 283: `*babblingops=0`. -/
  | babblingOps : Abort (.ub "modulo by zero")
  /-- src/Inference.c 101, 184: as `link`. -/
  | implication : Abort (.assertFail "Not a valid implication term!")
  /-- src/Decision.c 438: as `link`. -/
  | temporal : Abort (.assertFail "This should be a temporal implication!")
  /-- src/Decision.c 326: the operations of a link do not fit into a term. -/
  | badOperation : Abort (.assertFail "Failed to extract operation in bad implication!")
  /-- src/Decision.c 363: the same. -/
  | consideredOperation : Abort (.assertFail "Failed to extract operation in considered implication!")
  /-- src/Decision.c 394: an input link with more than one operation, `<((a &/ ^op1) &/ ^op2) =/> g>`. -/
  | operations : Abort (.assertFail "Operation sequence longer than the FIFO can build")
  /-- src/Decision.c 620: a belief event of time -1. -/
  | eternalPrecondition : Abort (.assertFail "Precondition should not be eternal!")
  /-- src/Inference.c 42: a belief event of the future, from a declarative implication with a time difference. -/
  | future : Abort (.assertFail "after(b,a) violated in Inference_BeliefIntersection")
  /-- src/Inference.c 58: as `future`; the event of an operation would have to be replaced by a later one while it is being
  combined with preconditions (src/Cycle.c 421, 446). -/
  | induction : Abort (.assertFail "after(b,a) violated in Inference_BeliefInduction")
  /-- src/Cycle.c 169: a goal which is a sequence of six elements. -/
  | sequence : Abort (.assertFail "The sequence was longer than MAX_SEQUENCE_LEN")
  /-- src/Cycle.c 173: a goal which is a sequence of five elements. -/
  | components : Abort (.ub "componentGoalsTerm written past the end")
  /-- src/Cycle.c 709, src/Stats.c 63: inference or the statistics at time 0, after `*currenttime=0`. -/
  | clock : Abort (.ub "division by zero")

/-! ### Refused arguments

Texts, names and numbers which a call does not accept. -/

/-- A name is refused: src/Narsese.c 312. -/
inductive NameError : Err → Prop where
  /-- The table of names is full. -/
  | full : NameError (.assertFail "Too many terms for NAR")

/-- The text of a term is refused. -/
inductive TermError : Err → Prop where
  | name {e} : NameError e → TermError e
  /-- src/Narsese.c 48 -/
  | long : TermError (.assertFail "NARSESE_LEN_MAX too small")
  /-- src/Narsese.c 256: more tokens than the array has cells. -/
  | tokens : TermError (.ub "Narsese_PrefixTransform: tokens")
  /-- src/Narsese.c 350: a name too deep in the term. -/
  | size : TermError (.assertFail "COMPOUND_TERM_SIZE_MAX too small")
  /-- src/Narsese.c 338: a copula too deep in the term. -/
  | deep : TermError (.ub "buildBinaryTree: atoms")
  /-- src/Narsese.c 331: an empty text. -/
  | empty : TermError (.ub "buildBinaryTree: NULL token")
  /-- src/Narsese.c 337: nothing after an opening bracket. -/
  | bracket : TermError (.ub "buildBinaryTree: NULL copula")
  /-- src/Variable.c 443: more than nine different variables of a kind. -/
  | variables : TermError (.assertFail "Variable overflow in variable normalization!")

/-- The text of a sentence is refused. -/
inductive SentenceError : Err → Prop where
  | term {e} : TermError e → SentenceError e
  /-- src/Narsese.c 404 -/
  | short : SentenceError (.assertFail "Parsing error: Narsese string too short!")
  /-- src/Narsese.c 405 -/
  | long : SentenceError (.assertFail "Parsing error: Narsese string too long!")
  /-- src/Narsese.c 431 -/
  | space : SentenceError (.assertFail "Parsing error: Space before truth value required!")
  /-- src/Narsese.c 445 -/
  | punctuation : SentenceError (.assertFail "Parsing error: Punctuation")
  /-- src/Narsese.c 384-392: `dt=` without a blank after the number, -/
  | dtEnd : SentenceError (.ub "Narsese_Sentence: dt not terminated")
  /-- with a number of 27 or more characters, -/
  | dtLong : SentenceError (.ub "Narsese_Sentence: dt overflow")
  /-- or without a number. -/
  | dtNone : SentenceError (.ub "Narsese_Sentence: dt uninitialised")
  /-- src/Narsese.c 418: no opening sign of a truth value. -/
  | opener : SentenceError (.ub "Narsese_Sentence: truth value opener")
  /-- src/Narsese.c 431: nothing before the truth value. -/
  | before : SentenceError (.ub "Narsese_Sentence: before truth value")
  /-- src/Narsese.c 419-428: an unreadable truth value. -/
  | truth : SentenceError (.ub "uninitialised truth value")
  /-- Exponents and hexadecimal numbers are not modelled. -/
  | number : SentenceError (.ub "number format not modelled")
  /-- src/Narsese.c 444: a tense without a sentence. -/
  | noPunctuation : SentenceError (.ub "Narsese_Sentence: punctuation")

/-- A belief, goal or question given as text is refused. -/
inductive InputError : Err → Prop where
  | sentence {e} : SentenceError e → InputError e
  /-- src/NAR.c 290: a goal without tense. -/
  | eternalGoal : InputError (.assertFail "Eternal goals are not supported!")
  /-- src/NAR.c 294: a belief with the tense of the future or past. -/
  | tense : InputError (.assertFail "Future and past belief events are not supported!")

/-- The registration of an operation is refused. -/
inductive OperationError : Err → Prop where
  | name {e} : NameError e → OperationError e
  /-- src/NAR.c 84 -/
  | operator : OperationError (.assertFail "This atom does not belong to an operator!")
  /-- src/NAR.c 90 -/
  | many : OperationError (.assertFail "Too many operators, increase OPERATIONS_MAX!")

/-- A measured value is refused (`*setvalue`, `*space`). -/
inductive ValueError : Err → Prop where
  | name {e} : NameError e → ValueError e
  /-- src/Shell.c 312 -/
  | granularity : ValueError (.assertFail "Granularity out of bounds or parameter order not respected!")
  /-- src/Shell.c 339 -/
  | space : ValueError (.assertFail "Granularity out of bounds!")
  /-- src/Shell.c 318-329: the name with the value does not fit into its buffer. -/
  | buffer : ValueError (.ub "setvalue: buffer overflow")
  /-- src/Narsese.c 854: the last name of a full table has the number 0. -/
  | zero : ValueError (.assertFail "Narsese_setAtomValue: Atom was zero")

/-- How each call can refuse its arguments. -/
def Command.Refuses : Command → Err → Prop
  | .reset, e => NameError e
  | .setValue .., e => ValueError e
  | .space .., e => ValueError e
  | .setOpName .., e => NameError e ∨
      e = .assertFail "Operators can only be registered right after initialization / reset!" ∨
      e = .assertFail "Operator index out of bounds, it can only be between 1 and OPERATIONS_MAX!"
  | .setOpArg .., e => TermError e ∨
      e = .assertFail "Operator index out of bounds, it can only be between 1 and OPERATIONS_MAX!" ∨
      e = .assertFail "Operator arg index out of bounds, it can only be between 1 and OPERATIONS_BABBLE_ARGS_MAX!"
  | .setOpStdin _, e => e = .ub "setopstdin: out of bounds"
  | .query .., e => InputError e ∨ e = .assertFail "Query truth exp out of bounds!"
  | .narsese _, e => InputError e
  | _, _ => False

/-- How each call can refuse its arguments. -/
def Call.Refuses : Call → Err → Prop
  | .init, _ => False
  | .addInput .., _ => False
  | .addOperation .., e => OperationError e
  | .addNarsese .., e => InputError e
  | .command c, e => c.Refuses e

/-- A line of the shell cannot be read. -/
inductive LineError : Err → Prop where
  /-- Exponents and hexadecimal numbers are not modelled. -/
  | number : LineError (.ub "number format not modelled")
  /-- src/Shell.c 213 and others: no number where one is needed, the variable stays uninitialised. -/
  | noNumber : LineError (.ub "uninitialised number")
  /-- `*babblingops=` with a negative number is not modelled. -/
  | negative : LineError (.ub "negative number of operations not modelled")
  /-- A number of steps which is not an `int`. -/
  | steps : LineError (.ub "number of steps")
  /-- `*stampimport=[` without closing bracket, -/
  | bracket : LineError (.ub "stampimport: no closing bracket")
  /-- or with more than 999 characters. -/
  | buffer : LineError (.ub "stampimport: buffer overflow")

/-- Failures of assertions and accesses which would be mistakes of the program itself: none of them may occur. -/
def internalFailures : List Err :=
  [.assertFail " confidence out of bounds",
   .assertFail " frequency out of bounds",
   .assertFail "(666) confidence out of bounds",
   .assertFail "A conjunction is expected here!",
   .assertFail "A different event type made it into belief events!",
   .assertFail "A substitution from unsuccessful unification cannot be used to substitute variables!",
   .assertFail "An implication is expected here!",
   .assertFail "Attempted to add an implication without source concept!",
   .assertFail "Bad params, increase projection decay or decrease event belief distance!",
   .assertFail "Cycle_GoalSequenceDecomposition: The substitution succeeded before but not now!",
   .assertFail "Cycle_ProcessSensorimotorEvent triggered by eternal event",
   .assertFail "Deletion and re-addition should have succeeded",
   .assertFail "HashTable deletion failed, item was not found!",
   .assertFail "If it's not atomic, it needs to be an operation with args here",
   .assertFail "NAR not initialized yet, call NAR_INIT first!",
   .assertFail "Narsese_getAtomValue: Atom was zero",
   .assertFail "No item was popped, only acceptable reason is when it's empty",
   .assertFail "OccurrenceTimeIndex shift out of bounds!",
   .assertFail "Only belief and goals events can be added to cycling events queue!",
   .assertFail "VMEntry stack underflow",
   .assertFail "Wrong operation id, did you inject an event manually?",
   .ub "NULL chain element",
   .ub "NULL concept",
   .ub "NULL dereference in HashTable_Delete",
   .ub "NULL key",
   .ub "NULL node",
   .ub "NULL source concept",
   .ub "OccurrenceTimeIndex read",
   .ub "PriorityQueue_PopAt",
   .ub "PriorityQueue_PopMax",
   .ub "PriorityQueue_PopMin",
   .ub "PriorityQueue_Push",
   .ub "PriorityQueue_Rebuild",
   .ub "Stack_Push writes past the array",
   .ub "negative bucket index",
   .ub "write outside term"]

/-- The bounds of the model suffice for a memory of the given size. The model bounds the number of elements visited by a traversal
of the inverted atom index (`fuel.chain`) and the number of operations whose feedback is being processed (`fuel.depth`), as the
code does not, and ends with the error `fuel` when a bound is exceeded. -/
def Fuel.Covers (fuel : Fuel) (concepts : Nat) : Prop :=
  (BELIEF_CONCEPT_MATCH_TARGET + 1) * (UNIFICATION_DEPTH * concepts + 1) ≤ fuel.chain ∧ fuel.depth ≠ 0

end ONA

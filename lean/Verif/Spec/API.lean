import Verif.Model.Shell
import Verif.Proofs.Narsese
import Verif.Spec.Run
/-
Histories of calls of the interface: the C functions of src/NAR.h and the commands of the shell.
-/
namespace ONA

/-- The sizes of the fixed arrays. -/
structure Sizes where
  memory : MemorySizes
  atoms : Nat

/-- The sizes of src/Config.h. -/
def Sizes.program : Sizes := ⟨MemorySizes.program, ATOMS_MAX⟩

/-- Sizes with which the program can start: the names of `Narsese_INIT` fit, and no array is empty. -/
structure Sizes.Ok (z : Sizes) : Prop where
  atoms : 63 ≤ z.atoms
  concepts : 0 < z.memory.concepts
  buckets : 0 < z.memory.buckets
  beliefs : 0 < z.memory.beliefEvents
  goals : 0 < z.memory.goalEvents

theorem Sizes.program_ok : Sizes.program.Ok := by
  refine ⟨?_, ?_, ?_, ?_, ?_⟩ <;> decide

variable [Arith]

/-- A call. -/
inductive Call where
  /-- `NAR_INIT` -/
  | init
  /-- `NAR_AddInput`, hence `NAR_AddInputBelief` and `NAR_AddInputGoal` -/
  | addInput (term : Term) (type : EventType) (truth : Truth) (eternal : Bool) (occurrenceTimeOffset : ℚ)
  /-- `NAR_AddOperation` -/
  | addOperation (name : CStr) (procedure : Term → Feedback)
  /-- `NAR_AddInputNarsese2`, hence `NAR_AddInputNarsese` -/
  | addNarsese (text : CStr) (queryCommand : Bool) (threshold : ℚ)
  /-- a command of the shell, among them `NAR_Cycles` -/
  | command (c : Command)

/-- Running a call. -/
def Call.run (z : Sizes) (fuel : Fuel) (n : Narsese) (s : Sys) : Call → R (Narsese × Sys)
  | .init => NAR_INIT_sizes z.memory z.atoms s
  | .addInput term type truth eternal offset => do
    let (_, s) ← NAR_AddInput n fuel term type truth eternal offset s
    .ok (n, s)
  | .addOperation name procedure => NAR_AddOperation n name procedure s
  | .addNarsese text queryCommand threshold => NAR_AddInputNarsese2 n fuel text queryCommand threshold s
  | .command c => c.run z.memory z.atoms fuel n s

/-- The terms the process will read for operations use the names of `Narsese_INIT` only. -/
def InitialStdin (s : Sys) : Prop := ∀ t, some t ∈ s.stdin → ∀ i, (t.get i).toNat ≤ 63

/-- The truth value written in a belief or goal is valid (the parser does not check it). -/
def ValidText (n : Narsese) (text : CStr) : Prop :=
  ∀ sentence n', Narsese_Sentence n text = .ok (sentence, n') → sentence.punctuation ≠ '?' → sentence.truth.Valid

/-- What the caller has to respect. -/
def Command.Legal (n : Narsese) (s : Sys) : Command → Prop
  | .reset => InitialStdin s
  | .parameter .anticipationConfidence v => Unit01 v
  | .parameter .questionPriming v => v ≤ 1
  | .stampImport ids => (0 : Int) ∉ ids
  | .query _ text => ValidText n text
  | .narsese text => ValidText n text
  | _ => True

/-- What the caller has to respect: terms are built from registered names, truth values are valid. -/
def Call.Legal (n : Narsese) (s : Sys) : Call → Prop
  | .init => InitialStdin s
  | .addInput term _ truth _ _ => n.Knows term ∧ truth.Valid
  | .addOperation _ procedure => ∀ args, n.KnowsSubs (procedure args).subs.map
  | .addNarsese text _ _ => ValidText n text
  | .command c => c.Legal n s

/-- The state of the process before the first `NAR_INIT`: the parameters have sensible values. Everything else may be
arbitrary. -/
structure Startable (s : Sys) : Prop where
  anticipation : Unit01 s.ANTICIPATION_CONFIDENCE
  importstamp : s.event.importstamp.WF
  priming : s.QUESTION_PRIMING ≤ 1
  stdin : InitialStdin s

/-- The states after `NAR_INIT` and any sequence of legal calls. -/
inductive Reachable (z : Sizes) : Narsese → Sys → Prop where
  | start {s0 n s} : Startable s0 → NAR_INIT_sizes z.memory z.atoms s0 = .ok (n, s) → Reachable z n s
  | call {n s n' s'} (fuel : Fuel) (c : Call) : Reachable z n s → c.Legal n s → c.run z fuel n s = .ok (n', s') →
      Reachable z n' s'

/-- The memory is the same: concepts, their index, and the attention buffers. -/
structure SameMemory (s s' : Sys) : Prop where
  concepts : s'.concepts = s.concepts
  concept_storage : s'.concept_storage = s.concept_storage
  HTconcepts : s'.HTconcepts = s.HTconcepts
  index : s'.index = s.index
  concept_id : s'.concept_id = s.concept_id
  cycling_belief_events : s'.cycling_belief_events = s.cycling_belief_events
  cycling_belief_event_storage : s'.cycling_belief_event_storage = s.cycling_belief_event_storage
  cycling_goal_events : s'.cycling_goal_events = s.cycling_goal_events
  cycling_goal_event_storage : s'.cycling_goal_event_storage = s.cycling_goal_event_storage

/-- The memory is empty. -/
structure EmptyMemory (z : Sizes) (s : Sys) : Prop where
  concepts : s.concepts = freshQueue z.memory.concepts
  concept_storage : s.concept_storage = fun _ => Concept.zero
  cycling_belief_events : s.cycling_belief_events = freshQueue z.memory.beliefEvents
  cycling_belief_event_storage : s.cycling_belief_event_storage = fun _ => Event.zero
  cycling_goal_events : s.cycling_goal_events = fun _ => freshQueue z.memory.goalEvents
  cycling_goal_event_storage : s.cycling_goal_event_storage = fun _ _ => Event.zero

/-- What a call does: it starts anew with an empty memory, or it is a run, possibly after a change of settings. -/
inductive Effect (z : Sizes) (n : Narsese) (s : Sys) (n' : Narsese) (s' : Sys) : Prop where
  | restart : EmptyMemory z s' → Effect z n s n' s'
  | run (s1 : Sys) (t x : Nat) : n.Extends n' → SameMemory s s1 → Good n' s1 → Run n' s1 t x s' → Effect z n s n' s'

end ONA

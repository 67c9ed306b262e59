import Verif.Spec.API
/-
Settings of the system and the registry of operations, for C47 and C67: what the calls do to them.
-/
namespace ONA
variable [Arith]

/-- The adjustable parameters. -/
structure Settings where
  restrictedConceptCreation : Bool
  conditionThreshold : ℚ
  decisionThreshold : ℚ
  anticipationThreshold : ℚ
  anticipationConfidence : ℚ
  motorBabbling : ℚ
  babblingOps : Nat
  questionPriming : ℚ
  similarityDistance : ℚ

/-- The parameters in a state. -/
def Sys.settings (s : Sys) : Settings :=
  ⟨s.RESTRICTED_CONCEPT_CREATION, s.CONDITION_THRESHOLD, s.DECISION_THRESHOLD, s.ANTICIPATION_THRESHOLD,
    s.ANTICIPATION_CONFIDENCE, s.MOTOR_BABBLING_CHANCE, s.BABBLING_OPS, s.QUESTION_PRIMING, s.similarity_distance⟩

/-- What a call does to the parameters. -/
def Call.settings (c : Call) (p : Settings) : Settings := match c with
  | .init => { p with restrictedConceptCreation := false }
  | .command .reset => { p with restrictedConceptCreation := false }
  | .command (.restrictedConceptCreation b) => { p with restrictedConceptCreation := b }
  | .command (.parameter .anticipationConfidence v) => { p with anticipationConfidence := v }
  | .command (.parameter .decisionThreshold v) => { p with decisionThreshold := v }
  | .command (.parameter .similarityDistance v) => { p with similarityDistance := v }
  | .command (.parameter .motorBabbling v) => { p with motorBabbling := v }
  | .command (.parameter .questionPriming v) => { p with questionPriming := v }
  | .command (.babblingOps k) => { p with babblingOps := k }
  | _ => p

/-- The registered operations, in order: names (as far as they are significant) and procedures. -/
abbrev Registry := List (CStr × (Term → Feedback))

/-- Registering an operation: a known name gets the new procedure, a new name is put at the end. -/
def Registry.register (r : Registry) (name : CStr) (f : Term → Feedback) : Registry :=
  if truncName name ∈ r.map Prod.fst then r.map fun e => if e.1 = truncName name then (truncName name, f) else e
  else r ++ [(truncName name, f)]

/-- What a call does to the registry: `NAR_INIT` empties it, the shell's `*reset` registers the operations of the shell. -/
def Call.registry (c : Call) (r : Registry) : Registry := match c with
  | .init => []
  | .addOperation name f => r.register name f
  | .command .reset => shellOperations.foldl (fun r name => Registry.register r name Shell_op_nop) []
  | _ => r

/-- Calls which do not rename operations of the registry in place; a registered name has a character after the `^`, and
less than 65536 names are in use. -/
def Call.Registers (n' : Narsese) (c : Call) : Prop := match c with
  | .addOperation name _ => 2 ≤ name.length ∧ n'.term_index < 2 ^ 16
  | .command (.setOpName _ _) => False
  | _ => True

/-- `NAR_INIT` and a sequence of calls, with the registry they lead to. -/
inductive Session (z : Sizes) : Narsese → Sys → Registry → Prop where
  | start {s0 n s} : Startable s0 → NAR_INIT_sizes z.memory z.atoms s0 = .ok (n, s) → Session z n s []
  | call {n s n' s' r} (fuel : Fuel) (c : Call) : Session z n s r → c.Legal n s → c.Registers n' →
      c.run z fuel n s = .ok (n', s') → Session z n' s' (c.registry r)

/-- The term is the operation of the given name, or applies it to arguments. -/
def OperationNamed (n : Narsese) (t : Term) (name : CStr) : Prop :=
  Narsese_getOperationAtom n t ≠ 0 ∧ n.nameOf (Narsese_getOperationAtom n t) = name

end ONA

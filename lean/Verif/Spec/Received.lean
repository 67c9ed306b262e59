import Verif.Spec.Related
/-
What a concept receives of an event with variables.
-/
namespace ONA
variable [Arith]

/-- What the concept in cell `c` receives of an event with variables at the time `now`: the term of the concept is an instance of
the term of the event, and it receives the event about this instance. -/
def Sys.Receives (n : Narsese) (s : Sys) (c : Nat) (ev : Event) (now : Int) (e : Event) : Prop :=
  ∃ subs t, Variable_Unify n ev.term (s.concept_storage c).term = .ok subs ∧ subs.success = true ∧
    Variable_ApplySubstitute n ev.term subs = .ok (t, true) ∧
    e = { ev with term := t, processed := true, creationTime := now }

end ONA

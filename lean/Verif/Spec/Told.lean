import Verif.Spec.Links
import Verif.Spec.Question
/-
What is told is remembered (C72).
-/
namespace ONA

/-- There is a concept of the term with an eternal belief about it, of at least the given confidence. -/
def Sys.BeliefStored (s : Sys) (t : Term) (confidence : ℚ) : Prop :=
  ∃ c ∈ s.live, s.termOf c = t ∧ (s.concept_storage c).belief.type ≠ .deleted ∧
    confidence ≤ (s.concept_storage c).belief.truth.confidence

/-- The confidence with which a belief is remembered in the long run: that of the input for a belief without tense, that of the
eternalised truth value for an event; never more than `MAX_CONFIDENCE`. -/
def toldConfidence [Arith] (truth : Truth) (eternal : Bool) : ℚ :=
  if eternal then min MAX_CONFIDENCE truth.confidence
  else match Truth_Eternalize truth with
    | .ok v => min MAX_CONFIDENCE v.confidence
    | .error _ => 0

/-- There are no query variables in the term. -/
def NoQueryVariables (n : Narsese) (t : Term) : Prop := ∀ i, Variable_isQueryVariable n (t.get i) = false

/-- The text is a belief with the given tense and truth value, read as the given (reduced) term. -/
def ReadsBelief [Arith] (n : Narsese) (text : CStr) (n' : Narsese) (t : Term) (tense : Nat) (truth : Truth) : Prop :=
  ∃ sentence, Narsese_Sentence n text = .ok (sentence, n') ∧ sentence.punctuation = '.' ∧ sentence.tense = tense ∧
    sentence.truth = truth ∧ t = RuleTable_Reduce n' sentence.term

end ONA

import Verif.Spec.Question
/-
What asking a question changes (C83).
-/
namespace ONA
variable [Arith]

/-- The concept in cell `c` matches the question, and `r` is what it knows: for a question without tense its eternal belief, for
the present and the past its last event, for the present and the future its predicted event. -/
structure ConceptReply (n : Narsese) (s : Sys) (q : Term) (tense : Nat) (c : Nat) (r : Reply) : Prop where
  known : c ∈ s.live
  statement : ¬ AsksTemporal n q
  fits : Matches n s q (s.termOf c)
  reply : (tense = 0 ∧ (s.concept_storage c).belief.type ≠ .deleted ∧ r = (s.concept_storage c).belief.reply) ∨
    ((tense = 1 ∨ tense = 2) ∧ (s.concept_storage c).belief_spike.type ≠ .deleted ∧ r = (s.concept_storage c).belief_spike.reply) ∨
    ((tense = 1 ∨ tense = 3) ∧ (s.concept_storage c).predicted_belief.type ≠ .deleted ∧
      r = (s.concept_storage c).predicted_belief.reply)

/-- A concept which gave an answer: it gets at least the priority `priming`, and counts as used now, as often as by an eternal
input if the question is without tense. Everything else stays. -/
def Concept.asked (x : Concept) (priming : ℚ) (now : Int) (tense : Nat) : Concept :=
  { x with
    priority := max x.priority priming
    usage := ⟨x.usage.useCount + (if tense = 0 then ETERNAL_INPUT_USAGE_BOOST else 1), now⟩ }

/-- The effect of the question `q` on the state: `lines` are printed, and the concept whose answer is given, if there is one, gets
attention, unless question priming is switched off. -/
inductive Asked (n : Narsese) (q : Term) (tense : Nat) (s : Sys) (lines : List Output) : Option Reply → Sys → Prop
  | unknown : Asked n q tense s lines none { s with output := s.output ++ lines }
  | unprimed (c : Nat) (r : Reply) : ConceptReply n s q tense c r → s.QUESTION_PRIMING ≤ 0 →
      Asked n q tense s lines (some r) { s with output := s.output ++ lines }
  | primed (c : Nat) (r : Reply) : ConceptReply n s q tense c r → 0 < s.QUESTION_PRIMING →
      Asked n q tense s lines (some r) { s with
        output := s.output ++ lines
        concept_storage := upd s.concept_storage c ((s.concept_storage c).asked s.QUESTION_PRIMING s.currentTime tense) }

end ONA

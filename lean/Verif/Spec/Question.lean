import Verif.Model.NAR
import Verif.Spec.Memory
import Verif.Spec.Table
/-
What can answer a question, for C49 and C66.
-/
namespace ONA
variable [Arith]

/-- The term matches the pattern: unification with query variables only succeeds (see C29, C30 for what this means). -/
def Matches (n : Narsese) (s : Sys) (pattern term : Term) : Prop := s.questionMatches n pattern term = .ok true

/-- A possible answer: what is printed of it. -/
structure Reply where
  stamp : Stamp
  term : Term
  truth : Truth
  occurrenceTime : Int
  creationTime : Int

/-- The printed line. -/
def Reply.output (r : Reply) : Output := .answer r.stamp r.term r.truth r.occurrenceTime r.creationTime

/-- An event as answer. -/
def Event.reply (e : Event) : Reply := ⟨e.stamp, e.term, e.truth, e.occurrenceTime, e.creationTime⟩

/-- A link as answer. -/
def Implication.reply (l : Implication) : Reply := ⟨l.stamp, l.term, l.truth, OCCURRENCE_ETERNAL, l.creationTime⟩

/-- The question is about a declarative implication. -/
def AsksImplication (n : Narsese) (q : Term) : Prop := Narsese_copulaEquals n (q.get 0) IMPLICATION = true

/-- The question is about a temporal implication. -/
def AsksTemporal (n : Narsese) (q : Term) : Prop := Narsese_copulaEquals n (q.get 0) TEMPORAL_IMPLICATION = true

/-- An eternal question about a statement is answered by the eternal belief of a concept in memory whose term matches. -/
def BeliefReply (n : Narsese) (s : Sys) (q : Term) (r : Reply) : Prop :=
  ∃ c ∈ s.live, Matches n s q (s.termOf c) ∧ (s.concept_storage c).belief.type ≠ .deleted ∧
    r = (s.concept_storage c).belief.reply

/-- A question with a tense about a statement is answered by an event of a concept in memory whose term matches: the last
event for `:|:` and `:\:`, the predicted one for `:|:` and `:/:`. -/
def EventReply (n : Narsese) (s : Sys) (q : Term) (tense : Nat) (r : Reply) : Prop :=
  ∃ c ∈ s.live, Matches n s q (s.termOf c) ∧
    (((tense = 1 ∨ tense = 2) ∧ (s.concept_storage c).belief_spike.type ≠ .deleted ∧
      r = (s.concept_storage c).belief_spike.reply) ∨
     ((tense = 1 ∨ tense = 3) ∧ (s.concept_storage c).predicted_belief.type ≠ .deleted ∧
      r = (s.concept_storage c).predicted_belief.reply))

/-- A question about a temporal implication is answered by a link to a concept in memory which matches the consequent, in
one of the tables `opi < OPERATIONS_MAX`. -/
def LinkReply (n : Narsese) (s : Sys) (q : Term) (r : Reply) : Prop :=
  ∃ c ∈ s.live, Matches n s (Term_ExtractSubterm q 2) (s.termOf c) ∧ ∃ opi < OPERATIONS_MAX,
    ∃ l ∈ ((s.concept_storage c).precondition_beliefs opi).entries, Matches n s q l.term ∧ r = l.reply

/-- An eternal question about a declarative implication is answered by a link to a concept in memory which matches the
consequent (or by the belief of such a concept, if it matches the question as well). -/
def DeclarativeReply (n : Narsese) (s : Sys) (q : Term) (r : Reply) : Prop :=
  ∃ c ∈ s.live, Matches n s (Term_ExtractSubterm q 2) (s.termOf c) ∧
    ((∃ l ∈ (s.concept_storage c).implication_links.entries, Matches n s q l.term ∧ r = l.reply) ∨
     (Matches n s q (s.termOf c) ∧ (s.concept_storage c).belief.type ≠ .deleted ∧ r = (s.concept_storage c).belief.reply))

/-- The expectation of an answer. -/
def Reply.expectation (r : Reply) : ℚ := Truth_Expectation r.truth

/-- The expectation of an answer, projected to the given time. -/
def Reply.expectationAt (r : Reply) (now : Int) : ℚ := Truth_Expectation (Truth_Projection r.truth r.occurrenceTime now)

/-- The text is a question with the given tense, read as the given (reduced) term. -/
def ReadsQuestion (n : Narsese) (text : CStr) (n' : Narsese) (q : Term) (tense : Nat) : Prop :=
  ∃ sentence, Narsese_Sentence n text = .ok (sentence, n') ∧ sentence.punctuation = '?' ∧ sentence.tense = tense ∧
    q = RuleTable_Reduce n' sentence.term

/-- One of the best possible answers is printed, or "None" if there is none. -/
def PrintsBest (possible : Reply → Prop) (s s' : Sys) : Prop :=
  (∃ r, possible r ∧ (∀ r', possible r' → r'.expectation ≤ r.expectation) ∧ s'.output = s.output ++ [r.output]) ∨
  ((∀ r, ¬ possible r) ∧ s'.output = s.output ++ [.answerNone])

/-- One of the possible answers which are best now is printed, or "None" if there is none with positive expectation. -/
def PrintsBestAt (now : Int) (possible : Reply → Prop) (s s' : Sys) : Prop :=
  (∃ r, possible r ∧ (∀ r', possible r' → r'.expectationAt now ≤ r.expectationAt now) ∧
    s'.output = s.output ++ [r.output]) ∨
  ((∀ r, possible r → r.expectationAt now ≤ 0) ∧ s'.output = s.output ++ [.answerNone])

/-- Exactly the possible answers above the threshold are printed. -/
def PrintsAll (possible : Reply → Prop) (value : Reply → ℚ) (threshold : ℚ) (s s' : Sys) : Prop :=
  ∃ lines, s'.output = s.output ++ lines ∧ ∀ o, o ∈ lines ↔ ∃ r, possible r ∧ threshold < value r ∧ o = r.output

end ONA

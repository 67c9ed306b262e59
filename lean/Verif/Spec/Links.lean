import Verif.Spec.API
/-
Where links are stored.
-/
namespace ONA

/-- The number of the table of a link with the given term: of the operation at the end of its subject, 0 without operation. -/
def Sys.linkIndex (s : Sys) (n : Narsese) (t : Term) : Nat :=
  let subject := Term_ExtractSubterm t 1
  if Narsese_copulaEquals n (t.get 0) TEMPORAL_IMPLICATION ∧ Narsese_copulaEquals n (subject.get 0) SEQUENCE ∧
      Narsese_isOperation n (Term_ExtractSubterm subject 2) then
    s.operationID n (Term_ExtractSubterm subject 2)
  else 0

/-- The table for a link at a concept. -/
def Concept.linkTable (n : Narsese) (opi : Nat) (t : Term) (c : Concept) : Table :=
  if Narsese_copulaEquals n (t.get 0) IMPLICATION then c.implication_links else c.precondition_beliefs opi

/-- An implication. -/
def IsImplication (n : Narsese) (t : Term) : Prop :=
  Narsese_copulaEquals n (t.get 0) TEMPORAL_IMPLICATION = true ∨ Narsese_copulaEquals n (t.get 0) IMPLICATION = true

/-- A temporal implication about an operation of another agent. -/
def Foreign (n : Narsese) (t : Term) : Prop :=
  let subject := Term_ExtractSubterm t 1
  Narsese_copulaEquals n (t.get 0) TEMPORAL_IMPLICATION = true ∧ Narsese_copulaEquals n (subject.get 0) SEQUENCE = true ∧
    Narsese_isOperation n (Term_ExtractSubterm subject 2) = true ∧
    Narsese_isExecutableOperation n (Term_ExtractSubterm subject 2) = false

/-- A link with the given term is at the concept of its consequence, unless the table there has no room for it. -/
def Sys.LinkStored (s : Sys) (n : Narsese) (opi : Nat) (t : Term) : Prop :=
  ∃ c ∈ s.live, s.termOf c = Term_ExtractSubterm t 2 ∧
    ((∃ link ∈ ((s.concept_storage c).linkTable n opi t).entries, link.term = t) ∨
      ((s.concept_storage c).linkTable n opi t).entries.length = TABLE_SIZE)

/-- The memory has room for more concepts. -/
def Sys.HasRoom (s : Sys) : Prop := s.live.length < s.capacity

end ONA

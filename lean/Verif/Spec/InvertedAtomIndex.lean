import Verif.Model.InvertedAtomIndex
/-
What the inverted atom index has to answer, in terms of the concepts currently stored.
-/
namespace ONA
namespace IndexSpec

/-- The term is listed under the atom: the atom is a simple one and among the first `UNIFICATION_DEPTH` atoms. -/
def Lists (n : Narsese) (t : Term) (atom : Atom) : Prop :=
  Narsese_IsSimpleAtom n atom = true ∧ ∃ i, i < UNIFICATION_DEPTH ∧ t.get i = atom

/-- A call of the API: adding or removing a concept with its term. -/
inductive Op where
  | add (t : Term) (c : Nat)
  | remove (t : Term) (c : Nat)

/-- The concepts stored after a history (newest call first), with their terms. -/
def stored : List Op → List (Nat × Term)
  | [] => []
  | .add t c :: h => (c, t) :: stored h
  | .remove t c :: h => (stored h).filter fun e => decide (e ≠ (c, t))

/-- The index is used as the concept memory uses it: a concept is added when it is not stored and fewer than `max`
are, and removed with the term it was added with. -/
def Legal (max : Nat) : List Op → Prop
  | [] => True
  | .add _ c :: h => Legal max h ∧ (∀ e ∈ stored h, e.1 ≠ c) ∧ (stored h).length < max
  | .remove t c :: h => Legal max h ∧ (c, t) ∈ stored h

/-- Executing a history on a freshly initialised index. -/
def run (n : Narsese) (max : Nat) : List Op → R InvertedAtomIndex
  | [] => InvertedAtomIndex.initWith (UNIFICATION_DEPTH * max)
  | .add t c :: h => do
    let x ← run n max h
    InvertedAtomIndex_AddConcept n x t c
  | .remove t c :: h => do
    let x ← run n max h
    InvertedAtomIndex_RemoveConcept n x t c

end IndexSpec
end ONA

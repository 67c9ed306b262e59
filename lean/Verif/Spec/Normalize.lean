import Verif.Model.Variable
/-
What normalisation of variables should do.
-/
namespace ONA

/-- The elements of a list in order of first occurrence, without repetitions. -/
def firstOccurrences (l : List Atom) : List Atom :=
  l.foldl (fun acc a => if a ∈ acc then acc else acc ++ [a]) []

/-- The variables of one kind among the first `j` atoms of a term, in order of first occurrence. -/
def kindVars (n : Narsese) (kind : Char) (t : Term) (j : Nat) : List Atom :=
  firstOccurrences ((((List.range j).map t.get).filter fun a => Variable_isVariable n a && varType n a == kind))

/-- The number of a variable among the variables of its kind. -/
def varRank (n : Narsese) (t : Term) (v : Atom) : Nat :=
  (kindVars n (varType n v) t COMPOUND_TERM_SIZE_MAX).idxOf v + 1

/-- The normalised name of an atom: variables are numbered by first occurrence, everything else stays. -/
def normalName (n : Narsese) (t : Term) (a : Atom) : Atom :=
  if Variable_isVariable n a then nameAtom (varName (varType n a) (varRank n t a)) else a

/-- The kinds of variables: independent, dependent, query. -/
def varKinds : List Char := ['$', '#', '?']

/-- The names `$1`..`$9`, `#1`..`#9`, `?1`..`?9` are known and recognised as variables of their kind. -/
def StandardVars (n : Narsese) : Prop :=
  ∀ kind ∈ varKinds, ∀ l, 1 ≤ l → l ≤ 9 → varType n (nameAtom (varName kind l)) = kind

/-- At most nine variables of each kind. -/
def FewVars (n : Narsese) (t : Term) : Prop := ∀ kind, (kindVars n kind t COMPOUND_TERM_SIZE_MAX).length ≤ 9

/-- No variable already named like a normalised one gets a larger number than it has. -/
def NoClash (n : Narsese) (t : Term) : Prop :=
  ∀ i l, Variable_isVariable n (t.get i) = true → t.get i = nameAtom (varName (varType n (t.get i)) l) → 1 ≤ l → l ≤ 9 →
    varRank n t (t.get i) ≤ l

end ONA

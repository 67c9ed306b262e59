import Verif.Model.Variable
/-
What the introduction of variables should do.
-/
namespace ONA

/-- The atom occurs in the term. -/
def Term.HasAt (t : Term) (a : Atom) : Prop := ∃ i, t.get i = a

/-- `r` is `t` with some simple atoms consistently replaced by fresh variables: `ν a = some v` means that every
occurrence of `a` is replaced by `v`. Different atoms are replaced by different variables. -/
structure Generalisation (n : Narsese) (t r : Term) (ν : Atom → Option Atom) : Prop where
  atoms : ∀ i, r.get i = (ν (t.get i)).getD (t.get i)
  simple : ∀ a v, ν a = some v → Narsese_IsSimpleAtom n a = true
  isVar : ∀ a v, ν a = some v → ∃ l, 1 ≤ l ∧ l ≤ 9 ∧ (v = nameAtom (varName '$' l) ∨ v = nameAtom (varName '#' l))
  fresh : ∀ a v, ν a = some v → ¬ t.HasAt v
  inj : ∀ a b v, ν a = some v → ν b = some v → a = b

/-- Variables of a kind are numbered without gaps. -/
def NoGaps (t : Term) (kind : Char) : Prop :=
  ∀ l l', 1 ≤ l → l ≤ l' → l' ≤ 9 → t.HasAt (nameAtom (varName kind l')) → t.HasAt (nameAtom (varName kind l))

end ONA

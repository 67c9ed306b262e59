import Verif.Spec.Operation
/-
What unification and substitution mean for trees; nothing here refers to the functions of src/Variable.c except the
classification of atoms (src/Variable.c 29-47).
-/
namespace ONA
namespace Tree

/-- Replace every subtree whose root is a variable (an atom in `isVar`) by the tree assigned to it. -/
def subst (isVar : Atom → Bool) (σ : Atom → Tree) : Tree → Tree
  | nil => nil
  | node a l r => if isVar a then σ a else node a (l.subst isVar σ) (r.subst isVar σ)

/-- The subtree along a path (`false` = left). -/
def sub : Tree → List Bool → Tree
  | T, [] => T
  | nil, _ :: _ => nil
  | node _ l _, false :: p => l.sub p
  | node _ _ r, true :: p => r.sub p

/-- Put a tree at the end of a path. -/
def replaceAt : Tree → List Bool → Tree → Tree
  | _, [], U => U
  | nil, _ :: _, _ => nil
  | node a l r, false :: p, U => node a (l.replaceAt p U) r
  | node a l r, true :: p, U => node a l (r.replaceAt p U)

/-- A well-formed term: the atoms in `comp` (the copulas) have two arguments, all others none. -/
def Regular (comp : Atom → Bool) : Tree → Prop
  | nil => False
  | node a l r => if comp a then l.Regular comp ∧ r.Regular comp else l = nil ∧ r = nil

instance decidableRegular (comp : Atom → Bool) : (T : Tree) → Decidable (T.Regular comp)
  | nil => isFalse id
  | node a l r =>
    have := decidableRegular comp l
    have := decidableRegular comp r
    inferInstanceAs (Decidable (if comp a then l.Regular comp ∧ r.Regular comp else l = nil ∧ r = nil))

/-- Variables have no arguments. -/
def VarLeaves (isVar : Atom → Bool) : Tree → Prop
  | nil => True
  | node a l r => if isVar a then l = nil ∧ r = nil else l.VarLeaves isVar ∧ r.VarLeaves isVar

/-- `a` occurs in the tree. -/
def Occurs (a : Atom) (T : Tree) : Prop := a ∈ T.atoms

end Tree
end ONA

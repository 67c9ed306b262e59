import Verif.Model.Term
/-
The abstract syntax of terms: binary trees whose nodes carry atoms. The tree of a term is read off the array by
following the positions of the children; nothing here refers to the functions of src/Term.c.
-/
namespace ONA

/-- A term as a tree. -/
inductive Tree where
  | nil
  | node (atom : Atom) (left right : Tree)
deriving DecidableEq, Repr

namespace Tree

/-- The tree encoded at position `i` of an array, up to a given depth. -/
def readAt (t : Term) : Nat → Nat → Tree
  | 0, _ => nil
  | fuel + 1, i => if t.get i = 0 then nil else node (t.get i) (readAt t fuel (2 * i + 1)) (readAt t fuel (2 * i + 2))

/-- Number of levels. -/
def height : Tree → Nat
  | nil => 0
  | node _ l r => max l.height r.height + 1

/-- All nodes, in preorder. -/
def atoms : Tree → List Atom
  | nil => []
  | node a l r => a :: (l.atoms ++ r.atoms)

/-- No node carries the atom 0 (which means "nothing" in the array). -/
def NonZero : Tree → Prop
  | nil => True
  | node a l r => a ≠ 0 ∧ l.NonZero ∧ r.NonZero

/-- The tree fits into a term when its root is put at position `i`. -/
def Fits : Tree → Nat → Prop
  | nil, _ => True
  | node _ l r, i => i < COMPOUND_TERM_SIZE_MAX ∧ l.Fits (2 * i + 1) ∧ r.Fits (2 * i + 2)

instance decidableFits : (T : Tree) → (i : Nat) → Decidable (T.Fits i)
  | nil, _ => isTrue trivial
  | node _ l r, i =>
    have := decidableFits l (2 * i + 1)
    have := decidableFits r (2 * i + 2)
    inferInstanceAs (Decidable (_ ∧ _ ∧ _))

end Tree

/-- The tree at position `i` of a term (a term has at most 7 levels: `2 * i + 1` from 0 leaves the array after 7 steps). -/
def Term.treeAt (t : Term) (i : Nat) : Tree := Tree.readAt t 7 i

/-- The tree of a term. -/
def Term.tree (t : Term) : Tree := t.treeAt 0

end ONA

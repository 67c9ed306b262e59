import Verif.Model.Term
/-
Positions in the tree a term encodes: the node reached from position `i` by a path (`false` = left, `true` = right).
-/
namespace ONA

/-- Position of a child. -/
def childPos (i : Nat) (right : Bool) : Nat := if right then 2 * i + 2 else 2 * i + 1

/-- Position reached from `i` along a path. -/
def pathPos (i : Nat) : List Bool → Nat
  | [] => i
  | b :: p => pathPos (childPos i b) p

/-- Every node on the path below position `j` (which itself must exist) carries an atom. -/
def Present (t : Term) (j : Nat) : List Bool → Prop
  | [] => j < COMPOUND_TERM_SIZE_MAX
  | b :: p => t.get (childPos j b) ≠ 0 ∧ Present t (childPos j b) p

/-- Every node except the root has a parent. -/
def Term.Closed (t : Term) : Prop := ∀ i b, t.get (childPos i b) ≠ 0 → t.get i ≠ 0

/-- All nodes strictly below `i` are empty. -/
def Term.EmptyBelow (t : Term) (i : Nat) : Prop := ∀ b p, t.get (pathPos i (b :: p)) = 0

end ONA

import Verif.Spec.Tree
import Verif.Model.Narsese
/-
Sequences and operations as trees: what src/Narsese.c 706-885 computes on arrays, written by structural recursion.
-/
namespace ONA
namespace Tree

/-- The atom of the root (0 for the empty tree). -/
def root : Tree → Atom
  | nil => 0
  | node a _ _ => a

/-- First child. -/
def left : Tree → Tree
  | nil => nil
  | node _ l _ => l

/-- Second child. -/
def right : Tree → Tree
  | nil => nil
  | node _ _ r => r

/-- An operation is `^op` or `<({..} * ..) --> ^op>`. -/
def IsOperation (n : Narsese) (T : Tree) : Bool :=
  Narsese_isOperator n T.root ||
    (Narsese_copulaEquals n T.root INHERITANCE && Narsese_copulaEquals n T.left.root PRODUCT &&
      Narsese_isOperator n T.right.root && Narsese_copulaEquals n T.left.left.root EXT_SET)

/-- The events of a nested sequence, in order; anything else is a sequence of one event. -/
def events (n : Narsese) : Tree → List Tree
  | nil => [nil]
  | node a l r => if Narsese_copulaEquals n a SEQUENCE then l.events n ++ r.events n else [node a l r]

/-- Strip the operations at the end of a left-nested sequence. -/
def withoutOp (n : Narsese) : Tree → Tree
  | nil => nil
  | node a l r => if Narsese_copulaEquals n a SEQUENCE && r.IsOperation n then l.withoutOp n else node a l r

/-- Append an event to a left-nested sequence (empty at first). -/
def appendEvent : Tree → Tree → Tree
  | nil, x => x
  | s, x => node (copulaAtom SEQUENCE) s x

/-- The operations of a sequence, as a left-nested sequence appended to `start`. -/
def opSequence (n : Narsese) (start T : Tree) : Tree :=
  ((T.events n).filter fun e => e.IsOperation n).foldl appendEvent start

end Tree
end ONA

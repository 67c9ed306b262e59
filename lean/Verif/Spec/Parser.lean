import Verif.Model.Parser
import Verif.Spec.Tree
/-
The written form of Narsese terms, and the tree a text stands for.
-/
namespace ONA

/-- Trees labelled with names. -/
inductive NTree where
  | nil
  | node (name : CStr) (left right : NTree)
deriving DecidableEq, Repr

namespace NTree

/-- A tree consisting of one node. -/
def leaf (name : CStr) : NTree := node name nil nil

/-- Number of levels. -/
def height : NTree → Nat
  | nil => 0
  | node _ l r => max l.height r.height + 1

/-- The tree fits into a term when its root is put at position `i`. -/
def Fits : NTree → Nat → Prop
  | nil, _ => True
  | node _ l r, i => i < COMPOUND_TERM_SIZE_MAX ∧ l.Fits (2 * i + 1) ∧ r.Fits (2 * i + 2)

instance decidableFits : (T : NTree) → (i : Nat) → Decidable (T.Fits i)
  | nil, _ => isTrue trivial
  | node _ l r, i =>
    have := decidableFits l (2 * i + 1)
    have := decidableFits r (2 * i + 2)
    inferInstanceAs (Decidable (_ ∧ _ ∧ _))

/-- Number of nodes. -/
def size : NTree → Nat
  | nil => 0
  | node _ l r => l.size + r.size + 1

/-- All names. -/
def names : NTree → List CStr
  | nil => []
  | node a l r => a :: (l.names ++ r.names)

end NTree

/-- A tree of atoms read as a tree of names. -/
def Tree.named (n : Narsese) : Tree → NTree
  | .nil => .nil
  | .node a l r => .node (n.nameOf a) (l.named n) (r.named n)

/-- How the copulas are written, and the one-character name each stands for. -/
def copulaSpelling : List (CStr × Char) :=
  [(['-', '-', '>'], ':'), (['<', '-', '>'], '='), (['=', '/', '>'], '$'), (['=', '=', '>'], '?'), (['<', '=', '>'], '^'),
   (['|', '-', '>'], ','), (['&', '/'], '+'), (['&', '&'], ';'), (['|', '|'], '_'), (['/', '1'], '/'), (['/', '2'], '%'),
   (['\\', '1'], '\\'), (['\\', '2'], '#'), (['-', '-'], '!'), (['!'], '!'), (['*'], '*'), (['&'], '&'), (['|'], '|'),
   (['~'], '~'), (['-'], '-'), (['.'], '.'), (['+'], '+'), (['='], '=')]

/-- The written form of a term: names, infix compounds `(l c r)` or `<l c r>`, prefix compounds `(c l r)`, `(c l)`, and
sets `{l}`, `{l r}`, `[l]`, `[l r]`. -/
inductive Expr where
  | atom (name : CStr)
  | infx (angle : Bool) (l : Expr) (copula : CStr × Char) (r : Expr)
  | pre (copula : CStr × Char) (l r : Expr)
  | pre1 (copula : CStr × Char) (l : Expr)
  | set1 (ext : Bool) (l : Expr)
  | set2 (ext : Bool) (l r : Expr)

/-- Characters without special meaning. -/
def plainChar (c : Char) : Bool :=
  !([' ', ',', '[', ']', '{', '}', '<', '>', '(', ')', '&', '|', '/', '\\', '-', '='].contains c)

/-- Names: not empty, only plain characters, not a lone copula character. -/
def plainName (s : CStr) : Bool := s.all plainChar && s != [] && !isCopulaToken s

/-- Copulas of compounds with two components. -/
def binaryCopulas : List Char :=
  [':', '=', '$', '?', '^', ',', '+', ';', '_', '/', '%', '\\', '#', '*', '&', '|', '~', '-', '.']

/-- Copulas of compounds with one component (the terminator is the second one): negation, singular product, and the
numeric comparisons. -/
def unaryCopulas : List Char := ['!', '*', '+', '=']

/-- Trees of the shapes Narsese has: names, binary and unary compounds, sets with one or two elements. Names have at most
31 characters. -/
inductive NTree.Proper : NTree → Prop
  | name {s : CStr} : plainName s = true → s.length ≤ 31 → NTree.Proper (.leaf s)
  | binary {c : Char} {l r : NTree} : c ∈ binaryCopulas → l.Proper → r.Proper → NTree.Proper (.node [c] l r)
  | unary {c : Char} {l : NTree} : c ∈ unaryCopulas → l.Proper → NTree.Proper (.node [c] l (.leaf [SET_TERMINATOR]))
  | set1 {c : Char} {l : NTree} : c = EXT_SET ∨ c = INT_SET → l.Proper → NTree.Proper (.node [c] l (.leaf [SET_TERMINATOR]))
  | set2 {c : Char} {l r : NTree} : c = EXT_SET ∨ c = INT_SET → l.Proper → r.Proper → NTree.Proper (.node [c] l r)

namespace Expr

/-- The text. -/
def text : Expr → CStr
  | atom s => s
  | infx angle l c r =>
    (if angle then '<' else '(') :: (l.text ++ ' ' :: (c.1 ++ ' ' :: (r.text ++ [if angle then '>' else ')'])))
  | pre c l r => '(' :: (c.1 ++ ' ' :: (l.text ++ ' ' :: (r.text ++ [')'])))
  | pre1 c l => '(' :: (c.1 ++ ' ' :: (l.text ++ [')']))
  | set1 ext l => (if ext then '{' else '[') :: (l.text ++ [if ext then '}' else ']'])
  | set2 ext l r => (if ext then '{' else '[') :: (l.text ++ ' ' :: (r.text ++ [if ext then '}' else ']']))

/-- The name of a set copula. -/
def setName (ext : Bool) : CStr := if ext then [EXT_SET] else [INT_SET]

/-- The tree a text stands for: names have 31 significant characters; a missing second argument is the terminator. -/
def ntree : Expr → NTree
  | atom s => .leaf (s.take 31)
  | infx _ l c r => .node [c.2] l.ntree r.ntree
  | pre c l r => .node [c.2] l.ntree r.ntree
  | pre1 c l => .node [c.2] l.ntree (.leaf [SET_TERMINATOR])
  | set1 ext l => .node (setName ext) l.ntree (.leaf [SET_TERMINATOR])
  | set2 ext l r => .node (setName ext) l.ntree r.ntree

/-- Names are plain and copulas are spelled as documented. -/
def WellFormed : Expr → Prop
  | atom s => plainName s = true
  | infx _ l c r => c ∈ copulaSpelling ∧ l.WellFormed ∧ r.WellFormed
  | pre c l r => c ∈ copulaSpelling ∧ l.WellFormed ∧ r.WellFormed
  | pre1 c l => c ∈ copulaSpelling ∧ l.WellFormed
  | set1 _ l => l.WellFormed
  | set2 _ l r => l.WellFormed ∧ r.WellFormed

end Expr
end ONA

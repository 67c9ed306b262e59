import Verif.Spec.Tree
import Verif.Spec.Derived
/-
Comparing the values of an attribute: the specification.
-/
namespace ONA

/-- The measured value of an atom, if it has one. -/
def Narsese.value (n : Narsese) (a : Atom) : Option ℚ :=
  if n.atomHasValue (a.toNat - 1) then some (n.atomValues (a.toNat - 1)) else none

/-- `<(loc * val) --> attr>`: at `loc` the attribute has the value `v`. -/
def Narsese.Measures (n : Narsese) (T : Tree) (c : Atom) (loc : Tree) (v : ℚ) (attr : Tree) : Prop :=
  ∃ p a l r, T = .node c (.node p loc (.node a l r)) attr ∧ (n.Is c INHERITANCE ∨ n.Is c HAS_CONTINUOUS_PROPERTY) ∧
    n.Is p PRODUCT ∧ n.value a = some v

/-- The name of the relation: `(rel attr)`. -/
def relationName (rel : Char) (attr : Tree) : Tree :=
  .node (copulaAtom rel) attr (.node (copulaAtom SET_TERMINATOR) .nil .nil)

/-- `<(x * y) --> (rel attr)>`. -/
def relates (c : Char) (x y : Tree) (name : Tree) : Tree := .node (copulaAtom c) (.node (copulaAtom PRODUCT) x y) name

/-- What is concluded when first `v1` is measured at `x` and then `v2` at `y`. -/
def comparison (c : Char) (v1 v2 : ℚ) (x y attr : Tree) : Tree :=
  if v1 = v2 then relates c x y (relationName SIMILARITY attr)
  else if v2 < v1 then relates c x y (relationName SEQUENCE attr)
  else relates c y x (relationName SEQUENCE attr)

/-- The conclusion `U` after the rest of the sequence, if there is one. -/
def inContext (rest U : Tree) : Tree := if rest = .nil then U else .node (copulaAtom SEQUENCE) rest U

/-- From the sequence `T` follows the comparison `U`: of its two elements, or, with the rest of the sequence before it, of the
last two of its elements. -/
inductive Compared (n : Narsese) (T : Tree) : Tree → Prop
  | two (q c1 c2 : Atom) (A B x y attr : Tree) (v1 v2 : ℚ) (c : Char) : T = .node q A B → n.Is q SEQUENCE →
      n.Measures A c1 x v1 attr → n.Measures B c2 y v2 attr →
      (n.Is c1 INHERITANCE ∧ c = INHERITANCE ∨ ¬ n.Is c1 INHERITANCE ∧ c = HAS_CONTINUOUS_PROPERTY) →
      Compared n T (comparison c v1 v2 x y attr)
  | more (q q' c1 c2 : Atom) (R A B x y attr : Tree) (v1 v2 : ℚ) (c : Char) : T = .node q (.node q' R A) B →
      n.Is q SEQUENCE → n.Is q' SEQUENCE → n.Measures A c1 x v1 attr → n.Measures B c2 y v2 attr →
      (n.Is c1 INHERITANCE ∧ c = INHERITANCE ∨ ¬ n.Is c1 INHERITANCE ∧ c = HAS_CONTINUOUS_PROPERTY) →
      Compared n T (inContext R (comparison c v1 v2 x y attr))

end ONA

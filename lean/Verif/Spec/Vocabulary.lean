import Verif.Model.NAR
/-
The vocabulary of a state: which atoms may occur in stored terms.
-/
namespace ONA

/-- All atoms of the term have been registered (0 is the empty position). -/
def Narsese.Knows (n : Narsese) (t : Term) : Prop := ∀ i, (t.get i).toNat ≤ n.term_index

/-- The names of `Narsese_INIT` (63 of them) are registered, `SELF` included, and the first 62 have their numbers. -/
structure Narsese.Base (n : Narsese) : Prop where
  initial : initialNames.length + 1 ≤ n.term_index
  names : ∀ i < initialNames.length, n.atomNames i = initialNames.getD i []
  self : n.SELF.toNat ≤ n.term_index

/-- The terms of a substitution are known. -/
def Narsese.KnowsSubs (n : Narsese) (map : Nat → Term) : Prop := ∀ k, n.Knows (map k)

/-- An operation: its name, the arguments it is tried with, and whatever its callback returns are known. -/
structure Operation.Known (n : Narsese) (o : Operation) : Prop where
  term : n.Knows o.term
  arguments : ∀ i, n.Knows (o.arguments i)
  action : ∀ f, o.action = some f → ∀ args, n.KnowsSubs (f args).subs.map

/-- `n'` has the names of `n`, with the same atoms, and possibly more. -/
structure Narsese.Extends (n n' : Narsese) : Prop where
  more : n.term_index ≤ n'.term_index
  names : ∀ i < n.term_index, n'.atomNames i = n.atomNames i
  self : n'.SELF = n.SELF

end ONA

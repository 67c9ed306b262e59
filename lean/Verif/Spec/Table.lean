import Verif.Model.Table
/-
Specification of the implication table as a list of entries, best first.
-/
namespace ONA

/-- The entries of a table, in order. -/
def Table.entries (t : Table) : List Implication := (List.range t.itemsAmount).map t.array

namespace TableSpec
variable [Arith]

/-- `e` is ranked before a newly arriving `x`: it has at least its expectation (a link with the same term: at least its
confidence). -/
def keeps (x e : Implication) : Bool :=
  if e.term = x.term then decide (x.truth.confidence ≤ e.truth.confidence)
  else decide (Truth_Expectation x.truth ≤ Truth_Expectation e.truth)

/-- Insert behind the leading entries that are ranked before it. -/
def insert (x : Implication) (l : List Implication) : List Implication :=
  l.takeWhile (keeps x) ++ x :: l.dropWhile (keeps x)

/-- Entries are ordered by truth expectation, highest first. -/
def Ranked (l : List Implication) : Prop :=
  l.Pairwise fun a b => Truth_Expectation b.truth ≤ Truth_Expectation a.truth

/-- No two entries are about the same statement. -/
def NoDup (l : List Implication) : Prop := l.Pairwise fun a b => a.term ≠ b.term

end TableSpec
end ONA

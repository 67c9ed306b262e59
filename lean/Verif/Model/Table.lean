import Verif.Model.Inference
/-
Model of src/Table.c. A pointer into the table is an index.
-/
namespace ONA

/-- `Table` (src/Table.h 42-45). -/
structure Table where
  array : Nat → Implication
  itemsAmount : Nat

/-- `(Table) {0}`. -/
def Table.zero : Table := ⟨fun _ => Implication.zero, 0⟩

namespace Table

/-- The loop moving entries down (src/Table.c 40-43): `j` runs from `j` down to `i + 1`. -/
def shiftDown (a : Nat → Implication) (i : Nat) : Nat → (Nat → Implication)
  | 0 => a
  | j + 1 => if j + 1 > i then shiftDown (upd a (j + 1) (a j)) i j else a

variable [Arith]

/-- The loop of `Table_Add` (src/Table.c 31-49) with `k` iterations left. -/
def addLoop (table : Table) (imp : Implication) : Nat → Option Nat × Table
  | 0 => (none, table)
  | k + 1 =>
    let i := TABLE_SIZE - (k + 1)
    let same_term := decide ((table.array i).term = imp.term)
    if i = table.itemsAmount ||
        (!same_term && decide (Truth_Expectation imp.truth > Truth_Expectation (table.array i).truth)) ||
        (same_term && decide (imp.truth.confidence > (table.array i).truth.confidence)) then
      let array := shiftDown table.array i (min table.itemsAmount (TABLE_SIZE - 1))
      (some i, { array := upd array i imp, itemsAmount := min (table.itemsAmount + 1) TABLE_SIZE })
    else addLoop table imp k

end Table

/-- `Table_Add` (src/Table.c 27-50). -/
def Table_Add [Arith] (table : Table) (imp : Implication) : R (Option Nat × Table) := do
  cassert imp.sourceConcept.isSome "Attempted to add an implication without source concept!"
  .ok (table.addLoop imp TABLE_SIZE)

/-- The loop of `Table_Remove` (src/Table.c 55-58) with `k` iterations left: `j = itemsAmount - k`. -/
def Table.removeLoop (items : Nat) (a : Nat → Implication) : Nat → (Nat → Implication)
  | 0 => a
  | k + 1 =>
    let j := items - (k + 1)
    removeLoop items (upd a j (if j = items - 1 then Implication.zero else a (j + 1))) k

/-- `Table_Remove` (src/Table.c 52-60). -/
def Table_Remove (table : Table) (index : Nat) : Table :=
  { array := Table.removeLoop table.itemsAmount table.array (table.itemsAmount - index)
    itemsAmount := table.itemsAmount - 1 }

/-- The search loop of `Table_AddAndRevise` (src/Table.c 66-73) with `k` iterations left. -/
def Table.findTerm (table : Table) (term : Term) : Nat → Option Nat
  | 0 => none
  | k + 1 =>
    let i := table.itemsAmount - (k + 1)
    if term = (table.array i).term then some i else findTerm table term k

/-- The range checks of `Table_AddAndRevise` (src/Table.c 79-82, 84-85). -/
def Table.assertTruth (t : Truth) (k : String) : R Unit := do
  cassert (decide (t.frequency ≥ 0) && decide (t.frequency ≤ 1)) (k ++ " frequency out of bounds")
  cassert (decide (t.confidence ≥ 0) && decide (t.confidence ≤ 1)) (k ++ " confidence out of bounds")

/-- `Table_AddAndRevise` (src/Table.c 62-96). -/
def Table_AddAndRevise [Arith] (table : Table) (imp : Implication) : R (Option Nat × Table) := do
  match table.findTerm imp.term table.itemsAmount with
  | some same_i =>
    let OldImp := table.array same_i
    Table.assertTruth OldImp.truth "(1)"
    Table.assertTruth imp.truth "(2)"
    let revised ← Inference_ImplicationRevision OldImp imp
    Table.assertTruth revised.truth "(3)"
    let revised := { revised with term := imp.term }
    let (ret, table) ← Table_Add (Table_Remove table same_i) revised
    cassert ret.isSome "Deletion and re-addition should have succeeded"
    .ok (ret, table)
  | none => Table_Add table imp

end ONA

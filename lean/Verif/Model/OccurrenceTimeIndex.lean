import Verif.Model.Basic
import Verif.Model.Config
/-
Model of src/OccurrenceTimeIndex.c. `C` is the type of concept pointers.
-/
namespace ONA

/-- `OccurrenceTimeIndex` (src/OccurrenceTimeIndex.h 42-47); NULL is `none`. -/
structure OccurrenceTimeIndex (C : Type) where
  itemsAmount : Nat
  currentIndex : Nat
  array : Nat → Option C

namespace OccurrenceTimeIndex
variable {C : Type}

/-- `(OccurrenceTimeIndex) {0}`: static storage, and `Memory_INIT` (src/Memory.c 96). -/
def zero : OccurrenceTimeIndex C := ⟨0, 0, fun _ => none⟩

/-- `OccurrenceTimeIndex_Index` (src/OccurrenceTimeIndex.c 27-36). -/
def index (fifo : OccurrenceTimeIndex C) (k : Int) : R Nat := do
  cassert (decide (0 ≤ k) && decide (k < OCCURRENCE_TIME_INDEX_SIZE)) "OccurrenceTimeIndex shift out of bounds!"
  let index : Int := (fifo.currentIndex : Int) - 1 - k
  let index := if index < 0 then OCCURRENCE_TIME_INDEX_SIZE + index else index
  if index < 0 then .error (.ub "OccurrenceTimeIndex read") else .ok index.toNat

/-- `OccurrenceTimeIndex_Add` (src/OccurrenceTimeIndex.c 38-44). -/
def add (concept : C) (fifo : OccurrenceTimeIndex C) : OccurrenceTimeIndex C :=
  { array := upd fifo.array fifo.currentIndex (some concept)
    currentIndex := (fifo.currentIndex + 1) % OCCURRENCE_TIME_INDEX_SIZE
    itemsAmount := min (fifo.itemsAmount + 1) OCCURRENCE_TIME_INDEX_SIZE }

/-- `OccurrenceTimeIndex_GetKthNewestElement` (src/OccurrenceTimeIndex.c 46-55). -/
def getKthNewestElement (fifo : OccurrenceTimeIndex C) (k : Int) : R (Option C) :=
  if fifo.itemsAmount = 0 then .ok none
  else do
    let i ← fifo.index k
    .ok (fifo.array i)

end OccurrenceTimeIndex
end ONA

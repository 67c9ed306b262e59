import Verif.Model.Basic
import Mathlib.Order.Defs.LinearOrder
/-
Model of src/PriorityQueue.c (a min-max heap in an array of items).

Simplifications: `items` is a total function; array bounds are checked once per API call. This is exact because
every index the helpers touch is either an argument or below `itemsAmount`. Priorities are elements of a linear
order (a C `double` that is not NaN); `int` indices do not overflow.
-/
namespace ONA

/-- `Item` (src/PriorityQueue.h 45-49). -/
structure Item (α β : Type) where
  priority : α
  address : β
deriving DecidableEq, Repr

/-- `PriorityQueue` (src/PriorityQueue.h 50-55). -/
structure PriorityQueue (α β : Type) where
  items : Nat → Item α β
  itemsAmount : Nat
  maxElements : Nat

/-- `PriorityQueue_Push_Feedback` (src/PriorityQueue.h 56-62). `addedItem` is meaningful when `added`,
`evictedItem` when `evicted`, hence the options. -/
structure PushFeedback (α β : Type) where
  addedItem : Option (Item α β)
  evictedItem : Option (Item α β)
deriving DecidableEq, Repr

namespace PriorityQueue
variable {α β : Type}

/-- `PriorityQueue_INIT` (src/PriorityQueue.c 27-32). -/
def init (items : Nat → Item α β) (maxElements : Nat) : PriorityQueue α β :=
  { items := items, maxElements := maxElements, itemsAmount := 0 }

/-- `swap` (src/PriorityQueue.c 36-41). -/
def swap (f : Nat → Item α β) (index1 index2 : Nat) : Nat → Item α β :=
  upd (upd f index1 (f index2)) index2 (f index1)

/-- Loop of `isOnMaxLevel` (src/PriorityQueue.c 47-51): how often `level++` is executed for `n`. -/
def levelIncrements (n : Nat) : Nat :=
  if h : n = 0 then 0 else levelIncrements (n / 2) + 1
termination_by n
decreasing_by omega

/-- `isOnMaxLevel` (src/PriorityQueue.c 43-53); `level` starts at -1. -/
def isOnMaxLevel (i : Nat) : Bool :=
  ((levelIncrements (i + 1) : Int) - 1) % 2 == 1

/-- `parent` (src/PriorityQueue.c 55-58). -/
def parent (i : Nat) : Int := (((i + 1) / 2 : Nat) : Int) - 1
/-- `grandparent` (src/PriorityQueue.c 60-63). -/
def grandparent (i : Nat) : Int := (((i + 1) / 4 : Nat) : Int) - 1
/-- `leftChild` (src/PriorityQueue.c 65-68). -/
def leftChild (i : Nat) : Nat := 2 * i + 1
/-- `leftGrandChild` (src/PriorityQueue.c 70-73). -/
def leftGrandChild (i : Nat) : Nat := 4 * i + 3

variable [LinearOrder α]

/-- `(a < b) ^ invert`, the comparison used throughout src/PriorityQueue.c. -/
def ltx (a b : α) (invert : Bool) : Bool := xor (decide (a < b)) invert

/-- `smallestChild` (src/PriorityQueue.c 75-93); `n` is `queue->itemsAmount`. -/
def smallestChild (f : Nat → Item α β) (n i : Nat) (invert : Bool) : Nat :=
  let l := leftChild i
  if l ≥ n then i
  else
    let r := l + 1
    if r < n && ltx (f r).priority (f l).priority invert then r else l

/-- `smallestGrandChild` (src/PriorityQueue.c 95-114). The loop over the three further grandchildren is a fold;
`r < itemsAmount` fails for all later `r` once it fails. -/
def smallestGrandChild (f : Nat → Item α β) (n i : Nat) (invert : Bool) : Nat :=
  let l := leftGrandChild i
  if l ≥ n then i
  else
    [l + 1, l + 2, l + 3].foldl
      (fun min r => if r < n && ltx (f r).priority (f min).priority invert then r else min) l

/-- `trickleDown` (src/PriorityQueue.c 116-145); `fuel` bounds the number of iterations. -/
def trickleDown (n : Nat) (invert : Bool) : Nat → (Nat → Item α β) → Nat → R (Nat → Item α β)
  | 0, _, _ => .error .fuel
  | fuel + 1, f, i =>
    let m := smallestChild f n i invert
    if m = i then .ok f
    else
      let f := if ltx (f m).priority (f i).priority invert then swap f i m else f
      let j := smallestGrandChild f n i invert
      if j = i then .ok f
      else if ltx (f j).priority (f i).priority invert then trickleDown n invert fuel (swap f i j) j
      else .ok f

/-- Loop of `bubbleUp` (src/PriorityQueue.c 158-164). -/
def bubbleLoop (invert : Bool) : Nat → (Nat → Item α β) → Nat → R (Nat → Item α β)
  | 0, _, _ => .error .fuel
  | fuel + 1, f, i =>
    let m := grandparent i
    if 0 ≤ m && ltx (f i).priority (f m.toNat).priority invert then
      bubbleLoop invert fuel (swap f i m.toNat) m.toNat
    else .ok f

/-- `bubbleUp` (src/PriorityQueue.c 147-165). -/
def bubbleUp (f : Nat → Item α β) (i : Nat) : R (Nat → Item α β) :=
  let m := parent i
  let invert := isOnMaxLevel i
  if 0 ≤ m && xor (decide ((f i).priority > (f m.toNat).priority)) invert then
    bubbleLoop (!invert) (i + 2) (swap f i m.toNat) m.toNat
  else bubbleLoop invert (i + 2) f i

/-- `PriorityQueue_PopMin` (src/PriorityQueue.c 167-186). `none` is the C result `false`. -/
def popMin (q : PriorityQueue α β) : R (Option (Item α β) × PriorityQueue α β) :=
  if q.itemsAmount = 0 then .ok (none, q)
  else if q.itemsAmount > q.maxElements then .error (.ub "PriorityQueue_PopMin")
  else do
    let item := q.items 0
    let n := q.itemsAmount - 1
    let f ← trickleDown n false (n + 1) (swap q.items 0 (q.itemsAmount - 1)) 0
    .ok (some item, { q with items := f, itemsAmount := n })

/-- `PriorityQueue_PopMax` (src/PriorityQueue.c 188-208). -/
def popMax (q : PriorityQueue α β) : R (Option (Item α β) × PriorityQueue α β) :=
  if q.itemsAmount = 0 then .ok (none, q)
  else if q.itemsAmount > q.maxElements then .error (.ub "PriorityQueue_PopMax")
  else do
    let p := smallestChild q.items q.itemsAmount 0 true
    let item := q.items p
    let n := q.itemsAmount - 1
    let f ← trickleDown n true (n + 1) (swap q.items p (q.itemsAmount - 1)) p
    .ok (some item, { q with items := f, itemsAmount := n })

/-- `if(feedback.evicted) at(itemsAmount).address = feedback.evictedItem.address` (src/PriorityQueue.c 226-229). -/
def reusedAddress (evicted : Option (Item α β)) (slot : β) : β :=
  match evicted with
  | some e => e.address
  | none => slot

/-- Second half of `PriorityQueue_Push` (src/PriorityQueue.c 225-234): write the new item behind the last one,
reusing the address of an evicted item, and bubble it up. -/
def pushInsert (q : PriorityQueue α β) (priority : α) (evicted : Option (Item α β)) :
    R (PushFeedback α β × PriorityQueue α β) :=
  if q.itemsAmount ≥ q.maxElements then .error (.ub "PriorityQueue_Push")
  else do
    let address := reusedAddress evicted (q.items q.itemsAmount).address
    let item : Item α β := ⟨priority, address⟩
    let f ← bubbleUp (upd q.items q.itemsAmount item) q.itemsAmount
    .ok (⟨some item, evicted⟩, { q with items := f, itemsAmount := q.itemsAmount + 1 })

/-- `PriorityQueue_Push` (src/PriorityQueue.c 210-235). -/
def push (q : PriorityQueue α β) (priority : α) : R (PushFeedback α β × PriorityQueue α β) :=
  if q.itemsAmount ≥ q.maxElements then
    if q.maxElements = 0 then .error (.ub "PriorityQueue_Push")
    else
      let minPriority := (q.items 0).priority
      if priority < minPriority then .ok (⟨none, none⟩, q)
      else do
        let (it, q') ← popMin q
        match it with
        | none => pushInsert q' priority none -- not reached: the queue is full, hence not empty
        | some e => pushInsert q' priority (some ⟨minPriority, e.address⟩)
  else pushInsert q priority none

/-- `PriorityQueue_PopAt` (src/PriorityQueue.c 237-252). -/
def popAt (q : PriorityQueue α β) (i : Nat) : R (Option β × PriorityQueue α β) :=
  if q.itemsAmount = 0 then .ok (none, q)
  else if q.itemsAmount > q.maxElements ∨ i ≥ q.maxElements then .error (.ub "PriorityQueue_PopAt")
  else do
    let item := q.items i
    let n := q.itemsAmount - 1
    let f ← trickleDown n true (n + 1) (swap q.items i (q.itemsAmount - 1)) i
    .ok (some item.address, { q with items := f, itemsAmount := n })

/-- Loop of `PriorityQueue_Rebuild` (src/PriorityQueue.c 256-259): `k` iterations remain. -/
def rebuildLoop (n : Nat) : Nat → (Nat → Item α β) → R (Nat → Item α β)
  | 0, f => .ok f
  | k + 1, f => do
    let f ← bubbleUp f (n - (k + 1))
    rebuildLoop n k f

/-- `PriorityQueue_Rebuild` (src/PriorityQueue.c 254-260). -/
def rebuild (q : PriorityQueue α β) : R (PriorityQueue α β) :=
  if q.itemsAmount > q.maxElements then .error (.ub "PriorityQueue_Rebuild")
  else do
    let f ← rebuildLoop q.itemsAmount q.itemsAmount q.items
    .ok { q with items := f }

end PriorityQueue
end ONA

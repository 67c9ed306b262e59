import Verif.Model.Globals
import Verif.Model.Stack
/-
Model of src/HashTable.c at pointer level: chain nodes live in a node array and are linked by `next`,
free nodes are kept on a stack of node pointers.

Keys are pointers (`P`); the C code compares and hashes what they point to through the function pointers
`equal` and `hash`. `KeyOps` packages those functions together with `deref`, which reads the pointed-to key
from the current store (e.g. the term inside a concept), so that later changes of the pointee are visible.
-/
namespace ONA

/-- The callbacks `equal`, `hash` (src/HashTable.h 45-46) and the store the key pointers point into. -/
structure KeyOps (P K : Type) where
  deref : P → K
  equal : K → K → Bool
  hash : K → Int

/-- `VMItem` (src/HashTable.h 47-52). A zeroed node is `⟨none, none, none⟩`. -/
structure VMItem (P V : Type) where
  value : Option V
  key : Option P
  next : Option Nat

/-- `HashTable` (src/HashTable.h 53-62; `storageptrs` is the array of the stack; `equal`, `hash` are in `KeyOps`; `maxElements` is the length of `storage`); nodes are identified by their index in `storage`. -/
structure HashTable (P V : Type) where
  VMStack : Stack Nat
  storage : Nat → VMItem P V
  HT : Nat → Option Nat
  buckets : Nat
  maxElements : Nat

namespace HashTable
variable {P K V : Type}

/-- `hashtable->equal(item->key, key)`; comparing through a NULL key is undefined. -/
def keyEq (ops : KeyOps P K) (item : VMItem P V) (key : K) : R Bool :=
  match item.key with
  | none => .error (.ub "NULL key")
  | some p => .ok (ops.equal (ops.deref p) key)

/-- Loop of `HashTable_Get` (src/HashTable.c 31-38). `fuel` bounds the chain length. -/
def getLoop (ops : KeyOps P K) (t : HashTable P V) (key : K) : Nat → Option Nat → R (Option V)
  | _, none => .ok none
  | 0, some _ => .error .fuel
  | fuel + 1, some n => do
    if (← keyEq ops (t.storage n) key) then .ok (t.storage n).value
    else getLoop ops t key fuel (t.storage n).next

/-- `HashTable_Get` (src/HashTable.c 27-39). -/
def get (ops : KeyOps P K) (t : HashTable P V) (key : K) : R (Option V) := do
  let keyhash ← bucketIndex (ops.hash key) t.buckets
  getLoop ops t key (t.maxElements + 1) (t.HT keyhash)

/-- Search loop of `HashTable_Set` (src/HashTable.c 47-60): either the node whose key is equal (`inl`), or the
last node of the chain (`inr`). -/
def setLoop (ops : KeyOps P K) (t : HashTable P V) (key : K) : Nat → Nat → R (Nat ⊕ Nat)
  | 0, _ => .error .fuel
  | fuel + 1, n => do
    if (← keyEq ops (t.storage n) key) then .ok (.inl n)
    else match (t.storage n).next with
      | none => .ok (.inr n)
      | some m => setLoop ops t key fuel m

/-- Taking a recycled node from the stack and filling it (src/HashTable.c 62-66). A NULL pointer on the stack
would be dereferenced. -/
def takeNode (t : HashTable P V) (key : P) (value : V) : R (Nat × HashTable P V) := do
  let (popped, stack) ← t.VMStack.pop
  match popped with
  | none => .error (.ub "NULL node")
  | some n =>
    .ok (n, { t with VMStack := stack
                     storage := upd t.storage n { value := some value, key := some key, next := none } })

/-- `HashTable_Set` (src/HashTable.c 41-78). -/
def set (ops : KeyOps P K) (t : HashTable P V) (key : P) (value : V) : R (HashTable P V) := do
  let keyhash ← bucketIndex (ops.hash (ops.deref key)) t.buckets
  match t.HT keyhash with
  | none =>
    let (n, t) ← takeNode t key value
    .ok { t with HT := upd t.HT keyhash (some n) }
  | some first =>
    match (← setLoop ops t (ops.deref key) (t.maxElements + 1) first) with
    | .inl n => .ok { t with storage := upd t.storage n { t.storage n with value := some value } }
    | .inr last =>
      let (n, t) ← takeNode t key value
      .ok { t with storage := upd t.storage last { t.storage last with next := some n } }

/-- Search loop of `HashTable_Delete` (src/HashTable.c 93-112): the found node and its predecessor. -/
def deleteLoop (ops : KeyOps P K) (t : HashTable P V) (key : K) :
    Nat → Option Nat → Option Nat → R (Option Nat × Nat)
  | _, _, none => .error (.assertFail "HashTable deletion failed, item was not found!")
  | 0, _, some _ => .error .fuel
  | fuel + 1, previous, some n => do
    if (← keyEq ops (t.storage n) key) then .ok (previous, n)
    else deleteLoop ops t key fuel (some n) (t.storage n).next

/-- `HashTable_Delete` (src/HashTable.c 80-112). An empty bucket makes `item->next` a NULL dereference; a
one-element chain is emptied without comparing keys. -/
def delete (ops : KeyOps P K) (t : HashTable P V) (key : K) : R (HashTable P V) := do
  let keyhash ← bucketIndex (ops.hash key) t.buckets
  match t.HT keyhash with
  | none => .error (.ub "NULL dereference in HashTable_Delete")
  | some first =>
    if (t.storage first).next = none then
      let stack ← t.VMStack.push first
      .ok { t with HT := upd t.HT keyhash none, VMStack := stack }
    else
      let (previous, n) ← deleteLoop ops t key (t.maxElements + 1) none (some first)
      let t := match previous with
        | none => { t with HT := upd t.HT keyhash (t.storage n).next }
        | some p => { t with storage := upd t.storage p { t.storage p with next := (t.storage n).next } }
      let stack ← t.VMStack.push n
      .ok { t with VMStack := stack }

/-- The initialisation loop pushing every node on the free stack (src/HashTable.c 128-133). -/
def initLoop (stack : Stack Nat) : Nat → R (Stack Nat)
  | 0 => .ok stack
  | n + 1 => do
    let s ← initLoop stack n
    s.push n

/-- `HashTable_INIT` (src/HashTable.c 114-134). -/
def init (buckets maxElements : Nat) : R (HashTable P V) := do
  let stack ← initLoop (Stack.init (fun _ => none) maxElements) maxElements
  .ok { VMStack := stack
        storage := fun _ => { value := none, key := none, next := none }
        HT := fun _ => none
        buckets := buckets
        maxElements := maxElements }

/-- Length of a chain (src/HashTable.c 143, inner `for`). -/
def chainLength (t : HashTable P V) : Nat → Option Nat → R Nat
  | _, none => .ok 0
  | 0, some _ => .error .fuel
  | fuel + 1, some n => do
    let c ← chainLength t fuel (t.storage n).next
    .ok (c + 1)

/-- `HashTable_MaximumChainLength` (src/HashTable.c 136-147). -/
def maximumChainLength (t : HashTable P V) : R Nat :=
  (List.range t.buckets).foldlM (init := 0) fun maxlen i => do
    let cnt ← chainLength t (t.maxElements + 1) (t.HT i)
    .ok (max maxlen cnt)

end HashTable
end ONA

import Verif.Model.PriorityQueue
/-
Specification of a bounded double-ended priority queue: the queue is a bag of items (a list up to permutation).
Nothing here refers to array positions, heaps or comparisons made by the code.
-/
namespace ONA
namespace PQSpec
variable {α β : Type} [LinearOrder α]

/-- What a client can do with a queue. `reprioritise g` overwrites the priority of every queued item (the new
value may depend on the item) and then calls rebuild, as the callers in src/Cycle.c 776-803 do; `clear` is a
repeated INIT with the same storage, as in src/Cycle.c 291. -/
inductive Op (α β : Type) where
  | push (priority : α)
  | popMin
  | popMax
  | reprioritise (g : Item α β → α)
  | clear

/-- What a client observes. -/
inductive Out (α β : Type) where
  | pushed (fb : PushFeedback α β)
  | popped (it : Option (Item α β))
  | done

/-- `e` has lowest priority in the bag `S`. -/
def IsMin (S : List (Item α β)) (e : Item α β) : Prop := e ∈ S ∧ ∀ x ∈ S, e.priority ≤ x.priority
/-- `e` has highest priority in the bag `S`. -/
def IsMax (S : List (Item α β)) (e : Item α β) : Prop := e ∈ S ∧ ∀ x ∈ S, x.priority ≤ e.priority

/-- Pushing `p` into a bag `S` of capacity `cap` whose slots are `slots`. -/
inductive PushStep (cap : Nat) (slots : List β) (S : List (Item α β)) (p : α) :
    PushFeedback α β → List (Item α β) → Prop where
  /-- Room left: the item gets a slot that no queued item uses. -/
  | room (a : β) (S' : List (Item α β)) : S.length < cap → a ∈ slots → a ∉ S.map (·.address) →
      S'.Perm (⟨p, a⟩ :: S) → PushStep cap slots S p ⟨some ⟨p, a⟩, none⟩ S'
  /-- Full and below everything queued: rejected, nothing changes. -/
  | reject (S' : List (Item α β)) : S.length = cap → (∀ x ∈ S, p < x.priority) → S'.Perm S →
      PushStep cap slots S p ⟨none, none⟩ S'
  /-- Full otherwise: an item of lowest priority is evicted and its slot is reused. -/
  | evict (e : Item α β) (rest S' : List (Item α β)) : S.length = cap → IsMin S e → e.priority ≤ p →
      S.Perm (e :: rest) → S'.Perm (⟨p, e.address⟩ :: rest) →
      PushStep cap slots S p ⟨some ⟨p, e.address⟩, some e⟩ S'

/-- One operation on the bag. -/
def Step (cap : Nat) (slots : List β) (S : List (Item α β)) : Op α β → Out α β → List (Item α β) → Prop
  | .push p, .pushed fb, S' => PushStep cap slots S p fb S'
  | .popMin, .popped none, S' => S = [] ∧ S' = []
  | .popMin, .popped (some e), S' => IsMin S e ∧ S.Perm (e :: S')
  | .popMax, .popped none, S' => S = [] ∧ S' = []
  | .popMax, .popped (some e), S' => IsMax S e ∧ S.Perm (e :: S')
  | .reprioritise g, .done, S' => S'.Perm (S.map (fun it => ⟨g it, it.address⟩))
  | .clear, .done, S' => S' = []
  | _, _, _ => False

/-- A whole history. -/
inductive Trace (cap : Nat) (slots : List β) : List (Item α β) → List (Op α β) → List (Out α β) →
    List (Item α β) → Prop where
  | nil (S : List (Item α β)) : Trace cap slots S [] [] S
  | cons {S S' S'' : List (Item α β)} {op : Op α β} {out : Out α β} {ops : List (Op α β)} {outs : List (Out α β)} :
      Step cap slots S op out S' → Trace cap slots S' ops outs S'' → Trace cap slots S (op :: ops) (out :: outs) S''

end PQSpec

namespace PriorityQueue
variable {α β : Type}
open PQSpec

/-- The items currently queued. -/
def contents (q : PriorityQueue α β) : List (Item α β) := (List.range q.itemsAmount).map q.items

/-- All slots of the queue's storage, queued or free. -/
def slots (q : PriorityQueue α β) : List β := (List.range q.maxElements).map (fun i => (q.items i).address)

/-- The caller's loop that overwrites priorities (e.g. src/Cycle.c 779-782). -/
def overwrite (q : PriorityQueue α β) (g : Item α β → α) : PriorityQueue α β :=
  { q with items := fun i => if i < q.itemsAmount then ⟨g (q.items i), (q.items i).address⟩ else q.items i }

variable [LinearOrder α]

/-- Run one client operation on the model. -/
def exec (q : PriorityQueue α β) : Op α β → R (Out α β × PriorityQueue α β)
  | .push p => do let (fb, q') ← q.push p; .ok (.pushed fb, q')
  | .popMin => do let (it, q') ← q.popMin; .ok (.popped it, q')
  | .popMax => do let (it, q') ← q.popMax; .ok (.popped it, q')
  | .reprioritise g => do let q' ← (q.overwrite g).rebuild; .ok (.done, q')
  | .clear => .ok (.done, PriorityQueue.init q.items q.maxElements)

/-- Run a history. -/
def run (q : PriorityQueue α β) : List (Op α β) → R (List (Out α β) × PriorityQueue α β)
  | [] => .ok ([], q)
  | op :: ops => do
    let (out, q') ← q.exec op
    let (outs, q'') ← run q' ops
    .ok (out :: outs, q'')

end PriorityQueue
end ONA

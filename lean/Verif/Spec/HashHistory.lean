import Verif.Spec.HashTable
/-
What a hash table has to answer, in terms of the history of operations only (newest operation first).
-/
namespace ONA
namespace HTHist
variable {P K V : Type}

/-- An API call on a hash table. -/
inductive Op (P K V : Type) where
  | set (key : P) (value : V)
  | get (key : K)
  | delete (key : K)

/-- The value last set for an equal key and not deleted since. -/
def lastWrite (ops : KeyOps P K) : List (Op P K V) → K → Option V
  | [], _ => none
  | .set p v :: h, k => if ops.equal (ops.deref p) k then some v else lastWrite ops h k
  | .get _ :: h, k => lastWrite ops h k
  | .delete k' :: h, k => if ops.equal k' k then none else lastWrite ops h k

/-- Number of keys that currently have a value. -/
def count (ops : KeyOps P K) : List (Op P K V) → Nat
  | [] => 0
  | .set p _ :: h => if (lastWrite ops h (ops.deref p)).isSome then count ops h else count ops h + 1
  | .get _ :: h => count ops h
  | .delete _ :: h => count ops h - 1

/-- The API is used as the code base uses it: only present keys are deleted, and a new key is set only while
the table is not full. -/
def Legal (ops : KeyOps P K) (capacity : Nat) : List (Op P K V) → Prop
  | [] => True
  | .set p _ :: h => Legal ops capacity h ∧
      ((lastWrite ops h (ops.deref p)).isSome ∨ count ops h < capacity)
  | .get _ :: h => Legal ops capacity h
  | .delete k :: h => Legal ops capacity h ∧ (lastWrite ops h k).isSome

/-- Executing one call on the model. -/
def exec (ops : KeyOps P K) (t : HashTable P V) : Op P K V → R (HashTable P V)
  | .set p v => t.set ops p v
  | .get k => do let _ ← t.get ops k; .ok t
  | .delete k => t.delete ops k

/-- Executing a history (newest first) on a freshly initialised table. -/
def run (ops : KeyOps P K) (buckets capacity : Nat) : List (Op P K V) → R (HashTable P V)
  | [] => HashTable.init buckets capacity
  | op :: h => do
    let t ← run ops buckets capacity h
    exec ops t op

end HTHist
end ONA

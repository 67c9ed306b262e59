import Verif.Model.HashTable
/-
Specification of the hash table: an association list of (key pointer, value) entries with pairwise different
keys, at most `capacity` of them.
-/
namespace ONA

/-- The callbacks fit together: `equal` is an equivalence, equal keys have equal hashes, hashes are not
negative (see `Props/Hash.lean` for the hash functions of the code). -/
structure KeyOps.Lawful {P K : Type} (ops : KeyOps P K) : Prop where
  refl : ∀ a, ops.equal a a = true
  symm : ∀ a b, ops.equal a b = true → ops.equal b a = true
  trans : ∀ a b c, ops.equal a b = true → ops.equal b c = true → ops.equal a c = true
  hash_eq : ∀ a b, ops.equal a b = true → ops.hash a = ops.hash b
  hash_nonneg : ∀ a, 0 ≤ ops.hash a

namespace HTSpec
variable {P K V : Type}

/-- Value stored under a key. -/
def lookup (ops : KeyOps P K) (l : List (P × V)) (k : K) : Option V :=
  (l.find? fun e => ops.equal (ops.deref e.1) k).map (·.2)

/-- Overwrite the value of an equal key, or add a new entry. -/
def insert (ops : KeyOps P K) (l : List (P × V)) (p : P) (v : V) : List (P × V) :=
  if (l.any fun e => ops.equal (ops.deref e.1) (ops.deref p)) then
    l.map fun e => if ops.equal (ops.deref e.1) (ops.deref p) then (e.1, v) else e
  else (p, v) :: l

/-- Remove the entry of a key. -/
def erase (ops : KeyOps P K) (l : List (P × V)) (k : K) : List (P × V) :=
  l.filter fun e => !ops.equal (ops.deref e.1) k

end HTSpec
end ONA

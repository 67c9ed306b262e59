import Verif.Model.Narsese
/-
Model of src/InvertedAtomIndex.c at pointer level: for every atom a chain of elements pointing to concepts,
elements come from a pool of recycled elements. Concepts and chain elements are identified by their index in their
storage arrays.
-/
namespace ONA

/-- `ConceptChainElement` (src/InvertedAtomIndex.h 40-44). -/
structure ConceptChainElement where
  c : Option Nat
  next : Option Nat

/-- The static state (src/InvertedAtomIndex.c 27-30). `poolSize` is `UNIFICATION_DEPTH*CONCEPTS_MAX`. -/
structure InvertedAtomIndex where
  conceptChainElementStack : Stack Nat
  conceptChainElementStorage : Nat → ConceptChainElement
  invertedAtomIndex : Nat → Option Nat
  poolSize : Nat

namespace InvertedAtomIndex

/-- `InvertedAtomIndex_INIT` (src/InvertedAtomIndex.c 32-45) for a given pool size. The pushing loop is the one of
the hash table (src/HashTable.c 128-133), the cleared array of pointers is the initial stack content. -/
def initWith (poolSize : Nat) : R InvertedAtomIndex := do
  let stack ← HashTable.initLoop (Stack.init (fun _ => none) poolSize) poolSize
  .ok { conceptChainElementStack := stack
        conceptChainElementStorage := fun _ => ⟨none, none⟩
        invertedAtomIndex := fun _ => none
        poolSize := poolSize }

/-- Search loop of `InvertedAtomIndex_AddConcept` (src/InvertedAtomIndex.c 63-73): `none` if the concept is found
(`goto NEXT_ATOM`), otherwise the last element of the chain. -/
def findLast (x : InvertedAtomIndex) (c : Nat) : Nat → Nat → R (Option Nat)
  | 0, _ => .error .fuel
  | fuel + 1, n =>
    if (x.conceptChainElementStorage n).c = some c then .ok none
    else match (x.conceptChainElementStorage n).next with
      | none => .ok (some n)
      | some m => findLast x c fuel m

/-- `newElem = Stack_Pop(..); newElem->c = c` (src/InvertedAtomIndex.c 57-58, 75-76); `next` is not assigned. -/
def newElem (x : InvertedAtomIndex) (c : Nat) : R (Nat × InvertedAtomIndex) := do
  let (popped, stack) ← x.conceptChainElementStack.pop
  match popped with
  | none => .error (.ub "NULL chain element")
  | some n =>
    .ok (n, { x with
      conceptChainElementStack := stack
      conceptChainElementStorage := upd x.conceptChainElementStorage n
        { x.conceptChainElementStorage n with c := some c } })

/-- Body of the loop of `InvertedAtomIndex_AddConcept` for a simple atom (src/InvertedAtomIndex.c 54-78). -/
def addAtom (x : InvertedAtomIndex) (atom : Nat) (c : Nat) : R InvertedAtomIndex :=
  match x.invertedAtomIndex atom with
  | none => do
    let (n, x) ← newElem x c
    .ok { x with invertedAtomIndex := upd x.invertedAtomIndex atom (some n) }
  | some first => do
    match (← findLast x c (x.poolSize + 1) first) with
    | none => .ok x
    | some previous =>
      let (n, x) ← newElem x c
      let elem := { x.conceptChainElementStorage previous with next := some n }
      .ok { x with conceptChainElementStorage := upd x.conceptChainElementStorage previous elem }

/-- Search loop of `InvertedAtomIndex_RemoveConcept` (src/InvertedAtomIndex.c 93-113): the element and its
predecessor. -/
def findElem (x : InvertedAtomIndex) (c : Nat) : Nat → Option Nat → Option Nat → R (Option (Option Nat × Nat))
  | _, _, none => .ok none
  | 0, _, some _ => .error .fuel
  | fuel + 1, previous, some n =>
    if (x.conceptChainElementStorage n).c = some c then .ok (some (previous, n))
    else findElem x c fuel (some n) (x.conceptChainElementStorage n).next

/-- `invertedAtomIndex[atom] = elem->next` or `previous->next = elem->next` (src/InvertedAtomIndex.c 97-104). -/
def unlink (x : InvertedAtomIndex) (atom : Nat) (previous : Option Nat) (n : Nat) : InvertedAtomIndex :=
  match previous with
  | none => { x with invertedAtomIndex := upd x.invertedAtomIndex atom (x.conceptChainElementStorage n).next }
  | some p =>
    let elem := { x.conceptChainElementStorage p with next := (x.conceptChainElementStorage n).next }
    { x with conceptChainElementStorage := upd x.conceptChainElementStorage p elem }

/-- Body of the loop of `InvertedAtomIndex_RemoveConcept` for a simple atom (src/InvertedAtomIndex.c 91-113). -/
def removeAtom (x : InvertedAtomIndex) (atom : Nat) (c : Nat) : R InvertedAtomIndex := do
  match (← findElem x c (x.poolSize + 1) none (x.invertedAtomIndex atom)) with
  | none => .ok x
  | some (previous, n) =>
    let x := x.unlink atom previous n
    let x := { x with conceptChainElementStorage := upd x.conceptChainElementStorage n ⟨none, none⟩ }
    let stack ← x.conceptChainElementStack.push n
    .ok { x with conceptChainElementStack := stack }

/-- The loops over the first `UNIFICATION_DEPTH` atoms (src/InvertedAtomIndex.c 49-53, 86-90), `k` iterations left. -/
def forAtoms (n : Narsese) (term : Term) (body : InvertedAtomIndex → Nat → R InvertedAtomIndex) :
    Nat → InvertedAtomIndex → R InvertedAtomIndex
  | 0, x => .ok x
  | k + 1, x => do
    let atom := term.get (UNIFICATION_DEPTH - (k + 1))
    let x ← if Narsese_IsSimpleAtom n atom then body x atom.toNat else .ok x
    forAtoms n term body k x

/-- The concepts met when following a chain (src/InvertedAtomIndex.c 128-138, src/Cycle.c 36-45). -/
def follow (x : InvertedAtomIndex) : Nat → Option Nat → R (List (Option Nat))
  | _, none => .ok []
  | 0, some _ => .error .fuel
  | fuel + 1, some n => do
    let l ← follow x fuel (x.conceptChainElementStorage n).next
    .ok ((x.conceptChainElementStorage n).c :: l)

end InvertedAtomIndex

/-- `InvertedAtomIndex_INIT` (src/InvertedAtomIndex.c 32-45). -/
def InvertedAtomIndex_INIT : R InvertedAtomIndex := InvertedAtomIndex.initWith (UNIFICATION_DEPTH * CONCEPTS_MAX)

/-- `InvertedAtomIndex_AddConcept` (src/InvertedAtomIndex.c 47-82). -/
def InvertedAtomIndex_AddConcept (n : Narsese) (x : InvertedAtomIndex) (term : Term) (c : Nat) : R InvertedAtomIndex :=
  InvertedAtomIndex.forAtoms n term (fun x atom => x.addAtom atom c) UNIFICATION_DEPTH x

/-- `InvertedAtomIndex_RemoveConcept` (src/InvertedAtomIndex.c 84-118). -/
def InvertedAtomIndex_RemoveConcept (n : Narsese) (x : InvertedAtomIndex) (term : Term) (c : Nat) : R InvertedAtomIndex :=
  InvertedAtomIndex.forAtoms n term (fun x atom => x.removeAtom atom c) UNIFICATION_DEPTH x

/-- `InvertedAtomIndex_GetConceptChain` (src/InvertedAtomIndex.c 144-152). -/
def InvertedAtomIndex_GetConceptChain (x : InvertedAtomIndex) (atom : Atom) : Option Nat :=
  if atom ≠ 0 then x.invertedAtomIndex atom.toNat else none

end ONA

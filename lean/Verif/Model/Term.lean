import Verif.Model.Globals
import Verif.Model.Config
/-
Model of src/Term.c. A term is an array of `COMPOUND_TERM_SIZE_MAX` 16-bit atoms that encodes a binary tree in
heap order (children of position `i` are `2i+1` and `2i+2`, atom 0 is "nothing"), plus a cached hash.

`HTerm` is the C struct including the cache; `Term` is the atom array alone. The rest of the model works on `Term`;
`Props/Term.lean` (C27) proves that the cache cannot be observed, so that this is faithful.
-/
namespace ONA

/-- `Atom` (src/Config.h 142, `unsigned short`). -/
abbrev Atom := BitVec 16

/-- The `atoms` array of `Term` (src/Term.h 54-59). -/
structure Term where
  atoms : Vector Atom COMPOUND_TERM_SIZE_MAX

/-- Equality of terms is decided on the lists of atoms. -/
instance : DecidableEq Term := fun a b =>
  decidable_of_iff (a.atoms.toArray.toList = b.atoms.toArray.toList)
    ⟨fun h => by
      cases a with | mk a => cases b with | mk b =>
      exact congrArg Term.mk (Vector.toArray_inj.1 (Array.toList_inj.1 h)), fun h => by rw [h]⟩

namespace Term

/-- `term->atoms[i]`, for reads the code guards by `i < COMPOUND_TERM_SIZE_MAX`. -/
def get (t : Term) (i : Nat) : Atom := t.atoms[i]?.getD 0

/-- `term->atoms[i]` without a guard in the code. -/
def read (t : Term) (i : Nat) : R Atom :=
  match t.atoms[i]? with
  | some a => .ok a
  | none => .error (.ub "read outside term")

/-- `term->atoms[i] = a`, for writes the code guards. -/
def put (t : Term) (i : Nat) (a : Atom) : Term := ⟨t.atoms.setIfInBounds i a⟩

/-- `term->atoms[i] = a` without a guard in the code. -/
def write (t : Term) (i : Nat) (a : Atom) : R Term :=
  if i < COMPOUND_TERM_SIZE_MAX then .ok (t.put i a) else .error (.ub "write outside term")

/-- `(Term) {0}`. -/
def zero : Term := ⟨Vector.replicate _ 0⟩

end Term

/-- `Term_RelativeOverride` (src/Term.c 39-67), returning success and the modified term. The first argument bounds
the recursion: position `i + 1` at least doubles in each call, so from a bound of 7 it reaches 0 only for
`i ≥ COMPOUND_TERM_SIZE_MAX`, where the C code returns `false` as well. -/
def Term_RelativeOverride : Nat → Term → Nat → Term → Nat → Bool × Term
  | 0, term, _, _, _ => (false, term)
  | fuel + 1, term, i, subterm, j =>
    if i ≥ COMPOUND_TERM_SIZE_MAX then (false, term)
    else if j < COMPOUND_TERM_SIZE_MAX then
      let term := term.put i (subterm.get j)
      let left_in_subterm := (j + 1) * 2 - 1
      let (ok, term) :=
        if left_in_subterm < COMPOUND_TERM_SIZE_MAX ∧ subterm.get left_in_subterm ≠ 0 then
          Term_RelativeOverride fuel term ((i + 1) * 2 - 1) subterm left_in_subterm
        else (true, term)
      if !ok then (false, term)
      else
        let right_in_subterm := (j + 1) * 2 + 1 - 1
        if right_in_subterm < COMPOUND_TERM_SIZE_MAX ∧ subterm.get right_in_subterm ≠ 0 then
          Term_RelativeOverride fuel term ((i + 1) * 2 + 1 - 1) subterm right_in_subterm
        else (true, term)
    else (true, term)

/-- `Term_OverrideSubterm` (src/Term.c 69-72). -/
def Term_OverrideSubterm (term : Term) (i : Nat) (subterm : Term) : Bool × Term :=
  Term_RelativeOverride 7 term i subterm 0

/-- `Term_ExtractSubterm` (src/Term.c 74-79). -/
def Term_ExtractSubterm (term : Term) (j : Nat) : Term :=
  (Term_RelativeOverride 7 Term.zero 0 term j).2

/-- `Term_Complexity` (src/Term.c 81-92). -/
def Term_Complexity (term : Term) : Nat :=
  (List.range COMPOUND_TERM_SIZE_MAX).foldl (fun s i => if term.get i ≠ 0 then s + 1 else s) 0

/-- `Term_HasAtom` (src/Term.c 108-118). -/
def Term_HasAtom (term : Term) (atom : Atom) : Bool :=
  (List.range COMPOUND_TERM_SIZE_MAX).any fun i => term.get i == atom

/-- The `k`-th 64-bit word of the atom array (little endian), as read through `(HASH_TYPE*) term->atoms`
(src/Term.c 102). -/
def Term.word (t : Term) (k : Nat) : BitVec 64 :=
  t.get (4 * k + 3) ++ t.get (4 * k + 2) ++ t.get (4 * k + 1) ++ t.get (4 * k)

/-- The hash computed by `Term_Hash` when nothing is cached (src/Term.c 100-102): `TERM_ATOMS_SIZE / HASH_TYPE_SIZE`
= 128 / 8 = 16 pieces (the assertion in line 101 is about these constants). -/
def Term.hashValue (t : Term) : BitVec 64 := Globals_Hash ((List.range 16).map t.word)

/-! ### The struct with the cached hash -/

/-- `Term` (src/Term.h 54-59). -/
structure HTerm where
  hashed : Bool
  hash : BitVec 64
  term : Term
deriving DecidableEq

/-- `Term_Hash` (src/Term.c 94-106). -/
def HTerm.Term_Hash (t : HTerm) : BitVec 64 × HTerm :=
  if t.hashed then (t.hash, t)
  else
    let hash := t.term.hashValue
    (hash, { t with hashed := true, hash := hash })

/-- `Term_Equal` (src/Term.c 27-37): the result and the two terms, whose caches may have been filled. `memcmp` compares
all fields (padding assumed equal). -/
def HTerm.Term_Equal (a b : HTerm) : Bool × HTerm × HTerm :=
  let (ha, a) := a.Term_Hash
  let (hb, b) := b.Term_Hash
  if ha = hb then (decide (a = b), a, b) else (false, a, b)

/-- `term->atoms[i] = a` outside src/Term.c (e.g. src/Narsese.c 338-357, src/Decision.c 148): the cache is not touched. -/
def HTerm.rawWrite (t : HTerm) (i : Nat) (a : Atom) : HTerm := { t with term := t.term.put i a }

/-- `Term_OverrideSubterm` on the struct: every write clears the cache flag (src/Term.c 47-48); a write happens
iff the position is in range. -/
def HTerm.Term_OverrideSubterm (t : HTerm) (i : Nat) (s : HTerm) : Bool × HTerm :=
  let (ok, term) := ONA.Term_OverrideSubterm t.term i s.term
  (ok, { t with term := term, hashed := if i < COMPOUND_TERM_SIZE_MAX then false else t.hashed })

/-- `(Term) {0}`. -/
def HTerm.zero : HTerm := ⟨false, 0, Term.zero⟩

/-- `Term_ExtractSubterm` on the struct. -/
def HTerm.Term_ExtractSubterm (t : HTerm) (j : Nat) : HTerm :=
  ⟨false, 0, ONA.Term_ExtractSubterm t.term j⟩

end ONA

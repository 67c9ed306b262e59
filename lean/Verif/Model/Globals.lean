import Verif.Model.Basic
/-
Model of src/Globals.c.
-/
namespace ONA

/-- One round of the loop of `Globals_Hash` (src/Globals.c 42-51). `HASH_TYPE` is `long`: `<<`, `+`, `~`, `^`
on 64 bit words, `>>` is the arithmetic (sign extending) shift. -/
def hashRound (hash data : BitVec 64) : BitVec 64 :=
  let hash := hash ^^^ data
  let hash := hash + ~~~(hash <<< 15)
  let hash := hash ^^^ (hash.sshiftRight 10)
  let hash := hash + (hash <<< 3)
  let hash := hash ^^^ (hash.sshiftRight 6)
  let hash := hash + ~~~(hash <<< 11)
  hash ^^^ (hash.sshiftRight 16)

/-- `Globals_Hash(data, pieces)` (src/Globals.c 39-53); the list holds the `pieces` words of `data`. -/
def Globals_Hash (data : List (BitVec 64)) : BitVec 64 :=
  data.foldl hashRound 0

/-- `myrand` (src/Globals.c 57-64): the returned number and the new value of `next` (`unsigned long`, 64 bit);
`(unsigned)` truncates to 32 bit before `% 32768`. -/
def myrand (next : BitVec 64) : Nat × BitVec 64 :=
  let next := next * 1103515245#64 + 12345#64
  (((next / 65536#64).setWidth 32).toNat % 32768, next)

/-- `mysrand` (src/Globals.c 66-69). -/
def mysrand (seed : BitVec 32) : BitVec 64 := seed.setWidth 64

/-- Initial value of `next` (src/Globals.c 57). -/
def randInitial : BitVec 64 := 1

/-- `hash % buckets` used as an array index (src/HashTable.c 29, 43, 82): `long % int`, truncated towards zero.
A zero divisor or a negative index is undefined behaviour. -/
def bucketIndex (hash : Int) (buckets : Nat) : R Nat :=
  if buckets = 0 then .error (.ub "modulo by zero") else
  let r := Int.tmod hash buckets
  if r < 0 then .error (.ub "negative bucket index") else .ok r.toNat

end ONA

import Verif.Model.Globals
/-
C01 (hash part), C57.
-/
namespace ONA

theorem hashRound_nonneg (h d : BitVec 64) : 0 ≤ (hashRound h d).toInt := by
  have key : ∀ x : BitVec 64, (x ^^^ x.sshiftRight 16).msb = false := by
    intro x
    rw [BitVec.msb_xor, BitVec.msb_sshiftRight]
    simp
  have : (hashRound h d).msb = false := by
    unfold hashRound
    exact key _
  rw [BitVec.toInt_eq_msb_cond, this]
  simp

/-- The hash of any data is a non-negative `long`. -/
theorem Globals_Hash_nonneg (data : List (BitVec 64)) : 0 ≤ (Globals_Hash data).toInt := by
  unfold Globals_Hash
  rcases List.eq_nil_or_concat data with rfl | ⟨l, d, rfl⟩
  · decide
  · simp only [List.concat_eq_append, List.foldl_append, List.foldl_cons, List.foldl_nil]
    exact hashRound_nonneg _ _

/-- **C01** For every data and every positive number of buckets, the bucket index computed from the hash
exists (no undefined behaviour) and lies inside the bucket array. -/
theorem C01_bucket_in_range (data : List (BitVec 64)) (buckets : Nat) (hb : 0 < buckets) :
    ∃ b, bucketIndex (Globals_Hash data).toInt buckets = .ok b ∧ b < buckets := by
  have h := Globals_Hash_nonneg data
  have h0 : buckets ≠ 0 := by omega
  have h1 : 0 ≤ Int.tmod (Globals_Hash data).toInt buckets := Int.tmod_nonneg _ h
  have h2 : Int.tmod (Globals_Hash data).toInt buckets < buckets := Int.tmod_lt_of_pos _ (by omega)
  refine ⟨(Int.tmod (Globals_Hash data).toInt buckets).toNat, ?_, by omega⟩
  simp [bucketIndex, h0, Int.not_lt.2 h1]

/-- The last statement of the hash loop is what guarantees this: a negative word would give an index outside
the array. -/
example : bucketIndex (BitVec.toInt (0x8000000000000001#64)) 16384 = .error (.ub "negative bucket index") := by
  decide +kernel

example : ∃ b, bucketIndex (Globals_Hash [0xdeadbeefdeadbeef#64, 7#64]).toInt 16384 = .ok b ∧ b < 16384 :=
  C01_bucket_in_range _ _ (by decide)

/-- `n`-th value returned by `myrand` after seeding, and the generator state after it. -/
def nthRand (state : BitVec 64) : Nat → Nat
  | 0 => (myrand state).1
  | n + 1 => nthRand (myrand state).2 n

theorem myrand_le (state : BitVec 64) : (myrand state).1 ≤ 32767 := by
  unfold myrand
  dsimp only
  generalize BitVec.toNat _ = x
  omega

/-- **C57** Every value returned by the random source is between 0 and 32767 (`MY_RAND_MAX`), for every seed
and every number of calls. -/
theorem C57_rand_range (state : BitVec 64) (n : Nat) : nthRand state n ≤ 32767 := by
  induction n generalizing state with
  | zero => exact myrand_le state
  | succ n ih => unfold nthRand; exact ih _

/-- **C57** The sequence is that of the POSIX generator: the state after a call is the linear congruential
successor modulo 2^64, and the value is bits 16..30 of it. -/
theorem C57_rand_bits (state : BitVec 64) :
    (myrand state).1 = ((myrand state).2.toNat >>> 16) % 2 ^ 15 ∧
    (myrand state).2.toNat = (state.toNat * 1103515245 + 12345) % 2 ^ 64 := by
  unfold myrand
  constructor
  · dsimp only
    rw [BitVec.toNat_setWidth, BitVec.toNat_udiv]
    generalize BitVec.toNat (state * _ + _) = x
    rw [Nat.mod_mod_of_dvd _ (by decide : (32768 ∣ 2 ^ 32)), Nat.shiftRight_eq_div_pow]
    rfl
  · dsimp only
    rw [BitVec.toNat_add, BitVec.toNat_mul, BitVec.toNat_ofNat, BitVec.toNat_ofNat]
    omega

/-- A test: the first values after start (`next = 1`). -/
example : [nthRand randInitial 0, nthRand randInitial 1, nthRand randInitial 2] = [16838, 5758, 10113] := by
  decide +kernel

end ONA

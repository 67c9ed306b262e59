import Verif.Spec.HashHistory
import Verif.Proofs.HashTable
/-
C02, C03, C04.
-/
namespace ONA
open HashTable HTHist
variable {P K V : Type}

/-- Invariant connecting the table after a history with the history. -/
theorem run_rep [Nonempty P] [Nonempty V] {ops : KeyOps P K} (hl : ops.Lawful) {B cap : Nat} (hB : 0 < B) :
    ∀ h : List (Op P K V), Legal ops cap h →
      ∃ t l, run ops B cap h = .ok t ∧ t.maxElements = cap ∧ t.buckets = B ∧ Rep ops t l ∧
        l.length = count ops h ∧ ∀ k, HTSpec.lookup ops l k = lastWrite ops h k
  | [], _ => by
    obtain ⟨t, h1, h2, h3, h4⟩ := init_rep (V := V) ops B cap hB
    exact ⟨t, [], h1, h3, h2, h4, rfl, fun k => rfl⟩
  | .get k :: h, hleg => by
    obtain ⟨t, l, h1, h2, h2b, h3, h4, h5⟩ := run_rep hl hB h hleg
    refine ⟨t, l, ?_, h2, h2b, h3, h4, h5⟩
    simp [run, h1, exec, get_rep hl h3]
  | .set p v :: h, hleg => by
    obtain ⟨t, l, h1, h2, h2b, h3, h4, h5⟩ := run_rep hl hB h hleg.1
    have hcap : HTSpec.lookup ops l (ops.deref p) ≠ none ∨ l.length < t.maxElements := by
      rw [h5, h4, h2]
      rcases hleg.2 with hx | hx
      · left; intro hn; rw [hn] at hx; cases hx
      · right; exact hx
    obtain ⟨t', hs, hs1, hs2, hs3⟩ := set_rep hl h3 p v hcap
    refine ⟨t', _, by simp [run, h1, exec, hs], hs2.trans h2, hs1.trans h2b, hs3, ?_, ?_⟩
    · simp only [count, ← h5, ← h4]
      cases hq : HTSpec.lookup ops l (ops.deref p) with
      | none => simp [insert_of_none hq]
      | some w =>
        obtain ⟨q, hq1, hq2⟩ := (lookup_eq_some hl h3.distinct).1 hq
        have : (l.any fun e => ops.equal (ops.deref e.1) (ops.deref p)) = true :=
          List.any_eq_true.2 ⟨_, hq1, hq2⟩
        simp [HTSpec.insert, this]
    · intro k
      simp only [lastWrite, ← h5]
      cases hq : HTSpec.lookup ops l (ops.deref p) with
      | none =>
        rw [insert_of_none hq]
        simp only [HTSpec.lookup, List.find?_cons]
        cases ops.equal (ops.deref p) k <;> simp
      | some w =>
        obtain ⟨q, hq1, hq2⟩ := (lookup_eq_some hl h3.distinct).1 hq
        have hany : (l.any fun e => ops.equal (ops.deref e.1) (ops.deref p)) = true :=
          List.any_eq_true.2 ⟨_, hq1, hq2⟩
        have hd := hs3.distinct
        have hins : HTSpec.insert ops l p v =
            l.map fun e => if ops.equal (ops.deref e.1) (ops.deref p) then (e.1, v) else e := by
          simp only [HTSpec.insert, hany, if_true]
        cases hpk : ops.equal (ops.deref p) k with
        | true =>
          rw [if_pos rfl, lookup_eq_some hl hd]
          refine ⟨q, ?_, hl.trans _ _ _ hq2 hpk⟩
          rw [hins]
          exact List.mem_map.2 ⟨(q, w), hq1, by simp [hq2]⟩
        | false =>
          rw [if_neg (by simp)]
          have hsame : ∀ e : P × V, ops.equal (ops.deref e.1) k = true →
              ops.equal (ops.deref e.1) (ops.deref p) = false := by
            intro e he
            cases hx : ops.equal (ops.deref e.1) (ops.deref p) with
            | false => rfl
            | true => rw [hl.trans _ _ _ (hl.symm _ _ hx) he] at hpk; cases hpk
          cases hr : HTSpec.lookup ops l k with
          | none =>
            rw [lookup_eq_none] at hr ⊢
            intro e he
            rw [hins] at he
            obtain ⟨e', he', rfl⟩ := List.mem_map.1 he
            have := hr e' he'
            split <;> exact this
          | some u =>
            obtain ⟨r, hr1, hr2⟩ := (lookup_eq_some hl h3.distinct).1 hr
            rw [lookup_eq_some hl hd]
            refine ⟨r, ?_, hr2⟩
            rw [hins]
            exact List.mem_map.2 ⟨(r, u), hr1, by simp [hsame (r, u) hr2]⟩
  | .delete k' :: h, hleg => by
    obtain ⟨t, l, h1, h2, h2b, h3, h4, h5⟩ := run_rep hl hB h hleg.1
    have hin : HTSpec.lookup ops l k' ≠ none := by
      rw [h5]; intro hn; have := hleg.2; rw [hn] at this; cases this
    obtain ⟨t', hs, hs1, hs2, hs3⟩ := delete_rep hl h3 k' hin
    refine ⟨t', _, by simp [run, h1, exec, hs], hs2.trans h2, hs1.trans h2b, hs3, ?_, ?_⟩
    · obtain ⟨w, hw⟩ := Option.ne_none_iff_exists'.1 hin
      obtain ⟨q, hq1, hq2⟩ := (lookup_eq_some hl h3.distinct).1 hw
      simp only [count, ← h4]
      have hperm : ∃ l1 l2, l = l1 ++ (q, w) :: l2 := List.append_of_mem hq1
      obtain ⟨l1, l2, rfl⟩ := hperm
      have hd := h3.distinct
      have hne : ∀ e ∈ l1 ++ l2, ops.equal (ops.deref e.1) k' = false := by
        intro e he
        have hperm : (l1 ++ (q, w) :: l2).Perm ((q, w) :: (l1 ++ l2)) := List.perm_middle
        have hd' := hperm.pairwise hd (fun hab => equal_false_symm hl hab)
        have := (List.pairwise_cons.1 hd').1 e he
        cases hx : ops.equal (ops.deref e.1) k' with
        | false => rfl
        | true => rw [hl.trans _ _ _ hq2 (hl.symm _ _ hx)] at this; cases this
      have hf : ∀ l' : List (P × V), (∀ e ∈ l', ops.equal (ops.deref e.1) k' = false) →
          l'.filter (fun e => !ops.equal (ops.deref e.1) k') = l' := by
        intro l' hl'
        rw [List.filter_eq_self]
        intro e he; simp [hl' e he]
      simp only [HTSpec.erase, List.filter_append]
      rw [List.filter_cons_of_neg (by simp [hq2]), hf l1 (fun e he => hne e (by simp [he])),
        hf l2 (fun e he => hne e (by simp [he]))]
      simp
    · intro k
      simp only [lastWrite, ← h5]
      cases hkk : ops.equal k' k with
      | true =>
        rw [if_pos rfl, lookup_eq_none]
        intro e he
        have := (List.mem_filter.1 he).2
        simp only [Bool.not_eq_true'] at this
        cases hx : ops.equal (ops.deref e.1) k with
        | false => rfl
        | true => rw [hl.trans _ _ _ hx (hl.symm _ _ hkk)] at this; cases this
      | false =>
        rw [if_neg (by simp)]
        cases hr : HTSpec.lookup ops l k with
        | none =>
          rw [lookup_eq_none] at hr ⊢
          intro e he
          exact hr e (List.mem_filter.1 he).1
        | some u =>
          obtain ⟨r, hr1, hr2⟩ := (lookup_eq_some hl h3.distinct).1 hr
          rw [lookup_eq_some hl hs3.distinct]
          refine ⟨r, List.mem_filter.2 ⟨hr1, ?_⟩, hr2⟩
          cases hx : ops.equal (ops.deref r) k' with
          | false => simp [hx]
          | true => rw [hl.trans _ _ _ (hl.symm _ _ hx) hr2] at hkk; cases hkk

/-- **C02** After every legal history of calls on a table with a positive number of buckets, no call fails, and
looking up any key returns exactly the value last set for an equal key and not deleted since (NULL if none),
whatever the hash function and the collisions. -/
theorem C02_finite_map [Nonempty P] [Nonempty V] (ops : KeyOps P K) (hl : ops.Lawful) (buckets capacity : Nat)
    (hB : 0 < buckets) (h : List (Op P K V)) (hleg : Legal ops capacity h) :
    ∃ t, run ops buckets capacity h = .ok t ∧ ∀ k, t.get ops k = .ok (lastWrite ops h k) := by
  obtain ⟨t, l, h1, _, _, h3, _, h5⟩ := run_rep hl hB h hleg
  exact ⟨t, h1, fun k => by rw [get_rep hl h3, h5]⟩

/-- The nodes on the free stack. -/
def HashTable.freeNodes (t : HashTable P V) : List (Option Nat) :=
  (List.range t.VMStack.stackpointer).map t.VMStack.items

/-- **C03** After every legal history, following the `next` pointers from the bucket heads visits a list of
nodes per bucket such that these nodes together with the free stack are a permutation of the node pool
(nothing leaked, nothing in two places), and the number of used nodes is the number of stored keys. -/
theorem C03_pool [Nonempty P] [Nonempty V] (ops : KeyOps P K) (hl : ops.Lawful) (buckets capacity : Nat)
    (hB : 0 < buckets) (h : List (Op P K V)) (hleg : Legal ops capacity h) :
    ∃ t chains, run ops buckets capacity h = .ok t ∧
      (∀ b, b < buckets → Chain (fun n => (t.storage n).next) (t.HT b) (chains b)) ∧
      (((List.range buckets).flatMap chains).map some ++ t.freeNodes).Perm ((List.range capacity).map some) ∧
      ((List.range buckets).flatMap chains).length = count ops h := by
  obtain ⟨t, l, h1, h2, hb, ⟨chains, free, ent, h3⟩, h4, _⟩ := run_rep hl hB h hleg
  subst hb; subst h2
  refine ⟨t, chains, h1, h3.chain, ?_, ?_⟩
  · have hfree : t.freeNodes = free.map some := by
      apply List.ext_getElem?
      intro i
      simp only [HashTable.freeNodes, h3.stk_sp, List.getElem?_map]
      by_cases hi : i < free.length
      · simp [hi, h3.stk_items i hi]
      · simp [hi]
    rw [hfree, ← List.map_append]
    exact h3.perm.map _
  · have := h3.entries.length_eq
    simp [HashTable.nodes] at this
    rw [← h4, this]
    simp

/-- **C03** Up to `capacity` different keys fit, and one key more ends in the assertion of the stack, not in an
overwritten entry. -/
theorem C03_full [Nonempty P] [Nonempty V] (ops : KeyOps P K) (hl : ops.Lawful) (buckets capacity : Nat)
    (hB : 0 < buckets) (h : List (Op P K V)) (hleg : Legal ops capacity h) (p : P) (v : V)
    (hnew : lastWrite ops h (ops.deref p) = none) :
    (count ops h < capacity → ∃ t, run ops buckets capacity (.set p v :: h) = .ok t) ∧
    (count ops h = capacity →
      run ops buckets capacity (.set p v :: h) = .error (.assertFail "VMEntry stack underflow")) := by
  constructor
  · intro hc
    obtain ⟨t, h1, _⟩ := C02_finite_map ops hl buckets capacity hB (.set p v :: h) ⟨hleg, .inr hc⟩
    exact ⟨t, h1⟩
  · intro hc
    obtain ⟨t, l, h1, h2, _, h3, h4, h5⟩ := run_rep hl hB h hleg
    have := set_full hl h3 p v (by rw [h5]; exact hnew) (by rw [h4, h2, hc])
    simp [run, h1, exec, this]

/-- Keys that all collide: hash 0 for everything. -/
def collidingOps : KeyOps Nat Nat := { deref := id, equal := fun a b => a == b, hash := fun _ => 0 }

theorem collidingOps_lawful : collidingOps.Lawful where
  refl := by simp [collidingOps]
  symm := by simp [collidingOps]
  trans := by simp [collidingOps]
  hash_eq := by simp [collidingOps]
  hash_nonneg := by simp [collidingOps]

/-- The hypotheses of C02/C03 are met by a history with collisions, overwriting and deletion. -/
example : Legal collidingOps 2
    ([.set 3 30, .delete 1, .set 2 21, .set 2 20, .set 1 10] : List (Op Nat Nat Nat)) := by
  simp [Legal, lastWrite, count, collidingOps]

/-- **C04 is false**: deleting a key whose bucket is empty dereferences NULL. -/
theorem C04_delete_absent_crashes [Nonempty P] [Nonempty V] (ops : KeyOps P K) (hl : ops.Lawful)
    (buckets capacity : Nat) (hB : 0 < buckets) (k : K) :
    run ops buckets capacity ([.delete k] : List (Op P K V)) =
      .error (.ub "NULL dereference in HashTable_Delete") := by
  obtain ⟨t, h1, h2, h3, h4⟩ := init_rep (V := V) ops buckets capacity hB
  obtain ⟨b, hb, hb'⟩ := bucketIndex_ok (hl.hash_nonneg k) hB
  have hH : t.HT b = none := by
    obtain ⟨s, hs, _⟩ := initLoop_ok capacity capacity (Nat.le_refl _)
    rw [HashTable.init, hs] at h1
    simp only [R.ok_bind] at h1
    cases h1; rfl
  simp [run, h1, exec, HashTable.delete, h2, hb', hH]

/-- **C04 is false**: deleting an absent key that collides with the only entry of a bucket silently removes the
entry of the other key. -/
theorem C04_delete_absent_removes_other :
    ∃ t t' : HashTable Nat Nat, run collidingOps 4 2 [.set 1 10] = .ok t ∧
      t.get collidingOps 1 = .ok (some 10) ∧ t.get collidingOps 2 = .ok none ∧
      t.delete collidingOps 2 = .ok t' ∧ t'.get collidingOps 1 = .ok none := by
  refine ⟨_, _, rfl, ?_, ?_, rfl, ?_⟩ <;> rfl

/-- **C04, the part that holds**: in a chain of at least two entries an absent key is noticed and the program
stops with an assertion; and deleting a present key removes nothing else (this is C02). Missing for C04: empty
buckets and one-element chains, see the two refutations above. -/
theorem C04_delete_absent_partial (ops : KeyOps P K) (hl : ops.Lawful) (t : HashTable P V) (l : List (P × V))
    (hrep : Rep ops t l) (k : K) (habs : HTSpec.lookup ops l k = none) (b first : Nat)
    (hb : bucketIndex (ops.hash k) t.buckets = .ok b) (hfirst : t.HT b = some first)
    (htwo : (t.storage first).next ≠ none) :
    t.delete ops k = .error (.assertFail "HashTable deletion failed, item was not found!") := by
  obtain ⟨chains, free, ent, h⟩ := hrep
  obtain ⟨b', hbB, hb''⟩ := bucketIndex_ok (hl.hash_nonneg k) h.bpos
  rw [hb] at hb''; cases hb''
  have hchain := h.chain b hbB
  have hent := fun m hm => (h.ent_ok b hbB m hm).1
  have hlen := h.length_chain hbB
  have hne : ∀ m ∈ chains b, ops.equal (ops.deref (ent m).1) k = false := by
    intro m hm
    exact lookup_eq_none.1 habs _ ((h.mem_entries _).2 ⟨m, mem_nodes.2 ⟨b, hbB, hm⟩, rfl⟩)
  have hloop : ∀ (c : List Nat) (prev p : Option Nat) (fuel : Nat),
      Chain (fun n => (t.storage n).next) p c → (∀ m ∈ c, IsEntry t m (ent m)) → c.length ≤ fuel →
      (∀ m ∈ c, ops.equal (ops.deref (ent m).1) k = false) →
      deleteLoop ops t k fuel prev p = .error (.assertFail "HashTable deletion failed, item was not found!") := by
    intro c
    induction c with
    | nil => intro prev p fuel hc _ _ _; cases hc; unfold deleteLoop; rfl
    | cons n c ih =>
      rintro prev p fuel ⟨rfl, hc⟩ he hf hn
      obtain ⟨fuel, rfl⟩ : ∃ f, fuel = f + 1 := ⟨fuel - 1, by simp at hf; omega⟩
      have := ih (some n) _ fuel hc (fun x hx => he x (by simp [hx])) (by simpa using hf)
        (fun x hx => hn x (by simp [hx]))
      simp [deleteLoop, keyEq_ok (he n (by simp)), hn n (by simp), this]
  rw [hfirst] at hchain
  simp [HashTable.delete, hb, hfirst, htwo,
    hloop (chains b) none (some first) (t.maxElements + 1) hchain hent (by omega) hne]

end ONA

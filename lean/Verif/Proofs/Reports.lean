import Verif.Model.Reports
import Verif.Proofs.HashTable
import Verif.Proofs.Narsese
import Verif.Proofs.Memory
/-
The loops of the reports.
-/
namespace ONA
namespace HashTable
variable {P K V : Type}

theorem chainLength_ok {t : HashTable P V} : ∀ {l : List Nat} {p : Option Nat} {fuel : Nat},
    Chain (fun n => (t.storage n).next) p l → l.length ≤ fuel → t.chainLength fuel p = .ok l.length
  | [], p, fuel, h, _ => by
    cases h
    cases fuel <;> rfl
  | m :: l, p, 0, _, hf => absurd hf (Nat.not_succ_le_zero _)
  | m :: l, p, fuel + 1, h, hf => by
    obtain ⟨rfl, h2⟩ := h
    unfold chainLength
    rw [chainLength_ok h2 (Nat.le_of_succ_le_succ hf)]
    rfl

open Classical in
/-- How many entries belong into the bucket. -/
noncomputable def inBucket (ops : KeyOps P K) (t : HashTable P V) (l : List (P × V)) (b : Nat) : Nat :=
  (l.filter fun e => bucketIndex (ops.hash (ops.deref e.1)) t.buckets = .ok b).length

theorem bucket_count {ops : KeyOps P K} {t : HashTable P V} {chains : Nat → List Nat} {ent : Nat → P × V} (b : Nat) :
    ∀ {L : List Nat}, L.Nodup → (∀ b' ∈ L, ∀ n ∈ chains b', bucketIndex (ops.hash (ops.deref (ent n).1)) t.buckets = .ok b') →
    inBucket ops t ((L.flatMap chains).map ent) b = if b ∈ L then (chains b).length else 0
  | [], _, _ => rfl
  | a :: L, hd, h => by
    have ih := bucket_count b (List.nodup_cons.1 hd).2 fun b' hb => h b' (List.mem_cons_of_mem _ hb)
    unfold inBucket at ih ⊢
    rw [List.flatMap_cons, List.map_append, List.filter_append, List.length_append, ih]
    by_cases hab : a = b
    · subst hab
      rw [if_pos List.mem_cons_self, if_neg (List.nodup_cons.1 hd).1, Nat.add_zero, List.filter_eq_self.2, List.length_map]
      intro e he
      obtain ⟨m, hm, rfl⟩ := List.mem_map.1 he
      simpa using h a List.mem_cons_self m hm
    · rw [List.filter_eq_nil_iff.2, List.length_nil, Nat.zero_add]
      · have : b ∈ a :: L ↔ b ∈ L := by simp [Ne.symm hab]
        simp only [this]
      · intro e he
        obtain ⟨m, hm, rfl⟩ := List.mem_map.1 he
        rw [h a List.mem_cons_self m hm]
        simpa using hab

theorem RepW.inBucket_eq {ops : KeyOps P K} {t : HashTable P V} {l : List (P × V)} {chains free ent}
    (h : RepW ops t l chains free ent) {b : Nat} (hb : b < t.buckets) : inBucket ops t l b = (chains b).length := by
  have h1 : inBucket ops t l b = inBucket ops t ((nodes t chains).map ent) b := (h.entries.filter _).length_eq
  rw [h1]
  unfold nodes
  rw [bucket_count b List.nodup_range fun b' hb' m hm => (h.ent_ok b' (List.mem_range.1 hb') m hm).2, if_pos (List.mem_range.2 hb)]

theorem RepW.chain_le {ops : KeyOps P K} {t : HashTable P V} {l : List (P × V)} {chains free ent}
    (h : RepW ops t l chains free ent) {b : Nat} (hb : b < t.buckets) : (chains b).length ≤ t.maxElements := by
  have h1 := h.perm.length_eq
  rw [List.length_append, List.length_range] at h1
  have h2 : (chains b).length ≤ (nodes t chains).length := by
    unfold nodes
    obtain ⟨l1, l2, e⟩ := List.append_of_mem (List.mem_range.2 hb)
    rw [e, List.flatMap_append, List.flatMap_cons, List.length_append, List.length_append]
    omega
  omega

theorem maximum_fold {t : HashTable P V} {chains : Nat → List Nat} (hc : ∀ b, b < t.buckets →
    t.chainLength (t.maxElements + 1) (t.HT b) = .ok (chains b).length) : ∀ (L : List Nat), (∀ b ∈ L, b < t.buckets) → ∀ m,
    ∃ k, L.foldlM (init := m) (fun maxlen i => do
      let cnt ← t.chainLength (t.maxElements + 1) (t.HT i)
      .ok (max maxlen cnt)) = (.ok k : R Nat) ∧ m ≤ k ∧ (∀ b ∈ L, (chains b).length ≤ k) ∧ (k = m ∨ ∃ b ∈ L, (chains b).length = k)
  | [], _, m => ⟨m, rfl, Nat.le_refl _, fun b hb => (by cases hb), .inl rfl⟩
  | a :: L, hL, m => by
    obtain ⟨k, h1, h2, h3, h4⟩ := maximum_fold hc L (fun b hb => hL b (List.mem_cons_of_mem _ hb)) (max m (chains a).length)
    refine ⟨k, ?_, le_trans (le_max_left _ _) h2, ?_, ?_⟩
    · rw [List.foldlM_cons, hc a (hL a List.mem_cons_self)]
      exact h1
    · intro b hb
      rcases List.mem_cons.1 hb with rfl | hb
      · exact le_trans (le_max_right _ _) h2
      · exact h3 b hb
    · rcases h4 with h4 | ⟨b, hb, h4⟩
      · rcases max_choice m (chains a).length with h5 | h5
        · exact .inl (h4.trans h5)
        · exact .inr ⟨a, List.mem_cons_self, (h4.trans h5).symm⟩
      · exact .inr ⟨b, List.mem_cons_of_mem _ hb, h4⟩

/-- The maximum chain length is the largest number of entries in one bucket. -/
theorem Rep.maximum {ops : KeyOps P K} {t : HashTable P V} {l : List (P × V)} (h : Rep ops t l) :
    ∃ k, t.maximumChainLength = .ok k ∧ (∀ b < t.buckets, inBucket ops t l b ≤ k) ∧ ∃ b < t.buckets, inBucket ops t l b = k := by
  obtain ⟨chains, free, ent, h⟩ := h
  obtain ⟨k, h1, -, h3, h4⟩ := maximum_fold (chains := chains)
    (fun b hb => chainLength_ok (h.chain b hb) (Nat.le_succ_of_le (h.chain_le hb))) (List.range t.buckets)
    (fun b hb => List.mem_range.1 hb) 0
  refine ⟨k, h1, fun b hb => ?_, ?_⟩
  · rw [h.inBucket_eq hb]
    exact h3 b (List.mem_range.2 hb)
  · rcases h4 with rfl | ⟨b, hb, h4⟩
    · refine ⟨0, h.bpos, Nat.le_antisymm ?_ (Nat.zero_le _)⟩
      rw [h.inBucket_eq h.bpos]
      exact h3 0 (List.mem_range.2 h.bpos)
    · have hb := List.mem_range.1 hb
      exact ⟨b, hb, (h.inBucket_eq hb).trans h4⟩

end HashTable
end ONA

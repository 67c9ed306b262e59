import Verif.Spec.Memory
import Verif.Props.PriorityQueue
import Verif.Props.HashTable
import Verif.Props.InvertedAtomIndex
import Verif.Props.Hash
/-
The invariant of the concept memory and what `Memory_Conceptualize` does.
-/
namespace ONA

theorem Sys.termOps_lawful (s : Sys) : s.termOps.Lawful where
  refl a := by simp [Sys.termOps]
  symm a b h := by simp [Sys.termOps] at *; exact h.symm
  trans a b c h1 h2 := by simp [Sys.termOps] at *; exact h1.trans h2
  hash_eq a b h := by simp [Sys.termOps] at *; rw [h]
  hash_nonneg a := Globals_Hash_nonneg _

namespace HashTable
variable {P K V : Type}

/-- Only what the stored keys point to matters. -/
theorem Rep.congr {ops ops' : KeyOps P K} {t : HashTable P V} {l : List (P × V)} (h : Rep ops t l)
    (he : ops'.equal = ops.equal) (hh : ops'.hash = ops.hash) (hd : ∀ e ∈ l, ops'.deref e.1 = ops.deref e.1) :
    Rep ops' t l := by
  obtain ⟨chains, free, ent, h⟩ := h
  refine ⟨chains, free, ent, { h with ent_ok := ?_, distinct := ?_ }⟩
  · intro b hb m hm
    obtain ⟨h1, h2⟩ := h.ent_ok b hb m hm
    refine ⟨h1, ?_⟩
    rw [hh, hd _ ((h.mem_entries _).2 ⟨m, mem_nodes.2 ⟨b, hb, hm⟩, rfl⟩)]
    exact h2
  · refine h.distinct.imp_of_mem ?_
    intro a b ha hb hab
    rw [he, hd a ha, hd b hb]
    exact hab

end HashTable

theorem InvertedAtomIndex.Holds.perm {n : Narsese} {x : InvertedAtomIndex} {max : Nat} {S S' : List (Nat × Term)}
    (h : Holds n x max S) (hp : S'.Perm S) : Holds n x max S' := by
  obtain ⟨⟨L, h1, h2⟩, h3, h4⟩ := h
  refine ⟨⟨L, h1, h2.nodup, ?_⟩, h3, (hp.map _).nodup_iff.2 h4⟩
  intro a c
  rw [h2.mem a c]
  simp only [hp.mem_iff]

/-- Consistency of the concept queue, the concept hash table, the atom index and the concept identities. -/
structure MemInv (n : Narsese) (s : Sys) : Prop where
  queue : s.concepts.Inv
  pos : 0 < s.capacity
  slots : s.concepts.slots.Perm (List.range s.capacity)
  size : s.HTconcepts.maxElements = s.capacity
  table : HashTable.Rep s.termOps s.HTconcepts (s.live.map fun c => (c, c))
  index : InvertedAtomIndex.Holds n s.index s.capacity (s.live.map fun c => (c, s.termOf c))
  ids : ∀ c ∈ s.live, 0 ≤ s.idOf c ∧ s.idOf c < s.concept_id
  distinct : ∀ c ∈ s.live, ∀ d ∈ s.live, s.idOf c = s.idOf d → c = d
  idpos : 0 ≤ s.concept_id

namespace MemInv
variable {n : Narsese} {s : Sys}

theorem live_nodup (h : MemInv n s) : s.live.Nodup := by
  have := h.index.keys
  simpa [List.map_map, Function.comp_def] using this

theorem live_lt (h : MemInv n s) {c : Nat} (hc : c ∈ s.live) : c < s.capacity := by
  have h1 : c ∈ s.concepts.slots := by
    unfold Sys.live at hc
    simp only [List.mem_map] at hc
    obtain ⟨x, hx, rfl⟩ := hc
    obtain ⟨i, hi, rfl⟩ := PriorityQueue.mem_contents.1 hx
    unfold PriorityQueue.slots
    simp only [List.mem_map, List.mem_range]
    exact ⟨i, Nat.lt_of_lt_of_le hi h.queue.bound, rfl⟩
  simpa using h.slots.mem_iff.1 h1

theorem live_length (h : MemInv n s) : s.live.length ≤ s.capacity := by
  have : s.live.length = s.concepts.itemsAmount := by simp [Sys.live, PriorityQueue.contents]
  rw [this]
  exact h.queue.bound

theorem find_eq (h : MemInv n s) (t : Term) : ∃ r, Memory_FindConceptByTerm t s = .ok (r, s) ∧
    match r with
    | some c => c ∈ s.live ∧ s.termOf c = t
    | none => ∀ c ∈ s.live, s.termOf c ≠ t := by
  refine ⟨HTSpec.lookup s.termOps (s.live.map fun c => (c, c)) t, ?_, ?_⟩
  · unfold Memory_FindConceptByTerm
    rw [M.bind_ok]
    refine ⟨s, s, by simp, ?_⟩
    rw [HashTable.get_rep s.termOps_lawful h.table]
    rfl
  · have hd : (s.live.map fun c => (c, c)).Pairwise
        fun a b => s.termOps.equal (s.termOps.deref a.1) (s.termOps.deref b.1) = false := by
      obtain ⟨_, _, _, h⟩ := h.table
      exact h.distinct
    cases e : HTSpec.lookup s.termOps (s.live.map fun c => (c, c)) t with
    | some c =>
      rw [HashTable.lookup_eq_some s.termOps_lawful hd] at e
      obtain ⟨p, hp, he⟩ := e
      simp only [List.mem_map, Prod.mk.injEq] at hp
      obtain ⟨d, hd, rfl, rfl⟩ := hp
      exact ⟨hd, by simpa [Sys.termOps, Sys.termOf] using he⟩
    | none =>
      rw [HashTable.lookup_eq_none] at e
      intro c hc
      have := e (c, c) (by simp [hc])
      simpa [Sys.termOps, Sys.termOf] using this

/-- No two concepts have the same term. -/
theorem term_inj (h : MemInv n s) {c d : Nat} (hc : c ∈ s.live) (hd : d ∈ s.live) (e : s.termOf c = s.termOf d) :
    c = d := by
  obtain ⟨_, _, _, r⟩ := h.table
  have h1 : s.live.Pairwise fun a b => s.termOf a ≠ s.termOf b := by
    have := r.distinct
    rw [List.pairwise_map] at this
    refine this.imp ?_
    intro a b hab
    simpa [Sys.termOps, Sys.termOf] using hab
  by_contra hne
  exact HashTable.pairwise_forall (fun _ _ h => fun e => h e.symm) h1 hc hd hne e

/-- Changing the content of concepts without touching term and identity keeps the invariant. -/
theorem congr (h : MemInv n s) {s' : Sys} (h1 : s'.concepts = s.concepts) (h2 : s'.HTconcepts = s.HTconcepts)
    (h3 : s'.index = s.index) (h4 : s'.concept_id = s.concept_id)
    (ht : ∀ c ∈ s.live, s'.termOf c = s.termOf c) (hi : ∀ c ∈ s.live, s'.idOf c = s.idOf c) : MemInv n s' := by
  have hl : s'.live = s.live := by unfold Sys.live; rw [h1]
  have hcap : s'.capacity = s.capacity := by unfold Sys.capacity; rw [h1]
  exact
    { queue := by rw [h1]; exact h.queue
      pos := by rw [hcap]; exact h.pos
      slots := by rw [hcap, h1]; exact h.slots
      size := by rw [hcap, h2]; exact h.size
      table := by
        rw [hl, h2]
        refine h.table.congr rfl rfl ?_
        intro e he
        simp only [List.mem_map] at he
        obtain ⟨c, hc, rfl⟩ := he
        exact ht c hc
      index := by
        rw [hl, hcap, h3]
        have : (s.live.map fun c => (c, s'.termOf c)) = s.live.map fun c => (c, s.termOf c) :=
          List.map_congr_left fun c hc => by rw [ht c hc]
        rw [this]
        exact h.index
      ids := by rw [hl, h4]; intro c hc; rw [hi c hc]; exact h.ids c hc
      distinct := by
        rw [hl]
        intro c hc d hd
        rw [hi c hc, hi d hd]
        exact h.distinct c hc d hd
      idpos := by rw [h4]; exact h.idpos }

/-- Replacing the concept queue by one with the same items in another order, or with other priorities. -/
theorem requeue (h : MemInv n s) {q : PriorityQueue ℚ Nat} (hq : q.Inv) (hm : q.maxElements = s.capacity)
    (hs : q.slots.Perm s.concepts.slots) (hl : (q.contents.map (·.address)).Perm s.live) :
    MemInv n { s with concepts := q } := by
  have hlive : Sys.live { s with concepts := q } = q.contents.map (·.address) := rfl
  have hcap : Sys.capacity { s with concepts := q } = s.capacity := hm
  exact
    { queue := hq
      pos := by rw [hcap]; exact h.pos
      slots := by rw [hcap]; exact hs.trans h.slots
      size := by rw [hcap]; exact h.size
      table := by
        rw [hlive]
        exact h.table.perm s.termOps_lawful (hl.map _)
      index := by
        rw [hlive, hcap]
        exact h.index.perm (hl.map _)
      ids := by intro c hc; exact h.ids c (hl.mem_iff.1 hc)
      distinct := by intro c hc d hd; exact h.distinct c (hl.mem_iff.1 hc) d (hl.mem_iff.1 hd)
      idpos := h.idpos }

end MemInv

/-- Adding a concept in an unused cell `c` (src/Memory.c 127-139) to a memory that has just been told to use it. -/
theorem create_spec {n : Narsese} {s : Sys} {q : PriorityQueue ℚ Nat} {ht : HashTable Nat Nat} {idx : InvertedAtomIndex}
    {L : List Nat} {c : Nat} {t : Term} {now : Int}
    (hq : q.Inv) (hm : q.maxElements = s.capacity) (hpos : 0 < s.capacity) (hs : q.slots.Perm (List.range s.capacity))
    (hsz : ht.maxElements = s.capacity) (hL : (q.contents.map (·.address)).Perm (c :: L))
    (htab : HashTable.Rep s.termOps ht (L.map fun c => (c, c)))
    (hidx : InvertedAtomIndex.Holds n idx s.capacity (L.map fun c => (c, s.termOf c)))
    (hc : c ∉ L) (hlen : L.length < s.capacity) (hids : ∀ c ∈ L, 0 ≤ s.idOf c ∧ s.idOf c < s.concept_id)
    (hdis : ∀ c ∈ L, ∀ d ∈ L, s.idOf c = s.idOf d → c = d) (h0 : 0 ≤ s.concept_id)
    (hnew : ∀ d ∈ L, s.termOf d ≠ t) :
    ∃ ht' idx', createConcept n c t now { s with concepts := q, HTconcepts := ht, index := idx } =
        .ok ((), { s with concepts := q, HTconcepts := ht', index := idx'
                          concept_storage := upd s.concept_storage c (s.newConcept t now)
                          concept_id := s.concept_id + 1 }) ∧
      MemInv n { s with concepts := q, HTconcepts := ht', index := idx'
                        concept_storage := upd s.concept_storage c (s.newConcept t now)
                        concept_id := s.concept_id + 1 } := by
  obtain ⟨idx', hi1, hi2⟩ := hidx.add (t := t) (c := c) (by
    intro e he
    simp only [List.mem_map] at he
    obtain ⟨d, hd, rfl⟩ := he
    intro hcd
    exact hc (hcd ▸ hd)) (by simpa using hlen)
  set s2 : Sys := { s with concepts := q, HTconcepts := ht, index := idx'
                           concept_storage := upd s.concept_storage c (s.newConcept t now)
                           concept_id := s.concept_id + 1 } with hs2
  have hne : ∀ d ∈ L, d ≠ c := fun d hd hcd => hc (hcd ▸ hd)
  have hstor : ∀ d ∈ L, s2.concept_storage d = s.concept_storage d := by
    intro d hd
    rw [hs2]
    exact upd_other _ _ (hne d hd)
  have hself : s2.concept_storage c = s.newConcept t now := by rw [hs2]; exact upd_same _ _ _
  have htab2 : HashTable.Rep s2.termOps ht (L.map fun c => (c, c)) := by
    refine htab.congr rfl rfl ?_
    intro e he
    simp only [List.mem_map] at he
    obtain ⟨d, hd, rfl⟩ := he
    show (s2.concept_storage d).term = (s.concept_storage d).term
    rw [hstor d hd]
  have hlook : HTSpec.lookup s2.termOps (L.map fun c => (c, c)) (s2.termOps.deref c) = none := by
    rw [HashTable.lookup_eq_none]
    intro e he
    simp only [List.mem_map] at he
    obtain ⟨d, hd, rfl⟩ := he
    have h1 := hnew d hd
    show decide ((s2.concept_storage d).term = (s2.concept_storage c).term) = false
    rw [hstor d hd, hself]
    exact decide_eq_false h1
  obtain ⟨ht', hh1, -, hh3, hh4⟩ := HashTable.set_rep s2.termOps_lawful htab2 c c
    (Or.inr (by rw [List.length_map, hsz]; exact hlen))
  rw [HashTable.insert_of_none hlook] at hh4
  refine ⟨ht', idx', ?_, ?_⟩
  · unfold createConcept
    rw [M.bind_ok]
    refine ⟨_, _, by simp only [M.get_ok]; exact ⟨rfl, rfl⟩, ?_⟩
    rw [M.bind_ok]
    refine ⟨idx', _, by simp only [M.lift_ok]; exact ⟨hi1, rfl⟩, ?_⟩
    rw [M.bind_ok]
    refine ⟨ht', _, by simp only [M.lift_ok]; exact ⟨hh1, rfl⟩, ?_⟩
    rfl
  · have hterm : ∀ d ∈ L, ({ s2 with HTconcepts := ht' } : Sys).termOf d = s.termOf d := by
      intro d hd
      show (s2.concept_storage d).term = _
      rw [hstor d hd]
      rfl
    have hid : ∀ d ∈ L, ({ s2 with HTconcepts := ht' } : Sys).idOf d = s.idOf d := by
      intro d hd
      show (s2.concept_storage d).id = _
      rw [hstor d hd]
      rfl
    have htc : ({ s2 with HTconcepts := ht' } : Sys).termOf c = t := by
      show (s2.concept_storage c).term = t
      rw [hself]
      rfl
    have hidc : ({ s2 with HTconcepts := ht' } : Sys).idOf c = s.concept_id := by
      show (s2.concept_storage c).id = _
      rw [hself]
      rfl
    have hmem : ∀ d, d ∈ ({ s2 with HTconcepts := ht' } : Sys).live → d = c ∨ d ∈ L := by
      intro d hd
      have := hL.mem_iff.1 hd
      simpa using this
    show MemInv n { s2 with HTconcepts := ht' }
    exact
      { queue := hq
        pos := by show 0 < q.maxElements; rw [hm]; exact hpos
        slots := by show q.slots.Perm (List.range q.maxElements); rw [hm]; exact hs
        size := by show ht'.maxElements = q.maxElements; rw [hh3, hsz, hm]
        table := by
          refine (HashTable.Rep.perm s2.termOps_lawful hh4 (l' := (q.contents.map (·.address)).map fun c => (c, c)) ?_)
          exact hL.map (fun c => (c, c))
        index := by
          show InvertedAtomIndex.Holds n idx' q.maxElements _
          rw [hm]
          refine hi2.perm ?_
          refine (hL.map _).trans ?_
          rw [List.map_cons, htc]
          have : (L.map fun d => (d, ({ s2 with HTconcepts := ht' } : Sys).termOf d)) = L.map fun d => (d, s.termOf d) :=
            List.map_congr_left fun d hd => by rw [hterm d hd]
          rw [this]
        ids := by
          intro d hd
          rcases hmem d hd with rfl | h
          · rw [hidc]
            exact ⟨h0, by show s.concept_id < s.concept_id + 1; omega⟩
          · rw [hid d h]
            have := hids d h
            exact ⟨this.1, by show _ < s.concept_id + 1; omega⟩
        distinct := by
          intro d hd e he hde
          rcases hmem d hd with rfl | h1 <;> rcases hmem e he with rfl | h2
          · rfl
          · rw [hidc, hid e h2] at hde
            have := hids e h2
            omega
          · rw [hidc, hid d h1] at hde
            have := hids d h1
            omega
          · rw [hid d h1, hid e h2] at hde
            exact hdis d h1 e h2 hde
        idpos := by show 0 ≤ s.concept_id + 1; omega }

theorem forget_spec {n : Narsese} {s : Sys} (h : MemInv n s) {c : Nat} {rest : List Nat} (hp : s.live.Perm (c :: rest))
    (q : PriorityQueue ℚ Nat) :
    ∃ ht idx, forgetConcept n c { s with concepts := q } =
        .ok ((), { s with concepts := q, HTconcepts := ht, index := idx }) ∧
      ht.maxElements = s.capacity ∧
      HashTable.Rep s.termOps ht (rest.map fun c => (c, c)) ∧
      InvertedAtomIndex.Holds n idx s.capacity (rest.map fun c => (c, s.termOf c)) := by
  have hnd : (c :: rest).Nodup := hp.nodup_iff.1 h.live_nodup
  have hcr : c ∉ rest := (List.nodup_cons.1 hnd).1
  have hcl : c ∈ s.live := hp.mem_iff.2 (by simp)
  have hlook : HTSpec.lookup s.termOps (s.live.map fun c => (c, c)) (s.termOf c) ≠ none := by
    intro e
    rw [HashTable.lookup_eq_none] at e
    have := e (c, c) (by simp [hcl])
    simp [Sys.termOps, Sys.termOf] at this
  obtain ⟨ht, h1, -, h3, h4⟩ := HashTable.delete_rep s.termOps_lawful h.table (s.termOf c) hlook
  obtain ⟨idx, i1, i2⟩ := h.index.remove (t := s.termOf c) (c := c) (by simp [hcl])
  refine ⟨ht, idx, ?_, by rw [h3]; exact h.size, ?_, ?_⟩
  · unfold forgetConcept
    rw [M.bind_ok]
    refine ⟨_, _, by simp only [M.get_ok]; exact ⟨rfl, rfl⟩, ?_⟩
    rw [M.bind_ok]
    refine ⟨ht, _, by simp only [M.lift_ok]; exact ⟨h1, rfl⟩, ?_⟩
    rw [M.bind_ok]
    refine ⟨idx, _, by simp only [M.lift_ok]; exact ⟨i1, rfl⟩, ?_⟩
    rfl
  · refine h4.perm s.termOps_lawful ?_
    unfold HTSpec.erase
    refine List.Perm.symm ?_
    refine ((hp.map fun c => (c, c)).filter _).trans ?_
    rw [List.map_cons, List.filter_cons]
    have hrm : (rest.map fun c => (c, c)).filter
        (fun e => !s.termOps.equal (s.termOps.deref e.1) (s.termOf c)) = rest.map fun c => (c, c) := by
      rw [List.filter_eq_self]
      intro e he
      simp only [List.mem_map] at he
      obtain ⟨d, hd, rfl⟩ := he
      have hne : s.termOf d ≠ s.termOf c := by
        intro e
        have := h.term_inj (hp.mem_iff.2 (by simp [hd])) hcl e
        exact hcr (this ▸ hd)
      simpa [Sys.termOps, Sys.termOf] using hne
    rw [hrm]
    simp [Sys.termOps, Sys.termOf]
  · refine i2.perm ?_
    refine List.Perm.symm ?_
    refine ((hp.map fun c => (c, s.termOf c)).filter _).trans ?_
    rw [List.map_cons, List.filter_cons]
    have hrm : (rest.map fun d => (d, s.termOf d)).filter (fun e => decide (e ≠ (c, s.termOf c))) =
        rest.map fun d => (d, s.termOf d) := by
      rw [List.filter_eq_self]
      intro e he
      simp only [List.mem_map] at he
      obtain ⟨d, hd, rfl⟩ := he
      have : d ≠ c := fun e => hcr (e ▸ hd)
      simp [this]
    rw [hrm]
    simp

/-- A rejected push leaves the queue as it was. -/
theorem PriorityQueue.push_reject {q q' : PriorityQueue ℚ Nat} {p : ℚ}
    (h : q.push p = .ok (⟨none, none⟩, q')) : q' = q := by
  have ins : ∀ (q : PriorityQueue ℚ Nat) ev, q.pushInsert p ev = .ok (⟨none, none⟩, q') → False := by
    intro q ev h
    unfold PriorityQueue.pushInsert at h
    split at h
    · cases h
    · rw [R.bind_eq_ok] at h
      obtain ⟨f, _, h⟩ := h
      simp at h
  unfold PriorityQueue.push at h
  split at h
  · split at h
    · cases h
    · dsimp only at h
      split at h
      · simp at h; exact h.symm
      · rw [R.bind_eq_ok] at h
        obtain ⟨⟨it, q1⟩, _, h⟩ := h
        cases it with
        | none => exact (ins _ _ h).elim
        | some e => exact (ins _ _ h).elim
  · exact (ins _ _ h).elim

/-- `Memory_Conceptualize` always returns normally, does what `Conceptualized` says, and keeps the memory consistent. -/
theorem conceptualize_spec {n : Narsese} {s : Sys} (h : MemInv n s) (t : Term) (now : Int) :
    ∃ r s', Memory_Conceptualize n t now s = .ok (r, s') ∧ Conceptualized s t now r s' ∧ MemInv n s' := by
  obtain ⟨r, hr, hfind⟩ := h.find_eq t
  unfold Memory_Conceptualize
  cases r with
  | some c =>
    refine ⟨some c, s, ?_, Conceptualized.known c hfind.1 hfind.2, h⟩
    rw [M.bind_ok]
    exact ⟨some c, s, hr, by simp⟩
  | none =>
    have hnew : ∀ d ∈ s.live, s.termOf d ≠ t := hfind
    obtain ⟨fb, q, hpush, hqinv, hqmax, hqslots, hstep⟩ := PriorityQueue.push_spec h.queue h.pos 1
    have hlen : s.concepts.contents.length = s.live.length := by simp [Sys.live]
    have hs : q.slots.Perm (List.range s.capacity) := hqslots.trans h.slots
    cases hstep with
    | room a S' h1 h2 h3 h4 =>
      have hlt : s.live.length < s.capacity := by rw [← hlen]; exact h1
      have hac : a < s.capacity := by simpa using h.slots.mem_iff.1 h2
      have hL : (q.contents.map (·.address)).Perm (a :: s.live) := by
        have := h4.map (·.address)
        simpa [Sys.live] using this
      obtain ⟨ht', idx', hc1, hc2⟩ := create_spec (t := t) (now := now) hqinv hqmax h.pos hs h.size hL h.table h.index h3 hlt h.ids
        h.distinct h.idpos hnew
      refine ⟨some a, _, ?_, Conceptualized.room a q ht' idx' hnew hlt h3 hac h4 hqmax, hc2⟩
      rw [M.bind_ok]
      refine ⟨none, s, hr, ?_⟩
      dsimp only
      rw [M.bind_ok]
      refine ⟨s, s, by simp, ?_⟩
      rw [M.bind_ok]
      refine ⟨_, s, M.lift_ok.2 ⟨hpush, rfl⟩, ?_⟩
      dsimp only
      rw [M.bind_ok]
      refine ⟨(), { s with concepts := q }, by simp, ?_⟩
      simp only [Option.isSome_none, Bool.false_eq_true, if_false]
      rw [M.bind_ok]
      exact ⟨(), _, hc1, by simp⟩
    | reject S' h1 h2 h3 =>
      have hq : q = s.concepts := PriorityQueue.push_reject hpush
      subst hq
      have hfull : s.live.length = s.capacity := by rw [← hlen]; exact h1
      refine ⟨none, s, ?_, Conceptualized.refused hnew hfull h2, h⟩
      rw [M.bind_ok]
      refine ⟨none, s, hr, ?_⟩
      dsimp only
      rw [M.bind_ok]
      refine ⟨s, s, by simp, ?_⟩
      rw [M.bind_ok]
      refine ⟨_, s, M.lift_ok.2 ⟨hpush, rfl⟩, ?_⟩
      dsimp only
      rw [M.bind_ok]
      exact ⟨(), s, by simp, by simp⟩
    | evict e rest S' h1 h2 h3 h4 h5 =>
      have hlive : s.live.Perm (e.address :: rest.map (·.address)) := by
        have := h4.map (·.address)
        simpa [Sys.live] using this
      have hfull : s.live.length = s.capacity := by rw [← hlen]; exact h1
      have hnd : (e.address :: rest.map (·.address)).Nodup := hlive.nodup_iff.1 h.live_nodup
      obtain ⟨ht, idx, f1, f2, f3, f4⟩ := forget_spec h hlive q
      have hL : (q.contents.map (·.address)).Perm (e.address :: rest.map (·.address)) := by
        simpa using h5.map (·.address)
      have hsub : ∀ d, d ∈ rest.map (·.address) → d ∈ s.live := fun d hd => hlive.mem_iff.2 (List.mem_cons_of_mem _ hd)
      obtain ⟨ht', idx', hc1, hc2⟩ := create_spec (t := t) (now := now) hqinv hqmax h.pos hs f2 hL f3 f4
        (List.nodup_cons.1 hnd).1 (by have := hlive.length_eq; simp at this ⊢; omega)
        (fun d hd => h.ids d (hsub d hd)) (fun c hc d hd => h.distinct c (hsub c hc) d (hsub d hd)) h.idpos
        (fun d hd => hnew d (hsub d hd))
      refine ⟨some e.address, _, ?_, Conceptualized.evict e rest q ht' idx' hnew hfull h2 h4 h5 hqmax h3, hc2⟩
      rw [M.bind_ok]
      refine ⟨none, s, hr, ?_⟩
      dsimp only
      rw [M.bind_ok]
      refine ⟨s, s, by simp, ?_⟩
      rw [M.bind_ok]
      refine ⟨_, s, M.lift_ok.2 ⟨hpush, rfl⟩, ?_⟩
      dsimp only
      rw [M.bind_ok]
      refine ⟨(), { s with concepts := q }, by simp, ?_⟩
      simp only [Option.isSome_some, if_true]
      rw [M.bind_ok]
      refine ⟨(), _, f1, ?_⟩
      rw [M.bind_ok]
      exact ⟨(), _, hc1, by simp⟩

end ONA

import Verif.Model.Narsese
import Verif.Proofs.HashTable
import Verif.Proofs.Term
import Verif.Props.Hash
import Mathlib.Data.List.Nodup
namespace ONA

theorem Narsese.ops_lawful (n : Narsese) : n.ops.Lawful where
  refl a := by simp [ops]
  symm a b := by simp [ops]; exact Eq.symm
  trans a b c := by simp [ops]; exact Eq.trans
  hash_eq a b := by simp [ops]; intro h; rw [h]
  hash_nonneg a := Globals_Hash_nonneg _

/-- The entries of the atom hash table after `k` names have been registered. -/
def atomEntries : Nat → List (Nat × Nat)
  | 0 => []
  | k + 1 => (k, k + 1) :: atomEntries k

theorem mem_atomEntries {k : Nat} {e : Nat × Nat} : e ∈ atomEntries k ↔ e.1 < k ∧ e.2 = e.1 + 1 := by
  induction k with
  | zero => simp [atomEntries]
  | succ k ih =>
    simp only [atomEntries, List.mem_cons, ih]
    constructor
    · rintro (rfl | h)
      · exact ⟨Nat.lt_succ_self _, rfl⟩
      · exact ⟨by omega, h.2⟩
    · rintro ⟨h1, h2⟩
      by_cases h : e.1 = k
      · left; cases e; simp_all
      · right; exact ⟨by omega, h2⟩

theorem length_atomEntries (k : Nat) : (atomEntries k).length = k := by
  induction k with
  | zero => rfl
  | succ k ih => simp [atomEntries, ih]

/-- The atom table holds the names `ns` (in order of registration). -/
structure Narsese.Rep (n : Narsese) (ns : List CStr) : Prop where
  nodup : ns.Nodup
  count : n.term_index = ns.length
  names : ∀ i, i < ns.length → n.atomNames i = ns.getD i []
  short : ∀ s ∈ ns, s.length ≤ 31
  table : HashTable.Rep n.ops n.HTatoms (atomEntries ns.length)
  cap : n.HTatoms.maxElements = n.capacity
  pos : 0 < n.capacity
  rest : ∀ i, ns.length ≤ i → n.atomNames i = []

theorem truncName_length (s : CStr) : (truncName s).length ≤ 31 := by
  unfold truncName ATOMIC_TERM_LEN_MAX; simp

theorem truncName_of_short {s : CStr} (h : s.length ≤ 31) : truncName s = s := by
  unfold truncName ATOMIC_TERM_LEN_MAX; exact List.take_of_length_le (by omega)

namespace Narsese.Rep
variable {n : Narsese} {ns : List CStr}

theorem lookup_mem (h : n.Rep ns) {s : CStr} (hs : s ∈ ns) :
    HTSpec.lookup n.ops (atomEntries ns.length) s = some (ns.idxOf s + 1) := by
  have hi := List.idxOf_lt_length_iff.2 hs
  rw [HashTable.lookup_eq_some n.ops_lawful h.table.distinct]
  refine ⟨ns.idxOf s, mem_atomEntries.2 ⟨hi, rfl⟩, ?_⟩
  show (n.atomNames (ns.idxOf s) == s) = true
  rw [h.names _ hi]
  simp [List.getD, hi]

theorem lookup_not_mem (h : n.Rep ns) {s : CStr} (hs : s ∉ ns) :
    HTSpec.lookup n.ops (atomEntries ns.length) s = none := by
  rw [HashTable.lookup_eq_none]
  intro e he
  have h1 := (mem_atomEntries.1 he).1
  show (n.atomNames e.1 == s) = false
  rw [h.names _ h1]
  simp only [List.getD, List.getElem?_eq_getElem h1, Option.getD_some, beq_eq_false_iff_ne]
  intro he
  exact hs (he ▸ List.getElem_mem h1)

/-- A known name. -/
theorem index_known (h : n.Rep ns) {s : CStr} (hs : truncName s ∈ ns) :
    Narsese_AtomicTermIndex n s = .ok (ns.idxOf (truncName s) + 1, n) := by
  unfold Narsese_AtomicTermIndex
  simp only [HashTable.get_rep n.ops_lawful h.table, R.ok_bind, h.lookup_mem hs]

/-- A new name. -/
theorem index_new (h : n.Rep ns) {s : CStr} (hs : truncName s ∉ ns) (hc : ns.length < n.capacity) :
    ∃ n', Narsese_AtomicTermIndex n s = .ok (ns.length + 1, n') ∧ n'.Rep (ns ++ [truncName s]) ∧
      n'.capacity = n.capacity ∧ n'.SELF = n.SELF ∧ n'.atomValues = n.atomValues ∧
      n'.atomHasValue = n.atomHasValue ∧ n'.atomMeasurementNames = n.atomMeasurementNames := by
  unfold Narsese_AtomicTermIndex
  simp only [HashTable.get_rep n.ops_lawful h.table, R.ok_bind, h.lookup_not_mem hs]
  rw [cassert_true (by simpa [h.count] using hc)]
  simp only [R.ok_bind]
  set m : Narsese := { n with atomNames := upd n.atomNames n.term_index (truncName s) } with hm
  have ht : HashTable.Rep m.ops m.HTatoms (atomEntries ns.length) := by
    refine h.table.congr_deref rfl rfl ?_
    intro e he
    have := (mem_atomEntries.1 he).1
    show upd n.atomNames n.term_index (truncName s) e.1 = n.atomNames e.1
    rw [upd_other]; rw [h.count]; omega
  have hd : m.ops.deref n.term_index = truncName s := by
    show upd n.atomNames n.term_index (truncName s) n.term_index = _
    simp
  have hnone : HTSpec.lookup m.ops (atomEntries ns.length) (m.ops.deref n.term_index) = none := by
    rw [hd, HashTable.lookup_eq_none]
    intro e he
    have h1 := (mem_atomEntries.1 he).1
    show (upd n.atomNames n.term_index (truncName s) e.1 == _) = false
    rw [upd_other _ _ (by rw [h.count]; omega)]
    exact (HashTable.lookup_eq_none.1 (h.lookup_not_mem hs)) e he
  obtain ⟨t', e1, e2, e3, e4⟩ := HashTable.set_rep m.ops_lawful ht n.term_index (n.term_index + 1)
    (Or.inr (by rw [length_atomEntries]; show _ < n.HTatoms.maxElements; rw [h.cap]; exact hc))
  rw [e1]
  refine ⟨{ m with HTatoms := t', term_index := n.term_index + 1 }, by rw [R.ok_bind, ← h.count], ?_, rfl, rfl, rfl, rfl, rfl⟩
  rw [HashTable.insert_of_none hnone] at e4
  refine { nodup := ?_, count := ?_, names := ?_, short := ?_, table := ?_, cap := ?_, pos := h.pos, rest := ?_ }
  · rw [List.nodup_append]
    exact ⟨h.nodup, by simp, by intro a ha b hb; simp at hb; subst hb; exact fun e => hs (e ▸ ha)⟩
  · simp [h.count]
  · intro i hi
    show upd n.atomNames n.term_index (truncName s) i = _
    simp only [List.length_append, List.length_singleton] at hi
    by_cases hil : i < ns.length
    · rw [upd_other _ _ (by rw [h.count]; omega), h.names i hil]
      simp [List.getD, List.getElem?_append_left hil]
    · have : i = ns.length := by omega
      subst this
      rw [← h.count, upd_same, h.count]
      simp [List.getD]
  · intro a ha
    simp at ha
    rcases ha with ha | ha
    · exact h.short a ha
    · subst ha; exact truncName_length s
  · rw [List.length_append, List.length_singleton]
    show HashTable.Rep m.ops t' ((ns.length, ns.length + 1) :: atomEntries ns.length)
    rw [h.count] at e4
    exact e4
  · show t'.maxElements = n.capacity
    rw [e3]; exact h.cap
  · intro i hi
    show upd n.atomNames n.term_index (truncName s) i = _
    simp only [List.length_append, List.length_singleton] at hi
    rw [upd_other _ _ (by rw [h.count]; omega), h.rest i (by omega)]

/-- A new name in a full table. -/
theorem index_full (h : n.Rep ns) {s : CStr} (hs : truncName s ∉ ns) (hc : n.capacity ≤ ns.length) :
    Narsese_AtomicTermIndex n s = .error (.assertFail "Too many terms for NAR") := by
  unfold Narsese_AtomicTermIndex
  simp only [HashTable.get_rep n.ops_lawful h.table, R.ok_bind, h.lookup_not_mem hs]
  have : cassert (decide (n.term_index < n.capacity)) "Too many terms for NAR" =
      .error (.assertFail "Too many terms for NAR") := by
    unfold cassert; rw [if_neg]; simp [h.count, hc]
  rw [this]; rfl

theorem length_le (h : n.Rep ns) : ns.length ≤ n.capacity := by
  have := h.table.length_le
  rw [length_atomEntries, h.cap] at this
  omega

end Narsese.Rep

theorem indexAll_spec : ∀ (l : List CStr) (n : Narsese) (ns : List CStr), n.Rep ns →
    (∀ s ∈ l, s.length ≤ 31) → (ns ++ l).Nodup → (ns ++ l).length ≤ n.capacity →
    ∃ n', n.indexAll l = .ok n' ∧ n'.Rep (ns ++ l) ∧ n'.capacity = n.capacity ∧
      n'.atomHasValue = n.atomHasValue := by
  intro l
  induction l with
  | nil => intro n ns h _ _ _; exact ⟨n, rfl, by simpa using h, rfl, rfl⟩
  | cons s l ih =>
    intro n ns h hs hnd hc
    have hts : truncName s = s := truncName_of_short (hs s (by simp))
    have hnot : s ∉ ns := by
      intro hm
      rw [List.nodup_append] at hnd
      exact hnd.2.2 s hm s (by simp) rfl
    obtain ⟨n1, e1, r1, c1, _, _, v1, _⟩ := h.index_new (s := s) (by rw [hts]; exact hnot) (by simp at hc; omega)
    rw [hts] at r1
    obtain ⟨n2, e2, r2, c2, v2⟩ := ih n1 (ns ++ [s]) r1 (fun a ha => hs a (by simp [ha])) (by simpa using hnd)
      (by rw [c1]; simpa using hc)
    refine ⟨n2, ?_, by simpa using r2, by rw [c2, c1], by rw [v2, v1]⟩
    unfold Narsese.indexAll
    rw [e1, R.ok_bind]; exact e2

theorem initialNames_short : ∀ s ∈ initialNames ++ [['S', 'E', 'L', 'F']], s.length ≤ 31 := by decide +kernel
theorem initialNames_nodup : (initialNames ++ [['S', 'E', 'L', 'F']]).Nodup := by decide +kernel
theorem initialNames_length : initialNames.length = 62 := by decide +kernel

/-- The state after initialisation. -/
theorem initWith_spec (cap : Nat) (hc : 63 ≤ cap) :
    ∃ n, Narsese.initWith cap = .ok n ∧ n.Rep (initialNames ++ [['S', 'E', 'L', 'F']]) ∧ n.capacity = cap ∧
      n.SELF = 63 ∧ ∀ i, n.atomHasValue i = false := by
  obtain ⟨t, e1, e2, e3, e4⟩ := HashTable.init_rep (P := Nat) (V := Nat)
    (Narsese.ops (Narsese.blank cap ⟨⟨fun _ => none, 0, 0⟩, fun _ => ⟨none, none, none⟩, fun _ => none, 0, 0⟩)) cap cap (by omega)
  unfold Narsese.initWith
  rw [e1]
  simp only [R.ok_bind]
  set n0 : Narsese := Narsese.blank cap t with hn0
  have r0 : n0.Rep [] :=
    { nodup := by simp, count := rfl, names := by simp, short := by simp
      table := e4.congr_deref rfl rfl (by simp), cap := e3, pos := by show 0 < cap; omega, rest := fun _ _ => rfl }
  obtain ⟨n1, f1, r1, c1, v1⟩ := indexAll_spec initialNames n0 [] r0
    (fun s hs => initialNames_short s (by simp [hs]))
    (by have := initialNames_nodup; rw [List.nodup_append] at this; simpa using this.1)
    (by simp [initialNames_length]; show 62 ≤ cap; omega)
  rw [f1]
  simp only [R.ok_bind, List.nil_append] at r1 ⊢
  have hS : truncName ['S', 'E', 'L', 'F'] = ['S', 'E', 'L', 'F'] := by decide
  obtain ⟨n2, f2, r2, c2, _, _, v2, _⟩ := r1.index_new (s := ['S', 'E', 'L', 'F'])
    (by rw [hS]; have := initialNames_nodup; rw [List.nodup_append] at this
        intro hm; exact this.2.2 _ hm _ (by simp) rfl)
    (by rw [c1, initialNames_length]; show 62 < cap; omega)
  rw [f2]
  rw [hS] at r2
  refine ⟨{ n2 with SELF := toAtom (initialNames.length + 1) }, rfl, ?_, ?_, ?_, ?_⟩
  · exact { nodup := r2.nodup, count := r2.count, names := r2.names, short := r2.short
            table := r2.table, cap := r2.cap, pos := r2.pos, rest := r2.rest }
  · show n2.capacity = cap; rw [c2, c1]; rfl
  · show toAtom (initialNames.length + 1) = 63
    rw [initialNames_length]; rfl
  · intro i; show n2.atomHasValue i = false; rw [v2, v1]; rfl

end ONA

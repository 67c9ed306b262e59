import Verif.Props.Settings
import Verif.Props.Narsese
import Verif.Props.Memory
import Verif.Props.OccurrenceTimeIndex
/-
C14, C32, C37 and C38 in the states which the API can reach.
-/
namespace ONA
variable [Arith] {z : Sizes} {n n' : Narsese} {s s' : Sys}

/-! ### C32 -/

omit [Arith] in
theorem Narsese.Rep.getElem {ns : List CStr} (r : n.Rep ns) {i : Nat} (hi : i < ns.length) : n.atomNames i = ns[i] := by
  rw [r.names i hi]; simp [List.getD, List.getElem?_eq_getElem hi]

/-- The atom of a registered name. -/
def AtomOf (n : Narsese) (name : CStr) (i : Nat) : Prop := Narsese_AtomicTermIndex n name = .ok (i, n)

/-- **C32** in every reachable state: testing an atom for a copula is comparing it with a constant, names entered by the user are
never mistaken for copulas. -/
theorem C32_copulaEquals_reachable (hz : z.Ok) (h : Reachable z n s) {c : Char} (hc : c ∈ Narsese_CanonicalCopulas) (a : Atom) :
    Narsese_copulaEquals n a c = true ↔ a = copulaAtom c := by
  obtain ⟨hg, ns, r⟩ := h.good hz
  have hb := hg.base
  have hm : [c] ∈ initialNames := copula_mem hc
  have hlt : initialNames.idxOf [c] < initialNames.length := List.idxOf_lt_length_iff.2 hm
  have hlen : initialNames.length = 62 := by decide
  have hnm : n.atomNames (initialNames.idxOf [c]) = [c] := by
    rw [hb.names _ hlt]
    simp [List.getD, List.getElem?_eq_getElem hlt]
  have hto : (toAtom (initialNames.idxOf [c] + 1)).toNat = initialNames.idxOf [c] + 1 := by
    unfold toAtom
    rw [BitVec.toNat_ofNat]
    exact Nat.mod_eq_of_lt (by omega)
  have hcount : initialNames.length + 1 ≤ ns.length := r.count ▸ hb.initial
  unfold Narsese_copulaEquals
  simp only [Bool.and_eq_true, decide_eq_true_iff]
  constructor
  · rintro ⟨ha, hname⟩
    have hpos : 1 ≤ a.toNat := by
      by_contra hlt
      apply ha
      apply BitVec.eq_of_toNat_eq
      simp; omega
    unfold Narsese.nameOf at hname
    by_cases hi : a.toNat - 1 < ns.length
    · have hi0 : initialNames.idxOf [c] < ns.length := by omega
      rw [r.getElem hi] at hname
      rw [r.getElem hi0] at hnm
      have := (r.nodup.getElem_inj_iff (hi := hi) (hj := hi0)).1 (hname.trans hnm.symm)
      apply BitVec.eq_of_toNat_eq
      unfold copulaAtom
      rw [hto]
      omega
    · rw [r.rest _ (by omega)] at hname
      cases hname
  · rintro rfl
    refine ⟨?_, ?_⟩
    · intro h0
      have := congrArg BitVec.toNat h0
      unfold copulaAtom at this
      rw [hto] at this
      simp at this
    · unfold Narsese.nameOf copulaAtom
      rw [hto]
      exact hnm

/-- The calls which start anew. -/
def Call.restarts : Call → Bool
  | .init => true
  | .command .reset => true
  | _ => false

/-- Every call which does not start anew keeps the names and their atoms. -/
theorem call_names {fuel : Fuel} {c : Call} (hz : z.Ok) (h : Reachable z n s) (hl : c.Legal n s) (hr : c.restarts = false)
    (e : c.run z fuel n s = .ok (n', s')) : n.Extends n' := by
  obtain ⟨hg, hn⟩ := h.good hz
  by_cases hc : c.namesOps = false
  · exact (call_sameOps hg hn hl hc e).1
  · cases c with
    | init => cases hr
    | addInput => exact absurd rfl hc
    | addOperation name f =>
      obtain ⟨t, et, -⟩ := addOperation_shape e
      exact (atomicTerm_extends hn et).2.1
    | addNarsese => exact absurd rfl hc
    | command c =>
      cases c with
      | reset => cases hr
      | setOpName k name =>
        obtain ⟨t, et, -⟩ := setOpName_shape e
        exact (atomicTerm_extends hn et).2.1
      | _ => exact absurd rfl hc

/-- **C32** across calls: whatever is called (other than `NAR_INIT` and `*reset`), the atom of a registered name never
changes, and so does the name of the atom. -/
theorem C32_calls {fuel : Fuel} {c : Call} (hz : z.Ok) (h : Reachable z n s) (hl : c.Legal n s) (hr : c.restarts = false)
    (e : c.run z fuel n s = .ok (n', s')) {name : CStr} {i : Nat} (hi : AtomOf n name i) :
    AtomOf n' name i ∧ 1 ≤ i ∧ n.atomNames (i - 1) = name.take 31 ∧ n'.atomNames (i - 1) = name.take 31 := by
  have hx := call_names hz h hl hr e
  obtain ⟨-, ns, r⟩ := h.good hz
  obtain ⟨-, ns', r'⟩ := (Reachable.call fuel c h hl e).good hz
  unfold AtomOf at hi ⊢
  have hm : truncName name ∈ ns := by
    by_contra hm
    by_cases hc : ns.length < n.capacity
    · obtain ⟨m, em, rm, -⟩ := r.index_new hm hc
      rw [hi] at em
      cases em
      have h1 := rm.count
      rw [r.count] at h1
      simp at h1
    · rw [r.index_full hm (by omega)] at hi
      cases hi
  rw [r.index_known hm] at hi
  cases hi
  have hlt := List.idxOf_lt_length_iff.2 hm
  have hn1 : n.atomNames (ns.idxOf (truncName name)) = truncName name := by
    rw [r.getElem hlt, List.getElem_idxOf]
  have hn2 : n'.atomNames (ns.idxOf (truncName name)) = truncName name := by
    rw [hx.names _ (r.count ▸ hlt), hn1]
  have hlt' : ns.idxOf (truncName name) < ns'.length := by
    have := hx.more
    rw [r.count, r'.count] at this
    omega
  have hm' : truncName name ∈ ns' := by
    rw [← hn2, r'.getElem hlt']
    exact List.getElem_mem _
  have hidx : ns'.idxOf (truncName name) = ns.idxOf (truncName name) := by
    rw [r'.getElem hlt'] at hn2
    calc ns'.idxOf (truncName name) = ns'.idxOf ns'[ns.idxOf (truncName name)] := by rw [hn2]
      _ = _ := r'.nodup.idxOf_getElem _ hlt'
  refine ⟨?_, by omega, ?_, ?_⟩
  · rw [r'.index_known hm', hidx]
  · exact hn1
  · exact hn2

/-- **C32** in every reachable state: two registered names have the same atom exactly if their first 31 characters agree. -/
theorem C32_same_reachable (hz : z.Ok) (h : Reachable z n s) {a b : CStr} {i j : Nat} (ha : AtomOf n a i) (hb : AtomOf n b j) :
    i = j ↔ a.take 31 = b.take 31 := by
  obtain ⟨-, ns, r⟩ := h.good hz
  have key : ∀ {a : CStr} {i : Nat}, AtomOf n a i → truncName a ∈ ns ∧ i = ns.idxOf (truncName a) + 1 := by
    intro a i hi
    unfold AtomOf at hi
    have hm : truncName a ∈ ns := by
      by_contra hm
      by_cases hc : ns.length < n.capacity
      · obtain ⟨m, em, rm, -⟩ := r.index_new hm hc
        rw [hi] at em
        cases em
        have h1 := rm.count
        rw [r.count] at h1
        simp at h1
      · rw [r.index_full hm (by omega)] at hi
        cases hi
    rw [r.index_known hm] at hi
    cases hi
    exact ⟨hm, rfl⟩
  obtain ⟨ma, rfl⟩ := key ha
  obtain ⟨mb, rfl⟩ := key hb
  constructor
  · intro hij
    exact (List.idxOf_inj (l := ns) ma).1 (Nat.succ_injective hij)
  · intro hab
    have : truncName a = truncName b := hab
    rw [this]

/-- The names of `Narsese_INIT` are registered in every reachable state. -/
theorem C32_initial_reachable (hz : z.Ok) (h : Reachable z n s) {name : CStr} (hm : name ∈ initialNames) :
    AtomOf n name (initialNames.idxOf name + 1) := by
  obtain ⟨hg, ns, r⟩ := h.good hz
  have hlt : initialNames.idxOf name < initialNames.length := List.idxOf_lt_length_iff.2 hm
  have hcount : initialNames.length + 1 ≤ ns.length := r.count ▸ hg.base.initial
  have hlt' : initialNames.idxOf name < ns.length := by omega
  have hnm : ns[initialNames.idxOf name] = name := by
    rw [← r.getElem hlt', hg.base.names _ hlt]
    simp [List.getD, List.getElem?_eq_getElem hlt]
  have hmem : name ∈ ns := hnm ▸ List.getElem_mem hlt'
  have htr : truncName name = name := List.take_of_length_le (r.short _ hmem)
  have hidx : ns.idxOf name = initialNames.idxOf name := by
    calc ns.idxOf name = ns.idxOf ns[initialNames.idxOf name] := by rw [hnm]
      _ = _ := r.nodup.idxOf_getElem _ hlt'
  unfold AtomOf
  rw [r.index_known (by rw [htr]; exact hmem), htr, hidx]

/-! ### C14 -/

/-- **C14** in every reachable state: the index answers like the list of what was added since the last reset. -/
theorem C14_reachable (hz : z.Ok) (h : Reachable z n s) : ∃ added : List Nat,
    (∀ k < OCCURRENCE_TIME_INDEX_SIZE, s.occurrenceTimeIndex.getKthNewestElement k = .ok added[k]?) ∧
    s.occurrenceTimeIndex.itemsAmount = min added.length OCCURRENCE_TIME_INDEX_SIZE := by
  obtain ⟨hg, -⟩ := h.good hz
  obtain ⟨added, ha, -⟩ := hg.history
  rw [ha]
  exact ⟨added, fun k hk => (OccurrenceTimeIndex.C14_kth_newest added k).1 k rfl hk, (OccurrenceTimeIndex.C14_kth_newest added 0).2.2⟩

/-! ### C38 -/

/-- **C38** in every reachable state: when the memory is full and a term without a concept is asked for, exactly one concept is
forgotten; no concept has lower priority than it; its cell is reused for a new, empty concept, and all other concepts stay in
memory with all of their content. -/
theorem C38_reachable (hz : z.Ok) (h : Reachable z n s) (t : Term) (now : Int) (hfull : s.live.length = z.memory.concepts)
    (hnew : ∀ c ∈ s.live, s.termOf c ≠ t) :
    ∃ x ∈ s.concepts.contents, (∀ y ∈ s.concepts.contents, x.priority ≤ y.priority) ∧
      ∃ s', Memory_Conceptualize n t now s = .ok (some x.address, s') ∧ s'.live.Perm s.live ∧
        Memory_FindConceptByTerm (s.termOf x.address) s' = .ok (none, s') ∧
        s'.concept_storage x.address = { Concept.zero with term := t, id := s.concept_id, usage := ⟨1, now⟩ } ∧
        ∀ d, d ≠ x.address → s'.concept_storage d = s.concept_storage d := by
  obtain ⟨hg, -⟩ := h.good hz
  have hI := hg.mem
  have hp := hg.prios
  have hcap : s.capacity = z.memory.concepts := (h.sizes hz).1
  have hc : 0 < z.memory.concepts := hz.concepts
  obtain ⟨r, s', e, hC, hI'⟩ := conceptualize_spec hI t now
  cases hC with
  | known c hcl ht => exact absurd ht (hnew c hcl)
  | room c q ht idx h1 h2 h3 h4 h5 h6 => omega
  | refused h1 h2 h3 =>
    cases hcon : s.concepts.contents with
    | nil =>
      have : s.live.length = 0 := by unfold Sys.live; rw [hcon]; rfl
      omega
    | cons x l =>
      have := h3 x (by rw [hcon]; exact List.mem_cons_self)
      have := hp x (by rw [hcon]; exact List.mem_cons_self)
      linarith
  | evict x rest q ht idx h1 h2 h3 h4 h5 h6 h7 =>
    have hx : x ∈ s.concepts.contents := h4.mem_iff.2 List.mem_cons_self
    have hlive : (Sys.live { s with
        concepts := q, HTconcepts := ht, index := idx
        concept_storage := upd s.concept_storage x.address (s.newConcept t now), concept_id := s.concept_id + 1 }).Perm s.live := by
      show (q.contents.map (·.address)).Perm (s.concepts.contents.map (·.address))
      exact ((h5.map (·.address)).trans (h4.map (·.address)).symm)
    refine ⟨x, hx, h3.2, _, e, hlive, ?_, ?_, ?_⟩
    · obtain ⟨r, er, hr⟩ := hI'.find_eq (s.termOf x.address)
      cases r with
      | none => exact er
      | some d =>
        exfalso
        obtain ⟨hd, hr⟩ := hr
        have hd' : d ∈ s.live := hlive.mem_iff.1 hd
        have hxl : x.address ∈ s.live := List.mem_map.2 ⟨x, hx, rfl⟩
        by_cases hdx : d = x.address
        · subst hdx
          refine hnew x.address hxl ?_
          rw [← hr]
          simp [Sys.termOf, upd_same, Sys.newConcept]
        · apply hdx
          apply hI.term_inj hd' hxl
          rw [← hr]
          simp [Sys.termOf, upd_other _ _ hdx]
    · exact upd_same _ _ _
    · intro d hd; exact upd_other _ _ hd

end ONA

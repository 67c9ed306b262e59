import Verif.Proofs.Memory
import Verif.Proofs.Term
import Verif.Props.PriorityQueue
import Verif.Props.InvertedAtomIndex
/-
Properties of the concept memory (src/Memory.c 88-149, 440-443): C37, C38, C39.
-/
namespace ONA

/-- The state after `Memory_INIT`. -/
def initialSys (sz : MemorySizes) (ht : HashTable Nat Nat) (idx : InvertedAtomIndex) (s : Sys) : Sys :=
  { s with
    RESTRICTED_CONCEPT_CREATION := false
    HTconcepts := ht
    conceptPriorityThreshold := 0
    concepts := freshQueue sz.concepts
    concept_storage := fun _ => Concept.zero
    cycling_belief_events := freshQueue sz.beliefEvents
    cycling_belief_event_storage := fun _ => Event.zero
    cycling_goal_events := fun _ => freshQueue sz.goalEvents
    cycling_goal_event_storage := fun _ _ => Event.zero
    index := idx
    occurrenceTimeIndex := OccurrenceTimeIndex.zero
    operations := fun _ => Operation.zero
    concept_id := 0 }

theorem memory_init_inv (n : Narsese) (sz : MemorySizes) (hc : 0 < sz.concepts) (hb : 0 < sz.buckets) (s0 : Sys) :
    ∃ s, Memory_INIT_sizes sz s0 = .ok ((), s) ∧ MemInv n s ∧ s.live = [] ∧ s.capacity = sz.concepts := by
  obtain ⟨ht, e1, h1, h2, h3⟩ := HashTable.init_rep (P := Nat) (V := Nat)
    (Sys.termOps { s0 with concept_storage := fun _ => Concept.zero }) sz.buckets sz.concepts hb
  obtain ⟨idx, e2, h4⟩ := InvertedAtomIndex.holds_init n sz.concepts
  have hslots : (freshQueue sz.concepts).slots = List.range sz.concepts := by
    simp [freshQueue, PriorityQueue.init, PriorityQueue.slots]
  have ok : ∃ s, Memory_INIT_sizes sz s0 = .ok ((), s) ∧ s = initialSys sz ht idx s0 := by
    refine ⟨_, ?_, rfl⟩
    unfold Memory_INIT_sizes
    rw [M.bind_ok]
    refine ⟨ht, s0, M.lift_ok.2 ⟨e1, rfl⟩, ?_⟩
    rw [M.bind_ok]
    refine ⟨idx, s0, M.lift_ok.2 ⟨e2, rfl⟩, ?_⟩
    exact M.modify_ok.2 rfl
  obtain ⟨s, e, rfl⟩ := ok
  refine ⟨_, e, ?inv, ?live, ?cap⟩
  case live => rfl
  case cap => rfl
  case inv =>
    exact
      { queue := PriorityQueue.init_inv _ _ (by
          have := List.nodup_range (n := sz.concepts)
          rw [← hslots] at this
          exact this)
        pos := hc
        slots := by show (freshQueue sz.concepts).slots.Perm _; rw [hslots]; exact List.Perm.refl _
        size := h2
        table := h3
        index := h4
        ids := fun c hc => absurd hc List.not_mem_nil
        distinct := fun c hc => absurd hc List.not_mem_nil
        idpos := Int.le_refl _ }

/-- What asking for a concept does, for every state. -/
theorem conceptualize_cases {n : Narsese} {s : Sys} (h : MemInv n s) {t : Term} {now : Int} {r : Option Nat} {s' : Sys}
    (e : Memory_Conceptualize n t now s = .ok (r, s')) : Conceptualized s t now r s' ∧ MemInv n s' := by
  obtain ⟨r1, s1, e1, h1, h2⟩ := conceptualize_spec h t now
  rw [e] at e1
  cases e1
  exact ⟨h1, h2⟩

/-- All queue priorities are at most 1. -/
def PriosLeOne (s : Sys) : Prop := ∀ x ∈ s.concepts.contents, x.priority ≤ 1

theorem conceptualized_prios {s s' : Sys} {t : Term} {now : Int} {r : Option Nat} (h : Conceptualized s t now r s')
    (hp : PriosLeOne s) : PriosLeOne s' := by
  cases h with
  | known => exact hp
  | room c q ht idx _ _ _ _ hq _ =>
    intro x hx
    have : x ∈ (⟨1, c⟩ :: s.concepts.contents : List (Item ℚ Nat)) := hq.mem_iff.1 hx
    rw [List.mem_cons] at this
    rcases this with rfl | h
    · exact le_refl _
    · exact hp x h
  | evict e rest q ht idx _ _ _ hr hq _ _ =>
    intro x hx
    have : x ∈ (⟨1, e.address⟩ :: rest : List (Item ℚ Nat)) := hq.mem_iff.1 hx
    rw [List.mem_cons] at this
    rcases this with rfl | h
    · exact le_refl _
    · exact hp x (hr.mem_iff.2 (List.mem_cons_of_mem _ h))
  | refused => exact hp

theorem conceptualized_capacity {s s' : Sys} {t : Term} {now : Int} {r : Option Nat} (h : Conceptualized s t now r s') :
    s'.capacity = s.capacity := by
  cases h with
  | known => rfl
  | room c q ht idx _ _ _ _ _ hm => exact hm
  | evict e rest q ht idx _ _ _ _ _ hm _ => exact hm
  | refused => rfl

theorem reprioritise_spec {n : Narsese} {s : Sys} (h : MemInv n s) {g : Item ℚ Nat → ℚ} {q : PriorityQueue ℚ Nat}
    (e : (s.concepts.overwrite g).rebuild = .ok q) :
    MemInv n { s with concepts := q } ∧ q.contents.Perm (s.concepts.contents.map fun x => ⟨g x, x.address⟩) ∧
      Sys.capacity { s with concepts := q } = s.capacity ∧ (Sys.live { s with concepts := q }).Perm s.live := by
  obtain ⟨q', a, b, c, -, d, f⟩ := PriorityQueue.rebuild_spec (q := s.concepts.overwrite g) h.queue.bound
    (by rw [PriorityQueue.overwrite_slots]; exact h.queue.nodup)
  rw [e] at a
  cases a
  rw [PriorityQueue.overwrite_slots] at d
  rw [PriorityQueue.overwrite_contents] at f
  have hl : (q.contents.map (·.address)).Perm s.live := by
    have := f.map (·.address)
    rw [List.map_map] at this
    exact this
  exact ⟨h.requeue b c d hl, f, c, hl⟩

theorem MemStep.inv {n : Narsese} {s s' : Sys} (h : MemInv n s) (hp : PriosLeOne s) (st : MemStep n s s') :
    MemInv n s' ∧ PriosLeOne s' ∧ s'.capacity = s.capacity := by
  cases st with
  | conceptualize t now r s' e =>
    obtain ⟨h1, h2⟩ := conceptualize_cases h e
    exact ⟨h2, conceptualized_prios h1 hp, conceptualized_capacity h1⟩
  | content s' h1 h2 h3 h4 h5 h6 =>
    refine ⟨h.congr h1 h2 h3 h4 (fun c _ => h5 c) (fun c _ => h6 c), ?_, ?_⟩
    · unfold PriosLeOne; rw [h1]; exact hp
    · unfold Sys.capacity; rw [h1]
  | reprioritise g q hg e =>
    obtain ⟨h1, h2, h3, _⟩ := reprioritise_spec h e
    refine ⟨h1, ?_, h3⟩
    intro x hx
    have := h2.mem_iff.1 hx
    rw [List.mem_map] at this
    obtain ⟨y, _, rfl⟩ := this
    exact hg y

theorem MemHistory.inv {n : Narsese} {sz : MemorySizes} (hc : 0 < sz.concepts) (hb : 0 < sz.buckets) {s : Sys}
    (h : MemHistory n sz s) : MemInv n s ∧ PriosLeOne s ∧ s.capacity = sz.concepts := by
  induction h with
  | init s0 s e =>
    obtain ⟨s1, e1, h1, h2, h3⟩ := memory_init_inv n sz hc hb s0
    rw [e] at e1
    cases e1
    refine ⟨h1, ?_, h3⟩
    intro x hx
    have : x.address ∈ s.live := List.mem_map.2 ⟨x, hx, rfl⟩
    rw [h2] at this
    exact absurd this List.not_mem_nil
  | step s s' _ st ih =>
    obtain ⟨a, b, c⟩ := st.inv ih.1 ih.2.1
    exact ⟨a, b, c.trans ih.2.2⟩

/-- **C37**, lookup. After every history: each concept in memory is found under its term, no two have the same term,
terms without a concept are not found, and the memory never holds more concepts than it has room for. -/
theorem C37_map (n : Narsese) (sz : MemorySizes) (hc : 0 < sz.concepts) (hb : 0 < sz.buckets) (s : Sys)
    (h : MemHistory n sz s) :
    (∀ c ∈ s.live, Memory_FindConceptByTerm (s.termOf c) s = .ok (some c, s)) ∧
    (∀ c ∈ s.live, ∀ d ∈ s.live, s.termOf c = s.termOf d → c = d) ∧
    (∀ t, (∀ c ∈ s.live, s.termOf c ≠ t) → Memory_FindConceptByTerm t s = .ok (none, s)) ∧
    s.live.Nodup ∧ s.live.length ≤ sz.concepts := by
  obtain ⟨hI, _, hcap⟩ := h.inv hc hb
  refine ⟨?_, fun c hc d hd e => hI.term_inj hc hd e, ?_, hI.live_nodup, hcap ▸ hI.live_length⟩
  · intro c hcl
    obtain ⟨r, e, hr⟩ := hI.find_eq (s.termOf c)
    cases r with
    | none => exact absurd rfl (hr c hcl)
    | some d => rw [e, hI.term_inj hr.1 hcl hr.2]
  · intro t ht
    obtain ⟨r, e, hr⟩ := hI.find_eq t
    cases r with
    | none => exact e
    | some d => exact absurd hr.2 (ht d hr.1)

/-- **C37**, creation. After every history, asking for the concept of any term succeeds, and afterwards the term is found
and leads to that concept. -/
theorem C37_create (n : Narsese) (sz : MemorySizes) (hc : 0 < sz.concepts) (hb : 0 < sz.buckets) (s : Sys)
    (h : MemHistory n sz s) (t : Term) (now : Int) :
    ∃ c s', Memory_Conceptualize n t now s = .ok (some c, s') ∧ MemHistory n sz s' ∧ c ∈ s'.live ∧ s'.termOf c = t ∧
      Memory_FindConceptByTerm t s' = .ok (some c, s') := by
  obtain ⟨hI, hp, hcap⟩ := h.inv hc hb
  obtain ⟨r, s', e, hC, hI'⟩ := conceptualize_spec hI t now
  have hist : MemHistory n sz s' := .step s s' h (.conceptualize t now r s' e)
  have key : ∀ c, c ∈ s'.live → s'.termOf c = t → Memory_FindConceptByTerm t s' = .ok (some c, s') := by
    intro c hcl ht
    have := (C37_map n sz hc hb s' hist).1 c hcl
    rwa [ht] at this
  cases hC with
  | known c hcl ht => exact ⟨c, s, e, hist, hcl, ht, key c hcl ht⟩
  | room c q ht idx h1 h2 h3 h4 h5 h6 =>
    have hcl : c ∈ Sys.live { s with
        concepts := q, HTconcepts := ht, index := idx
        concept_storage := upd s.concept_storage c (s.newConcept t now), concept_id := s.concept_id + 1 } :=
      List.mem_map.2 ⟨⟨1, c⟩, h5.mem_iff.2 List.mem_cons_self, rfl⟩
    have ht : Sys.termOf { s with
        concepts := q, HTconcepts := ht, index := idx
        concept_storage := upd s.concept_storage c (s.newConcept t now), concept_id := s.concept_id + 1 } c = t := by
      simp [Sys.termOf, upd_same, Sys.newConcept]
    exact ⟨c, _, e, hist, hcl, ht, key c hcl ht⟩
  | evict x rest q ht idx h1 h2 h3 h4 h5 h6 h7 =>
    have hcl : x.address ∈ Sys.live { s with
        concepts := q, HTconcepts := ht, index := idx
        concept_storage := upd s.concept_storage x.address (s.newConcept t now), concept_id := s.concept_id + 1 } :=
      List.mem_map.2 ⟨⟨1, x.address⟩, h5.mem_iff.2 List.mem_cons_self, rfl⟩
    have ht : Sys.termOf { s with
        concepts := q, HTconcepts := ht, index := idx
        concept_storage := upd s.concept_storage x.address (s.newConcept t now), concept_id := s.concept_id + 1 } x.address = t := by
      simp [Sys.termOf, upd_same, Sys.newConcept]
    exact ⟨x.address, _, e, hist, hcl, ht, key x.address hcl ht⟩
  | refused h1 h2 h3 =>
    exfalso
    have hl : s.concepts.contents.length = s.capacity := by rw [← h2]; simp [Sys.live]
    have hpos := hI.pos
    cases hcon : s.concepts.contents with
    | nil => rw [hcon] at hl; simp at hl; omega
    | cons x xs =>
      have := h3 x (by rw [hcon]; exact List.mem_cons_self)
      have := hp x (by rw [hcon]; exact List.mem_cons_self)
      linarith

/-- **C38**. After every history, when the memory is full and a term without a concept is asked for, exactly one concept
is forgotten; no concept has lower priority than it; its cell is reused for a new, empty concept, and all other concepts
stay in memory with all of their content. -/
theorem C38_forget (n : Narsese) (sz : MemorySizes) (hc : 0 < sz.concepts) (hb : 0 < sz.buckets) (s : Sys)
    (h : MemHistory n sz s) (t : Term) (now : Int) (hfull : s.live.length = sz.concepts)
    (hnew : ∀ c ∈ s.live, s.termOf c ≠ t) :
    ∃ x ∈ s.concepts.contents, (∀ y ∈ s.concepts.contents, x.priority ≤ y.priority) ∧
      ∃ s', Memory_Conceptualize n t now s = .ok (some x.address, s') ∧ s'.live.Perm s.live ∧
        Memory_FindConceptByTerm (s.termOf x.address) s' = .ok (none, s') ∧
        s'.concept_storage x.address = { Concept.zero with term := t, id := s.concept_id, usage := ⟨1, now⟩ } ∧
        ∀ d, d ≠ x.address → s'.concept_storage d = s.concept_storage d := by
  obtain ⟨hI, hp, hcap⟩ := h.inv hc hb
  obtain ⟨r, s', e, hC, hI'⟩ := conceptualize_spec hI t now
  have hist : MemHistory n sz s' := .step s s' h (.conceptualize t now r s' e)
  cases hC with
  | known c hcl ht => exact absurd ht (hnew c hcl)
  | room c q ht idx h1 h2 h3 h4 h5 h6 => omega
  | refused h1 h2 h3 =>
    obtain ⟨c, s', e2, _⟩ := C37_create n sz hc hb s h t now
    rw [e] at e2
    cases e2
  | evict x rest q ht idx h1 h2 h3 h4 h5 h6 h7 =>
    have hx : x ∈ s.concepts.contents := h4.mem_iff.2 List.mem_cons_self
    have hlive : (Sys.live { s with
        concepts := q, HTconcepts := ht, index := idx
        concept_storage := upd s.concept_storage x.address (s.newConcept t now), concept_id := s.concept_id + 1 }).Perm s.live := by
      show (q.contents.map (·.address)).Perm (s.concepts.contents.map (·.address))
      exact ((h5.map (·.address)).trans (h4.map (·.address)).symm)
    refine ⟨x, hx, h3.2, _, e, hlive, ?_, ?_, ?_⟩
    · refine (C37_map n sz hc hb _ hist).2.2.1 _ ?_
      intro d hd
      have hd' : d ∈ s.live := hlive.mem_iff.1 hd
      have hxl : x.address ∈ s.live := List.mem_map.2 ⟨x, hx, rfl⟩
      by_cases hdx : d = x.address
      · subst hdx
        have : t ≠ s.termOf x.address := fun e => hnew x.address hxl e.symm
        simpa [Sys.termOf, upd_same, Sys.newConcept] using this
      · intro e
        apply hdx
        apply hI.term_inj hd' hxl
        simpa [Sys.termOf, upd_other _ _ hdx] using e
    · exact upd_same _ _ _
    · intro d hd; exact upd_other _ _ hd

/-- **C38**, as long as there is room nothing is forgotten. -/
theorem C38_room (n : Narsese) (sz : MemorySizes) (hc : 0 < sz.concepts) (hb : 0 < sz.buckets) (s : Sys)
    (h : MemHistory n sz s) (t : Term) (now : Int) (hroom : s.live.length < sz.concepts) :
    ∃ c s', Memory_Conceptualize n t now s = .ok (some c, s') ∧
      ∀ d ∈ s.live, d ∈ s'.live ∧ s'.concept_storage d = s.concept_storage d := by
  obtain ⟨hI, hp, hcap⟩ := h.inv hc hb
  obtain ⟨r, s', e, hC, hI'⟩ := conceptualize_spec hI t now
  cases hC with
  | known c hcl ht => exact ⟨c, s, e, fun d hd => ⟨hd, rfl⟩⟩
  | room c q ht idx h1 h2 h3 h4 h5 h6 =>
    refine ⟨c, _, e, fun d hd => ⟨?_, ?_⟩⟩
    · show d ∈ q.contents.map (·.address)
      refine ((h5.map (·.address)).mem_iff).2 ?_
      rw [List.map_cons]
      exact List.mem_cons_of_mem _ hd
    · refine upd_other _ _ ?_
      rintro rfl
      exact h3 hd
  | evict x rest q ht idx h1 h2 h3 h4 h5 h6 h7 => omega
  | refused h1 h2 h3 => omega

/-! ### Links -/

/-- What a step does to concept `c`: it stays with its term and identity, or it gets a new identity. -/
theorem MemStep.concept {n : Narsese} {s s' : Sys} (hI : MemInv n s) (hp : PriosLeOne s) (st : MemStep n s s') {c : Nat}
    (hc : c ∈ s.live) :
    c ∈ s'.live ∧ s.concept_id ≤ s'.concept_id ∧
      ((s'.idOf c = s.idOf c ∧ s'.termOf c = s.termOf c ∧ ¬ Forgets c (s, s')) ∨
        (s.concept_id ≤ s'.idOf c ∧ Forgets c (s, s'))) := by
  have hI' := (st.inv hI hp).1
  have stays : c ∈ s'.live → s'.termOf c = s.termOf c → ¬ Forgets c (s, s') := by
    intro hl ht hf
    apply hf
    obtain ⟨r, e, hr⟩ := hI'.find_eq (s'.termOf c)
    show Memory_FindConceptByTerm (s.termOf c) s' = _
    rw [← ht, e]
    cases r with
    | none => exact absurd rfl (hr c hl)
    | some d => rw [hI'.term_inj hr.1 hl hr.2]
  cases st with
  | conceptualize t now r s' e =>
    obtain ⟨hC, _⟩ := conceptualize_cases hI e
    cases hC with
    | known d hd ht => exact ⟨hc, Int.le_refl _, Or.inl ⟨rfl, rfl, stays hc rfl⟩⟩
    | refused => exact ⟨hc, Int.le_refl _, Or.inl ⟨rfl, rfl, stays hc rfl⟩⟩
    | room d q ht idx h1 h2 h3 h4 h5 h6 =>
      have hcd : c ≠ d := by rintro rfl; exact h3 hc
      have hl : c ∈ q.contents.map (·.address) := by
        refine ((h5.map (·.address)).mem_iff).2 ?_
        rw [List.map_cons]
        exact List.mem_cons_of_mem _ hc
      have ht : Sys.termOf { s with
          concepts := q, HTconcepts := ht, index := idx
          concept_storage := upd s.concept_storage d (s.newConcept t now), concept_id := s.concept_id + 1 } c = s.termOf c := by
        simp [Sys.termOf, upd_other _ _ hcd]
      refine ⟨hl, by simp, Or.inl ⟨by simp [Sys.idOf, upd_other _ _ hcd], ht, stays hl ht⟩⟩
    | evict x rest q ht idx h1 h2 h3 h4 h5 h6 h7 =>
      have hl : c ∈ q.contents.map (·.address) := by
        refine ((h5.map (·.address)).mem_iff).2 ?_
        exact ((h4.map (·.address)).mem_iff).1 hc
      by_cases hcd : c = x.address
      · refine ⟨hl, by simp, Or.inr ⟨?_, ?_⟩⟩
        · rw [hcd]; simp [Sys.idOf, upd_same, Sys.newConcept]
        · intro hf
          obtain ⟨r, e2, hr⟩ := hI'.find_eq (s.termOf c)
          have hf' : Memory_FindConceptByTerm (s.termOf c) { s with
              concepts := q, HTconcepts := ht, index := idx
              concept_storage := upd s.concept_storage x.address (s.newConcept t now), concept_id := s.concept_id + 1 } = _ := hf
          rw [e2] at hf'
          cases hf'
          have := hr.2
          rw [hcd] at this
          have hxl : x.address ∈ s.live := hcd ▸ hc
          refine h1 _ hxl ?_
          rw [← this]
          simp [Sys.termOf, upd_same, Sys.newConcept]
      · have ht : Sys.termOf { s with
            concepts := q, HTconcepts := ht, index := idx
            concept_storage := upd s.concept_storage x.address (s.newConcept t now), concept_id := s.concept_id + 1 } c = s.termOf c := by
          simp [Sys.termOf, upd_other _ _ hcd]
        exact ⟨hl, by simp, Or.inl ⟨by simp [Sys.idOf, upd_other _ _ hcd], ht, stays hl ht⟩⟩
  | content s' h1 h2 h3 h4 h5 h6 =>
    have hl : c ∈ s'.live := by unfold Sys.live; rw [h1]; exact hc
    exact ⟨hl, by rw [h4], Or.inl ⟨h6 c, h5 c, stays hl (h5 c)⟩⟩
  | reprioritise g q hg e =>
    have hl := ((reprioritise_spec hI e).2.2.2.mem_iff).2 hc
    exact ⟨hl, Int.le_refl _, Or.inl ⟨rfl, rfl, stays hl rfl⟩⟩

/-- **C39**. Take any state of the memory, a concept in it, and a link to that concept (cell and identity). After any
sequence of further steps, the link is reported valid iff no step has forgotten the concept, and then the cell still
holds the concept of the same term. -/
theorem C39_links (n : Narsese) (sz : MemorySizes) (hc : 0 < sz.concepts) (hb : 0 < sz.buckets) (s s' : Sys)
    (h : MemHistory n sz s) (c : Nat) (hl : c ∈ s.live) (imp : Implication) (hsrc : imp.sourceConcept = some c)
    (hid : imp.sourceConceptId = s.idOf c) (l : List (Sys × Sys)) (hs : MemSteps n l s s') :
    ∃ b, Memory_ImplicationValid imp s' = .ok (b, s') ∧ (b = true ↔ ∀ st ∈ l, ¬ Forgets c st) ∧
      (b = true → Memory_FindConceptByTerm (s.termOf c) s' = .ok (some c, s')) := by
  have hI := (h.inv hc hb).1
  have hp := (h.inv hc hb).2.1
  have key : MemInv n s' ∧ PriosLeOne s' ∧ c ∈ s'.live ∧ s.concept_id ≤ s'.concept_id ∧
      ((s'.idOf c = s.idOf c ∧ s'.termOf c = s.termOf c ∧ ∀ st ∈ l, ¬ Forgets c st) ∨
        (s.concept_id ≤ s'.idOf c ∧ ∃ st ∈ l, Forgets c st)) := by
    induction hs with
    | nil => exact ⟨hI, hp, hl, Int.le_refl _, Or.inl ⟨rfl, rfl, by simp⟩⟩
    | @snoc l s1 s2 s3 hs st ih =>
      obtain ⟨a, b, d, f, g⟩ := ih h hl hid hI hp
      obtain ⟨a', b', _⟩ := st.inv a b
      obtain ⟨d', f', g'⟩ := st.concept a b d
      refine ⟨a', b', d', f.trans f', ?_⟩
      rcases g with ⟨g1, g2, g3⟩ | ⟨g1, g2⟩
      · rcases g' with ⟨k1, k2, k3⟩ | ⟨k1, k2⟩
        · refine Or.inl ⟨k1.trans g1, k2.trans g2, ?_⟩
          intro st hst
          rw [List.mem_append, List.mem_singleton] at hst
          rcases hst with hst | rfl
          · exact g3 st hst
          · exact k3
        · exact Or.inr ⟨f.trans k1, ⟨_, by simp, k2⟩⟩
      · obtain ⟨st0, hst0, hf0⟩ := g2
        refine Or.inr ⟨?_, ⟨st0, by simp [hst0], hf0⟩⟩
        rcases g' with ⟨k1, _, _⟩ | ⟨k1, _⟩
        · rw [k1]; exact g1
        · exact f.trans k1
  obtain ⟨hI', _, hl', _, g⟩ := key
  refine ⟨decide (imp.sourceConceptId = s'.idOf c), ?_, ?_, ?_⟩
  · unfold Memory_ImplicationValid
    rw [M.bind_ok]
    refine ⟨s', s', M.get_ok.2 ⟨rfl, rfl⟩, M.lift_ok.2 ⟨?_, rfl⟩⟩
    unfold Sys.implicationValid
    rw [hsrc]
    rfl
  · rw [decide_eq_true_iff, hid]
    rcases g with ⟨g1, g2, g3⟩ | ⟨g1, st, hst, hf⟩
    · exact ⟨fun _ => g3, fun _ => g1.symm⟩
    · have := (hI.ids c hl).2
      exact ⟨fun e => by omega, fun hall => absurd hf (hall st hst)⟩
  · rw [decide_eq_true_iff, hid]
    intro e
    rcases g with ⟨g1, g2, g3⟩ | ⟨g1, _⟩
    · obtain ⟨r, e2, hr⟩ := hI'.find_eq (s.termOf c)
      rw [e2]
      cases r with
      | none => exact absurd g2 (hr c hl')
      | some d => rw [hI'.term_inj hr.1 hl' (hr.2.trans g2.symm)]
    · have := (hI.ids c hl).2
      omega

/-! ### Examples: the memory fills up -/

/-- An atomic term. -/
def atomTerm (k : Nat) : Term := Term.zero.put 0 (BitVec.ofNat 16 k)

theorem atomTerm_inj {j k : Nat} (hj : j < 65536) (hk : k < 65536) (e : atomTerm j = atomTerm k) : j = k := by
  have : (atomTerm j).get 0 = (atomTerm k).get 0 := by rw [e]
  unfold atomTerm at this
  rw [Term.get_put_same _ _ (by decide), Term.get_put_same _ _ (by decide)] at this
  have := congrArg BitVec.toNat this
  simpa [BitVec.toNat_ofNat, Nat.mod_eq_of_lt hj, Nat.mod_eq_of_lt hk] using this

/-- Every number of concepts up to the capacity occurs; in particular a full memory does. -/
theorem memory_fills (n : Narsese) (sz : MemorySizes) (hc : 0 < sz.concepts) (hb : 0 < sz.buckets) (s0 : Sys) (k : Nat)
    (hk : k ≤ sz.concepts) (hk' : k < 65536) :
    ∃ s, MemHistory n sz s ∧ s.live.length = k ∧ ∀ c ∈ s.live, ∃ j < k, s.termOf c = atomTerm j := by
  induction k with
  | zero =>
    obtain ⟨s, e, _, hl, _⟩ := memory_init_inv n sz hc hb s0
    exact ⟨s, .init s0 s e, by rw [hl]; rfl, by rw [hl]; simp⟩
  | succ k ih =>
    obtain ⟨s, h, hl, ht⟩ := ih (by omega) (by omega)
    obtain ⟨hI, hp, hcap⟩ := h.inv hc hb
    obtain ⟨r, s', e, hC, hI'⟩ := conceptualize_spec hI (atomTerm k) 1
    have hist : MemHistory n sz s' := .step s s' h (.conceptualize (atomTerm k) 1 r s' e)
    cases hC with
    | known c hcl hct =>
      obtain ⟨j, hj, hj'⟩ := ht c hcl
      have := atomTerm_inj (by omega) (by omega) (hj'.symm.trans hct)
      omega
    | room c q hh idx h1 h2 h3 h4 h5 h6 =>
      have hlive : (q.contents.map (·.address)).Perm (c :: s.live) := by
        have := h5.map (·.address)
        rwa [List.map_cons] at this
      refine ⟨_, hist, ?_, ?_⟩
      · show (q.contents.map (·.address)).length = _
        rw [hlive.length_eq, List.length_cons, hl]
      · intro d hd
        have := hlive.mem_iff.1 hd
        rw [List.mem_cons] at this
        by_cases hdc : d = c
        · subst hdc
          exact ⟨k, by omega, by simp [Sys.termOf, upd_same, Sys.newConcept]⟩
        · obtain ⟨j, hj, hj'⟩ := ht d (by rcases this with h | h; exact absurd h hdc; exact h)
          exact ⟨j, by omega, by simpa [Sys.termOf, upd_other _ _ hdc] using hj'⟩
    | evict => omega
    | refused => omega

/-- The hypotheses of C38 are met with the sizes of the program: a full memory and a term without concept. -/
example (n : Narsese) (s0 : Sys) : ∃ s t, MemHistory n MemorySizes.program s ∧
    s.live.length = MemorySizes.program.concepts ∧ ∀ c ∈ s.live, s.termOf c ≠ t := by
  obtain ⟨s, h, hl, ht⟩ := memory_fills n MemorySizes.program (by decide) (by decide) s0 MemorySizes.program.concepts
    (Nat.le_refl _) (by decide)
  refine ⟨s, atomTerm MemorySizes.program.concepts, h, hl, ?_⟩
  intro c hc e
  obtain ⟨j, hj, hj'⟩ := ht c hc
  have h1 : MemorySizes.program.concepts < 65536 := by decide
  have := atomTerm_inj (by omega) h1 (hj'.symm.trans e)
  omega

/-- The two sides of C39 both occur: in a full memory, asking for a new term forgets a concept, and asking for a known
one forgets none. -/
example (n : Narsese) (s0 : Sys) : ∃ s s' c, MemHistory n MemorySizes.program s ∧ c ∈ s.live ∧ MemStep n s s' ∧
    Forgets c (s, s') := by
  obtain ⟨s, h, hl, ht⟩ := memory_fills n MemorySizes.program (by decide) (by decide) s0 MemorySizes.program.concepts
    (Nat.le_refl _) (by decide)
  have h1 : MemorySizes.program.concepts < 65536 := by decide
  obtain ⟨x, hx, _, s', e, _, hf, _⟩ := C38_forget n MemorySizes.program (by decide) (by decide) s h
    (atomTerm MemorySizes.program.concepts) 1 hl (by
      intro c hc e
      obtain ⟨j, hj, hj'⟩ := ht c hc
      have := atomTerm_inj (by omega) h1 (hj'.symm.trans e)
      omega)
  refine ⟨s, s', x.address, h, List.mem_map.2 ⟨x, hx, rfl⟩, .conceptualize _ _ _ _ e, ?_⟩
  intro h2
  have h3 : Memory_FindConceptByTerm (s.termOf x.address) s' = .ok (some x.address, s') := h2
  rw [hf] at h3
  cases h3

end ONA

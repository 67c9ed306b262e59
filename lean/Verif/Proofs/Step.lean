import Verif.Proofs.System
import Verif.Proofs.Buffers
/-
The elementary changes of state keep the invariant.
-/
namespace ONA
variable [Arith] {n : Narsese}

theorem conceptualized_concepts {s s' : Sys} {t : Term} {now : Int} {r : Option Nat} (h : Conceptualized s t now r s') :
    ∃ st q ht idx k, s' = { s with
        concept_storage := st, concepts := q, HTconcepts := ht, index := idx, concept_id := k } ∧
      ∀ c, st c = s.concept_storage c ∨ st c = s.newConcept t now := by
  have up : ∀ i c, upd s.concept_storage i (s.newConcept t now) c = s.concept_storage c ∨
      upd s.concept_storage i (s.newConcept t now) c = s.newConcept t now := by
    intro i c
    by_cases hci : c = i
    · subst hci; right; rw [upd_same]
    · left; rw [upd_other _ _ hci]
  cases h with
  | known => exact ⟨s.concept_storage, s.concepts, s.HTconcepts, s.index, s.concept_id, rfl, fun c => Or.inl rfl⟩
  | room c q ht idx => exact ⟨_, q, ht, idx, _, rfl, up c⟩
  | evict e rest q ht idx => exact ⟨_, q, ht, idx, _, rfl, up e.address⟩
  | refused => exact ⟨s.concept_storage, s.concepts, s.HTconcepts, s.index, s.concept_id, rfl, fun c => Or.inl rfl⟩

omit [Arith] in
theorem LinkFits.congr {q q' : PriorityQueue ℚ Nat} {st st' : Nat → Concept} {t : Term} {imp : Implication}
    (hq : ∀ c ∈ q.contents.map (·.address), c ∈ q'.contents.map (·.address))
    (hs : ∀ c ∈ q.contents.map (·.address), (st' c).id = (st c).id ∧ (st' c).term = (st c).term)
    (h : LinkFits q st t imp) : LinkFits q' st' t imp := by
  obtain ⟨h1, src, h2, h3, h4⟩ := h
  exact ⟨h1, src, hq src h2, h3, by rw [(hs src h2).1]; exact h4⟩

omit [Arith] in
theorem AtHome.congr {q q' : PriorityQueue ℚ Nat} {st st' : Nat → Concept} {c : Concept}
    (hq : ∀ c ∈ q.contents.map (·.address), c ∈ q'.contents.map (·.address))
    (hs : ∀ c ∈ q.contents.map (·.address), (st' c).id = (st c).id ∧ (st' c).term = (st c).term)
    (h : AtHome q st c) : AtHome q' st' c :=
  ⟨h.belief, fun o i hi => (h.precondition_beliefs o i hi).congr hq hs, fun i hi => (h.implication_links i hi).congr hq hs⟩

theorem revisionAndChoice_term {a b r : Event} {x : Bool} (h : Inference_RevisionAndChoice n a b = .ok (r, x)) :
    r.term = b.term ∨ a.type ≠ .deleted ∧ r.term = a.term := by
  unfold Inference_RevisionAndChoice at h
  by_cases hd : a.type = .deleted
  · rw [if_pos hd] at h; cases h; exact .inl rfl
  · rw [if_neg hd] at h
    dsimp only at h
    generalize (if a.occurrenceTime > b.occurrenceTime then a.occurrenceTime else b.occurrenceTime) = later at h
    split at h
    · split at h
      · cases h; exact .inl rfl
      · cases h; exact .inr ⟨hd, rfl⟩
    · rw [R.bind_eq_ok] at h
      obtain ⟨v, e1, e2⟩ := h
      split at e2
      · cases e2
        unfold Inference_EventRevision at e1
        rw [R.bind_eq_ok] at e1
        obtain ⟨t, _, e3⟩ := e1
        cases e3
        exact .inr ⟨hd, rfl⟩
      · cases e2

/-- A change of a concept in a memory which is not full. -/
theorem ConceptChange.home {s : Sys} {i : Nat} {c : Concept} (hg : (s.concept_storage i).Good n) (hnf : ¬ s.full)
    (h : AtHome s.concepts s.concept_storage (s.concept_storage i)) (st : ConceptChange n s i c) :
    AtHome s.concepts s.concept_storage c := by
  have tables : ∀ {t t' : Table}, t.Good n → (∀ e ∈ t.entries, LinkFits s.concepts s.concept_storage (s.concept_storage i).term e) →
      TableSteps n (fun imp => s.implicationValid imp = .ok false)
        (fun imp => s.full ∨ LinkFits s.concepts s.concept_storage (s.concept_storage i).term imp) t t' →
      ∀ e ∈ t'.entries, LinkFits s.concepts s.concept_storage (s.concept_storage i).term e := by
    intro t t' ht hl hst
    exact hst.links ht (P := fun t src id => Term_ExtractSubterm t 2 = (s.concept_storage i).term ∧
      ∃ a ∈ s.concepts.contents.map (fun x : Item ℚ Nat => x.address), src = some a ∧ id = (s.concept_storage a).id) hl (fun e he => he.resolve_left hnf)
  cases st with
  | attention => exact ⟨h.belief, h.precondition_beliefs, h.implication_links⟩
  | belief_spike => exact ⟨h.belief, h.precondition_beliefs, h.implication_links⟩
  | predicted_belief => exact ⟨h.belief, h.precondition_beliefs, h.implication_links⟩
  | goal_spike => exact ⟨h.belief, h.precondition_beliefs, h.implication_links⟩
  | belief e e' r t he het heo hown hr =>
    refine ⟨fun _ => ?_, h.precondition_beliefs, h.implication_links⟩
    show e'.term = _
    rcases revisionAndChoice_term hr with h1 | ⟨h1, h2⟩
    · rw [h1]; exact hown.resolve_left hnf
    · rw [h2]; exact h.belief h1
  | precondition_beliefs opi t ht =>
    refine ⟨h.belief, fun o => ?_, h.implication_links⟩
    show ∀ e ∈ (upd (s.concept_storage i).precondition_beliefs opi t o).entries, _
    by_cases ho : o = opi
    · subst ho
      rw [upd_same]
      exact tables (hg.precondition_beliefs o) (h.precondition_beliefs o) ht
    · rw [upd_other _ _ ho]
      exact h.precondition_beliefs o
  | implication_links t ht =>
    exact ⟨h.belief, h.precondition_beliefs, tables hg.implication_links h.implication_links ht⟩

/-- A change of one concept. -/
theorem Good.concept {s : Sys} (h : Good n s) {i : Nat} {c : Concept} (st : ConceptChange n s i c) :
    Good n { s with concept_storage := upd s.concept_storage i c } := by
  have hs := ConceptStep.same st
  have hsame : ∀ d, (upd s.concept_storage i c d).id = (s.concept_storage d).id ∧
      (upd s.concept_storage i c d).term = (s.concept_storage d).term := by
    intro d
    by_cases hd : d = i
    · subst hd; rw [upd_same]; exact hs
    · rw [upd_other _ _ hd]; exact ⟨rfl, rfl⟩
  have hm : ∀ d, (upd s.concept_storage i c d).processID ≤ s.conceptProcessID ∧
      (upd s.concept_storage i c d).processID2 ≤ s.conceptProcessID2 ∧
      (upd s.concept_storage i c d).processID3 ≤ s.conceptProcessID3 := by
    intro d
    by_cases hd : d = i
    · subst hd
      rw [upd_same]
      obtain ⟨h1, h2, h3⟩ := ConceptStep.marked st
      refine ⟨?_, ?_, ?_⟩
      · rcases h1 with e | e
        · rw [e]; exact h.marks.2 d
        · exact le_of_eq e
      · rcases h2 with e | e
        · rw [e]; exact h.marks2.2 d
        · exact le_of_eq e
      · rcases h3 with e | e
        · rw [e]; exact h.marks3.2 d
        · exact le_of_eq e
    · rw [upd_other _ _ hd]; exact ⟨h.marks.2 d, h.marks2.2 d, h.marks3.2 d⟩
  refine { h with mem := ?_, prios := h.prios, concepts := ?_, home := ?_, marks := ⟨h.marks.1, fun d => (hm d).1⟩
                  marks2 := ⟨h.marks2.1, fun d => (hm d).2.1⟩, marks3 := ⟨h.marks3.1, fun d => (hm d).2.2⟩ }
  · exact h.mem.congr rfl rfl rfl rfl (fun d _ => (hsame d).2) (fun d _ => (hsame d).1)
  · intro d
    show (upd s.concept_storage i c d).Good n
    by_cases hd : d = i
    · subst hd; rw [upd_same]; exact ConceptStep.good (h.concepts d) st
    · rw [upd_other _ _ hd]; exact h.concepts d
  · intro hnf d hd
    refine AtHome.congr (q := s.concepts) (st := s.concept_storage) (fun _ h => h) (fun d _ => hsame d) ?_
    show AtHome _ _ (upd s.concept_storage i c d)
    by_cases hdi : d = i
    · subst hdi
      rw [upd_same]
      exact ConceptChange.home (h.concepts d) (not_le.2 hnf) (h.home hnf d hd) st
    · rw [upd_other _ _ hdi]
      exact h.home hnf d hd

omit [Arith] in
theorem newConcept_home {s : Sys} {t : Term} {now : Int} {q : PriorityQueue ℚ Nat} {st : Nat → Concept} :
    AtHome q st (s.newConcept t now) :=
  ⟨fun h => absurd rfl h, (by intro o e he; cases he), (by intro e he; cases he)⟩

omit [Arith] in
theorem Conceptualized.home {s s' : Sys} {t : Term} {now : Int} {r : Option Nat} (hc : Conceptualized s t now r s')
    (h : s.concepts.contents.length < s.concepts.maxElements → ∀ c ∈ s.concepts.contents.map (·.address),
      AtHome s.concepts s.concept_storage (s.concept_storage c)) :
    s'.concepts.contents.length < s'.concepts.maxElements → ∀ c ∈ s'.concepts.contents.map (·.address),
      AtHome s'.concepts s'.concept_storage (s'.concept_storage c) := by
  cases hc with
  | known => exact h
  | refused => exact h
  | evict e rest q ht idx h1 h2 h3 h4 h5 h6 =>
    intro hlt
    exfalso
    dsimp only at hlt
    have hl : s.live.length = s.concepts.contents.length := by unfold Sys.live; rw [List.length_map]
    rw [h5.length_eq, h6, List.length_cons] at hlt
    rw [hl, h4.length_eq, List.length_cons] at h2
    omega
  | room c q ht idx h1 h2 h3 h4 h5 h6 =>
    intro hlt d hd
    dsimp only at hlt hd ⊢
    have hlt' : s.concepts.contents.length < s.concepts.maxElements := by
      have : s.live.length = s.concepts.contents.length := by unfold Sys.live; rw [List.length_map]
      rw [← this]; exact h2
    by_cases hdc : d = c
    · subst hdc
      rw [upd_same]
      exact newConcept_home
    · rw [upd_other _ _ hdc]
      have hd' : d ∈ s.concepts.contents.map (·.address) := by
        have := ((h5.map (·.address)).mem_iff).1 hd
        rw [List.map_cons] at this
        exact (List.mem_cons.1 this).resolve_left hdc
      refine AtHome.congr (q := s.concepts) (st := s.concept_storage) ?_ ?_ (h hlt' d hd')
      · intro x hx
        refine ((h5.map (·.address)).mem_iff).2 ?_
        rw [List.map_cons]
        exact List.mem_cons_of_mem _ hx
      · intro x hx
        have : x ≠ c := fun e => h3 (e ▸ hx)
        rw [upd_other _ _ this]
        exact ⟨rfl, rfl⟩

omit [Arith] in
/-- Concepts stay in memory unless it is full. -/
theorem Conceptualized.alive {s s' : Sys} {t : Term} {now : Int} {r : Option Nat} (hc : Conceptualized s t now r s') {l : List Nat}
    (h : s.full ∨ ∀ c ∈ l, c ∈ s.concepts.contents.map (·.address)) :
    s'.full ∨ ∀ c ∈ l, c ∈ s'.concepts.contents.map (·.address) := by
  cases hc with
  | known => exact h
  | refused => exact h
  | evict e rest q ht idx h1 h2 h3 h4 h5 h6 =>
    left
    unfold Sys.full
    dsimp only
    have hl : s.live.length = s.concepts.contents.length := by unfold Sys.live; rw [List.length_map]
    rw [h5.length_eq, h6, List.length_cons]
    rw [hl, h4.length_eq, List.length_cons] at h2
    exact le_of_eq h2.symm
  | room c q ht idx h1 h2 h3 h4 h5 h6 =>
    right
    intro d hd
    refine ((h5.map (·.address)).mem_iff).2 ?_
    rw [List.map_cons]
    refine List.mem_cons_of_mem _ ((h.resolve_left ?_) d hd)
    unfold Sys.full
    have : s.live.length = s.concepts.contents.length := by unfold Sys.live; rw [List.length_map]
    rw [← this]
    exact not_le.2 h2

theorem Good.conceptualize {s s' : Sys} (h : Good n s) {t : Term} (hk : n.Knows t) {now : Int} {r : Option Nat}
    (e : Memory_Conceptualize n t now s = .ok (r, s')) : Good n s' := by
  obtain ⟨h1, h2⟩ := conceptualize_cases h.mem e
  have h3 := conceptualized_prios h1 h.prios
  have h4 := h1.home h.home
  have h5 : ∃ added : List Nat, s'.occurrenceTimeIndex = OccurrenceTimeIndex.afterAdds added ∧
      (s'.full ∨ ∀ c ∈ added, c ∈ s'.concepts.contents.map (·.address)) := by
    obtain ⟨l, e1, e2⟩ := h.history
    obtain ⟨st, q, ht, idx, k, e3, -⟩ := conceptualized_concepts h1
    refine ⟨l, by rw [e3]; exact e1, h1.alive e2⟩
  obtain ⟨st, q, ht, idx, k, rfl, hc⟩ := conceptualized_concepts h1
  refine { h with mem := h2, prios := h3, concepts := ?_, home := h4, history := h5, marks := ⟨h.marks.1, ?_⟩
                  marks2 := ⟨h.marks2.1, ?_⟩, marks3 := ⟨h.marks3.1, ?_⟩ }
  · intro c
    show (st c).Good n
    rcases hc c with e | e <;> rw [e]
    · exact h.concepts c
    · exact Concept.new_good s hk now
  · intro c
    show (st c).processID ≤ s.conceptProcessID
    rcases hc c with e | e <;> rw [e]
    · exact h.marks.2 c
    · exact h.marks.1
  · intro c
    show (st c).processID2 ≤ s.conceptProcessID2
    rcases hc c with e | e <;> rw [e]
    · exact h.marks2.2 c
    · exact h.marks2.1
  · intro c
    show (st c).processID3 ≤ s.conceptProcessID3
    rcases hc c with e | e <;> rw [e]
    · exact h.marks3.2 c
    · exact h.marks3.1

theorem SameEvent.symm {a b : Event} (h : SameEvent a b) : SameEvent b a :=
  ⟨h.term.symm, h.truth.symm, h.occurrenceTime.symm, h.evidence.symm⟩

theorem Good.pushBelief {s s' : Sys} (h : Good n s) {e : Event} {p : ℚ} {b : Bool} (he : e.Good n) (ht : e.type = .belief)
    (hc : MIN_CONFIDENCE ≤ e.truth.confidence) (hp : 0 < p) (hp1 : p ≤ 1)
    (hn : Memory_containsEvent s.cycling_belief_events s.cycling_belief_event_storage e = false)
    (hpush : pushBeliefEvent e p s = .ok (b, s')) : Good n s' := by
  have hno := not_contains (fun i => (h.beliefs.good i).stamp) hn
  unfold pushBeliefEvent at hpush
  simp only [M.bind_ok] at hpush
  obtain ⟨s1, s2, e1, hpush⟩ := hpush
  obtain ⟨rfl, rfl⟩ := M.get_ok.1 e1
  obtain ⟨⟨fb, q⟩, s3, e2, hpush⟩ := hpush
  obtain ⟨f2, rfl⟩ := M.lift_ok.1 e2
  have hb := buffer_push h.beliefs he ht hc (fun h => by rw [ht] at h; cases h) hp hp1 f2
  dsimp only at hpush
  cases hfb : fb.addedItem with
  | none =>
    rw [hfb] at hpush hb
    simp only [M.bind_ok] at hpush
    obtain ⟨_, s4, e3, e4⟩ := hpush
    have f3 := M.set_ok.1 e3
    obtain ⟨_, f4⟩ := M.pure_ok.1 e4
    subst f3 f4
    refine { h with mem := h.mem.congr rfl rfl rfl rfl (fun _ _ => rfl) (fun _ _ => rfl), prios := h.prios, beliefs := hb.1, beliefsOnce := ?_ }
    intro x hx y hy hxy
    exact h.beliefsOnce x (hb.2.mem_iff.1 hx) y (hb.2.mem_iff.1 hy) hxy
  | some item =>
    rw [hfb] at hpush hb
    simp only [M.bind_ok] at hpush
    obtain ⟨_, s4, e3, e4⟩ := hpush
    have f3 := M.set_ok.1 e3
    obtain ⟨_, f4⟩ := M.pure_ok.1 e4
    subst f3 f4
    refine { h with mem := h.mem.congr rfl rfl rfl rfl (fun _ _ => rfl) (fun _ _ => rfl), prios := h.prios, beliefs := hb.1, beliefsOnce := ?_ }
    intro x hx y hy hxy
    show ¬ SameEvent (upd _ _ _ _) (upd _ _ _ _)
    rcases hb.2 x hx with rfl | ⟨hx1, hx2⟩ <;> rcases hb.2 y hy with rfl | ⟨hy1, hy2⟩
    · exact absurd rfl hxy
    · rw [upd_same, upd_other _ _ hy2]
      exact hno y hy1
    · rw [upd_same, upd_other _ _ hx2]
      exact fun hs => hno x hx1 hs.symm
    · rw [upd_other _ _ hx2, upd_other _ _ hy2]
      exact h.beliefsOnce x hx1 y hy1 hxy

theorem upd_upd_self {β : Type} (f : Nat → β) (i : Nat) : upd f i (f i) = f := by
  funext j
  by_cases h : j = i
  · subst h; rw [upd_same]
  · rw [upd_other _ _ h]

/-- A change of the goal buffer of a layer. -/
theorem Good.goalLayer {s : Sys} (h : Good n s) {layer : Nat} (hl : layer < CYCLING_GOAL_EVENTS_LAYERS)
    {q : PriorityQueue ℚ Nat} {st : Nat → Event} (hb : BufferOk n .goal q st)
    (hnew : ∀ x ∈ q.contents, (x ∈ (s.cycling_goal_events layer).contents ∧ st x.address = s.cycling_goal_event_storage layer x.address) ∨
      ((∀ l < CYCLING_GOAL_EVENTS_LAYERS, ∀ y ∈ (s.cycling_goal_events l).contents,
          ¬ SameEvent (st x.address) (s.cycling_goal_event_storage l y.address)) ∧
        ∀ y ∈ q.contents, y.address ≠ x.address → y ∈ (s.cycling_goal_events layer).contents ∧
          st y.address = s.cycling_goal_event_storage layer y.address)) :
    Good n { s with
      cycling_goal_events := upd s.cycling_goal_events layer q
      cycling_goal_event_storage := upd s.cycling_goal_event_storage layer st } := by
  refine { h with mem := h.mem.congr rfl rfl rfl rfl (fun _ _ => rfl) (fun _ _ => rfl), prios := h.prios, goals := ?_,
                  layers := ?_, goalsOnce := ?_ }
  · intro l
    show BufferOk n .goal (upd _ _ _ l) (upd _ _ _ l)
    by_cases e : l = layer
    · subst e; rw [upd_same, upd_same]; exact hb
    · rw [upd_other _ _ e, upd_other _ _ e]; exact h.goals l
  · intro l hl'
    show (upd _ _ _ l : PriorityQueue ℚ Nat).itemsAmount = 0
    rw [upd_other _ _ (by omega)]
    exact h.layers l hl'
  · have empty : ∀ l, ∀ y ∈ (s.cycling_goal_events l).contents, l < CYCLING_GOAL_EVENTS_LAYERS := by
      intro l y hy
      by_contra hc
      obtain ⟨i, hi, _⟩ := PriorityQueue.mem_contents.1 hy
      rw [h.layers l (by omega)] at hi
      omega
    intro l k x hx y hy hxy
    show ¬ SameEvent (upd s.cycling_goal_event_storage layer st l x.address) (upd s.cycling_goal_event_storage layer st k y.address)
    change x ∈ (upd s.cycling_goal_events layer q l).contents at hx
    change y ∈ (upd s.cycling_goal_events layer q k).contents at hy
    by_cases el : l = layer <;> by_cases ek : k = layer
    · subst el; subst ek
      rw [upd_same] at hx hy
      rw [upd_same]
      have hne : x.address ≠ y.address := fun e => hxy (by rw [e])
      rcases hnew x hx with ⟨x1, x2⟩ | ⟨x1, x2⟩
      · rcases hnew y hy with ⟨y1, y2⟩ | ⟨y1, y2⟩
        · rw [x2, y2]; exact h.goalsOnce _ _ x x1 y y1 hxy
        · rw [x2]; exact fun hs => y1 _ hl x x1 hs.symm
      · obtain ⟨y1, y2⟩ := x2 y hy (Ne.symm hne)
        rw [y2]; exact x1 _ hl y y1
    · subst el
      rw [upd_same] at hx
      rw [upd_other _ _ ek] at hy
      rw [upd_same, upd_other _ _ ek]
      rcases hnew x hx with ⟨x1, x2⟩ | ⟨x1, x2⟩
      · rw [x2]; exact h.goalsOnce _ _ x x1 y hy hxy
      · exact x1 k (empty k y hy) y hy
    · subst ek
      rw [upd_same] at hy
      rw [upd_other _ _ el] at hx
      rw [upd_same, upd_other _ _ el]
      rcases hnew y hy with ⟨y1, y2⟩ | ⟨y1, y2⟩
      · rw [y2]; exact h.goalsOnce _ _ x hx y y1 hxy
      · exact fun hs => y1 l (empty l x hx) x hx hs.symm
    · rw [upd_other _ _ el] at hx
      rw [upd_other _ _ ek] at hy
      rw [upd_other _ _ el, upd_other _ _ ek]
      exact h.goalsOnce l k x hx y hy hxy

theorem Good.pushGoal {s s' : Sys} (h : Good n s) {e : Event} {p : ℚ} {layer : Nat} {b : Bool} (he : e.Good n) (ht : e.type = .goal)
    (hti : e.occurrenceTime ≠ OCCURRENCE_ETERNAL)
    (hc : MIN_CONFIDENCE ≤ e.truth.confidence) (hp : 0 < p) (hp1 : p ≤ 1) (hl : layer < CYCLING_GOAL_EVENTS_LAYERS)
    (hn : ∀ l < CYCLING_GOAL_EVENTS_LAYERS,
      Memory_containsEvent (s.cycling_goal_events l) (s.cycling_goal_event_storage l) e = false)
    (hpush : pushGoalEvent e p layer s = .ok (b, s')) : Good n s' := by
  have hno : ∀ l < CYCLING_GOAL_EVENTS_LAYERS, ∀ y ∈ (s.cycling_goal_events l).contents,
      ¬ SameEvent e (s.cycling_goal_event_storage l y.address) :=
    fun l hl' => not_contains (fun i => ((h.goals l).good i).stamp) (hn l hl')
  unfold pushGoalEvent at hpush
  simp only [M.bind_ok] at hpush
  obtain ⟨s1, s2, e1, hpush⟩ := hpush
  obtain ⟨rfl, rfl⟩ := M.get_ok.1 e1
  obtain ⟨⟨fb, q⟩, s3, e2, hpush⟩ := hpush
  obtain ⟨f2, rfl⟩ := M.lift_ok.1 e2
  have hb := buffer_push (h.goals layer) he ht hc (fun _ => hti) hp hp1 f2
  dsimp only at hpush
  cases hfb : fb.addedItem with
  | none =>
    rw [hfb] at hpush hb
    simp only [M.bind_ok] at hpush
    obtain ⟨_, s4, e3, e4⟩ := hpush
    have f3 := M.set_ok.1 e3
    obtain ⟨_, f4⟩ := M.pure_ok.1 e4
    subst f3 f4
    have := h.goalLayer hl hb.1 (fun x hx => Or.inl ⟨hb.2.mem_iff.1 hx, rfl⟩)
    rw [upd_upd_self] at this
    exact this
  | some item =>
    rw [hfb] at hpush hb
    simp only [M.bind_ok] at hpush
    obtain ⟨_, s4, e3, e4⟩ := hpush
    have f3 := M.set_ok.1 e3
    obtain ⟨_, f4⟩ := M.pure_ok.1 e4
    subst f3 f4
    refine h.goalLayer hl hb.1 ?_
    intro x hx
    rcases hb.2 x hx with rfl | ⟨hx1, hx2⟩
    · right
      refine ⟨?_, ?_⟩
      · intro l hl' y hy
        show ¬ SameEvent (upd _ _ _ _) _
        rw [upd_same]
        exact hno l hl' y hy
      · intro y hy hne
        rcases hb.2 y hy with rfl | ⟨hy1, hy2⟩
        · exact absurd rfl hne
        · exact ⟨hy1, by rw [upd_other _ _ hy2]⟩
    · left
      exact ⟨hx1, by rw [upd_other _ _ hx2]⟩

theorem upd_selected {P : Event → ℚ → Prop} {f : Nat → Event} {g : Nat → ℚ} {k : Nat} (h : ∀ i < k, P (f i) (g i)) {e : Event}
    {p : ℚ} (hp : P e p) (j : Nat) : ∀ i < k, P (upd f j e i) (upd g j p i) := by
  intro i hk
  by_cases hi : i = j
  · subst hi; rw [upd_same, upd_same]; exact hp
  · rw [upd_other _ _ hi, upd_other _ _ hi]; exact h i hk

omit [Arith] in
theorem upd_selected_one {P : Event → ℚ → Prop} {f : Nat → Event} {g : Nat → ℚ} {e : Event} {p : ℚ} (hp : P e p) :
    ∀ i < 1, P (upd f 0 e i) (upd g 0 p i) := by
  intro i hi
  obtain rfl : i = 0 := by omega
  rw [upd_same, upd_same]; exact hp

theorem Good.popBelief {s s' : Sys} (h : Good n s) (e : popBeliefEvents s = .ok ((), s')) : Good n s' := by
  unfold popBeliefEvents at e
  simp only [M.bind_ok] at e
  obtain ⟨s1, s2, e1, e⟩ := e
  obtain ⟨rfl, rfl⟩ := M.get_ok.1 e1
  obtain ⟨⟨out, q⟩, s3, e2, e⟩ := e
  obtain ⟨f2, rfl⟩ := M.lift_ok.1 e2
  obtain ⟨hb, hsub, hout⟩ := buffer_pop h.beliefs f2
  have once : ∀ x ∈ q.contents, ∀ y ∈ q.contents, x.address ≠ y.address →
      ¬ SameEvent (s.cycling_belief_event_storage x.address) (s.cycling_belief_event_storage y.address) :=
    fun x hx y hy => h.beliefsOnce x (hsub x hx) y (hsub y hy)
  cases out with
  | none =>
    dsimp only at e
    simp only [M.bind_ok] at e
    obtain ⟨_, s4, e3, e4⟩ := e
    obtain ⟨_, f3⟩ := M.lift_ok.1 e3
    have f4 := M.set_ok.1 e4
    subst f3 f4
    exact { h with mem := h.mem.congr rfl rfl rfl rfl (fun _ _ => rfl) (fun _ _ => rfl), prios := h.prios, beliefs := hb
                   beliefsOnce := once }
  | some item =>
    dsimp only at e
    have e4 := M.set_ok.1 e
    subst e4
    have hin := hout item rfl
    exact { h with mem := h.mem.congr rfl rfl rfl rfl (fun _ _ => rfl) (fun _ _ => rfl), prios := h.prios, beliefs := hb
                   beliefsOnce := once }

theorem Good.popGoal {s s' : Sys} (h : Good n s) {layer : Nat}
    (e : popGoalEvents layer s = .ok ((), s')) : Good n s' := by
  unfold popGoalEvents at e
  simp only [M.bind_ok] at e
  obtain ⟨s1, s2, e1, e⟩ := e
  obtain ⟨rfl, rfl⟩ := M.get_ok.1 e1
  obtain ⟨⟨out, q⟩, s3, e2, e⟩ := e
  obtain ⟨f2, rfl⟩ := M.lift_ok.1 e2
  obtain ⟨hb, hsub, hout⟩ := buffer_pop (h.goals layer) f2
  have sub : ∀ l, ∀ x ∈ (upd s.cycling_goal_events layer q l).contents, x ∈ (s.cycling_goal_events l).contents := by
    intro l x hx
    by_cases e : l = layer
    · subst e; rw [upd_same] at hx; exact hsub x hx
    · rw [upd_other _ _ e] at hx; exact hx
  have goals : ∀ l, BufferOk n .goal (upd s.cycling_goal_events layer q l) (s.cycling_goal_event_storage l) := by
    intro l
    by_cases e : l = layer
    · subst e; rw [upd_same]; exact hb
    · rw [upd_other _ _ e]; exact h.goals l
  have layers : ∀ l, CYCLING_GOAL_EVENTS_LAYERS ≤ l → (upd s.cycling_goal_events layer q l).itemsAmount = 0 := by
    intro l hl'
    by_contra hne
    have hx : (upd s.cycling_goal_events layer q l).items 0 ∈ (upd s.cycling_goal_events layer q l).contents :=
      PriorityQueue.mem_contents.2 ⟨0, by omega, rfl⟩
    obtain ⟨i, hi, _⟩ := PriorityQueue.mem_contents.1 (sub l _ hx)
    rw [h.layers l hl'] at hi
    omega
  have once : ∀ l k, ∀ x ∈ (upd s.cycling_goal_events layer q l).contents, ∀ y ∈ (upd s.cycling_goal_events layer q k).contents,
    (l, x.address) ≠ (k, y.address) →
      ¬ SameEvent (s.cycling_goal_event_storage l x.address) (s.cycling_goal_event_storage k y.address) :=
    fun l k x hx y hy => h.goalsOnce l k x (sub l x hx) y (sub k y hy)
  cases out with
  | none =>
    dsimp only at e
    simp only [M.bind_ok] at e
    obtain ⟨_, s4, e3, e4⟩ := e
    obtain ⟨_, f3⟩ := M.lift_ok.1 e3
    have f4 := M.set_ok.1 e4
    subst f3 f4
    exact { h with mem := h.mem.congr rfl rfl rfl rfl (fun _ _ => rfl) (fun _ _ => rfl), prios := h.prios, goals := goals
                   layers := layers, goalsOnce := once }
  | some item =>
    dsimp only at e
    have e4 := M.set_ok.1 e
    subst e4
    have hin := hout item rfl
    exact { h with mem := h.mem.congr rfl rfl rfl rfl (fun _ _ => rfl) (fun _ _ => rfl), prios := h.prios, goals := goals
                   layers := layers, goalsOnce := once }

theorem Good.clearGoals {s : Sys} (h : Good n s) : Good n { s with
      cycling_goal_events := fun layer => PriorityQueue.init (s.cycling_goal_events layer).items
        (s.cycling_goal_events layer).maxElements
      goalsSelectedCnt := 0 } := by
  have empty : ∀ (q : PriorityQueue ℚ Nat), (PriorityQueue.init q.items q.maxElements).contents = [] := fun q => rfl
  refine { h with mem := h.mem.congr rfl rfl rfl rfl (fun _ _ => rfl) (fun _ _ => rfl), prios := h.prios, goals := ?_
                  layers := fun _ _ => rfl, goalsOnce := ?_ }
  · intro l
    refine ⟨PriorityQueue.init_inv _ _ (h.goals l).queue.nodup, (h.goals l).pos, ?_, ?_, ?_, ?_, (h.goals l).good⟩
    all_goals
      intro x hx
      cases hx
  · intro l k x hx
    cases hx

theorem decayLayers_spec {s : Sys} : ∀ (ls : List Nat) (f g : Nat → PriorityQueue ℚ Nat),
    (∀ l, BufferOk n .goal (f l) (s.cycling_goal_event_storage l)) → decayLayers ls f = .ok g →
    (∀ l, BufferOk n .goal (g l) (s.cycling_goal_event_storage l)) ∧
    (∀ l, ∀ x ∈ (g l).contents, ∃ y ∈ (f l).contents, y.address = x.address) ∧
    ∀ l, (g l).itemsAmount = (f l).itemsAmount := by
  intro ls
  induction ls with
  | nil =>
    intro f g hf e
    cases e
    exact ⟨hf, fun l x hx => ⟨x, hx, rfl⟩, fun _ => rfl⟩
  | cons layer rest ih =>
    intro f g hf e
    unfold decayLayers at e
    rw [R.bind_eq_ok] at e
    obtain ⟨q, e1, e2⟩ := e
    obtain ⟨hb, hx, hn⟩ := buffer_decay (hf layer) e1
    obtain ⟨a, b, c⟩ := ih _ g (by
      intro l
      by_cases h : l = layer
      · subst h; rw [upd_same]; exact hb
      · rw [upd_other _ _ h]; exact hf l) e2
    refine ⟨a, ?_, ?_⟩
    · intro l x hxl
      obtain ⟨y, hy, hyx⟩ := b l x hxl
      by_cases h : l = layer
      · subst h; rw [upd_same] at hy
        obtain ⟨z, hz, hzy⟩ := hx y hy
        exact ⟨z, hz, hzy.trans hyx⟩
      · rw [upd_other _ _ h] at hy; exact ⟨y, hy, hyx⟩
    · intro l
      rw [c l]
      by_cases h : l = layer
      · subst h; rw [upd_same]; exact hn
      · rw [upd_other _ _ h]

theorem decayConcepts_spec (q : PriorityQueue ℚ Nat) : ∀ (ls : List Nat) (f : Nat → Concept),
    (∀ c, (f c).Good n) → (∀ c, (decayConcepts q ls f c).Good n) ∧
      ∀ c, ∃ p, decayConcepts q ls f c = { f c with priority := p } ∧ InUnit p := by
  have hu : InUnit (rnd (9 / 10) : ℚ) := ⟨rnd_nonneg (by norm_num), rnd_le_one (by norm_num)⟩
  intro ls
  induction ls with
  | nil => intro f hf; exact ⟨hf, fun c => ⟨_, rfl, (hf c).priority⟩⟩
  | cons i rest ih =>
    intro f hf
    unfold decayConcepts
    dsimp only
    have hg : ∀ c, (upd f (q.items i).address { f (q.items i).address with
        priority := fmul (f (q.items i).address).priority (rnd (9 / 10)) } c).Good n := by
      intro c
      by_cases h : c = (q.items i).address
      · subst h; rw [upd_same]
        exact { hf _ with priority := (hf _).priority.mul hu }
      · rw [upd_other _ _ h]; exact hf c
    obtain ⟨a, b⟩ := ih _ hg
    refine ⟨a, ?_⟩
    intro c
    obtain ⟨p, e, hp⟩ := b c
    refine ⟨p, ?_, hp⟩
    rw [e]
    by_cases h : c = (q.items i).address
    · subst h; rw [upd_same]
    · rw [upd_other _ _ h]

/-- What forgetting does. -/
theorem forgetting_spec {s s' : Sys} (h : Good n s) {now : Int} (e : Cycle_RelativeForgetting now s = .ok ((), s')) :
    Good n s' ∧ ∃ bq gq st q g, (∀ x, g x ≤ 1) ∧ (s.concepts.overwrite g).rebuild = .ok q ∧
      (∀ c, ∃ p, st c = { s.concept_storage c with priority := p } ∧ InUnit p) ∧
      s' = { s with cycling_belief_events := bq, cycling_goal_events := gq, concept_storage := st, concepts := q } := by
  unfold Cycle_RelativeForgetting at e
  simp only [M.bind_ok] at e
  obtain ⟨s1, s2, e1, e⟩ := e
  obtain ⟨rfl, rfl⟩ := M.get_ok.1 e1
  obtain ⟨bq, s3, e1, e⟩ := e
  obtain ⟨f1, rfl⟩ := M.lift_ok.1 e1
  obtain ⟨gq, s3, e2, e⟩ := e
  obtain ⟨f2, rfl⟩ := M.lift_ok.1 e2
  obtain ⟨q1, s3, e3, e⟩ := e
  obtain ⟨f3, rfl⟩ := M.lift_ok.1 e3
  obtain ⟨q, s3, e4, e⟩ := e
  obtain ⟨f4, rfl⟩ := M.lift_ok.1 e4
  have f := M.set_ok.1 e
  subst f
  obtain ⟨hb, hbx, _⟩ := buffer_decay h.beliefs f1
  obtain ⟨hg, hgx, hgn⟩ := decayLayers_spec (s := s) _ _ _ h.goals f2
  obtain ⟨hc, hcx⟩ := decayConcepts_spec s.concepts (List.range s.concepts.itemsAmount) s.concept_storage h.concepts
  have hu : ∀ c, ∃ x, Usage_usefulness (s.concept_storage c).usage now = .ok x ∧ x ≤ 1 := by
    intro c
    obtain ⟨x, a, _, b, _⟩ := C45_range (s.concept_storage c).usage now (h.concepts c).useCount
    exact ⟨x, a, b⟩
  choose u hu1 hu2 using hu
  have e5 := PriorityQueue.setPriorities_overwrite _ (fun item => u item.address) s.concepts q1
    (fun x _ p hp => by rw [hu1] at hp; cases hp; rfl) f3
  subst e5
  obtain ⟨r1, r2, r3, r4⟩ := reprioritise_spec h.mem f4
  refine ⟨?_, bq, gq, _, q, _, fun x => hu2 x.address, f4, hcx, rfl⟩
  refine { h with mem := ?_, prios := ?_, concepts := hc, beliefs := hb, goals := hg, layers := ?_, beliefsOnce := ?_
                  goalsOnce := ?_, history := ?_, home := ?_, marks := ⟨h.marks.1, fun c => by
                    obtain ⟨p, e, _⟩ := hcx c
                    show (decayConcepts _ _ _ c).processID ≤ s.conceptProcessID
                    rw [e]
                    exact h.marks.2 c⟩
                  marks2 := ⟨h.marks2.1, fun c => by
                    obtain ⟨p, e, _⟩ := hcx c
                    show (decayConcepts _ _ _ c).processID2 ≤ s.conceptProcessID2
                    rw [e]
                    exact h.marks2.2 c⟩
                  marks3 := ⟨h.marks3.1, fun c => by
                    obtain ⟨p, e, _⟩ := hcx c
                    show (decayConcepts _ _ _ c).processID3 ≤ s.conceptProcessID3
                    rw [e]
                    exact h.marks3.2 c⟩ }
  · refine r1.congr rfl rfl rfl rfl ?_ ?_
    · intro c _
      obtain ⟨p, e, _⟩ := hcx c
      show (decayConcepts _ _ _ c).term = (s.concept_storage c).term
      rw [e]
    · intro c _
      obtain ⟨p, e, _⟩ := hcx c
      show (decayConcepts _ _ _ c).id = (s.concept_storage c).id
      rw [e]
  · intro x hx
    obtain ⟨y, _, rfl⟩ := List.mem_map.1 (r2.mem_iff.1 hx)
    exact hu2 _
  · intro l hl
    show (gq l).itemsAmount = 0
    rw [hgn l]
    exact h.layers l hl
  · intro x hx y hy hxy
    obtain ⟨x', hx1, hx2⟩ := hbx x hx
    obtain ⟨y', hy1, hy2⟩ := hbx y hy
    have := h.beliefsOnce x' hx1 y' hy1 (by rw [hx2, hy2]; exact hxy)
    rw [hx2, hy2] at this
    exact this
  · intro l k x hx y hy hxy
    obtain ⟨x', hx1, hx2⟩ := hgx l x hx
    obtain ⟨y', hy1, hy2⟩ := hgx k y hy
    have := h.goalsOnce l k x' hx1 y' hy1 (by rw [hx2, hy2]; exact hxy)
    rw [hx2, hy2] at this
    exact this
  · obtain ⟨l, e1, e2⟩ := h.history
    refine ⟨l, e1, e2.imp (fun hf => ?_) fun hl c hc => r4.mem_iff.2 (hl c hc)⟩
    have r3' : q.maxElements = s.concepts.maxElements := r3
    unfold Sys.full at hf ⊢
    dsimp only
    rw [r2.length_eq, List.length_map, r3']
    exact hf
  · intro hlt d hd
    have r3' : q.maxElements = s.concepts.maxElements := r3
    have hlt' : s.concepts.contents.length < s.concepts.maxElements := by
      dsimp only at hlt
      rw [r2.length_eq, List.length_map, r3'] at hlt
      exact hlt
    have hh := h.home hlt' d (r4.mem_iff.1 hd)
    refine AtHome.congr (q := s.concepts) (st := s.concept_storage) (fun c hc => r4.mem_iff.2 hc) ?_ ?_
    · intro c _
      obtain ⟨p, e, _⟩ := hcx c
      show (decayConcepts _ _ _ c).id = _ ∧ (decayConcepts _ _ _ c).term = _
      rw [e]
      exact ⟨rfl, rfl⟩
    · obtain ⟨p, e, _⟩ := hcx d
      show AtHome _ _ (decayConcepts _ _ _ d)
      rw [e]
      exact ⟨hh.belief, hh.precondition_beliefs, hh.implication_links⟩

/-- A change of variables the invariant does not mention. -/
theorem Good.congr {s s' : Sys} (h : Good n s)
    (e : s' = { s' with
      concepts := s.concepts, concept_storage := s.concept_storage, HTconcepts := s.HTconcepts, index := s.index
      cycling_belief_events := s.cycling_belief_events, cycling_belief_event_storage := s.cycling_belief_event_storage
      cycling_goal_events := s.cycling_goal_events, cycling_goal_event_storage := s.cycling_goal_event_storage
      concept_id := s.concept_id, ANTICIPATION_CONFIDENCE := s.ANTICIPATION_CONFIDENCE
      operations := s.operations, event := s.event, QUESTION_PRIMING := s.QUESTION_PRIMING
      occurrenceTimeIndex := s.occurrenceTimeIndex })
    (hin : ∀ t, some t ∈ s'.stdin → n.Knows t := by exact h.stdin)
    (hid : s.conceptProcessID ≤ s'.conceptProcessID := by exact Int.le_refl _)
    (hid2 : s.conceptProcessID2 ≤ s'.conceptProcessID2 := by exact Int.le_refl _)
    (hid3 : s.conceptProcessID3 ≤ s'.conceptProcessID3 := by exact Int.le_refl _) :
    Good n s' := by
  rw [e]
  rw [e] at hin hid hid2 hid3
  exact
    { mem := h.mem.congr rfl rfl rfl rfl (fun _ _ => rfl) (fun _ _ => rfl)
      prios := h.prios
      concepts := h.concepts
      beliefs := h.beliefs
      goals := h.goals
      layers := h.layers
      beliefsOnce := h.beliefsOnce
      goalsOnce := h.goalsOnce
      anticipation := h.anticipation
      base := h.base
      operations := h.operations
      stdin := hin
      importstamp := h.importstamp
      priming := h.priming
      history := h.history
      marks := ⟨le_trans h.marks.1 hid, fun c => le_trans (h.marks.2 c) hid⟩
      marks2 := ⟨le_trans h.marks2.1 hid2, fun c => le_trans (h.marks2.2 c) hid2⟩
      marks3 := ⟨le_trans h.marks3.1 hid3, fun c => le_trans (h.marks3.2 c) hid3⟩
      home := h.home }

theorem Step.good {s s' : Sys} (h : Good n s) (st : Step n s s') : Good n s' := by
  cases st with
  | conceptualize t now r s' hk e => exact h.conceptualize hk e
  | concept i c st => exact h.concept st
  | pushBelief e p b s' he ht hc hp hp1 hn hpush => exact h.pushBelief he ht hc hp hp1 hn hpush
  | pushGoal e p layer b s' he ht hti hc hp hp1 hl hn hpush => exact h.pushGoal he ht hti hc hp hp1 hl hn hpush
  | popBelief s' e => exact h.popBelief e
  | popGoal layer s' e => exact h.popGoal e
  | clearGoals => exact h.clearGoals
  | forget now s' e => exact (forgetting_spec h e).1
  | remember c hc =>
    obtain ⟨l, e, hl⟩ := h.history
    have hg : Good n s := h
    refine { hg with mem := h.mem.congr rfl rfl rfl rfl (fun _ _ => rfl) (fun _ _ => rfl)
                     history := ⟨c :: l, by rw [OccurrenceTimeIndex.afterAdds, ← e], ?_⟩ }
    by_cases hf : s.full
    · exact .inl hf
    · refine .inr fun d hd => ?_
      rcases List.mem_cons.1 hd with rfl | hd
      · exact hc.resolve_left hf
      · exact hl.resolve_left hf d hd
  | internal _ _ _ _ _ _ _ _ hin hid hid2 hid3 => exact h.congr rfl hin hid hid2 hid3
  | decision => exact h.congr rfl

end ONA

import Verif.Proofs.Step
/-
What the elementary changes leave in place as long as the memory is not full.
-/
namespace ONA
variable [Arith] {n : Narsese}

omit [Arith] in
theorem pushBelief_shape {e : Event} {p : ℚ} {b : Bool} {s s' : Sys} (h : pushBeliefEvent e p s = .ok (b, s')) :
    ∃ q st, s' = { s with cycling_belief_events := q, cycling_belief_event_storage := st } := by
  unfold pushBeliefEvent at h
  simp only [M.bind_ok] at h
  obtain ⟨s1, s2, e1, h⟩ := h
  obtain ⟨rfl, rfl⟩ := M.get_ok.1 e1
  obtain ⟨⟨fb, q⟩, s3, e2, h⟩ := h
  obtain ⟨_, rfl⟩ := M.lift_ok.1 e2
  dsimp only at h
  cases hfb : fb.addedItem
  all_goals
    rw [hfb] at h
    dsimp only at h
    rw [M.bind_ok] at h
    obtain ⟨_, s4, e3, e4⟩ := h
    have f3 := M.set_ok.1 e3
    obtain ⟨_, f4⟩ := M.pure_ok.1 e4
    subst f3 f4
  · exact ⟨q, s.cycling_belief_event_storage, rfl⟩
  · exact ⟨q, _, rfl⟩

omit [Arith] in
theorem pushGoal_shape {e : Event} {p : ℚ} {layer : Nat} {b : Bool} {s s' : Sys} (h : pushGoalEvent e p layer s = .ok (b, s')) :
    ∃ q st, s' = { s with cycling_goal_events := q, cycling_goal_event_storage := st } := by
  unfold pushGoalEvent at h
  simp only [M.bind_ok] at h
  obtain ⟨s1, s2, e1, h⟩ := h
  obtain ⟨rfl, rfl⟩ := M.get_ok.1 e1
  obtain ⟨⟨fb, q⟩, s3, e2, h⟩ := h
  obtain ⟨_, rfl⟩ := M.lift_ok.1 e2
  dsimp only at h
  cases hfb : fb.addedItem
  all_goals
    rw [hfb] at h
    dsimp only at h
    rw [M.bind_ok] at h
    obtain ⟨_, s4, e3, e4⟩ := h
    have f3 := M.set_ok.1 e3
    obtain ⟨_, f4⟩ := M.pure_ok.1 e4
    subst f3 f4
  · exact ⟨_, s.cycling_goal_event_storage, rfl⟩
  · exact ⟨_, _, rfl⟩

omit [Arith] in
theorem popBelief_shape {s s' : Sys} (h : popBeliefEvents s = .ok ((), s')) :
    ∃ q p e k, s' = { s with
      cycling_belief_events := q, selectedBeliefsPriority := p, selectedBeliefs := e, beliefsSelectedCnt := k } := by
  unfold popBeliefEvents at h
  simp only [M.bind_ok] at h
  obtain ⟨s1, s2, e1, h⟩ := h
  obtain ⟨rfl, rfl⟩ := M.get_ok.1 e1
  obtain ⟨⟨out, q⟩, s3, e2, h⟩ := h
  obtain ⟨_, rfl⟩ := M.lift_ok.1 e2
  cases out with
  | none =>
    dsimp only at h
    rw [M.bind_ok] at h
    obtain ⟨_, s4, e3, e4⟩ := h
    obtain ⟨_, f3⟩ := M.lift_ok.1 e3
    have f4 := M.set_ok.1 e4
    subst f3 f4
    exact ⟨q, s.selectedBeliefsPriority, s.selectedBeliefs, 0, rfl⟩
  | some item =>
    have f := M.set_ok.1 h
    subst f
    exact ⟨q, _, _, 1, rfl⟩

omit [Arith] in
theorem popGoal_shape {layer : Nat} {s s' : Sys} (h : popGoalEvents layer s = .ok ((), s')) :
    ∃ q p e k, s' = { s with
      cycling_goal_events := q, selectedGoalsPriority := p, selectedGoals := e, goalsSelectedCnt := k } := by
  unfold popGoalEvents at h
  simp only [M.bind_ok] at h
  obtain ⟨s1, s2, e1, h⟩ := h
  obtain ⟨rfl, rfl⟩ := M.get_ok.1 e1
  obtain ⟨⟨out, q⟩, s3, e2, h⟩ := h
  obtain ⟨_, rfl⟩ := M.lift_ok.1 e2
  cases out with
  | none =>
    dsimp only at h
    rw [M.bind_ok] at h
    obtain ⟨_, s4, e3, e4⟩ := h
    obtain ⟨_, f3⟩ := M.lift_ok.1 e3
    have f4 := M.set_ok.1 e4
    subst f3 f4
    exact ⟨_, s.selectedGoalsPriority, s.selectedGoals, 0, rfl⟩
  | some item =>
    have f := M.set_ok.1 h
    subst f
    exact ⟨_, _, _, 1, rfl⟩

/-- What a concept has learned is not lost. -/
structure Grows (c c' : Concept) : Prop where
  id : c'.id = c.id
  term : c'.term = c.term
  belief : c.belief.type ≠ .deleted → c'.belief.type ≠ .deleted
  precondition_beliefs : ∀ opi x, (c.precondition_beliefs opi).Holds x → (c'.precondition_beliefs opi).Holds x
  implication_links : ∀ x, c.implication_links.Holds x → c'.implication_links.Holds x

omit [Arith] in
theorem Grows.refl (c : Concept) : Grows c c := ⟨rfl, rfl, fun h => h, fun _ _ h => h, fun _ h => h⟩

omit [Arith] in
theorem Grows.trans {a b c : Concept} (h : Grows a b) (h' : Grows b c) : Grows a c :=
  ⟨h'.id.trans h.id, h'.term.trans h.term, fun x => h'.belief (h.belief x),
    fun o x hx => h'.precondition_beliefs o x (h.precondition_beliefs o x hx),
    fun x hx => h'.implication_links x (h.implication_links x hx)⟩

omit [Arith] in
theorem LinkFits.valid {s : Sys} {t : Term} {imp : Implication} (h : LinkFits s.concepts s.concept_storage t imp) :
    s.implicationValid imp = .ok true := by
  obtain ⟨-, src, -, h1, h2⟩ := h
  unfold Sys.implicationValid
  rw [h1]
  simp [h2]

theorem ConceptChange.grows {s : Sys} {i : Nat} {c : Concept} (hg : (s.concept_storage i).Good n) (hnf : ¬ s.full)
    (h : AtHome s.concepts s.concept_storage (s.concept_storage i)) (st : ConceptChange n s i c) :
    Grows (s.concept_storage i) c := by
  have tables : ∀ {t t' : Table}, t.Good n → (∀ e ∈ t.entries, LinkFits s.concepts s.concept_storage (s.concept_storage i).term e) →
      TableSteps n (fun imp => s.implicationValid imp = .ok false)
        (fun imp => s.full ∨ LinkFits s.concepts s.concept_storage (s.concept_storage i).term imp) t t' →
      ∀ x, t.Holds x → t'.Holds x := by
    intro t t' ht hl hst x hx
    refine hst.holds ht (P := fun t src id => Term_ExtractSubterm t 2 = (s.concept_storage i).term ∧
      ∃ a ∈ s.concepts.contents.map (fun x : Item ℚ Nat => x.address), src = some a ∧ id = (s.concept_storage a).id) hl (fun e he => he.resolve_left hnf) ?_ hx
    intro e he hbad
    have := LinkFits.valid (s := s) (t := (s.concept_storage i).term) (imp := e) he
    rw [this] at hbad
    cases hbad
  cases st with
  | attention => exact ⟨rfl, rfl, fun h => h, fun _ _ h => h, fun _ h => h⟩
  | belief_spike => exact ⟨rfl, rfl, fun h => h, fun _ _ h => h, fun _ h => h⟩
  | predicted_belief => exact ⟨rfl, rfl, fun h => h, fun _ _ h => h, fun _ h => h⟩
  | goal_spike => exact ⟨rfl, rfl, fun h => h, fun _ _ h => h, fun _ h => h⟩
  | belief e e' r t he het heo hown hr =>
    refine ⟨rfl, rfl, fun hb => ?_, fun _ _ h => h, fun _ h => h⟩
    show e'.type ≠ .deleted
    rcases revisionAndChoice_type hr with h1 | h1 <;> rw [h1]
    · exact hb
    · rw [het]; exact fun h => by cases h
  | precondition_beliefs opi t ht =>
    refine ⟨rfl, rfl, fun h => h, fun o => ?_, fun _ h => h⟩
    show ∀ x, _ → (upd (s.concept_storage i).precondition_beliefs opi t o).Holds x
    by_cases ho : o = opi
    · subst ho
      rw [upd_same]
      exact tables (hg.precondition_beliefs o) (h.precondition_beliefs o) ht
    · rw [upd_other _ _ ho]
      exact fun _ h => h
  | implication_links t ht =>
    exact ⟨rfl, rfl, fun h => h, fun _ _ h => h, tables hg.implication_links h.implication_links ht⟩

/-- The concepts stay, and a full memory stays full. -/
structure Stable (s s' : Sys) : Prop where
  full : s.full → s'.full
  stays : ¬ s'.full → ∀ c ∈ s.live, c ∈ s'.live ∧ Grows (s.concept_storage c) (s'.concept_storage c)

omit [Arith] in
theorem Stable.of_eq {s s' : Sys} (h : s'.concepts = s.concepts) (h' : s'.concept_storage = s.concept_storage) : Stable s s' := by
  refine ⟨?_, ?_⟩
  · unfold Sys.full; rw [h]; exact fun h => h
  · intro _ c hc
    unfold Sys.live at hc ⊢
    rw [h, h']
    exact ⟨hc, .refl _⟩

omit [Arith] in
theorem Stable.refl (s : Sys) : Stable s s := .of_eq rfl rfl

omit [Arith] in
theorem Stable.trans {a b c : Sys} (h : Stable a b) (h' : Stable b c) : Stable a c := by
  refine ⟨fun x => h'.full (h.full x), fun hc x hx => ?_⟩
  obtain ⟨h1, h2⟩ := h.stays (fun hb => hc (h'.full hb)) x hx
  obtain ⟨h3, h4⟩ := h'.stays hc x h1
  exact ⟨h3, h2.trans h4⟩

theorem Step.stable {s s' : Sys} (h : Good n s) (st : Step n s s') : Stable s s' := by
  cases st with
  | conceptualize t now r s' hk e =>
    cases (conceptualize_cases h.mem e).1 with
    | known => exact .refl _
    | refused => exact .refl _
    | room c q ht idx h1 h2 h3 h4 h5 h6 =>
      have hl : s.live.length = s.concepts.contents.length := by unfold Sys.live; rw [List.length_map]
      refine ⟨fun hf => ?_, fun _ d hd => ⟨?_, ?_⟩⟩
      · unfold Sys.full at hf
        unfold Sys.capacity at h2
        omega
      · unfold Sys.live
        refine ((h5.map (·.address)).mem_iff).2 ?_
        rw [List.map_cons]
        exact List.mem_cons_of_mem _ hd
      · have : d ≠ c := fun e => h3 (e ▸ hd)
        dsimp only
        rw [upd_other _ _ this]
        exact .refl _
    | evict x rest q ht idx h1 h2 h3 h4 h5 h6 =>
      have hl : s.live.length = s.concepts.contents.length := by unfold Sys.live; rw [List.length_map]
      have hfull : Sys.full { s with
          concepts := q, HTconcepts := ht, index := idx
          concept_storage := upd s.concept_storage x.address (s.newConcept t now), concept_id := s.concept_id + 1 } := by
        unfold Sys.full
        dsimp only
        rw [h5.length_eq, h6, List.length_cons]
        rw [hl, h4.length_eq, List.length_cons] at h2
        omega
      exact ⟨fun _ => hfull, fun hf => absurd hfull hf⟩
  | concept i c st =>
    refine ⟨fun hf => hf, fun hf d hd => ⟨hd, ?_⟩⟩
    dsimp only
    by_cases hdi : d = i
    · subst hdi
      rw [upd_same]
      exact ConceptChange.grows (h.concepts d) hf (h.home (not_le.1 hf) d hd) st
    · rw [upd_other _ _ hdi]
      exact .refl _
  | pushBelief e p b s' he ht hc hp hp1 hn hpush => obtain ⟨q, st, rfl⟩ := pushBelief_shape hpush; exact .of_eq rfl rfl
  | pushGoal e p layer b s' he ht hti hc hp hp1 hl hn hpush =>
    obtain ⟨q, st, rfl⟩ := pushGoal_shape hpush; exact .of_eq rfl rfl
  | popBelief s' e => obtain ⟨q, p, ev, k, rfl⟩ := popBelief_shape e; exact .of_eq rfl rfl
  | popGoal layer s' e => obtain ⟨q, p, ev, k, rfl⟩ := popGoal_shape e; exact .of_eq rfl rfl
  | clearGoals => exact .of_eq rfl rfl
  | forget now s' e =>
    obtain ⟨_, bq, gq, st, q, g, hg, hq, hst, rfl⟩ := forgetting_spec h e
    obtain ⟨r1, r2, r3, r4⟩ := reprioritise_spec h.mem hq
    refine ⟨fun hf => ?_, fun hf c hc => ⟨?_, ?_⟩⟩
    · unfold Sys.full at hf ⊢
      have r3' : q.maxElements = s.concepts.maxElements := r3
      dsimp only
      rw [r2.length_eq, List.length_map, r3']
      exact hf
    · exact r4.mem_iff.2 hc
    · obtain ⟨p, e, _⟩ := hst c
      dsimp only
      rw [e]
      exact ⟨rfl, rfl, fun h => h, fun _ _ h => h, fun _ h => h⟩
  | remember => exact .of_eq rfl rfl
  | internal => exact .of_eq rfl rfl
  | decision => exact .of_eq rfl rfl

/-- A fact about a concept which stays in memory as long as the memory is not full. -/
def Lasting (c : Nat) (P : Concept → Prop) (s : Sys) : Prop := s.full ∨ c ∈ s.live ∧ P (s.concept_storage c)

omit [Arith] in
theorem Lasting.stable {s s' : Sys} {c : Nat} {P : Concept → Prop} (hP : ∀ {x y}, Grows x y → P x → P y) (st : Stable s s')
    (h : Lasting c P s) : Lasting c P s' := by
  by_cases hf : s'.full
  · exact .inl hf
  · obtain ⟨h1, h2⟩ := h.resolve_left (fun h => hf (st.full h))
    obtain ⟨h3, h4⟩ := st.stays hf c h1
    exact .inr ⟨h3, hP h4 h2⟩

end ONA

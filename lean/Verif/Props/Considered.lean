import Verif.Props.Decision
/-
C48: what a candidate proposes, and what makes the system refrain from it.
-/
namespace ONA
variable [Arith] {n n' : Narsese} {s s' : Sys} {z : Sizes}

theorem accumulates_cons {a b e r : Event} {l : List Event} {x : Bool} (h : Inference_RevisionAndChoice n a e = .ok (b, x))
    (hl : Accumulates n l b r) : Accumulates n (e :: l) a r := by
  unfold Accumulates at *
  rw [List.foldlM_cons, h]
  exact hl

theorem accumulates_append {a b r : Event} : ∀ {l m : List Event}, Accumulates n l a b → Accumulates n m b r → Accumulates n (l ++ m) a r := by
  intro l m h1 h2
  unfold Accumulates at *
  rw [List.foldlM_append, h1]
  exact h2

theorem negativeOutcome_concern {d : Decision} {c : Nat} {link : Implication} {a r : Event}
    (hg : (s.concept_storage c).goal_spike.type ≠ .deleted)
    (ht : s.currentTime - (s.concept_storage c).goal_spike.occurrenceTime < EVENT_BELIEF_DISTANCE)
    (h : negativeOutcome n s d (s.concept_storage c) a link = .ok r) :
    ∃ l, (∀ e, e ∈ l ↔ ConcernOf n s d c link e) ∧ Accumulates n l a r := by
  unfold negativeOutcome at h
  cases hp : link.sourceConcept with
  | none => rw [hp] at h; cases h
  | some p =>
    rw [hp] at h
    dsimp only at h
    split at h
    · rename_i hb
      rw [Bool.and_eq_true, decide_eq_true_eq, decide_eq_true_eq] at hb
      rw [R.bind_eq_ok] at h
      obtain ⟨_, h1, h⟩ := h
      rw [cassert_eq_ok] at h1
      split at h
      · rename_i hop
        rw [R.bind_eq_ok] at h
        obtain ⟨ctx, h2, h⟩ := h
        rw [R.bind_eq_ok] at h
        obtain ⟨⟨o, x⟩, h3, h⟩ := h
        cases h
        refine ⟨[Inference_GoalSequenceDeduction ctx (s.concept_storage p).belief_spike s.currentTime], fun e => ?_, ?_⟩
        · rw [List.mem_singleton]
          constructor
          · rintro rfl
            exact ⟨hg, ht, p, ctx, hp, hb.1, hb.2, Prod.ext h1 hop.symm, h2, rfl⟩
          · rintro ⟨-, -, p', ctx', hp', -, -, -, h2', rfl⟩
            cases hp.symm.trans hp'
            cases h2.symm.trans h2'
            rfl
        · exact accumulates_cons h3 (by rfl)
      · rename_i hop
        cases h
        refine ⟨[], fun e => ⟨fun he => (by cases he), ?_⟩, by rfl⟩
        rintro ⟨-, -, p', ctx', hp', -, -, h4, -⟩
        exact absurd (by rw [h4]) hop
    · rename_i hb
      cases h
      refine ⟨[], fun e => ⟨fun he => (by cases he), ?_⟩, by rfl⟩
      rintro ⟨-, -, p', ctx', hp', h4, h5, -⟩
      cases hp.symm.trans hp'
      exact absurd (by simp [h4, h5]) hb

theorem negativeLinks_concern {d : Decision} {c : Nat} (hg : (s.concept_storage c).goal_spike.type ≠ .deleted)
    (ht : s.currentTime - (s.concept_storage c).goal_spike.occurrenceTime < EVENT_BELIEF_DISTANCE) :
    ∀ (links : List Implication) {a r : Event}, links.foldlM (negativeOutcome n s d (s.concept_storage c)) a = .ok r →
    ∃ l, (∀ e, e ∈ l ↔ ∃ link ∈ links, ConcernOf n s d c link e) ∧ Accumulates n l a r := by
  intro links
  induction links with
  | nil => intro a r h; cases h; exact ⟨[], fun e => by simp, by rfl⟩
  | cons link links ih =>
    intro a r h
    rw [List.foldlM_cons, R.bind_eq_ok] at h
    obtain ⟨b, h1, h2⟩ := h
    obtain ⟨l1, m1, a1⟩ := negativeOutcome_concern hg ht h1
    obtain ⟨l2, m2, a2⟩ := ih h2
    refine ⟨l1 ++ l2, fun e => ?_, accumulates_append a1 a2⟩
    rw [List.mem_append, m1, m2]
    simp

theorem negativeOutcomes_concern {d : Decision} : ∀ (cells : List Nat) {a r : Event},
    cells.foldlM (fun outcomes i =>
      let c := s.concept_storage (s.concepts.items i).address
      if c.goal_spike.type ≠ .deleted && s.currentTime - c.goal_spike.occurrenceTime < EVENT_BELIEF_DISTANCE then
        let t := c.precondition_beliefs d.operationID
        ((List.range t.itemsAmount).map t.array).foldlM (negativeOutcome n s d c) outcomes
      else .ok outcomes) a = .ok r →
    ∃ l, (∀ e, e ∈ l ↔ ∃ i ∈ cells, ∃ link ∈ s.linksFor (s.concepts.items i).address d.operationID,
      ConcernOf n s d (s.concepts.items i).address link e) ∧ Accumulates n l a r := by
  intro cells
  induction cells with
  | nil => intro a r h; cases h; exact ⟨[], fun e => by simp, by rfl⟩
  | cons i cells ih =>
    intro a r h
    rw [List.foldlM_cons, R.bind_eq_ok] at h
    obtain ⟨b, h1, h2⟩ := h
    obtain ⟨l2, m2, a2⟩ := ih h2
    have key : ∃ l, (∀ e, e ∈ l ↔ ∃ link ∈ s.linksFor (s.concepts.items i).address d.operationID,
        ConcernOf n s d (s.concepts.items i).address link e) ∧ Accumulates n l a b := by
      dsimp only at h1
      split at h1
      · rename_i hb
        rw [Bool.and_eq_true, decide_eq_true_eq, decide_eq_true_eq] at hb
        exact negativeLinks_concern hb.1 hb.2 _ h1
      · rename_i hb
        cases h1
        refine ⟨[], fun e => ⟨fun he => (by cases he), ?_⟩, by rfl⟩
        rintro ⟨link, -, h4, h5, -⟩
        exact absurd (by simp [h4, h5]) hb
    obtain ⟨l1, m1, a1⟩ := key
    refine ⟨l1 ++ l2, fun e => ?_, accumulates_append a1 a2⟩
    rw [List.mem_append, m1, m2]
    simp

/-- **C48 (caution).** The system refrains from a decision exactly when all that the present goals say about its operation, taken
together, speaks against it. -/
theorem C48_caution {d r : Decision} (h : Decision_ConsiderNegativeOutcomes n s d = .ok r) :
    ∃ l o, (∀ e, e ∈ l ↔ Concern n s d e) ∧ Accumulates n l Event.zero o ∧
      r = if Truth_Expectation o.truth < 1 / 2 then Decision.zero else d := by
  unfold Decision_ConsiderNegativeOutcomes at h
  rw [R.bind_eq_ok] at h
  obtain ⟨o, h1, h2⟩ := h
  obtain ⟨l, m, a⟩ := negativeOutcomes_concern _ h1
  refine ⟨l, o, fun e => ?_, a, ?_⟩
  · rw [m]
    unfold Concern Sys.live PriorityQueue.contents
    simp only [List.mem_map, List.mem_range]
    constructor
    · rintro ⟨i, hi, link, hl, hc⟩
      exact ⟨_, ⟨_, ⟨i, hi, rfl⟩, rfl⟩, link, hl, hc⟩
    · rintro ⟨_, ⟨_, ⟨i, hi, rfl⟩, rfl⟩, link, hl, hc⟩
      exact ⟨i, hi, link, hl, hc⟩
  · split at h2
    · rename_i hx
      cases h2
      rw [if_pos hx]
    · rename_i hx
      cases h2
      rw [if_neg hx]

theorem expectation_zero : ¬ Truth_Expectation (Event.zero).truth < 1 / 2 := by
  have : Truth_Expectation (Event.zero).truth = 1 / 2 := by
    show fadd (fmul 0 (fsub 0 (1 / 2))) (1 / 2) = 1 / 2
    unfold fadd fmul
    rw [zero_mul, show (rnd 0 : ℚ) = 0 by simpa using rnd_nat 0, zero_add, rnd_half]
  rw [this]
  exact lt_irrefl _

/-- Without a present goal which is concerned the decision stands. -/
theorem C48_unconcerned {d r : Decision} (h : Decision_ConsiderNegativeOutcomes n s d = .ok r) (hn : ∀ e, ¬ Concern n s d e) : r = d := by
  obtain ⟨l, o, m, a, rfl⟩ := C48_caution h
  have : l = [] := List.eq_nil_iff_forall_not_mem.2 fun e he => hn e ((m e).1 he)
  subst this
  cases a
  rw [if_neg expectation_zero]

theorem accumulates_same {e0 o : Event} (hs : Stamp_checkOverlap e0.stamp e0.stamp = true) : ∀ {l : List Event}, (∀ e ∈ l, e = e0) →
    Accumulates n l e0 o → o = e0 := by
  intro l
  induction l with
  | nil => intro _ h; cases h; rfl
  | cons e l ih =>
    intro hl h
    cases hl e List.mem_cons_self
    unfold Accumulates at h
    rw [List.foldlM_cons, R.bind_eq_ok] at h
    obtain ⟨b, h1, h2⟩ := h
    have : b = e0 := by
      have key : Inference_RevisionAndChoice n e0 e0 = .ok (e0, false) := by
        unfold Inference_RevisionAndChoice
        split
        · rfl
        · dsimp only
          rw [hs]
          simp only [Bool.true_or, if_true]
          exact ite_self _
      rw [key] at h1
      cases h1
      rfl
    subst this
    exact ih (fun e he => hl e (List.mem_cons_of_mem _ he)) h2

/-- When the present goals say just one thing about the operation, the decision stands or falls with it. -/
theorem C48_warned {d r : Decision} (h : Decision_ConsiderNegativeOutcomes n s d = .ok r) {e0 : Event} (he : Concern n s d e0)
    (hn : ∀ e, Concern n s d e → e = e0) (hs : Stamp_checkOverlap e0.stamp e0.stamp = true) :
    r = if Truth_Expectation e0.truth < 1 / 2 then Decision.zero else d := by
  obtain ⟨l, o, m, a, rfl⟩ := C48_caution h
  have : o = e0 := by
    cases l with
    | nil => exact absurd ((m e0).2 he) (by simp)
    | cons e l =>
      cases hn e ((m e).1 List.mem_cons_self)
      unfold Accumulates at a
      rw [List.foldlM_cons, R.bind_eq_ok] at a
      obtain ⟨b, h1, h2⟩ := a
      have hb : b = e0 := by
        have key : Inference_RevisionAndChoice n Event.zero e0 = .ok (e0, false) := by
          unfold Inference_RevisionAndChoice
          exact if_pos rfl
        rw [key] at h1
        cases h1
        rfl
      subst hb
      exact accumulates_same hs (fun x hx => hn x ((m x).1 (List.mem_cons_of_mem _ hx))) h2
  rw [this]

theorem considerOperations_names {d d' : Decision} {subject : Term} (h0 : d.operationID = 0) (h1 : d.arguments = Term.zero) {fuel : Nat}
    (h : considerOperations n s fuel 1 subject d = .ok (some d')) :
    Names n s subject d'.operationID d'.arguments ∧ d'.desire = d.desire ∧ d'.reason = d.reason ∧ d'.operationTerm = d.operationTerm := by
  have stay : ∀ {fuel : Nat} {t : Term} {x x' : Decision}, considerOperations n s fuel 2 t x = .ok (some x') → x' = x := by
    intro fuel t x x' h
    cases fuel with
    | zero => cases h; rfl
    | succ k =>
      unfold considerOperations at h
      dsimp only at h
      split at h
      · split at h
        · cases h; rfl
        · rw [if_pos (show 2 > 1 by decide)] at h; cases h
      · cases h; rfl
  cases fuel with
  | zero => cases h; rw [h0, h1]; exact ⟨.none, rfl, rfl, rfl⟩
  | succ k =>
    unfold considerOperations at h
    split at h
    · rename_i hseq
      dsimp only at h
      split at h
      · cases h; rw [h0, h1]; exact ⟨.none, rfl, rfl, rfl⟩
      · rename_i hop
        rw [if_neg (by decide)] at h
        split at h
        · rename_i hopr
          rw [R.bind_eq_ok] at h
          obtain ⟨_, -, h⟩ := h
          split at h
          · cases h
          · rename_i hself
            cases stay h
            exact ⟨.arguments hseq (by simpa using hop) (by simpa using hopr) (not_not.1 hself), rfl, rfl, rfl⟩
        · rename_i hopr
          cases stay h
          refine ⟨?_, rfl, rfl, rfl⟩
          dsimp only
          rw [h1]
          exact .plain hseq (by simpa using hopr)
    · cases h; rw [h0, h1]; exact ⟨.none, rfl, rfl, rfl⟩

/-- **C48 (proposal).** What a link proposes: nothing, or the operation its subject names, for the reason of its source, and
desired as much as the goal, the link and the observed precondition together imply. -/
theorem C48_proposal {now : Int} {goal : Event} {imp : Implication} {tr : Truth} {d : Decision}
    (h : Decision_ConsiderImplication n s now goal imp tr = .ok d) :
    d = Decision.zero ∨ Names n s (Term_ExtractSubterm imp.term 1) d.operationID d.arguments ∧ d.reason = imp.sourceConcept ∧
      ∃ p ctx, imp.sourceConcept = some p ∧ Inference_GoalDeduction n goal imp now = .ok ctx ∧
        d.desire = Truth_Expectation
          (Inference_GoalSequenceDeduction ctx { (s.concept_storage p).belief_spike with truth := tr } now).truth := by
  unfold Decision_ConsiderImplication at h
  cases hp : imp.sourceConcept with
  | none => rw [hp] at h; cases h
  | some p =>
    rw [hp] at h
    dsimp only at h
    rw [R.bind_eq_ok] at h
    obtain ⟨ctx, h1, h⟩ := h
    rw [R.bind_eq_ok] at h
    obtain ⟨_, -, h⟩ := h
    rw [R.bind_eq_ok] at h
    obtain ⟨r, h2, h⟩ := h
    cases r with
    | none => cases h; exact .inl rfl
    | some d' =>
      dsimp only at h
      obtain ⟨l, o, -, -, e⟩ := C48_caution h
      obtain ⟨k1, k2, k3, -⟩ := considerOperations_names rfl rfl h2
      split at e
      · exact .inl e
      · subst e
        exact .inr ⟨k1, k3, p, ctx, rfl, h1, k2⟩

end ONA

import Verif.Proofs.Closed
/-
What the elementary changes of state leave alone, and what they are for the concept memory.
-/
namespace ONA
variable [Arith] {n : Narsese}

/-- Unchanged between two states: the clock, the input evidence counter, the registered operations and the parameters. -/
structure SameSettings (s s' : Sys) : Prop where
  operations : s'.operations = s.operations
  op_k : s'.op_k = s.op_k
  event : s'.event = s.event
  currentTime : s'.currentTime = s.currentTime
  initialized : s'.initialized = s.initialized
  RESTRICTED_CONCEPT_CREATION : s'.RESTRICTED_CONCEPT_CREATION = s.RESTRICTED_CONCEPT_CREATION
  CONDITION_THRESHOLD : s'.CONDITION_THRESHOLD = s.CONDITION_THRESHOLD
  DECISION_THRESHOLD : s'.DECISION_THRESHOLD = s.DECISION_THRESHOLD
  ANTICIPATION_THRESHOLD : s'.ANTICIPATION_THRESHOLD = s.ANTICIPATION_THRESHOLD
  ANTICIPATION_CONFIDENCE : s'.ANTICIPATION_CONFIDENCE = s.ANTICIPATION_CONFIDENCE
  MOTOR_BABBLING_CHANCE : s'.MOTOR_BABBLING_CHANCE = s.MOTOR_BABBLING_CHANCE
  BABBLING_OPS : s'.BABBLING_OPS = s.BABBLING_OPS
  QUESTION_PRIMING : s'.QUESTION_PRIMING = s.QUESTION_PRIMING
  similarity_distance : s'.similarity_distance = s.similarity_distance

omit [Arith] in
theorem SameSettings.refl (s : Sys) : SameSettings s s :=
  ⟨rfl, rfl, rfl, rfl, rfl, rfl, rfl, rfl, rfl, rfl, rfl, rfl, rfl, rfl⟩

/-- What an elementary change can print. -/
inductive StepOutput (s s' : Sys) : Prop where
  | none : s'.output = s.output → StepOutput s s'
  | decision (d : ℚ) (imp : Implication) : s.DECISION_THRESHOLD ≤ d → s'.output = s.output ++ [.decision d imp] → StepOutput s s'

theorem Step.frame {s s' : Sys} (h : Good n s) (st : Step n s s') : SameSettings s s' ∧ StepOutput s s' := by
  cases st with
  | conceptualize t now r s' hk e =>
    obtain ⟨st, q, ht, idx, k, rfl, _⟩ := conceptualized_concepts (conceptualize_cases h.mem e).1
    exact ⟨⟨rfl, rfl, rfl, rfl, rfl, rfl, rfl, rfl, rfl, rfl, rfl, rfl, rfl, rfl⟩, .none rfl⟩
  | concept i c st => exact ⟨⟨rfl, rfl, rfl, rfl, rfl, rfl, rfl, rfl, rfl, rfl, rfl, rfl, rfl, rfl⟩, .none rfl⟩
  | pushBelief e p b s' he ht hc hp hp1 hn hpush =>
    obtain ⟨q, st, rfl⟩ := pushBelief_shape hpush
    exact ⟨⟨rfl, rfl, rfl, rfl, rfl, rfl, rfl, rfl, rfl, rfl, rfl, rfl, rfl, rfl⟩, .none rfl⟩
  | pushGoal e p layer b s' he ht hti hc hp hp1 hl hn hpush =>
    obtain ⟨q, st, rfl⟩ := pushGoal_shape hpush
    exact ⟨⟨rfl, rfl, rfl, rfl, rfl, rfl, rfl, rfl, rfl, rfl, rfl, rfl, rfl, rfl⟩, .none rfl⟩
  | popBelief s' e =>
    obtain ⟨_, _, _, _, rfl⟩ := popBelief_shape e
    exact ⟨⟨rfl, rfl, rfl, rfl, rfl, rfl, rfl, rfl, rfl, rfl, rfl, rfl, rfl, rfl⟩, .none rfl⟩
  | popGoal layer s' e =>
    obtain ⟨_, _, _, _, rfl⟩ := popGoal_shape e
    exact ⟨⟨rfl, rfl, rfl, rfl, rfl, rfl, rfl, rfl, rfl, rfl, rfl, rfl, rfl, rfl⟩, .none rfl⟩
  | clearGoals => exact ⟨⟨rfl, rfl, rfl, rfl, rfl, rfl, rfl, rfl, rfl, rfl, rfl, rfl, rfl, rfl⟩, .none rfl⟩
  | forget now s' e =>
    obtain ⟨_, _, _, _, _, _, _, _, _, rfl⟩ := forgetting_spec h e
    exact ⟨⟨rfl, rfl, rfl, rfl, rfl, rfl, rfl, rfl, rfl, rfl, rfl, rfl, rfl, rfl⟩, .none rfl⟩
  | remember => exact ⟨⟨rfl, rfl, rfl, rfl, rfl, rfl, rfl, rfl, rfl, rfl, rfl, rfl, rfl, rfl⟩, .none rfl⟩
  | internal => exact ⟨⟨rfl, rfl, rfl, rfl, rfl, rfl, rfl, rfl, rfl, rfl, rfl, rfl, rfl, rfl⟩, .none rfl⟩
  | decision d imp hd =>
    exact ⟨⟨rfl, rfl, rfl, rfl, rfl, rfl, rfl, rfl, rfl, rfl, rfl, rfl, rfl, rfl⟩, .decision d imp hd rfl⟩

/-- An elementary change, seen from the concept memory. -/
theorem Step.mem {s s' : Sys} (h : Good n s) (st : Step n s s') : ∃ l, MemSteps n l s s' := by
  have content : ∀ {s'' : Sys}, s''.concepts = s.concepts → s''.HTconcepts = s.HTconcepts → s''.index = s.index →
      s''.concept_id = s.concept_id → (∀ c, s''.termOf c = s.termOf c) → (∀ c, s''.idOf c = s.idOf c) →
      ∃ l, MemSteps n l s s'' :=
    fun h1 h2 h3 h4 h5 h6 => ⟨_, .snoc (.nil s) (.content _ h1 h2 h3 h4 h5 h6)⟩
  cases st with
  | conceptualize t now r s' hk e => exact ⟨_, .snoc (.nil s) (.conceptualize t now r s' e)⟩
  | concept i c st =>
    have hs := st.same
    refine content rfl rfl rfl rfl ?_ ?_
    · intro d
      show (upd s.concept_storage i c d).term = (s.concept_storage d).term
      by_cases hd : d = i
      · subst hd; rw [upd_same]; exact hs.2
      · rw [upd_other _ _ hd]
    · intro d
      show (upd s.concept_storage i c d).id = (s.concept_storage d).id
      by_cases hd : d = i
      · subst hd; rw [upd_same]; exact hs.1
      · rw [upd_other _ _ hd]
  | pushBelief e p b s' he ht hc hp hp1 hn hpush =>
    obtain ⟨q, st, rfl⟩ := pushBelief_shape hpush
    exact content rfl rfl rfl rfl (fun _ => rfl) fun _ => rfl
  | pushGoal e p layer b s' he ht hti hc hp hp1 hl hn hpush =>
    obtain ⟨q, st, rfl⟩ := pushGoal_shape hpush
    exact content rfl rfl rfl rfl (fun _ => rfl) fun _ => rfl
  | popBelief s' e =>
    obtain ⟨_, _, _, _, rfl⟩ := popBelief_shape e
    exact content rfl rfl rfl rfl (fun _ => rfl) fun _ => rfl
  | popGoal layer s' e =>
    obtain ⟨_, _, _, _, rfl⟩ := popGoal_shape e
    exact content rfl rfl rfl rfl (fun _ => rfl) fun _ => rfl
  | clearGoals => exact content rfl rfl rfl rfl (fun _ => rfl) fun _ => rfl
  | forget now s' e =>
    obtain ⟨_, bq, gq, st, q, g, hg, hq, hst, rfl⟩ := forgetting_spec h e
    refine ⟨_, .snoc (.snoc (.nil s) (.reprioritise g q hg hq)) (.content _ rfl rfl rfl rfl ?_ ?_)⟩
    · intro c
      obtain ⟨p, e, _⟩ := hst c
      show (st c).term = (s.concept_storage c).term
      rw [e]
    · intro c
      obtain ⟨p, e, _⟩ := hst c
      show (st c).id = (s.concept_storage c).id
      rw [e]
  | remember => exact content rfl rfl rfl rfl (fun _ => rfl) fun _ => rfl
  | internal => exact content rfl rfl rfl rfl (fun _ => rfl) fun _ => rfl
  | decision => exact content rfl rfl rfl rfl (fun _ => rfl) fun _ => rfl

/-- A pending decision stays pending. -/
theorem Step.justified {s s' : Sys} (h : Good n s) (st : Step n s s') {op : Nat} (hj : Justified s op) : Justified s' op := by
  obtain ⟨f, o⟩ := st.frame h
  unfold Justified
  rw [f.MOTOR_BABBLING_CHANCE, f.DECISION_THRESHOLD, f.BABBLING_OPS]
  refine hj.imp_left ?_
  rintro ⟨before, d, imp, e, hd⟩
  cases o with
  | none e' => rw [e']; exact ⟨before, d, imp, e, hd⟩
  | decision d' imp' hd' e' => exact ⟨s.output, d', imp', e', hd'⟩

theorem Closed.justified {I : Sys → Prop} (h : Closed n I) (op : Nat) : Closed n fun s => I s ∧ Justified s op :=
  ⟨fun hs => h.good hs.1, fun hs st => ⟨h.step hs.1 st, st.justified (h.good hs.1) hs.2⟩⟩

theorem Closed.const {I : Sys → Prop} (h : Closed n I) (P : Prop) : Closed n fun s => I s ∧ P :=
  ⟨fun hs => h.good hs.1, fun hs st => ⟨h.step hs.1 st, hs.2⟩⟩

/-- Selected beliefs stay known. -/
theorem Step.selectedBeliefs {s s' : Sys} {k : Nat} (h : Good n s) (st : Step n s s') (hk : SelectedBeliefs n k s) :
    SelectedBeliefs n k s' := by
  cases st with
  | conceptualize t now r s' ht e =>
    obtain ⟨_, _, _, _, _, rfl, _⟩ := conceptualized_concepts (conceptualize_cases h.mem e).1
    exact hk
  | concept => exact hk
  | pushBelief e p b s' he ht hc hp hp1 hn hpush => obtain ⟨_, _, rfl⟩ := pushBelief_shape hpush; exact hk
  | pushGoal e p layer b s' he ht hti hc hp hp1 hl hn hpush => obtain ⟨_, _, rfl⟩ := pushGoal_shape hpush; exact hk
  | popGoal layer s' e => obtain ⟨_, _, _, _, rfl⟩ := popGoal_shape e; exact hk
  | clearGoals => exact hk
  | forget now s' e => obtain ⟨_, _, _, _, _, _, _, _, _, rfl⟩ := forgetting_spec h e; exact hk
  | remember => exact hk
  | internal => exact hk
  | decision => exact hk
  | popBelief s' e =>
    unfold popBeliefEvents at e
    simp only [M.bind_ok] at e
    obtain ⟨s1, s2, e1, e⟩ := e
    obtain ⟨rfl, rfl⟩ := M.get_ok.1 e1
    obtain ⟨⟨out, q⟩, s3, e2, e⟩ := e
    obtain ⟨f2, rfl⟩ := M.lift_ok.1 e2
    obtain ⟨-, -, hout⟩ := buffer_pop h.beliefs f2
    cases out with
    | none =>
      dsimp only at e
      simp only [M.bind_ok] at e
      obtain ⟨_, s4, e3, e4⟩ := e
      obtain ⟨_, f3⟩ := M.lift_ok.1 e3
      have f4 := M.set_ok.1 e4
      subst f3 f4
      exact hk
    | some item =>
      dsimp only at e
      have e4 := M.set_ok.1 e
      subst e4
      exact upd_selected (P := fun e p => e.Good n ∧ InUnit p ∧ e.type = .belief) hk
        ⟨h.beliefs.good _, h.beliefs.priority item (hout item rfl), h.beliefs.type item (hout item rfl)⟩ 0

/-- Selected goals stay known. -/
theorem Step.selectedGoals {s s' : Sys} {k : Nat} (h : Good n s) (st : Step n s s') (hk : SelectedGoals n k s) :
    SelectedGoals n k s' := by
  cases st with
  | conceptualize t now r s' ht e =>
    obtain ⟨_, _, _, _, _, rfl, _⟩ := conceptualized_concepts (conceptualize_cases h.mem e).1
    exact hk
  | concept => exact hk
  | pushBelief e p b s' he ht hc hp hp1 hn hpush => obtain ⟨_, _, rfl⟩ := pushBelief_shape hpush; exact hk
  | pushGoal e p layer b s' he ht hti hc hp hp1 hl hn hpush => obtain ⟨_, _, rfl⟩ := pushGoal_shape hpush; exact hk
  | popBelief s' e => obtain ⟨_, _, _, _, rfl⟩ := popBelief_shape e; exact hk
  | clearGoals => exact hk
  | forget now s' e => obtain ⟨_, _, _, _, _, _, _, _, _, rfl⟩ := forgetting_spec h e; exact hk
  | remember => exact hk
  | internal => exact hk
  | decision => exact hk
  | popGoal layer s' e =>
    unfold popGoalEvents at e
    simp only [M.bind_ok] at e
    obtain ⟨s1, s2, e1, e⟩ := e
    obtain ⟨rfl, rfl⟩ := M.get_ok.1 e1
    obtain ⟨⟨out, q⟩, s3, e2, e⟩ := e
    obtain ⟨f2, rfl⟩ := M.lift_ok.1 e2
    obtain ⟨-, -, hout⟩ := buffer_pop (h.goals layer) f2
    cases out with
    | none =>
      dsimp only at e
      simp only [M.bind_ok] at e
      obtain ⟨_, s4, e3, e4⟩ := e
      obtain ⟨_, f3⟩ := M.lift_ok.1 e3
      have f4 := M.set_ok.1 e4
      subst f3 f4
      exact hk
    | some item =>
      dsimp only at e
      have e4 := M.set_ok.1 e
      subst e4
      exact upd_selected (P := fun e p => e.Good n ∧ InUnit p ∧ e.occurrenceTime ≠ OCCURRENCE_ETERNAL) hk
        ⟨(h.goals layer).good _, (h.goals layer).priority item (hout item rfl),
          (h.goals layer).time item (hout item rfl) ((h.goals layer).type item (hout item rfl))⟩ 0

/-- The selected beliefs are known. -/
def BeliefsKnown (n : Narsese) (s : Sys) : Prop := SelectedBeliefs n s.beliefsSelectedCnt s

/-- The selected goals are known. -/
def GoalsKnown (n : Narsese) (s : Sys) : Prop := SelectedGoals n s.goalsSelectedCnt s

theorem popBelief_known {s s' : Sys} (h : Good n s) (e : popBeliefEvents s = .ok ((), s')) : BeliefsKnown n s' := by
  unfold popBeliefEvents at e
  simp only [M.bind_ok] at e
  obtain ⟨s1, s2, e1, e⟩ := e
  obtain ⟨rfl, rfl⟩ := M.get_ok.1 e1
  obtain ⟨⟨out, q⟩, s3, e2, e⟩ := e
  obtain ⟨f2, rfl⟩ := M.lift_ok.1 e2
  obtain ⟨-, -, hout⟩ := buffer_pop h.beliefs f2
  cases out with
  | none =>
    dsimp only at e
    simp only [M.bind_ok] at e
    obtain ⟨_, s4, e3, e4⟩ := e
    have f4 := M.set_ok.1 e4
    subst f4
    exact fun i hi => absurd hi (Nat.not_lt_zero i)
  | some item =>
    dsimp only at e
    have e4 := M.set_ok.1 e
    subst e4
    exact upd_selected_one (P := fun e p => e.Good n ∧ InUnit p ∧ e.type = .belief)
      ⟨h.beliefs.good _, h.beliefs.priority item (hout item rfl), h.beliefs.type item (hout item rfl)⟩

theorem popGoal_known {s s' : Sys} {layer : Nat} (h : Good n s) (e : popGoalEvents layer s = .ok ((), s')) : GoalsKnown n s' := by
  unfold popGoalEvents at e
  simp only [M.bind_ok] at e
  obtain ⟨s1, s2, e1, e⟩ := e
  obtain ⟨rfl, rfl⟩ := M.get_ok.1 e1
  obtain ⟨⟨out, q⟩, s3, e2, e⟩ := e
  obtain ⟨f2, rfl⟩ := M.lift_ok.1 e2
  obtain ⟨-, -, hout⟩ := buffer_pop (h.goals layer) f2
  cases out with
  | none =>
    dsimp only at e
    simp only [M.bind_ok] at e
    obtain ⟨_, s4, e3, e4⟩ := e
    have f4 := M.set_ok.1 e4
    subst f4
    exact fun i hi => absurd hi (Nat.not_lt_zero i)
  | some item =>
    dsimp only at e
    have e4 := M.set_ok.1 e
    subst e4
    exact upd_selected_one (P := fun e p => e.Good n ∧ InUnit p ∧ e.occurrenceTime ≠ OCCURRENCE_ETERNAL)
      ⟨(h.goals layer).good _, (h.goals layer).priority item (hout item rfl),
        (h.goals layer).time item (hout item rfl) ((h.goals layer).type item (hout item rfl))⟩

theorem Step.beliefsKnown {s s' : Sys} (h : Good n s) (st : Step n s s') (hk : BeliefsKnown n s) : BeliefsKnown n s' := by
  have := st.selectedBeliefs h hk
  cases st with
  | conceptualize t now r s' ht e =>
    obtain ⟨_, _, _, _, _, rfl, _⟩ := conceptualized_concepts (conceptualize_cases h.mem e).1
    exact this
  | concept => exact this
  | pushBelief e p b s' he ht hc hp hp1 hn hpush => obtain ⟨_, _, rfl⟩ := pushBelief_shape hpush; exact this
  | pushGoal e p layer b s' he ht hti hc hp hp1 hl hn hpush => obtain ⟨_, _, rfl⟩ := pushGoal_shape hpush; exact this
  | popGoal layer s' e => obtain ⟨_, _, _, _, rfl⟩ := popGoal_shape e; exact this
  | clearGoals => exact this
  | forget now s' e => obtain ⟨_, _, _, _, _, _, _, _, _, rfl⟩ := forgetting_spec h e; exact this
  | remember => exact this
  | internal => exact this
  | decision => exact this
  | popBelief s' e => exact popBelief_known h e

theorem Step.goalsKnown {s s' : Sys} (h : Good n s) (st : Step n s s') (hk : GoalsKnown n s) : GoalsKnown n s' := by
  have := st.selectedGoals h hk
  cases st with
  | conceptualize t now r s' ht e =>
    obtain ⟨_, _, _, _, _, rfl, _⟩ := conceptualized_concepts (conceptualize_cases h.mem e).1
    exact this
  | concept => exact this
  | pushBelief e p b s' he ht hc hp hp1 hn hpush => obtain ⟨_, _, rfl⟩ := pushBelief_shape hpush; exact this
  | pushGoal e p layer b s' he ht hti hc hp hp1 hl hn hpush => obtain ⟨_, _, rfl⟩ := pushGoal_shape hpush; exact this
  | popBelief s' e => obtain ⟨_, _, _, _, rfl⟩ := popBelief_shape e; exact this
  | clearGoals => exact fun i hi => absurd hi (Nat.not_lt_zero i)
  | forget now s' e => obtain ⟨_, _, _, _, _, _, _, _, _, rfl⟩ := forgetting_spec h e; exact this
  | remember => exact this
  | internal => exact this
  | decision => exact this
  | popGoal layer s' e => exact popGoal_known h e

theorem Closed.withBeliefs {I : Sys → Prop} (h : Closed n I) (k : Nat) : Closed n fun s => I s ∧ SelectedBeliefs n k s :=
  h.and fun hs hk st => st.selectedBeliefs (h.good hs) hk

theorem Closed.withGoals {I : Sys → Prop} (h : Closed n I) (k : Nat) : Closed n fun s => I s ∧ SelectedGoals n k s :=
  h.and fun hs hk st => st.selectedGoals (h.good hs) hk

theorem Closed.beliefsKnown {I : Sys → Prop} (h : Closed n I) : Closed n fun s => I s ∧ BeliefsKnown n s :=
  h.and fun hs hk st => st.beliefsKnown (h.good hs) hk

theorem Closed.goalsKnown {I : Sys → Prop} (h : Closed n I) : Closed n fun s => I s ∧ GoalsKnown n s :=
  h.and fun hs hk st => st.goalsKnown (h.good hs) hk

end ONA

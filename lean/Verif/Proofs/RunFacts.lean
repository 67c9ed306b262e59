import Verif.Proofs.API
/-
What follows from a `Run`: sizes, clock, printed lines, settings.
-/
namespace ONA
variable [Arith] {n n' : Narsese} {s s' s0 : Sys} {z : Sizes}

/-! ### Sizes of the arrays -/

/-- The arrays have the same sizes. -/
structure SameSizes (s s' : Sys) : Prop where
  concepts : s'.concepts.maxElements = s.concepts.maxElements
  beliefs : s'.cycling_belief_events.maxElements = s.cycling_belief_events.maxElements
  goals : ∀ l, (s'.cycling_goal_events l).maxElements = (s.cycling_goal_events l).maxElements

omit [Arith] in
theorem SameSizes.refl (s : Sys) : SameSizes s s := ⟨rfl, rfl, fun _ => rfl⟩

omit [Arith] in
theorem SameSizes.trans {a b c : Sys} (h1 : SameSizes a b) (h2 : SameSizes b c) : SameSizes a c :=
  ⟨h2.1.trans h1.1, h2.2.trans h1.2, fun l => (h2.3 l).trans (h1.3 l)⟩

omit [Arith] in
theorem push_size {q q' : PriorityQueue ℚ Nat} {p : ℚ} {fb : PushFeedback ℚ Nat} (h : q.Inv) (hp : 0 < q.maxElements)
    (e : q.push p = .ok (fb, q')) : q'.maxElements = q.maxElements := by
  obtain ⟨fb1, q1, e1, _, h1, _⟩ := PriorityQueue.push_spec h hp p
  rw [e1] at e
  cases e
  exact h1

omit [Arith] in
theorem popMax_size {q q' : PriorityQueue ℚ Nat} {o : Option (Item ℚ Nat)} (h : q.Inv)
    (e : q.popMax = .ok (o, q')) : q'.maxElements = q.maxElements := by
  obtain ⟨fb1, q1, e1, _, h1, _⟩ := PriorityQueue.popMax_spec h
  rw [e1] at e
  cases e
  exact h1

theorem decay_size {type : EventType} {q q' : PriorityQueue ℚ Nat} {st : Nat → Event} (h : BufferOk n type q st)
    (hd : decayQueue q = .ok q') : q'.maxElements = q.maxElements := by
  unfold decayQueue at hd
  rw [R.bind_eq_ok] at hd
  obtain ⟨q1, e1, e2⟩ := hd
  have e3 := PriorityQueue.setPriorities_overwrite _ (fun item => fmul item.priority (rnd (9999 / 10000))) q q1
    (fun x _ p hp => by cases hp; rfl) e1
  subst e3
  obtain ⟨q2, e4, _, hm, _⟩ := PriorityQueue.rebuild_spec
    (q := q.overwrite fun item => fmul item.priority (rnd (9999 / 10000))) h.queue.bound
    (by rw [PriorityQueue.overwrite_slots]; exact h.queue.nodup)
  rw [e2] at e4
  cases e4
  exact hm

theorem decayLayers_size {s0 : Sys} (ls : List Nat) : ∀ (f g : Nat → PriorityQueue ℚ Nat),
    (∀ k, BufferOk n .goal (f k) (s0.cycling_goal_event_storage k)) → decayLayers ls f = .ok g →
    ∀ k, (g k).maxElements = (f k).maxElements := by
  induction ls with
  | nil => intro f g hf e; cases e; exact fun _ => rfl
  | cons layer rest ih =>
    intro f g hf e
    unfold decayLayers at e
    rw [R.bind_eq_ok] at e
    obtain ⟨q, e1, e2⟩ := e
    have hb := (buffer_decay (hf layer) e1).1
    have := ih _ g (by
      intro l
      by_cases h : l = layer
      · subst h; rw [upd_same]; exact hb
      · rw [upd_other _ _ h]; exact hf l) e2
    intro k
    rw [this k]
    by_cases h : k = layer
    · subst h; rw [upd_same]; exact decay_size (hf k) e1
    · rw [upd_other _ _ h]

theorem Step.sizes (h : Good n s) (st : Step n s s') : SameSizes s s' := by
  cases st with
  | conceptualize t now r s' hk e =>
    obtain ⟨st, q, ht, idx, k, rfl, _⟩ := conceptualized_concepts (conceptualize_cases h.mem e).1
    exact ⟨conceptualized_capacity (conceptualize_cases h.mem e).1, rfl, fun _ => rfl⟩
  | concept i c st => exact ⟨rfl, rfl, fun _ => rfl⟩
  | pushBelief e p b s' he ht hc hp hp1 hn hpush =>
    obtain ⟨q, st, rfl⟩ := pushBelief_shape hpush
    refine ⟨rfl, ?_, fun _ => rfl⟩
    unfold pushBeliefEvent at hpush
    simp only [M.bind_ok] at hpush
    obtain ⟨s1, s2, e1, hpush⟩ := hpush
    obtain ⟨rfl, rfl⟩ := M.get_ok.1 e1
    obtain ⟨⟨fb, q1⟩, s3, e2, hpush⟩ := hpush
    obtain ⟨e3, rfl⟩ := M.lift_ok.1 e2
    have := push_size h.beliefs.queue h.beliefs.pos e3
    dsimp only at hpush
    cases hfb : fb.addedItem
    all_goals
      rw [hfb] at hpush
      dsimp only at hpush
      rw [M.bind_ok] at hpush
      obtain ⟨_, s4, e4, e5⟩ := hpush
      have f3 := M.set_ok.1 e4
      obtain ⟨_, f4⟩ := M.pure_ok.1 e5
      rw [f4] at f3
      have := congrArg (fun s => s.cycling_belief_events.maxElements) f3
      dsimp only at this
      rw [← this]
      assumption
  | pushGoal e p layer b s' he ht hti hc hp hp1 hl hn hpush =>
    obtain ⟨q, st, rfl⟩ := pushGoal_shape hpush
    refine ⟨rfl, rfl, ?_⟩
    unfold pushGoalEvent at hpush
    simp only [M.bind_ok] at hpush
    obtain ⟨s1, s2, e1, hpush⟩ := hpush
    obtain ⟨rfl, rfl⟩ := M.get_ok.1 e1
    obtain ⟨⟨fb, q1⟩, s3, e2, hpush⟩ := hpush
    obtain ⟨e3, rfl⟩ := M.lift_ok.1 e2
    have hsz := push_size (h.goals layer).queue (h.goals layer).pos e3
    dsimp only at hpush
    have : q = upd s.cycling_goal_events layer q1 := by
      cases hfb : fb.addedItem
      all_goals
        rw [hfb] at hpush
        dsimp only at hpush
        rw [M.bind_ok] at hpush
        obtain ⟨_, s4, e4, e5⟩ := hpush
        have f3 := M.set_ok.1 e4
        obtain ⟨_, f4⟩ := M.pure_ok.1 e5
        rw [f4] at f3
        exact (congrArg (fun s => s.cycling_goal_events) f3).symm
    intro l
    show (q l).maxElements = _
    rw [this]
    by_cases hll : l = layer
    · subst hll; rw [upd_same]; exact hsz
    · rw [upd_other _ _ hll]
  | popBelief s' e =>
    obtain ⟨q, p, ev, k, rfl⟩ := popBelief_shape e
    refine ⟨rfl, ?_, fun _ => rfl⟩
    unfold popBeliefEvents at e
    simp only [M.bind_ok] at e
    obtain ⟨s1, s2, e1, e⟩ := e
    obtain ⟨rfl, rfl⟩ := M.get_ok.1 e1
    obtain ⟨⟨out, q1⟩, s3, e2, e⟩ := e
    obtain ⟨e3, rfl⟩ := M.lift_ok.1 e2
    have hsz := popMax_size h.beliefs.queue e3
    show q.maxElements = _
    have : q = q1 := by
      cases out with
      | none =>
        dsimp only at e
        rw [M.bind_ok] at e
        obtain ⟨_, s4, e4, e5⟩ := e
        obtain ⟨_, f3⟩ := M.lift_ok.1 e4
        have f4 := M.set_ok.1 e5
        exact (congrArg (fun s => s.cycling_belief_events) f4).symm
      | some item => exact (congrArg (fun s => s.cycling_belief_events) (M.set_ok.1 e)).symm
    rw [this]; exact hsz
  | popGoal layer s' e =>
    obtain ⟨q, p, ev, k, rfl⟩ := popGoal_shape e
    refine ⟨rfl, rfl, ?_⟩
    unfold popGoalEvents at e
    simp only [M.bind_ok] at e
    obtain ⟨s1, s2, e1, e⟩ := e
    obtain ⟨rfl, rfl⟩ := M.get_ok.1 e1
    obtain ⟨⟨out, q1⟩, s3, e2, e⟩ := e
    obtain ⟨e3, rfl⟩ := M.lift_ok.1 e2
    have hsz := popMax_size (h.goals layer).queue e3
    have : q = upd s.cycling_goal_events layer q1 := by
      cases out with
      | none =>
        dsimp only at e
        rw [M.bind_ok] at e
        obtain ⟨_, s4, e4, e5⟩ := e
        obtain ⟨_, f3⟩ := M.lift_ok.1 e4
        have f4 := M.set_ok.1 e5
        exact (congrArg (fun s => s.cycling_goal_events) f4).symm
      | some item => exact (congrArg (fun s => s.cycling_goal_events) (M.set_ok.1 e)).symm
    intro l
    show (q l).maxElements = _
    rw [this]
    by_cases hll : l = layer
    · subst hll; rw [upd_same]; exact hsz
    · rw [upd_other _ _ hll]
  | clearGoals => exact ⟨rfl, rfl, fun _ => rfl⟩
  | forget now s' e =>
    unfold Cycle_RelativeForgetting at e
    simp only [M.bind_ok] at e
    obtain ⟨s1, s2, e1, e⟩ := e
    obtain ⟨rfl, rfl⟩ := M.get_ok.1 e1
    obtain ⟨bq, s3, e1, e⟩ := e
    obtain ⟨f1, rfl⟩ := M.lift_ok.1 e1
    obtain ⟨gq, s3, e2, e⟩ := e
    obtain ⟨f2, rfl⟩ := M.lift_ok.1 e2
    obtain ⟨q1, s3, e3, e⟩ := e
    obtain ⟨f3, rfl⟩ := M.lift_ok.1 e3
    obtain ⟨q, s3, e4, e⟩ := e
    obtain ⟨f4, rfl⟩ := M.lift_ok.1 e4
    have f := M.set_ok.1 e
    subst f
    refine ⟨?_, decay_size h.beliefs f1, decayLayers_size _ _ _ h.goals f2⟩
    have hu : ∀ c, ∃ x, Usage_usefulness (s.concept_storage c).usage now = .ok x := by
      intro c
      obtain ⟨x, a, _⟩ := C45_range (s.concept_storage c).usage now (h.concepts c).useCount
      exact ⟨x, a⟩
    choose u hu1 using hu
    have e5 := PriorityQueue.setPriorities_overwrite _ (fun item => u item.address) s.concepts q1
      (fun x _ p hp => by rw [hu1] at hp; cases hp; rfl) f3
    subst e5
    obtain ⟨q2, e6, _, hm, _⟩ := PriorityQueue.rebuild_spec (q := s.concepts.overwrite fun item => u item.address)
      h.mem.queue.bound (by rw [PriorityQueue.overwrite_slots]; exact h.mem.queue.nodup)
    rw [f4] at e6
    cases e6
    exact hm
  | remember => exact ⟨rfl, rfl, fun _ => rfl⟩
  | internal => exact ⟨rfl, rfl, fun _ => rfl⟩
  | decision => exact ⟨rfl, rfl, fun _ => rfl⟩

/-! ### Runs -/

theorem Run.good (h : Good n s0) {t x : Nat} (r : Run n s0 t x s) : Good n s := by
  induction r with
  | refl => exact h
  | step _ st ih => exact st.good ih
  | execute k action args _ _ _ _ ih => exact ih.congr rfl ih.stdin
  | input term type truth offset _ ih => exact ih.input _ _ _ _
  | answer lines _ _ ih => exact ih.congr rfl ih.stdin
  | tick _ ih => exact ih.congr rfl ih.stdin

theorem Run.sizes (h : Good n s0) {t x : Nat} (r : Run n s0 t x s) : SameSizes s0 s := by
  induction r with
  | refl => exact .refl _
  | step r st ih => exact ih.trans (st.sizes (r.good h))
  | execute k action args _ _ _ _ ih => exact ⟨ih.1, ih.2, ih.3⟩
  | input term type truth offset _ ih => exact ⟨ih.1, ih.2, ih.3⟩
  | answer lines _ _ ih => exact ⟨ih.1, ih.2, ih.3⟩
  | tick _ ih => exact ⟨ih.1, ih.2, ih.3⟩

omit [Arith] in
theorem executions_append (a b : List Output) : executions (a ++ b) = executions a + executions b := by
  simp [executions, List.filter_append]

omit [Arith] in
theorem executions_answers (l : List Output) (h : ∀ o ∈ l, o.IsAnswer) : executions l = 0 := by
  unfold executions
  rw [List.length_eq_zero_iff, List.filter_eq_nil_iff]
  intro o ho
  have := h o ho
  cases o <;> simp_all [Output.IsAnswer]

/-- The clock counts the ticks, the printed lines the executions, and the settings are the same. -/
theorem Run.effect (h : Good n s0) {t x : Nat} (r : Run n s0 t x s) :
    s.currentTime = s0.currentTime + t ∧ (∃ new, s.output = s0.output ++ new ∧ executions new = x) ∧
    s.operations = s0.operations ∧ s.op_k = s0.op_k ∧ s.initialized = s0.initialized ∧
    s.RESTRICTED_CONCEPT_CREATION = s0.RESTRICTED_CONCEPT_CREATION ∧
    s.CONDITION_THRESHOLD = s0.CONDITION_THRESHOLD ∧ s.DECISION_THRESHOLD = s0.DECISION_THRESHOLD ∧
    s.ANTICIPATION_THRESHOLD = s0.ANTICIPATION_THRESHOLD ∧ s.ANTICIPATION_CONFIDENCE = s0.ANTICIPATION_CONFIDENCE ∧
    s.MOTOR_BABBLING_CHANCE = s0.MOTOR_BABBLING_CHANCE ∧ s.BABBLING_OPS = s0.BABBLING_OPS ∧
    s.QUESTION_PRIMING = s0.QUESTION_PRIMING ∧ s.similarity_distance = s0.similarity_distance := by
  induction r with
  | refl => exact ⟨by simp, ⟨[], by simp, rfl⟩, rfl, rfl, rfl, rfl, rfl, rfl, rfl, rfl, rfl, rfl, rfl, rfl⟩
  | step r st ih =>
    obtain ⟨a, ⟨new, b, c⟩, d⟩ := ih
    obtain ⟨f, o⟩ := st.frame (r.good h)
    refine ⟨by rw [f.currentTime, a], ?_, by
      rw [f.operations, f.op_k, f.initialized, f.RESTRICTED_CONCEPT_CREATION, f.CONDITION_THRESHOLD,
        f.DECISION_THRESHOLD, f.ANTICIPATION_THRESHOLD, f.ANTICIPATION_CONFIDENCE, f.MOTOR_BABBLING_CHANCE,
        f.BABBLING_OPS, f.QUESTION_PRIMING, f.similarity_distance]
      exact d⟩
    cases o with
    | none e => exact ⟨new, by rw [e, b], c⟩
    | decision dd imp _ e =>
      refine ⟨new ++ [.decision dd imp], by rw [e, b, List.append_assoc], ?_⟩
      rw [executions_append, c]
      rfl
  | execute k action args _ _ _ _ ih =>
    obtain ⟨a, ⟨new, b, c⟩, d⟩ := ih
    refine ⟨a, ⟨new ++ [.executed _ args], by dsimp only; rw [b, List.append_assoc], ?_⟩, d⟩
    rw [executions_append, c]
    rfl
  | input term type truth offset _ ih => exact ih
  | answer lines _ hl ih =>
    obtain ⟨a, ⟨new, b, c⟩, d⟩ := ih
    refine ⟨a, ⟨new ++ lines, by dsimp only; rw [b, List.append_assoc], ?_⟩, d⟩
    rw [executions_append, c, executions_answers lines hl, Nat.add_zero]
  | tick _ ih =>
    obtain ⟨a, b, d⟩ := ih
    refine ⟨?_, b, d⟩
    dsimp only
    rw [a]
    push_cast
    ring

/-! ### Effects of calls -/

omit [Arith] in
theorem SameMemory.refl (s : Sys) : SameMemory s s := ⟨rfl, rfl, rfl, rfl, rfl, rfl, rfl, rfl, rfl⟩

omit [Arith] in
theorem SameMemory.trans {a b c : Sys} (h : SameMemory a b) (h' : SameMemory b c) : SameMemory a c :=
  ⟨h'.1.trans h.1, h'.2.trans h.2, h'.3.trans h.3, h'.4.trans h.4, h'.5.trans h.5, h'.6.trans h.6, h'.7.trans h.7,
    h'.8.trans h.8, h'.9.trans h.9⟩

omit [Arith] in
theorem SameMemory.sizes (h : SameMemory s s') : SameSizes s s' :=
  ⟨by rw [h.concepts], by rw [h.cycling_belief_events], fun l => by rw [h.cycling_goal_events]⟩

theorem EmptyMemory.same (h : EmptyMemory z s) (h' : SameMemory s s') : EmptyMemory z s' :=
  ⟨h'.concepts.trans h.1, h'.concept_storage.trans h.2, h'.cycling_belief_events.trans h.3,
    h'.cycling_belief_event_storage.trans h.4, h'.cycling_goal_events.trans h.5, h'.cycling_goal_event_storage.trans h.6⟩

theorem init_empty {s0 : Sys} (e : NAR_INIT_sizes z.memory z.atoms s0 = .ok (n, s)) : EmptyMemory z s := by
  obtain ⟨_, _, _, _, _, rfl⟩ := init_shape e
  exact ⟨rfl, rfl, rfl, rfl, rfl, rfl⟩

omit [Arith] in
theorem addOperation_memory {name : CStr} {f : Term → Feedback} (e : NAR_AddOperation n name f s = .ok (n', s')) :
    SameMemory s s' ∧ s'.currentTime = s.currentTime ∧ s'.output = s.output := by
  unfold NAR_AddOperation at e
  rw [R.bind_eq_ok] at e
  obtain ⟨_, _, e⟩ := e
  rw [R.bind_eq_ok] at e
  obtain ⟨⟨t, n1⟩, e1, e⟩ := e
  dsimp only at e
  rw [R.bind_eq_ok] at e
  obtain ⟨⟨_, s1⟩, e2, e⟩ := e
  cases e
  unfold registerOperation at e2
  simp only [M.bind_ok] at e2
  obtain ⟨_, s2, e3, e2⟩ := e2
  obtain ⟨_, f3⟩ := M.lift_ok.1 e3
  obtain ⟨s3, s4, e4, e2⟩ := e2
  obtain ⟨f4, f5⟩ := M.get_ok.1 e4
  obtain ⟨_, s5, e5, e2⟩ := e2
  obtain ⟨_, f6⟩ := M.lift_ok.1 e5
  have f7 := M.set_ok.1 e2
  subst f3 f4 f5 f6 f7
  exact ⟨⟨rfl, rfl, rfl, rfl, rfl, rfl, rfl, rfl, rfl⟩, rfl, rfl⟩

omit [Arith] in
theorem addNops_memory (l : List CStr) : ∀ {n : Narsese} {s : Sys}, addNops l n s = .ok (n', s') →
    SameMemory s s' ∧ s'.currentTime = s.currentTime := by
  induction l with
  | nil => intro n s e; cases e; exact ⟨.refl _, rfl⟩
  | cons a l ih =>
    intro n s e
    unfold addNops at e
    rw [R.bind_eq_ok] at e
    obtain ⟨⟨n1, s1⟩, e1, e⟩ := e
    obtain ⟨h1, h2, _⟩ := addOperation_memory e1
    obtain ⟨h3, h4⟩ := ih e
    exact ⟨h1.trans h3, h4.trans h2⟩

theorem shellInit_empty {s0 : Sys} (e : Shell_NARInit_sizes z.memory z.atoms s0 = .ok (n, s)) : EmptyMemory z s := by
  unfold Shell_NARInit_sizes at e
  rw [R.bind_eq_ok] at e
  obtain ⟨⟨n1, s1⟩, e1, e⟩ := e
  exact (init_empty e1).same (addNops_memory _ e).1

theorem Effect.settings (hx : n.Extends n') (hm : SameMemory s s') (hg : Good n' s') : Effect z n s n' s' :=
  .run s' 0 0 hx hm hg .refl

theorem Effect.between {b k : Nat} (hx : n.Extends n') (hg : Good n s) (h : Between n' s b k s') : Effect z n s n' s' := by
  obtain ⟨_, t, x, hr, _⟩ := h
  exact .run s t x hx (.refl _) (hg.extends hx) hr

theorem command_effect (hz : z.Ok) {fuel : Fuel} {c : Command} (hg : Good n s) (hn : n.Ok) (hl : c.Legal n s)
    (e : c.run z.memory z.atoms fuel n s = .ok (n', s')) : Effect z n s n' s' := by
  have hg' := (command_good hz hg hn hl e).1
  cases c with
  | nothing => cases e; exact .settings (.refl _) (.refl _) hg'
  | report r => obtain ⟨rfl, rfl⟩ := report_same e; exact .settings (.refl _) (.refl _) hg'
  | exit => cases e; exact .settings (.refl _) (.refl _) hg'
  | cycles k =>
    unfold Command.run at e
    dsimp only at e
    rw [R.bind_eq_ok] at e
    obtain ⟨⟨_, s1⟩, e1, e⟩ := e
    cases e
    exact .between (.refl _) hg (cycles_between fuel k hg e1)
  | reset => exact .restart (shellInit_empty e)
  | restrictedConceptCreation b => cases e; exact .settings (.refl _) ⟨rfl, rfl, rfl, rfl, rfl, rfl, rfl, rfl, rfl⟩ hg'
  | parameter p v => cases e; exact .settings (.refl _) (by cases p <;> exact ⟨rfl, rfl, rfl, rfl, rfl, rfl, rfl, rfl, rfl⟩) hg'
  | babblingOps k => cases e; exact .settings (.refl _) ⟨rfl, rfl, rfl, rfl, rfl, rfl, rfl, rfl, rfl⟩ hg'
  | currentTime t => cases e; exact .settings (.refl _) ⟨rfl, rfl, rfl, rfl, rfl, rfl, rfl, rfl, rfl⟩ hg'
  | stampId b => cases e; exact .settings (.refl _) ⟨rfl, rfl, rfl, rfl, rfl, rfl, rfl, rfl, rfl⟩ hg'
  | stampImport ids => cases e; exact .settings (.refl _) ⟨rfl, rfl, rfl, rfl, rfl, rfl, rfl, rfl, rfl⟩ hg'
  | setValue v g name =>
    unfold Command.run at e
    dsimp only at e
    rw [R.bind_eq_ok] at e
    obtain ⟨n1, e1, e⟩ := e
    cases e
    exact .settings (setValue_extends hn e1).2 (.refl _) hg'
  | space g name =>
    unfold Command.run at e
    dsimp only at e
    rw [R.bind_eq_ok] at e
    obtain ⟨_, _, e⟩ := e
    rw [R.bind_eq_ok] at e
    obtain ⟨n1, e1, e⟩ := e
    cases e
    exact .settings (setSpace_extends _ hn e1).2 (.refl _) hg'
  | setOpName k name =>
    unfold Command.run Shell_setOpName at e
    dsimp only at e
    rw [R.bind_eq_ok] at e
    obtain ⟨_, _, e⟩ := e
    rw [R.bind_eq_ok] at e
    obtain ⟨_, _, e⟩ := e
    rw [R.bind_eq_ok] at e
    obtain ⟨⟨t, n1⟩, e1, e⟩ := e
    cases e
    exact .settings (atomicTerm_extends hn e1).2.1 ⟨rfl, rfl, rfl, rfl, rfl, rfl, rfl, rfl, rfl⟩ hg'
  | setOpArg k j text =>
    unfold Command.run Shell_setOpArg at e
    dsimp only at e
    rw [R.bind_eq_ok] at e
    obtain ⟨_, _, e⟩ := e
    rw [R.bind_eq_ok] at e
    obtain ⟨_, _, e⟩ := e
    rw [R.bind_eq_ok] at e
    obtain ⟨⟨t, n1⟩, e1, e⟩ := e
    cases e
    exact .settings (Narsese.term_extends hn hg.base e1).2.1 ⟨rfl, rfl, rfl, rfl, rfl, rfl, rfl, rfl, rfl⟩ hg'
  | setOpStdin k =>
    unfold Command.run at e
    dsimp only at e
    rw [R.bind_eq_ok] at e
    obtain ⟨s1, e1, e⟩ := e
    cases e
    unfold Shell_setOpStdin at e1
    split at e1
    · cases e1; exact .settings (.refl _) ⟨rfl, rfl, rfl, rfl, rfl, rfl, rfl, rfl, rfl⟩ hg'
    · cases e1
  | query threshold text =>
    unfold Command.run at e
    dsimp only at e
    rw [R.bind_eq_ok] at e
    obtain ⟨_, _, e⟩ := e
    obtain ⟨_, hx, _, _, h2⟩ := addNarsese_between fuel hg hn hl e
    exact .between hx hg h2
  | concurrent => cases e; exact .settings (.refl _) ⟨rfl, rfl, rfl, rfl, rfl, rfl, rfl, rfl, rfl⟩ hg'
  | narsese text =>
    obtain ⟨_, hx, _, _, h2⟩ := addNarsese_between fuel hg hn hl e
    exact .between hx hg h2

theorem call_effect (hz : z.Ok) {fuel : Fuel} {c : Call} (hg : Good n s) (hn : n.Ok) (hl : c.Legal n s)
    (e : c.run z fuel n s = .ok (n', s')) : Effect z n s n' s' := by
  cases c with
  | init => exact .restart (init_empty e)
  | addInput t ty tr eternal o =>
    unfold Call.run at e
    dsimp only at e
    rw [R.bind_eq_ok] at e
    obtain ⟨⟨_, s1⟩, e1, e⟩ := e
    cases e
    exact .between (.refl _) hg (addInput_between fuel hl.1 ty hl.2 eternal o hg e1)
  | addOperation name f =>
    obtain ⟨h1, _, h2⟩ := addOperation_good hg hn hl e
    exact .settings h2 (addOperation_memory e).1 h1
  | addNarsese text query threshold =>
    obtain ⟨_, hx, _, _, h2⟩ := addNarsese_between fuel hg hn hl e
    exact .between hx hg h2
  | command c => exact command_effect hz hg hn hl e

theorem EmptyMemory.sizes (h : EmptyMemory z s) : s.concepts.maxElements = z.memory.concepts ∧
    s.cycling_belief_events.maxElements = z.memory.beliefEvents ∧
    ∀ l, (s.cycling_goal_events l).maxElements = z.memory.goalEvents := by
  rw [h.concepts, h.cycling_belief_events, h.cycling_goal_events]
  exact ⟨rfl, rfl, fun _ => rfl⟩

/-- The sizes of the arrays never change. -/
theorem Reachable.sizes (hz : z.Ok) (h : Reachable z n s) : s.concepts.maxElements = z.memory.concepts ∧
    s.cycling_belief_events.maxElements = z.memory.beliefEvents ∧
    ∀ l, (s.cycling_goal_events l).maxElements = z.memory.goalEvents := by
  induction h with
  | start _ e => exact (init_empty e).sizes
  | call fuel c hr hl e ih =>
    cases call_effect hz (hr.good hz).1 (hr.good hz).2 hl e with
    | restart h => exact h.sizes
    | run s1 t x _ hm hg hr =>
      have := hm.sizes.trans (hr.sizes hg)
      rw [this.concepts, this.beliefs]
      exact ⟨ih.1, ih.2.1, fun l => by rw [this.goals]; exact ih.2.2 l⟩

end ONA

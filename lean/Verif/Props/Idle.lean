import Verif.Proofs.Idle
import Verif.Props.System
/-
C73: without goals the system does not act. No decision is announced and no operation is executed, not even at random
(motor babbling), as long as there are no goals and none is told; and no goal appears by itself.
-/
namespace ONA

variable [Arith] {z : Sizes} {n n' : Narsese} {s s' : Sys}

omit [Arith] in
theorem noGoals_iff : s.NoGoals ↔ ∀ l, (s.cycling_goal_events l).itemsAmount = 0 := by
  unfold Sys.NoGoals
  constructor
  · intro h l
    have := h l
    rw [← (s.cycling_goal_events l).contents_length, this]
    rfl
  · intro h l
    exact List.eq_nil_of_length_eq_zero (by rw [PriorityQueue.contents_length]; exact h l)

/-- No goals, and only answers were printed. -/
def QuietStep (s s' : Sys) : Prop := s'.NoGoals ∧ ∃ new, s'.output = s.output ++ new ∧ ∀ o ∈ new, o.IsAnswer

omit [Arith] in
theorem QuietStep.of_same (h : s.NoGoals) (hq : s'.cycling_goal_events = s.cycling_goal_events) (ho : s'.output = s.output) :
    QuietStep s s' :=
  ⟨fun l => by rw [hq]; exact h l, [], by rw [ho, List.append_nil], fun o ho => by cases ho⟩

omit [Arith] in
theorem QuietStep.of_idle (h : Idle s.output s') : QuietStep s s' :=
  ⟨noGoals_iff.2 h.goals, [], by rw [h.output, List.append_nil], fun o ho => by cases ho⟩

theorem Idle.of_good (hg : Good n s) (h : s.NoGoals) : Idle s.output s :=
  ⟨rfl, noGoals_iff.1 h, fun c => (hg.concepts c).belief_type⟩

omit [Arith] in
theorem addNops_output (l : List CStr) : ∀ {n : Narsese} {s : Sys}, addNops l n s = .ok (n', s') → s'.output = s.output := by
  induction l with
  | nil => intro n s e; cases e; rfl
  | cons a l ih =>
    intro n s e
    unfold addNops at e
    rw [R.bind_eq_ok] at e
    obtain ⟨⟨n1, s1⟩, e1, e⟩ := e
    exact (ih e).trans (addOperation_memory e1).2.2

theorem init_quiet (e : NAR_INIT_sizes z.memory z.atoms s = .ok (n', s')) : QuietStep s s' := by
  obtain ⟨ht, idx, _, _, _, rfl⟩ := init_shape e
  exact ⟨noGoals_iff.2 fun l => rfl, [], by simp, fun o ho => by cases ho⟩

theorem answerQuestion_goals (q : Question) (u : Unit) (e : answerQuestion n q s = .ok (u, s')) :
    s'.cycling_goal_events = s.cycling_goal_events := by
  have key : WP (answerQuestion n q) (fun _ s' => s'.cycling_goal_events = s.cycling_goal_events) s := by
    unfold answerQuestion
    refine WP.get (WP.bind (WP.lift fun a ha => ?_))
    refine WP.bind (WP.modify ?_)
    have last : ∀ {s1 : Sys}, s1.cycling_goal_events = s.cycling_goal_events →
        WP (if !q.queryCommand then
          emit (printedAnswer a.best_stamp a.best_term a.best_truth a.answerOccurrenceTime a.answerCreationTime) else pure ())
        (fun _ s' => s'.cycling_goal_events = s.cycling_goal_events) s1 := by
      intro s1 h1
      refine WP.ite (fun _ => ?_) fun _ => WP.pure h1
      unfold emit
      exact WP.modify h1
    cases hb : a.best_belief_concept with
    | none => exact last rfl
    | some c =>
      refine WP.ite (fun _ => ?_) fun _ => last rfl
      unfold modifyConcept
      exact WP.bind (WP.modify (last rfl))
  exact key _ _ e

theorem addNarsese_quiet (hg : Good n s) (h : s.NoGoals) {fuel : Fuel} {text : CStr} {query : Bool} {threshold : ℚ}
    (ht : ¬ GoalText n text) (e : NAR_AddInputNarsese2 n fuel text query threshold s = .ok (n', s')) : QuietStep s s' := by
  unfold NAR_AddInputNarsese2 at e
  rw [R.bind_eq_ok] at e
  obtain ⟨⟨sentence, n1⟩, e1, e⟩ := e
  dsimp only at e
  rw [R.bind_eq_ok] at e
  obtain ⟨⟨u, s1⟩, e2, e⟩ := e
  cases e
  by_cases hq : sentence.punctuation = '?'
  · rw [if_pos hq] at e2
    obtain ⟨_, h2⟩ := answerQuestion_quiet _ u e2
    exact ⟨fun l => by rw [answerQuestion_goals _ u e2]; exact h l, h2⟩
  · rw [if_neg hq] at e2
    have hp : ¬ sentence.punctuation = '!' := fun hp => ht ⟨sentence, _, e1, hp⟩
    refine .of_idle ?_
    have key : Keeps (Idle s.output) (inputSentence n' fuel sentence (RuleTable_Reduce n' sentence.term)) fun _ => True := by
      unfold inputSentence
      refine Keeps.bind_lift fun _ _ => Keeps.bind_lift fun _ _ => ?_
      unfold NAR_AddInput
      refine Keeps.seq (Idle.addInput _ _ _ _ (by rw [if_neg hp]; exact fun h => by cases h) _ _ _) fun _ => Keeps.pure trivial
    exact (key _ _ _ (Idle.of_good hg h) e2).1

theorem command_quiet (hg : Good n s) (h : s.NoGoals) {fuel : Fuel} {c : Command}
    (ht : ¬ (Call.command c).GivesGoal n) (e : c.run z.memory z.atoms fuel n s = .ok (n', s')) : QuietStep s s' := by
  cases c with
  | nothing => cases e; exact .of_same h rfl rfl
  | report r => obtain ⟨rfl, rfl⟩ := report_same e; exact .of_same h rfl rfl
  | exit => cases e; exact .of_same h rfl rfl
  | cycles k =>
    unfold Command.run at e
    dsimp only at e
    rw [R.bind_eq_ok] at e
    obtain ⟨⟨_, s1⟩, e1, e⟩ := e
    cases e
    exact .of_idle (Idle.cycles n _ _ k _ _ _ (Idle.of_good hg h) e1).1
  | reset =>
    unfold Command.run Shell_NARInit_sizes at e
    dsimp only at e
    rw [R.bind_eq_ok] at e
    obtain ⟨⟨n1, s1⟩, e1, e⟩ := e
    obtain ⟨h1, new, h2, h3⟩ := init_quiet e1
    refine ⟨fun l => ?_, new, ?_, h3⟩
    · rw [(addNops_memory _ e).1.cycling_goal_events]; exact h1 l
    · rw [addNops_output _ e]; exact h2
  | restrictedConceptCreation b => cases e; exact .of_same h rfl rfl
  | parameter p v => cases e; cases p <;> exact .of_same h rfl rfl
  | babblingOps k => cases e; exact .of_same h rfl rfl
  | currentTime t => cases e; exact .of_same h rfl rfl
  | stampId b => cases e; exact .of_same h rfl rfl
  | stampImport ids => cases e; exact .of_same h rfl rfl
  | setValue v g name =>
    unfold Command.run at e
    dsimp only at e
    rw [R.bind_eq_ok] at e
    obtain ⟨n1, e1, e⟩ := e
    cases e
    exact .of_same h rfl rfl
  | space g name =>
    unfold Command.run at e
    dsimp only at e
    rw [R.bind_eq_ok] at e
    obtain ⟨_, _, e⟩ := e
    rw [R.bind_eq_ok] at e
    obtain ⟨n1, e1, e⟩ := e
    cases e
    exact .of_same h rfl rfl
  | setOpName k name =>
    unfold Command.run Shell_setOpName at e
    dsimp only at e
    rw [R.bind_eq_ok] at e
    obtain ⟨_, _, e⟩ := e
    rw [R.bind_eq_ok] at e
    obtain ⟨_, _, e⟩ := e
    rw [R.bind_eq_ok] at e
    obtain ⟨⟨t, n1⟩, e1, e⟩ := e
    cases e
    exact .of_same h rfl rfl
  | setOpArg k j text =>
    unfold Command.run Shell_setOpArg at e
    dsimp only at e
    rw [R.bind_eq_ok] at e
    obtain ⟨_, _, e⟩ := e
    rw [R.bind_eq_ok] at e
    obtain ⟨_, _, e⟩ := e
    rw [R.bind_eq_ok] at e
    obtain ⟨⟨t, n1⟩, e1, e⟩ := e
    cases e
    exact .of_same h rfl rfl
  | setOpStdin k =>
    unfold Command.run at e
    dsimp only at e
    rw [R.bind_eq_ok] at e
    obtain ⟨s1, e1, e⟩ := e
    cases e
    unfold Shell_setOpStdin at e1
    split at e1
    · cases e1; exact .of_same h rfl rfl
    · cases e1
  | query threshold text =>
    unfold Command.run at e
    dsimp only at e
    rw [R.bind_eq_ok] at e
    obtain ⟨_, _, e⟩ := e
    exact addNarsese_quiet hg h ht e
  | concurrent => cases e; exact .of_same h rfl rfl
  | narsese text => exact addNarsese_quiet hg h ht e

/-- **C73 (start).** After `NAR_INIT` there are no goals. -/
theorem C73_start (e : NAR_INIT_sizes z.memory z.atoms s = .ok (n', s')) : s'.NoGoals := (init_quiet e).1

/-- **C73.** If there are no goals, then a call which does not tell one leaves the goal buffers empty, and prints nothing but
answers: no decision, and no executed operation. -/
theorem C73_call (hz : z.Ok) (h : Reachable z n s) (hs : s.NoGoals) (fuel : Fuel) (c : Call) (hc : ¬ c.GivesGoal n)
    (e : c.run z fuel n s = .ok (n', s')) :
    s'.NoGoals ∧ ∃ new, s'.output = s.output ++ new ∧ ∀ o ∈ new, o.IsAnswer := by
  have hg := (h.good hz).1
  cases c with
  | init => exact init_quiet e
  | addInput t ty tr eternal o =>
    unfold Call.run at e
    dsimp only at e
    rw [R.bind_eq_ok] at e
    obtain ⟨⟨_, s1⟩, e1, e⟩ := e
    cases e
    exact QuietStep.of_idle (Idle.addInput n _ _ t hc tr eternal o _ _ _ (Idle.of_good hg hs) e1).1
  | addOperation name f =>
    exact QuietStep.of_same hs (addOperation_memory e).1.cycling_goal_events (addOperation_memory e).2.2
  | addNarsese text query threshold => exact addNarsese_quiet hg hs hc e
  | command c => exact command_quiet hg hs hc e

theorem WithoutGoals.facts (hz : z.Ok) {log : List Output} (h : WithoutGoals z n s log) :
    Reachable z n s ∧ s.NoGoals ∧ ∀ o ∈ log, o.IsAnswer := by
  induction h with
  | start h0 e => exact ⟨.start h0 e, C73_start e, fun o ho => by cases ho⟩
  | call fuel c _ hl hc e ho ih =>
    obtain ⟨h1, h2, h3⟩ := ih
    obtain ⟨h4, new, h5, h6⟩ := C73_call hz h1 h2 fuel c hc e
    refine ⟨.call fuel c h1 hl e, h4, fun o hm => ?_⟩
    rw [h5] at ho
    rcases List.mem_append.1 hm with hm | hm
    · exact h3 o hm
    · exact h6 o (by rw [List.append_cancel_left ho]; exact hm)

/-- **C73 (history).** A system which is never told a goal never acts: all it prints are answers. -/
theorem C73_never (hz : z.Ok) {log : List Output} (h : WithoutGoals z n s log) : ∀ o ∈ log, o.IsAnswer := (h.facts hz).2.2

end ONA

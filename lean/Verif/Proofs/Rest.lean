import Verif.Proofs.RunFacts
/-
What holds after every call because forgetting is the last thing done in a cycle.
-/
namespace ONA
variable [Arith] {n n' : Narsese} {z : Sizes} {s s' : Sys} {P : Sys → Prop}

/-- A property of the state after a cycle: forgetting, the last thing done in a cycle, establishes it, and it depends only
on the buffers, the concept queue and the use of the concepts. -/
structure Resting (P : Sys → Prop) : Prop where
  forgets : ∀ {n : Narsese} {s : Sys} (now : Int), Good n s → WP (Cycle_RelativeForgetting now) (fun _ s' => P s') s
  same : ∀ {s s' : Sys}, P s → s'.cycling_belief_events = s.cycling_belief_events →
    s'.cycling_goal_events = s.cycling_goal_events → s'.concepts = s.concepts →
    (∀ c, (s'.concept_storage c).usage = (s.concept_storage c).usage) → P s'

/-- What questions leave alone: only the use of the concepts changes, upwards. -/
structure OnlyUsed (s s' : Sys) : Prop where
  beliefs : s'.cycling_belief_events = s.cycling_belief_events
  goals : s'.cycling_goal_events = s.cycling_goal_events
  concepts : s'.concepts = s.concepts
  usage : ∀ c, (s'.concept_storage c).usage = (s.concept_storage c).usage ∨
    (s.concept_storage c).usage.useCount < (s'.concept_storage c).usage.useCount

/-- A property of states in which the system is not busy: moreover, questions do not disturb it. -/
structure Restful (z : Sizes) (P : Sys → Prop) : Prop extends Resting P where
  empty : ∀ {s : Sys}, EmptyMemory z s → P s
  asked : ∀ {s s' : Sys}, P s → OnlyUsed s s' → P s'

/-- Forgetting is the last thing done in a cycle, at the time the cycle began. -/
theorem cycle_ends (chain depth : Nat) (hg : Good n s) (hf : ∀ s1, Good n s1 →
      WP (Cycle_RelativeForgetting s.currentTime) (fun _ s' => P s') s1) :
    WP (oneCycle n chain (addInputBeliefNested n chain depth))
      (fun _ s' => Good n s' ∧ ∃ s1, P s1 ∧ s' = { s1 with currentTime := s1.currentTime + 1 }) s := by
  have hfam := (between_families n s).family 0
  have hclo := hfam.closed 0
  unfold oneCycle
  refine WP.get (WP.bind (WP.mono (Q := fun _ s' => Good n s' ∧ P s') ?_ fun _ s1 h1 => WP.modify ?_))
  swap
  · exact ⟨h1.1.congr rfl h1.1.stdin, s1, h1.2, rfl⟩
  unfold Cycle_Perform
  refine WP.bind ?_
  intro _ s1 e
  have hB := hclo.beliefsKnown
  have h1 : Between n s 0 0 s1 ∧ BeliefsKnown n s1 := ⟨hclo.step (Between.start hg) (.popBelief s1 e), popBelief_known hg e⟩
  refine WP.bind (((hB.processBeliefs And.right _ _).wp h1).mono fun _ s2 h2 => ?_)
  refine WP.bind (((hB.anticipate _ _ _ _).wp h2.1).mono fun _ s3 h3 => ?_)
  refine WP.bind (((Keeps.forM fun layer _ => Hooks.goalLayer hB (hfam.hooks chain depth 0) _ _ _ : Keeps _ _ fun _ => True).wp
    h3.1).mono fun _ s4 h4 => ?_)
  refine WP.bind (((hB.inference And.right _ _).wp h4.1).mono fun _ s5 h5 => ?_)
  exact ((hf _ h5.1.1.1).and (((good_closed n).forgetting _).wp h5.1.1.1)).mono fun _ s6 h6 => ⟨h6.2.1, h6.1⟩

theorem cycle_rests (hP : Resting P) (chain depth : Nat) (hg : Good n s) :
    WP (oneCycle n chain (addInputBeliefNested n chain depth)) (fun _ s' => Good n s' ∧ P s') s :=
  (cycle_ends chain depth hg fun _ h => hP.forgets _ h).mono fun _ _ h => ⟨h.1, by
    obtain ⟨-, s1, h1, rfl⟩ := h
    exact hP.same h1 rfl rfl rfl fun _ => rfl⟩

theorem cycles_rests (hP : Resting P) (chain depth k : Nat) (hg : Good n s) (hs : k = 0 → P s) :
    WP (cyclesWith n chain (addInputBeliefNested n chain depth) k) (fun _ s' => P s') s := by
  unfold cyclesWith
  refine WP.get (WP.bind (WP.lift fun _ _ => ?_))
  have key : ∀ (l : List Nat) (s : Sys), Good n s → (l = [] → P s) →
      WP (l.forM fun _ => oneCycle n chain (addInputBeliefNested n chain depth)) (fun _ s' => P s') s := by
    intro l
    induction l with
    | nil => intro s _ hs; exact WP.pure (hs rfl)
    | cons a l ih =>
      intro s hg _
      simp only [List.forM_eq_forM, List.forM_cons] at ih ⊢
      exact WP.bind ((cycle_rests hP chain depth hg).mono fun _ s1 h1 => ih s1 h1.1 fun _ => h1.2)
  refine key _ s hg fun h => hs ?_
  simpa using h

theorem addInput_rests (hP : Resting P) (fuel : Fuel) {t : Term} (hk : n.Knows t) (ty : EventType) {tr : Truth} (ht : tr.Valid) (eternal : Bool)
    (o : ℚ) (hg : Good n s) : WP (NAR_AddInput n fuel t ty tr eternal o) (fun _ s' => P s') s := by
  unfold NAR_AddInput addInputWith
  refine WP.get (WP.bind (WP.lift fun _ _ => WP.bind (WP.set ?_)))
  have hg1 := hg.input t ty tr o
  have hge := inputEvent_good hg hk ty ht o s.currentTime
  have hg2 : (if eternal then { (Event_InputEvent s.event t ty tr o s.currentTime).1 with occurrenceTime := OCCURRENCE_ETERNAL }
      else (Event_InputEvent s.event t ty tr o s.currentTime).1).Good n := by
    split
    · exact ⟨hge.term, hge.truth, hge.stamp⟩
    · exact hge
  refine WP.bind ((((good_closed n).addEvent' hg2 _ (le_refl _) _ _ _).wp hg1).mono ?_)
  rintro _ s2 ⟨hs2, -⟩
  exact WP.bind ((cycles_rests hP _ _ 1 hs2 fun h => absurd h (by decide)).mono fun _ s3 hs3 => WP.pure hs3)

/-- Answering a question leaves the buffers and the concept queue alone. -/
theorem answer_same (q : Question) : WP (answerQuestion n q) (fun _ s' => OnlyUsed s s') s := by
  unfold answerQuestion
  refine WP.get (WP.bind (WP.lift fun a ha => ?_))
  refine WP.bind (WP.modify ?_)
  have last : ∀ {s1 : Sys}, OnlyUsed s s1 → WP (if !q.queryCommand then
        emit (printedAnswer a.best_stamp a.best_term a.best_truth a.answerOccurrenceTime a.answerCreationTime) else pure ())
      (fun _ s' => OnlyUsed s s') s1 := by
    intro s1 h1
    refine WP.ite (fun _ => ?_) fun _ => WP.pure h1
    unfold emit
    exact WP.modify ⟨h1.beliefs, h1.goals, h1.concepts, h1.usage⟩
  cases a.best_belief_concept with
  | none => exact last ⟨rfl, rfl, rfl, fun _ => Or.inl rfl⟩
  | some c =>
    refine WP.ite (fun hp => ?_) fun _ => last ⟨rfl, rfl, rfl, fun _ => Or.inl rfl⟩
    refine WP.bind ?_
    unfold modifyConcept
    refine WP.modify (last ⟨rfl, rfl, rfl, fun d => ?_⟩)
    show (upd s.concept_storage c _ d).usage = _ ∨ _ < (upd s.concept_storage c _ d).usage.useCount
    by_cases h : d = c
    · subst h
      rw [upd_same]
      right
      show _ < (s.concept_storage d).usage.useCount + (if _ then ETERNAL_INPUT_USAGE_BOOST else 1)
      unfold ETERNAL_INPUT_USAGE_BOOST
      split <;> omega
    · rw [upd_other _ _ h]
      exact Or.inl rfl

theorem addNarsese_rests (hP : Restful z P) (fuel : Fuel) {text : CStr} {query : Bool} {threshold : ℚ} (hg : Good n s) (hn : n.Ok)
    (hl : ValidText n text) (hs : P s) (e : NAR_AddInputNarsese2 n fuel text query threshold s = .ok (n', s')) : P s' := by
  unfold NAR_AddInputNarsese2 at e
  rw [R.bind_eq_ok] at e
  obtain ⟨⟨se, n1⟩, e1, e⟩ := e
  dsimp only at e
  rw [R.bind_eq_ok] at e
  obtain ⟨⟨_, s1⟩, e2, e⟩ := e
  cases e
  obtain ⟨hok, hx, hk⟩ := Narsese.sentence_extends hn hg.base e1
  have hg1 := hg.extends hx
  have hkr := hg1.base.reduce hk
  by_cases hp : se.punctuation = '?'
  · rw [if_pos hp] at e2
    exact hP.asked hs (answer_same _ _ _ e2)
  · rw [if_neg hp] at e2
    unfold inputSentence at e2
    simp only [M.bind_ok] at e2
    obtain ⟨_, s2, e3, e2⟩ := e2
    obtain ⟨_, f3⟩ := M.lift_ok.1 e3
    obtain ⟨_, s3, e4, e2⟩ := e2
    obtain ⟨_, f4⟩ := M.lift_ok.1 e4
    obtain ⟨ev, s4, e5, e2⟩ := e2
    obtain ⟨_, f6⟩ := M.pure_ok.1 e2
    subst f3 f4 f6
    exact addInput_rests hP.toResting fuel hkr _ (hl se n' e1 hp) _ _ hg1 _ _ e5

theorem command_rests (hP : Restful z P) {fuel : Fuel} {c : Command} (hg : Good n s) (hn : n.Ok) (hl : c.Legal n s) (hs : P s)
    (e : c.run z.memory z.atoms fuel n s = .ok (n', s')) : P s' := by
  cases c with
  | nothing => cases e; exact hs
  | report r => obtain ⟨rfl, rfl⟩ := report_same e; exact hs
  | exit => cases e; exact hs
  | cycles k =>
    unfold Command.run at e
    dsimp only at e
    rw [R.bind_eq_ok] at e
    obtain ⟨⟨_, s1⟩, e1, e⟩ := e
    cases e
    exact cycles_rests hP.toResting _ _ k hg (fun _ => hs) _ _ e1
  | reset => exact hP.empty (shellInit_empty e)
  | restrictedConceptCreation b => cases e; exact hP.same hs rfl rfl rfl (fun _ => rfl)
  | parameter p v => cases e; exact hP.same hs (by cases p <;> rfl) (by cases p <;> rfl) (by cases p <;> rfl) (fun c => by cases p <;> rfl)
  | babblingOps k => cases e; exact hP.same hs rfl rfl rfl (fun _ => rfl)
  | currentTime t => cases e; exact hP.same hs rfl rfl rfl (fun _ => rfl)
  | stampId b => cases e; exact hP.same hs rfl rfl rfl (fun _ => rfl)
  | stampImport ids => cases e; exact hP.same hs rfl rfl rfl (fun _ => rfl)
  | setValue v g name =>
    unfold Command.run at e
    dsimp only at e
    rw [R.bind_eq_ok] at e
    obtain ⟨n1, e1, e⟩ := e
    cases e
    exact hs
  | space g name =>
    unfold Command.run at e
    dsimp only at e
    rw [R.bind_eq_ok] at e
    obtain ⟨_, _, e⟩ := e
    rw [R.bind_eq_ok] at e
    obtain ⟨n1, e1, e⟩ := e
    cases e
    exact hs
  | setOpName k name =>
    unfold Command.run Shell_setOpName at e
    dsimp only at e
    rw [R.bind_eq_ok] at e
    obtain ⟨_, _, e⟩ := e
    rw [R.bind_eq_ok] at e
    obtain ⟨_, _, e⟩ := e
    rw [R.bind_eq_ok] at e
    obtain ⟨⟨t, n1⟩, e1, e⟩ := e
    cases e
    exact hP.same hs rfl rfl rfl (fun _ => rfl)
  | setOpArg k j text =>
    unfold Command.run Shell_setOpArg at e
    dsimp only at e
    rw [R.bind_eq_ok] at e
    obtain ⟨_, _, e⟩ := e
    rw [R.bind_eq_ok] at e
    obtain ⟨_, _, e⟩ := e
    rw [R.bind_eq_ok] at e
    obtain ⟨⟨t, n1⟩, e1, e⟩ := e
    cases e
    exact hP.same hs rfl rfl rfl (fun _ => rfl)
  | setOpStdin k =>
    unfold Command.run at e
    dsimp only at e
    rw [R.bind_eq_ok] at e
    obtain ⟨s1, e1, e⟩ := e
    cases e
    unfold Shell_setOpStdin at e1
    split at e1
    · cases e1; exact hP.same hs rfl rfl rfl (fun _ => rfl)
    · cases e1
  | query threshold text =>
    unfold Command.run at e
    dsimp only at e
    rw [R.bind_eq_ok] at e
    obtain ⟨_, _, e⟩ := e
    exact addNarsese_rests hP fuel hg hn hl hs e
  | concurrent => cases e; exact hP.same hs rfl rfl rfl (fun _ => rfl)
  | narsese text => exact addNarsese_rests hP fuel hg hn hl hs e

/-- Whenever the system is not busy, it has the property. -/
theorem Reachable.rests (hP : Restful z P) (hz : z.Ok) (h : Reachable z n s) : P s := by
  induction h with
  | start _ e => exact hP.empty (init_empty e)
  | call fuel c hr hl e ih =>
    have hg := hr.good hz
    cases c with
    | init => exact hP.empty (init_empty e)
    | addInput t ty tr eternal o =>
      unfold Call.run at e
      dsimp only at e
      rw [R.bind_eq_ok] at e
      obtain ⟨⟨_, s1⟩, e1, e⟩ := e
      cases e
      exact addInput_rests hP.toResting fuel hl.1 ty hl.2 eternal o hg.1 _ _ e1
    | addOperation name f => 
      have hm := (addOperation_memory e).1
      exact hP.same ih hm.cycling_belief_events hm.cycling_goal_events hm.concepts fun c => by rw [hm.concept_storage]
    | addNarsese text query threshold => exact addNarsese_rests hP fuel hg.1 hg.2 hl ih e
    | command c => exact command_rests hP hg.1 hg.2 hl ih e

end ONA

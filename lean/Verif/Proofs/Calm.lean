import Verif.Proofs.Closed
import Verif.Proofs.Mute
import Verif.Props.InferenceRun
/-
The processing of beliefs does not touch the goals, and prints nothing.
-/
namespace ONA

/-- The goals, and what was printed. -/
abbrev Sys.Goals := (Nat → PriorityQueue ℚ Nat) × (Nat → Nat → Event) × List Output

/-- The goals and what was printed are as given, and no concept has a goal as belief. -/
def Calm (v : Sys.Goals) (s : Sys) : Prop :=
  (s.cycling_goal_events, s.cycling_goal_event_storage, s.output) = v ∧ ∀ c, (s.concept_storage c).belief.type ≠ .goal

section
variable {α β σ : Type} {v : Sys.Goals}

theorem Calm.concept {s : Sys} (h : Calm v s) (c : Nat) {x : Concept} (hx : x.belief.type ≠ .goal) :
    Calm v { s with concept_storage := upd s.concept_storage c x } := by
  refine ⟨h.1, fun i => ?_⟩
  dsimp only
  by_cases hi : i = c
  · subst hi; rw [upd_same]; exact hx
  · rw [upd_other _ _ hi]; exact h.2 i

theorem Calm.modifyConcept (c : Nat) (f : Concept → Concept) (hf : ∀ x, (f x).belief.type = x.belief.type) :
    Keeps (Calm v) (modifyConcept c f) fun _ => True :=
  Keeps.modify fun s h => h.concept c (by rw [hf]; exact h.2 c)

/-- One step of the search for a proof. -/
macro "calm1" : tactic => `(tactic| with_reducible first
  | exact Keeps.pure trivial
  | exact Keeps.throw
  | exact Keeps.lift fun _ _ => trivial
  | exact Calm.modifyConcept _ _ (fun _ => rfl)
  | assumption
  | refine Keeps.bind_get fun _ _ => ?_
  | refine Keeps.bind_lift fun _ _ => ?_
  | refine Keeps.ite (fun _ => ?_) fun _ => ?_
  | refine Keeps.seq (Q := fun _ => True) ?_ fun _ => ?_
  | refine Keeps.set ?_
  | refine Keeps.modify fun _ _ => ?_
  | split)

/-- One step, or the end of the search. -/
macro "calm" : tactic => `(tactic| first | calm1 | (show Calm _ _; assumption))

theorem Calm.find (t : Term) : Keeps (Calm v) (Memory_FindConceptByTerm t) fun _ => True := by
  unfold Memory_FindConceptByTerm
  repeat' calm

theorem Calm.forgetConcept (n : Narsese) (c : Nat) : Keeps (Calm v) (forgetConcept n c) fun _ => True := by
  unfold ONA.forgetConcept
  repeat' calm

theorem Calm.createConcept (n : Narsese) (c : Nat) (t : Term) (now : Int) : Keeps (Calm v) (createConcept n c t now) fun _ => True := by
  unfold ONA.createConcept
  refine Keeps.bind_get fun s hs => Keeps.bind_lift fun _ _ => ?_
  dsimp only
  refine Keeps.bind_lift fun _ _ => Keeps.set ?_
  exact hs.concept c (x := { Concept.zero with term := t, id := s.concept_id, usage := ⟨1, now⟩ }) (fun h => (by cases h))

theorem Calm.conceptualize (n : Narsese) (t : Term) (now : Int) : Keeps (Calm v) (Memory_Conceptualize n t now) fun _ => True := by
  unfold Memory_Conceptualize
  repeat' first | exact Calm.find _ | exact Calm.forgetConcept _ _ | exact Calm.createConcept _ _ _ _ | calm

theorem Calm.contains (e : Event) : Keeps (Calm v) (Memory_containsBeliefOrGoal e) fun _ => True := by
  unfold Memory_containsBeliefOrGoal
  repeat' first | exact Calm.find _ | calm

theorem Calm.stronger (e : Event) : Keeps (Calm v) (strongerBeliefKnown e) fun _ => True := by
  unfold strongerBeliefKnown
  repeat' first | exact Calm.find _ | calm

theorem Calm.pushBelief (e : Event) (p : ℚ) : Keeps (Calm v) (pushBeliefEvent e p) fun _ => True := by
  unfold pushBeliefEvent
  repeat' calm

theorem Calm.addCycling {e : Event} (he : e.type = .belief) (p : ℚ) (l : Nat) :
    Keeps (Calm v) (Memory_addCyclingEvent e p l) fun _ => True := by
  unfold Memory_addCyclingEvent
  rw [if_pos he]
  repeat' first | exact Calm.contains _ | exact Calm.stronger _ | exact Calm.pushBelief _ _ | calm

/-- The event of the caller is no goal. -/
def EventRef.NoGoal : EventRef → Prop
  | .val e => e.type ≠ .goal
  | .belief _ => True

theorem Calm.load {r : EventRef} (hr : r.NoGoal) : Keeps (Calm v) r.load fun e => e.type ≠ .goal := by
  unfold EventRef.load
  cases r with
  | val e => exact Keeps.pure hr
  | belief c => exact Keeps.bind_get fun s hs => Keeps.pure (hs.2 c)

theorem Calm.linkSource (n : Narsese) (a b : Term) : Keeps (Calm v) (linkSource n a b) fun _ => True := by
  unfold ONA.linkSource Memory_getOperationID
  repeat' calm

variable [Arith]

theorem Calm.addLink (n : Narsese) (c o : Nat) (imp : Implication) : Keeps (Calm v) (addLink n c o imp) fun _ => True := by
  unfold ONA.addLink
  repeat' calm

theorem Calm.processImplication (n : Narsese) {r : EventRef} (hr : r.NoGoal) (now : Int) (b : Bool) (e : Event) :
    Keeps (Calm v) (processImplication n r now b e) fun _ => True := by
  unfold ONA.processImplication
  repeat' first | exact (Calm.load hr).triv | exact Calm.conceptualize _ _ _ | exact Calm.linkSource _ _ _ | exact Calm.addLink _ _ _ _ | calm

theorem Calm.updateBeliefs (n : Narsese) {e e' : Event} (he : e'.type ≠ .goal) (i : Nat) (now : Int) (p : ℚ) (b : Bool) :
    Keeps (Calm v) (updateBeliefs n e e' i now p b) fun _ => True := by
  have last : Keeps (Calm v) (do
      let c := (← get).concept_storage i
      let r ← Inference_RevisionAndChoice n c.belief e'
      ONA.modifyConcept i fun c => { c with belief := { r.1 with creationTime := now } }
      pure r.2) fun _ => True := by
    refine Keeps.bind_get fun s hs => ?_
    dsimp only
    refine Keeps.bind_lift fun r hr => Keeps.seq (Q := fun _ => True) (Keeps.modify fun s1 hs1 => ?_) fun _ => Keeps.pure trivial
    refine hs1.concept i ?_
    dsimp only
    rcases revisionAndChoice_type hr with h | h
    · rw [h]; exact hs.2 i
    · rw [h]; exact he
  unfold ONA.updateBeliefs
  extract_lets
  repeat' first | exact last | calm

theorem Calm.processNewBelief (n : Narsese) (add : EventRef → ℚ → M Unit)
    (ha : ∀ r p, r.NoGoal → Keeps (Calm v) (add r p) fun _ => True) {r : EventRef} (hr : r.NoGoal) (now : Int) (p : ℚ) (b : Bool) :
    Keeps (Calm v) (Memory_ProcessNewBeliefEvent n add r now p b) fun _ => True := by
  unfold Memory_ProcessNewBeliefEvent
  refine Keeps.bind (Calm.load hr) fun e he => ?_
  dsimp only
  refine Keeps.bind_lift fun e' he' => ?_
  have he2 : e'.type ≠ .goal := by rw [Closed.eternalized_type he']; exact he
  refine Keeps.seq (Calm.processImplication n hr _ _ _) fun _ => ?_
  refine Keeps.ite (fun _ => ?_) fun _ => Keeps.pure trivial
  refine Keeps.seq (Calm.load hr) fun _ => ?_
  refine Keeps.ite (fun _ => ?_) fun _ => Keeps.pure trivial
  refine Keeps.seq (Calm.conceptualize _ _ _) fun o => ?_
  cases o with
  | none => exact Keeps.pure trivial
  | some i =>
    refine Keeps.seq (Calm.load hr) fun _ => ?_
    refine Keeps.seq (Calm.updateBeliefs n he2 _ _ _ _) fun _ => ?_
    exact Keeps.ite (fun _ => ha _ _ trivial) fun _ => Keeps.pure trivial

theorem Calm.addEvent (n : Narsese) (fuel : Nat) : ∀ (r : EventRef) (now : Int) (p : ℚ) (b b' : Bool) (l : Nat), r.NoGoal →
    Keeps (Calm v) (Memory_AddEvent n fuel r now p b b' l) fun _ => True := by
  induction fuel with
  | zero => intro r now p b b' l hr; exact Keeps.throw
  | succ fuel ih =>
    intro r now p b b' l hr
    unfold Memory_AddEvent
    refine Keeps.bind (Calm.load hr) fun e he => ?_
    refine Keeps.bind_get fun s hs => ?_
    have tail : ∀ p : ℚ, Keeps (Calm v) (do
        let event ← r.load
        if event.type = .goal then
          let _ ← Memory_addCyclingEvent event p l
          cassert (decide (event.occurrenceTime ≠ OCCURRENCE_ETERNAL)) "Eternal goals are not supported"
        cassert (decide (event.type = .belief) || decide (event.type = .goal)) "Erroneous event type" : M Unit) fun _ => True := by
      intro p
      refine Keeps.bind (Calm.load hr) fun e he => ?_
      rw [if_neg he]
      repeat' calm
    repeat' first | exact Calm.find _ | exact Calm.addCycling ‹_› _ _ | exact tail _ |
      exact Calm.processNewBelief n _ (fun _ _ h => ih _ _ _ _ _ _ h) hr _ _ _ | calm

theorem Calm.addEvent' (n : Narsese) {e : Event} (he : e.type ≠ .goal) (now : Int) (p : ℚ) (b b' : Bool) (l : Nat) :
    Keeps (Calm v) (Memory_AddEvent' n e now p b b' l) fun _ => True :=
  Keeps.bind_get fun _ _ => Calm.addEvent n _ _ _ _ _ _ _ he

theorem Calm.nextProcessID : Keeps (Calm v) nextProcessID fun _ => True := by
  unfold ONA.nextProcessID
  repeat' calm

theorem Calm.nextProcessID2 : Keeps (Calm v) nextProcessID2 fun _ => True := by
  unfold ONA.nextProcessID2
  repeat' calm

theorem Calm.marked {s : Sys} (c : Nat) (h : Calm v s) : Calm v (s.marked c) := h.concept c (h.2 c)

/-! ### Derivations -/

theorem Calm.stillValid (d : Derivation) : Keeps (Calm v) d.stillValid fun _ => True := by
  unfold Derivation.stillValid
  repeat' calm

theorem Calm.addDerived (n : Narsese) (d : Derivation) (t : Term) : Keeps (Calm v) (addDerived n d t) fun _ => True := by
  unfold ONA.addDerived
  repeat' first | exact Calm.stillValid _ | exact Calm.addEvent' n (fun h => (by cases h)) _ _ _ _ _ | calm

theorem Calm.addWithVars (n : Narsese) (d : Derivation) (t : Term) (a b : Bool) (r : Bool × Term) :
    Keeps (Calm v) (addWithVars n d t a b r) fun _ => True := by
  unfold ONA.addWithVars
  repeat' first | exact Calm.addDerived _ _ _ | calm

theorem Calm.derivedEvent (n : Narsese) (d : Derivation) (t : Term) (a b : Bool) :
    Keeps (Calm v) (NAL_DerivedEvent n d t a b) fun _ => True := by
  unfold NAL_DerivedEvent
  repeat' first | exact Calm.addDerived _ _ _ | exact Calm.addWithVars _ _ _ _ _ _ | calm

theorem Calm.ruleTable (n : Narsese) (t1 t2 : Term) (v1 v2 : Truth) (d : Derivation) (b : Bool) :
    Keeps (Calm v) (RuleTable_Apply n t1 t2 v1 v2 d b) fun _ => True := by
  unfold RuleTable_Apply
  refine Keeps.forM fun r _ => ?_
  split
  · exact Keeps.pure trivial
  · exact Keeps.bind_lift fun t _ => Calm.derivedEvent _ _ _ _ _

theorem Calm.deriveSubstituted (n : Narsese) (d : Derivation) (t : Term) (subs : Substitution) (truthOf : R Truth) :
    Keeps (Calm v) (deriveSubstituted n d t subs truthOf) fun _ => True := by
  unfold ONA.deriveSubstituted
  repeat' first | exact Calm.derivedEvent _ _ _ _ _ | calm

theorem Calm.remainingCondition (n : Narsese) (t : Term) (v1 v2 : Truth) (d : Derivation) (a b : Term) :
    Keeps (Calm v) (remainingCondition n t v1 v2 d a b) fun _ => True := by
  unfold ONA.remainingCondition
  dsimp only
  refine Keeps.bind_lift fun r _ => Keeps.bind_lift fun r _ => ?_
  refine Keeps.ite (fun _ => ?_) fun _ => Keeps.pure trivial
  exact Keeps.ite (fun _ => Calm.deriveSubstituted _ _ _ _ _) fun _ => Keeps.pure trivial

theorem Calm.specialInferences (n : Narsese) (t1 t2 : Term) (v1 v2 : Truth) (d : Derivation) :
    Keeps (Calm v) (Cycle_SpecialInferences n t1 t2 v1 v2 d) fun _ => True := by
  have conj : Keeps (Calm v)
      (if Narsese_copulaEquals n (t2.get 0) CONJUNCTION = true then do
        let subject_subs ← Variable_Unify n (Term_ExtractSubterm t2 1) t1
        if subject_subs.success = true then
          ONA.deriveSubstituted n d (Term_ExtractSubterm t2 2) subject_subs (Truth_AnonymousAnalogy v2 v1)
        else Pure.pure ()
      else Pure.pure ()) fun _ => True := by
    refine Keeps.ite (fun _ => ?_) fun _ => Keeps.pure trivial
    refine Keeps.bind_lift fun r _ => ?_
    exact Keeps.ite (fun _ => Calm.deriveSubstituted _ _ _ _ _) fun _ => Keeps.pure trivial
  unfold Cycle_SpecialInferences
  dsimp only
  refine Keeps.ite (fun _ => ?_) fun _ => conj
  refine Keeps.bind_lift fun r _ => ?_
  have last : Keeps (Calm v) (do
      let predicate_subs ← Variable_Unify n (Term_ExtractSubterm t2 2) t1
      if predicate_subs.success = true then do
        ONA.deriveSubstituted n d (Term_ExtractSubterm t2 1) predicate_subs
          (if Narsese_copulaEquals n (t2.get 0) IMPLICATION = true then Truth_Abduction v2 v1 else .ok (Truth_Analogy v2 v1))
        if Narsese_copulaEquals n (t2.get 0) CONJUNCTION = true then do
          let subject_subs ← Variable_Unify n (Term_ExtractSubterm t2 1) t1
          if subject_subs.success = true then
            ONA.deriveSubstituted n d (Term_ExtractSubterm t2 2) subject_subs (Truth_AnonymousAnalogy v2 v1)
          else Pure.pure ()
        else Pure.pure ()
      else if Narsese_copulaEquals n (t2.get 0) CONJUNCTION = true then do
        let subject_subs ← Variable_Unify n (Term_ExtractSubterm t2 1) t1
        if subject_subs.success = true then
          ONA.deriveSubstituted n d (Term_ExtractSubterm t2 2) subject_subs (Truth_AnonymousAnalogy v2 v1)
        else Pure.pure ()
      else Pure.pure ()) fun _ => True := by
    refine Keeps.bind_lift fun r _ => ?_
    refine Keeps.ite (fun _ => ?_) fun _ => conj
    exact Keeps.seq (Calm.deriveSubstituted _ _ _ _ _) fun _ => conj
  have middle := Keeps.ite (I := Calm v)
    (c := (Narsese_copulaEquals n (t2.get 0) IMPLICATION && Narsese_copulaEquals n ((Term_ExtractSubterm t2 1).get 0) CONJUNCTION) = true)
    (fun _ => Keeps.seq (Calm.remainingCondition n t1 v1 v2 d (Term_ExtractSubterm t2 1) (Term_ExtractSubterm t2 2)) fun _ => last)
    fun _ => last
  refine Keeps.ite (fun _ => ?_) fun _ => middle
  exact Keeps.seq (Calm.deriveSubstituted _ _ _ _ _) fun _ => middle

theorem Calm.usedBelief (c : Nat) (o : Option Event) : Keeps (Calm v) (usedBelief c o) fun _ => True := by
  unfold ONA.usedBelief
  repeat' calm

theorem Calm.inferWith (n : Narsese) (e : Event) (p : ℚ) (now : Int) (c : Nat) (id : Int) :
    Keeps (Calm v) (inferWith n e p now c id) fun _ => True := by
  unfold ONA.inferWith
  dsimp only
  repeat' first | exact Calm.usedBelief _ _ | exact Calm.ruleTable _ _ _ _ _ _ _ | exact Calm.specialInferences _ _ _ _ _ _ | calm

theorem Calm.inferenceBody (n : Narsese) (e : Event) (p th : ℚ) (now : Int) (c : Nat) (k : Nat × Nat) :
    Keeps (Calm v) (inferenceBody n e p th now c k) fun _ => True := by
  unfold ONA.inferenceBody
  repeat' first | exact Calm.inferWith _ _ _ _ _ _ | calm

theorem Calm.inferenceRound (n : Narsese) (fuel i : Nat) (now : Int) (k : Nat) :
    Keeps (Calm v) (inferenceRound n fuel i now k) fun _ => True := by
  unfold ONA.inferenceRound
  refine Keeps.bind_get fun s hs => Keeps.bind_lift fun _ _ => ?_
  refine Keeps.seq (Q := fun _ => True) (Keeps.set hs) fun _ => ?_
  dsimp only
  refine Keeps.seq (Calm.ruleTable _ _ _ _ _ _ _) fun _ => ?_
  refine Keeps.seq (Keeps.related' (fun s c h => Calm.marked c h) (fun c st => Calm.inferenceBody _ _ _ _ _ _ _) _ _ _) fun _ => ?_
  exact Keeps.seq (Q := fun _ => True) (Keeps.modify fun _ h => h) fun _ => Keeps.pure trivial

theorem Calm.inference (n : Narsese) (fuel : Nat) (now : Int) : Keeps (Calm v) (Cycle_Inference n fuel now) fun _ => True := by
  unfold Cycle_Inference
  refine Keeps.bind_get fun s hs => Keeps.forM fun i _ => ?_
  refine Keeps.seq Calm.nextProcessID fun _ => ?_
  exact Keeps.seq (Keeps.loop' (fun k => Calm.inferenceRound _ _ _ _ _) _ _) fun _ => Keeps.pure trivial

/-! ### Anticipation -/

theorem Calm.negativeConfirmation (e : Event) (imp : Implication) (o c : Nat) :
    Keeps (Calm v) (Decision_AddNegativeConfirmation e imp o c) fun _ => True := by
  unfold Decision_AddNegativeConfirmation
  refine Keeps.bind_get fun s hs => ?_
  refine Keeps.bind_lift fun _ _ => Keeps.bind_lift fun _ _ => ?_
  exact Calm.modifyConcept _ _ fun _ => rfl

theorem Calm.recordAnticipation (n : Narsese) (imp : Implication) (prec : Nat) (e : Event) (c : Nat) (now : Int) :
    Keeps (Calm v) (recordAnticipation n imp prec e c now) fun _ => True := by
  unfold ONA.recordAnticipation
  repeat' calm

theorem Calm.anticipateWith (n : Narsese) (o : Nat) (t : Term) (now : Int) (c : Nat) (imp : Implication) :
    Keeps (Calm v) (anticipateWith n o t now c imp) fun _ => True := by
  unfold ONA.anticipateWith
  repeat' first | exact Calm.recordAnticipation _ _ _ _ _ _ | exact Calm.negativeConfirmation _ _ _ _ | exact Calm.conceptualize _ _ _ | calm

theorem Calm.anticipationLinks (o : Nat) (b : Bool) (c : Nat) : Keeps (Calm v) (anticipationLinks o b c) fun _ => True := by
  unfold ONA.anticipationLinks
  repeat' calm

theorem Calm.anticipate (n : Narsese) (o : Nat) (t : Term) (b : Bool) (now : Int) :
    Keeps (Calm v) (Decision_Anticipate n o t b now) fun _ => True := by
  unfold Decision_Anticipate
  refine Keeps.bind_lift fun _ _ => Keeps.bind_get fun s hs => ?_
  refine Keeps.seq (Keeps.loop' (fun j => ?_) _ _) fun _ => Keeps.pure trivial
  refine Keeps.bind_get fun s hs => Keeps.ite (fun _ => ?_) fun _ => Keeps.pure trivial
  dsimp only
  refine Keeps.seq (Calm.anticipationLinks _ _ _) fun l => ?_
  exact Keeps.seq (Keeps.forM fun _ _ => Calm.anticipateWith _ _ _ _ _ _) fun _ => Keeps.pure trivial

/-! ### Perception -/

theorem Calm.activate (n : Narsese) (c : Nat) {e : Event} (he : e.type = .belief) (now : Int) :
    Keeps (Calm v) (Cycle_ActivateSensorimotorConcept n c e now) fun _ => True := by
  unfold Cycle_ActivateSensorimotorConcept
  rw [if_pos he]
  refine Keeps.seq (Calm.modifyConcept _ _ fun _ => rfl) fun _ => ?_
  refine Keeps.seq (Calm.modifyConcept _ _ fun x => ?_) fun _ => Keeps.pure trivial
  split <;> rfl

theorem Calm.processRelated (n : Narsese) {e : Event} (he : e.type = .belief) (now : Int) (c : Nat) (d : Decision) :
    Keeps (Calm v) (processRelatedConcept n e now c d) fun _ => True := by
  unfold processRelatedConcept
  dsimp only
  repeat' first | exact Calm.activate n _ (by exact he) _ | calm

theorem Calm.processEvent (n : Narsese) (fuel : Nat) {e : Event} (he : e.type = .belief) (now : Int) :
    Keeps (Calm v) (Cycle_ProcessSensorimotorEvent n fuel e now) fun _ => True := by
  unfold Cycle_ProcessSensorimotorEvent
  refine Keeps.bind_lift fun _ _ => Keeps.seq (Calm.conceptualize _ _ _) fun o => ?_
  cases o with
  | none => exact Keeps.pure trivial
  | some c =>
    repeat' first | exact Calm.nextProcessID |
      exact Keeps.related' (fun s c h => Calm.marked c h) (fun c st => Calm.processRelated n he _ _ _) _ _ _ | calm

theorem Calm.reinforce (n : Narsese) (a b : Event) : Keeps (Calm v) (Cycle_ReinforceLink n a b) fun _ => True := by
  unfold Cycle_ReinforceLink
  repeat' first | exact Calm.find _ | exact Calm.derivedEvent _ _ _ _ _ | calm

theorem Calm.newestConcept (j : Nat) : Keeps (Calm v) (newestConcept j) fun _ => True := by
  unfold ONA.newestConcept
  repeat' calm

theorem Calm.conditionOperation (n : Narsese) (a b : Nat) (e : Event) (now : Int) :
    Keeps (Calm v) (conditionOperation n a b e now) fun _ => True := by
  unfold ONA.conditionOperation
  dsimp only
  repeat' first | exact Calm.reinforce _ _ _ | calm

theorem Calm.preconditionLoop (n : Narsese) (a : Nat) (b : Int) (e : Event) (now : Int) :
    Keeps (Calm v) (preconditionLoop n a b e now) fun _ => True := by
  unfold ONA.preconditionLoop
  refine Keeps.seq (Keeps.loop' (fun j => ?_) _ _) fun _ => Keeps.pure trivial
  repeat' first | exact Calm.newestConcept _ | exact Calm.conditionOperation _ _ _ _ _ | calm

theorem Calm.operationLoop (n : Narsese) (e : Event) (now : Int) : Keeps (Calm v) (operationLoop n e now) fun _ => True := by
  unfold ONA.operationLoop
  refine Keeps.seq (Keeps.loop' (fun j => ?_) _ _) fun _ => Keeps.pure trivial
  repeat' first | exact Calm.newestConcept _ | exact Calm.preconditionLoop _ _ _ _ _ | calm

theorem intersection_type {a b : Event} {r : Event} (h : Inference_BeliefIntersection a b = .ok (some r)) : r.type = .belief := by
  unfold Inference_BeliefIntersection at h
  obtain ⟨_, _, h⟩ := R.bind_eq_ok.1 h
  cases hb : Narsese_Sequence a.term b.term with
  | mk ok t =>
    simp only [hb] at h
    cases ok with
    | false => simp at h
    | true =>
      simp only [if_true] at h
      cases h
      rfl

theorem Calm.buildSequence (n : Narsese) (fuel : Nat) {e : Event} (he : e.type = .belief) (o : Nat) (b : Bool) (p : ℚ) (now : Int) :
    Keeps (Calm v) (buildSequence n fuel e o b p now) fun _ => True := by
  have last : Keeps (Calm v) (if (b && decide (p ≥ 1)) = true then Decision_Anticipate n o e.term false now else Pure.pure ()) fun _ => True :=
    Keeps.ite (fun _ => Calm.anticipate _ _ _ _ _) fun _ => Keeps.pure trivial
  unfold ONA.buildSequence
  refine Keeps.seq (Calm.processEvent n fuel he _) fun _ => Keeps.bind_lift fun r _ => ?_
  cases r with
  | none => exact last
  | some t =>
    refine Keeps.seq (Calm.addEvent' n ?_ _ _ _ _ _) fun _ => last
    show e.type ≠ _
    rw [he]
    decide

theorem Calm.sequenceWith (n : Narsese) (fuel c : Nat) (e : Event) (o : Nat) (p : ℚ) (now : Int) :
    Keeps (Calm v) (sequenceWith n fuel c e o p now) fun _ => True := by
  unfold ONA.sequenceWith
  dsimp only
  refine Keeps.bind_get fun s hs => Keeps.ite (fun _ => ?_) fun _ => Keeps.pure trivial
  refine Keeps.ite (fun _ => ?_) fun _ => Keeps.pure trivial
  refine Keeps.bind_lift fun r hr => ?_
  cases r with
  | none => exact Keeps.pure trivial
  | some seq =>
    have := intersection_type hr
    repeat' first | exact Calm.reinforce _ _ _ | exact Calm.buildSequence n fuel this _ _ _ _ | calm

theorem Calm.sequenceLoop (n : Narsese) (fuel : Nat) (e : Event) (o : Nat) (p : ℚ) (now : Int) :
    Keeps (Calm v) (sequenceLoop n fuel e o p now) fun _ => True := by
  unfold ONA.sequenceLoop
  refine Keeps.seq (Keeps.loop' (fun j => ?_) _ _) fun _ => Keeps.pure trivial
  repeat' first | exact Calm.newestConcept _ | exact Calm.sequenceWith _ _ _ _ _ _ _ | calm

theorem Calm.processBelief (n : Narsese) (fuel : Nat) (e : Event) (p : ℚ) (now : Int) :
    Keeps (Calm v) (processBeliefEvent n fuel e p now) fun _ => True := by
  unfold processBeliefEvent
  dsimp only
  refine Keeps.ite (fun _ => ?_) fun _ => Keeps.pure trivial
  refine Keeps.bind_lift fun _ ha => ?_
  have he : e.type = .belief := of_decide_eq_true (cassert_eq_ok.1 ha)
  refine Keeps.seq (Calm.processEvent n fuel he _) fun _ => ?_
  unfold Memory_getOperationID
  rw [bind_assoc]
  refine Keeps.bind_get fun s hs => ?_
  rw [pure_bind]
  refine Keeps.seq Calm.nextProcessID2 fun _ => ?_
  have rest : ∀ (o : Nat) (t : Term), Keeps (Calm v) (do
      ONA.nextProcessID2
      ONA.sequenceLoop n fuel e o p now
      if p ≥ 1 then Decision_Anticipate n o t false now else Pure.pure ()) fun _ => True := by
    intro o t
    refine Keeps.seq Calm.nextProcessID2 fun _ => Keeps.seq (Calm.sequenceLoop _ _ _ _ _ _) fun _ => ?_
    exact Keeps.ite (fun _ => Calm.anticipate _ _ _ _ _) fun _ => Keeps.pure trivial
  refine Keeps.ite (fun _ => ?_) fun _ => rest _ _
  exact Keeps.seq (Calm.operationLoop _ _ _) fun _ => rest _ _

theorem Calm.processBeliefs (n : Narsese) (fuel : Nat) (now : Int) :
    Keeps (Calm v) (Cycle_ProcessBeliefEvents n fuel now) fun _ => True := by
  unfold Cycle_ProcessBeliefEvents
  exact Keeps.bind_get fun s hs => Keeps.forM fun i _ => Calm.processBelief _ _ _ _ _

theorem Calm.popBeliefs : Keeps (Calm v) popBeliefEvents fun _ => True := by
  unfold popBeliefEvents
  repeat' calm

end
end ONA

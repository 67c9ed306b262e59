import Verif.Model.NAR
import Verif.Proofs.Keeps
/-
Which functions print nothing and leave the thresholds alone.
-/
namespace ONA

/-- The selected events, and the time. -/
structure Selection where
  goals : Nat → Event
  beliefs : Nat → Event
  beliefPriorities : Nat → ℚ
  beliefCount : Nat
  time : Int

/-- The selected events, and the time. -/
def Sys.selection (s : Sys) : Selection :=
  ⟨s.selectedGoals, s.selectedBeliefs, s.selectedBeliefsPriority, s.beliefsSelectedCnt, s.currentTime⟩

/-- What the decision and execution lines depend on. -/
def At (v : List Output × ℚ × ℚ × Selection) (s : Sys) : Prop :=
  (s.output, s.DECISION_THRESHOLD, s.MOTOR_BABBLING_CHANCE, s.selection) = v

section
variable {α β σ : Type} {v : List Output × ℚ × ℚ × Selection}

theorem At.modifyConcept (c : Nat) (f : Concept → Concept) : Keeps (At v) (modifyConcept c f) fun _ => True :=
  Keeps.modify fun _ h => h

/-- One step of the search for a proof. -/
macro "mute1" : tactic => `(tactic| with_reducible first
  | exact Keeps.pure trivial
  | exact Keeps.throw
  | exact Keeps.lift fun _ _ => trivial
  | exact At.modifyConcept _ _
  | assumption
  | refine Keeps.bind_get fun _ _ => ?_
  | refine Keeps.bind_lift fun _ _ => ?_
  | refine Keeps.ite (fun _ => ?_) fun _ => ?_
  | refine Keeps.seq (Q := fun _ => True) ?_ fun _ => ?_
  | refine Keeps.set ?_
  | refine Keeps.modify fun _ _ => ?_
  | split)

/-- One step, or the end of the search. -/
macro "mute" : tactic => `(tactic| first | mute1 | (show At _ _; assumption))

theorem At.find (t : Term) : Keeps (At v) (Memory_FindConceptByTerm t) fun _ => True := by
  unfold Memory_FindConceptByTerm
  repeat' mute

theorem At.forgetConcept (n : Narsese) (c : Nat) : Keeps (At v) (forgetConcept n c) fun _ => True := by
  unfold ONA.forgetConcept
  repeat' mute

theorem At.createConcept (n : Narsese) (c : Nat) (t : Term) (now : Int) : Keeps (At v) (createConcept n c t now) fun _ => True := by
  unfold ONA.createConcept
  repeat' mute

theorem At.conceptualize (n : Narsese) (t : Term) (now : Int) : Keeps (At v) (Memory_Conceptualize n t now) fun _ => True := by
  unfold Memory_Conceptualize
  repeat' first | exact At.find _ | exact At.forgetConcept _ _ | exact At.createConcept _ _ _ _ | mute

theorem At.contains (e : Event) : Keeps (At v) (Memory_containsBeliefOrGoal e) fun _ => True := by
  unfold Memory_containsBeliefOrGoal
  repeat' first | exact At.find _ | mute

theorem At.stronger (e : Event) : Keeps (At v) (strongerBeliefKnown e) fun _ => True := by
  unfold strongerBeliefKnown
  repeat' first | exact At.find _ | mute

theorem At.pushBelief (e : Event) (p : ℚ) : Keeps (At v) (pushBeliefEvent e p) fun _ => True := by
  unfold pushBeliefEvent
  repeat' mute

theorem At.pushGoal (e : Event) (p : ℚ) (l : Nat) : Keeps (At v) (pushGoalEvent e p l) fun _ => True := by
  unfold pushGoalEvent
  repeat' mute

theorem At.addCycling (e : Event) (p : ℚ) (l : Nat) : Keeps (At v) (Memory_addCyclingEvent e p l) fun _ => True := by
  unfold Memory_addCyclingEvent
  repeat' first | exact At.contains _ | exact At.stronger _ | exact At.pushBelief _ _ | exact At.pushGoal _ _ _ | mute

theorem At.load (r : EventRef) : Keeps (At v) r.load fun _ => True := by
  unfold EventRef.load
  repeat' mute

theorem At.linkSource (n : Narsese) (a b : Term) : Keeps (At v) (linkSource n a b) fun _ => True := by
  unfold ONA.linkSource Memory_getOperationID
  repeat' mute

variable [Arith]

theorem At.addLink (n : Narsese) (c o : Nat) (imp : Implication) : Keeps (At v) (addLink n c o imp) fun _ => True := by
  unfold ONA.addLink
  repeat' mute

theorem At.processImplication (n : Narsese) (r : EventRef) (now : Int) (b : Bool) (e : Event) :
    Keeps (At v) (processImplication n r now b e) fun _ => True := by
  unfold ONA.processImplication
  repeat' first | exact At.load _ | exact At.conceptualize _ _ _ | exact At.linkSource _ _ _ | exact At.addLink _ _ _ _ | mute

theorem At.updateBeliefs (n : Narsese) (e e' : Event) (i : Nat) (now : Int) (p : ℚ) (b : Bool) :
    Keeps (At v) (updateBeliefs n e e' i now p b) fun _ => True := by
  unfold ONA.updateBeliefs
  extract_lets
  repeat' mute

theorem At.processNewBelief (n : Narsese) (add : EventRef → ℚ → M Unit) (ha : ∀ r p, Keeps (At v) (add r p) fun _ => True)
    (r : EventRef) (now : Int) (p : ℚ) (b : Bool) : Keeps (At v) (Memory_ProcessNewBeliefEvent n add r now p b) fun _ => True := by
  unfold Memory_ProcessNewBeliefEvent
  repeat' first | exact ha _ _ | exact At.load _ | exact At.conceptualize _ _ _ | exact At.processImplication _ _ _ _ _ |
    exact At.updateBeliefs _ _ _ _ _ _ _ | mute

theorem At.addEvent (n : Narsese) (fuel : Nat) : ∀ (r : EventRef) (now : Int) (p : ℚ) (b b' : Bool) (l : Nat),
    Keeps (At v) (Memory_AddEvent n fuel r now p b b' l) fun _ => True := by
  induction fuel with
  | zero => intro r now p b b' l; exact Keeps.throw
  | succ fuel ih =>
    intro r now p b b' l
    unfold Memory_AddEvent
    repeat' first | exact At.load _ | exact At.find _ | exact At.addCycling _ _ _ |
      exact At.processNewBelief n _ (fun _ _ => ih _ _ _ _ _ _) _ _ _ _ | mute

theorem At.addEvent' (n : Narsese) (e : Event) (now : Int) (p : ℚ) (b b' : Bool) (l : Nat) :
    Keeps (At v) (Memory_AddEvent' n e now p b b' l) fun _ => True :=
  Keeps.bind_get fun _ _ => At.addEvent n _ _ _ _ _ _ _


theorem At.nextProcessID : Keeps (At v) nextProcessID fun _ => True := by
  unfold ONA.nextProcessID
  repeat' mute

theorem At.componentBelief (n : Narsese) (l : List Term) (j : Nat) (t : Int) (c : Nat) (b : ℚ × Option (Nat × Substitution)) :
    Keeps (At v) (componentBelief n l j t c b) fun _ => True := by
  unfold ONA.componentBelief
  repeat' mute

theorem At.visitConcept {body : Nat → σ → M (Bool × σ)} (hb : ∀ c st, Keeps (At v) (body c st) fun _ => True) (c : Option Nat)
    (st : σ) : Keeps (At v) (visitConcept body c st) fun _ => True := by
  unfold ONA.visitConcept
  repeat' first | exact hb _ _ | mute

theorem At.visitChain {body : Nat → σ → M (Bool × σ)} (hb : ∀ c st, Keeps (At v) (body c st) fun _ => True) (fuel : Nat) :
    ∀ (c : Option Nat) (st : σ), Keeps (At v) (visitChain body fuel c st) fun _ => True := by
  induction fuel with
  | zero => intro c st; unfold ONA.visitChain; cases c <;> repeat' mute
  | succ fuel ih =>
    intro c st
    unfold ONA.visitChain
    cases c with
    | none => repeat' mute
    | some e => repeat' first | exact ih _ _ | exact At.visitConcept hb _ _ | mute

theorem At.related {body : Nat → σ → M (Bool × σ)} (hb : ∀ c st, Keeps (At v) (body c st) fun _ => True) (fuel : Nat) (t : Term)
    (st : σ) : Keeps (At v) (relatedConcepts fuel t body st) fun _ => True := by
  unfold relatedConcepts
  generalize List.range UNIFICATION_DEPTH = l
  induction l generalizing st with
  | nil => unfold visitRelated; repeat' mute
  | cons i l ih =>
    unfold visitRelated
    repeat' first | exact ih _ | exact At.find _ | exact At.visitConcept hb _ _ | exact At.visitChain hb _ _ _ | mute

theorem At.decompositionLoop (n : Narsese) (fuel : Nat) (j : Nat) : ∀ (l : List Term) (t : Int) (g : Event),
    Keeps (At v) (decompositionLoop n fuel j l t g) fun _ => True := by
  induction j with
  | zero => intro l t g; unfold ONA.decompositionLoop; repeat' mute
  | succ j ih =>
    intro l t g
    unfold ONA.decompositionLoop
    repeat' first | exact ih _ _ _ | exact At.nextProcessID | exact At.related (fun _ _ => At.componentBelief _ _ _ _ _ _) _ _ _ | mute

theorem At.goalSequence (n : Narsese) (fuel : Nat) (g : Event) (p : ℚ) (l : Nat) :
    Keeps (At v) (Cycle_GoalSequenceDecomposition n fuel g p l) fun _ => True := by
  unfold Cycle_GoalSequenceDecomposition
  repeat' first | exact At.decompositionLoop _ _ _ _ _ _ | exact At.addEvent' _ _ _ _ _ _ _ | mute

theorem At.considerLinks (n : Narsese) (c : Nat) (g : Event) (now : Int) (subs : Substitution) (b : Bool) (o : Nat)
    (best : Candidate) : Keeps (At v) (considerLinks n c g now subs b o best) fun _ => True := by
  unfold ONA.considerLinks
  refine Keeps.seq (Q := fun _ => True) (Keeps.loop' (fun st => ?_) _ _) fun _ => ?_
  · repeat' mute
  · repeat' mute

theorem At.considerTables (n : Narsese) (c : Nat) (g : Event) (now : Int) (subs : Substitution) (b : Bool) (l : List Nat) :
    ∀ best : Candidate, Keeps (At v) (considerOperationTables n c g now subs b l best) fun _ => True := by
  induction l with
  | nil => intro best; unfold considerOperationTables; repeat' mute
  | cons o l ih =>
    intro best
    unfold considerOperationTables
    repeat' first | exact ih _ | exact At.considerLinks _ _ _ _ _ _ _ _ | mute

theorem At.setNext {s : Sys} (h : At v s) (r : BitVec 64) : At v { s with next := r } := h

theorem At.nextRand : Keeps (At v) nextRand fun _ => True := by
  unfold ONA.nextRand
  refine Keeps.bind_get fun s hs => ?_
  exact Keeps.seq (Q := fun _ => True) (Keeps.set (At.setNext hs _)) fun _ => Keeps.pure trivial

theorem At.getTemporalLinkTruth (a b : Term) : Keeps (At v) (Memory_getTemporalLinkTruth a b) fun _ => True := by
  unfold Memory_getTemporalLinkTruth
  repeat' first | exact At.find _ | mute

theorem At.noTemporalLink (a b : Term) : Keeps (At v) (noTemporalLink a b) fun _ => True := by
  unfold ONA.noTemporalLink
  repeat' first | exact At.getTemporalLinkTruth _ _ | mute

theorem At.addGeneralized (n : Narsese) (e : Event) (now : Int) (side : Nat) (skip : Term) :
    Keeps (At v) (addGeneralized n e now side skip) fun _ => True := by
  unfold ONA.addGeneralized
  repeat' first | exact At.addEvent' _ _ _ _ _ _ _ | mute

theorem At.addFunctional (n : Narsese) (a b : Term) (t : R Truth) (st : Stamp) (now : Int) (x y : Term) :
    Keeps (At v) (addFunctionalImplication n a b t st now x y) fun _ => True := by
  unfold addFunctionalImplication
  dsimp only
  refine Keeps.ite (fun _ => Keeps.pure trivial) fun _ => ?_
  refine Keeps.seq (At.noTemporalLink _ _) fun r => ?_
  refine Keeps.ite (fun _ => Keeps.pure trivial) fun _ => ?_
  refine Keeps.bind_lift fun t ht => ?_
  refine Keeps.seq (At.addEvent' _ _ _ _ _ _ _) fun _ => ?_
  refine Keeps.seq (At.addGeneralized _ _ _ _ _) fun _ => ?_
  exact Keeps.seq (At.addGeneralized _ _ _ _ _) fun _ => Keeps.pure trivial


theorem At.compareImplications (n : Narsese) (a b : Implication) (now : Int) :
    Keeps (At v) (compareImplications n a b now) fun _ => True := by
  unfold ONA.compareImplications
  dsimp only
  refine Keeps.ite (fun _ => Keeps.pure trivial) fun _ => ?_
  refine Keeps.ite (fun _ => Keeps.pure trivial) fun _ => ?_
  refine Keeps.ite (fun _ => ?_) fun _ => Keeps.pure trivial
  refine Keeps.seq (At.addFunctional _ _ _ _ _ _ _ _) fun r => ?_
  exact Keeps.seq (At.addFunctional _ _ _ _ _ _ _ _) fun r => Keeps.pure trivial


theorem At.functionalEquivalence (n : Narsese) (now : Int) (d : Decision) :
    Keeps (At v) (functionalEquivalence n now d) fun _ => True := by
  unfold ONA.functionalEquivalence
  dsimp only
  refine Keeps.ite (fun _ => ?_) fun _ => Keeps.pure trivial
  refine Keeps.seq (At.find _) fun r => ?_
  cases r with
  | none => exact Keeps.pure trivial
  | some c =>
    refine Keeps.seq (Keeps.loop' (fun j => ?_) _ _) fun _ => Keeps.pure trivial
    refine Keeps.bind_get fun s hs => ?_
    refine Keeps.ite (fun hj => ?_) fun _ => Keeps.pure trivial
    exact Keeps.seq (At.compareImplications _ _ _ _) fun _ => Keeps.pure trivial


omit [Arith] in
theorem At.setStdin {s : Sys} (h : At v s) (l : List (Option Term)) : At v { s with stdin := l } := h

theorem At.readResult (n : Narsese) (op : Operation) (args : Term) (subs : Substitution) :
    Keeps (At v) (readOperationResult n op args subs) fun _ => True := by
  unfold readOperationResult
  repeat' first | exact At.setStdin ‹_› _ | mute

theorem At.negativeConfirmation (e : Event) (imp : Implication) (o c : Nat) :
    Keeps (At v) (Decision_AddNegativeConfirmation e imp o c) fun _ => True := by
  unfold Decision_AddNegativeConfirmation
  refine Keeps.bind_get fun s hs => ?_
  refine Keeps.bind_lift fun _ _ => Keeps.bind_lift fun _ _ => ?_
  exact At.modifyConcept _ _


theorem At.anticipateMissing (n : Narsese) (now : Int) (d : Decision) :
    Keeps (At v) (anticipateMissing n now d) fun _ => True := by
  unfold ONA.anticipateMissing
  dsimp only
  refine Keeps.ite (fun hne => ?_) fun _ => Keeps.pure trivial
  refine Keeps.seq (At.conceptualize _ _ _) fun r => ?_
  cases r with
  | none => exact Keeps.pure trivial
  | some c =>
    dsimp only
    split
    · exact Keeps.throw
    · exact Keeps.bind_get fun s hs => At.negativeConfirmation _ _ _ _


theorem At.deriveSubgoal (n : Narsese) (imp : Implication) (g : Event) (now : Int) (p : ℚ) (l : Nat) :
    Keeps (At v) (deriveSubgoal n imp g now p l) fun _ => True := by
  unfold ONA.deriveSubgoal
  dsimp only
  refine Keeps.bind_lift fun _ _ => ?_
  refine Keeps.ite (fun _ => ?_) fun _ => Keeps.pure trivial
  refine Keeps.bind_lift fun _ _ => ?_
  refine Keeps.ite (fun _ => ?_) fun _ => Keeps.pure trivial
  refine Keeps.bind_lift fun _ _ => ?_
  exact At.addEvent' _ _ _ _ _ _ _


theorem At.subgoalsOfTable (n : Narsese) (c : Nat) (t : LinkTable) (now : Int) (p : ℚ) (l : Nat) :
    Keeps (At v) (subgoalsOfTable n c t now p l) fun _ => True := by
  unfold ONA.subgoalsOfTable
  refine Keeps.seq (Q := fun _ => True) (Keeps.loop' (fun st => ?_) _ _) fun _ => ?_
  · refine Keeps.bind_get fun s hs => ?_
    dsimp only
    refine Keeps.ite (fun _ => ?_) fun _ => Keeps.pure trivial
    refine Keeps.bind_lift fun _ _ => ?_
    refine Keeps.ite (fun _ => ?_) fun _ => ?_
    · exact Keeps.seq (At.deriveSubgoal _ _ _ _ _ _) fun _ => Keeps.pure trivial
    · exact Keeps.seq (At.modifyConcept _ _) fun _ => Keeps.pure trivial
  · exact Keeps.pure trivial

theorem At.deriveSubgoals (n : Narsese) (g : Event) (p : ℚ) (now : Int) (l : Nat) (c : Nat) (u : Unit) :
    Keeps (At v) (deriveSubgoals n g p now l c u) fun _ => True := by
  unfold ONA.deriveSubgoals
  refine Keeps.bind_get fun s hs => ?_
  dsimp only
  refine Keeps.bind_lift fun _ _ => ?_
  refine Keeps.ite (fun _ => ?_) fun _ => Keeps.pure trivial
  refine Keeps.bind_lift fun _ _ => ?_
  refine Keeps.seq (At.modifyConcept _ _) fun _ => ?_
  exact Keeps.seq (Keeps.forM fun _ _ => At.subgoalsOfTable _ _ _ _ _ _) fun _ => Keeps.pure trivial

end
end ONA

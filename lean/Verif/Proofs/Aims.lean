import Verif.Spec.Subgoals
import Verif.Props.InferenceRun
/-
Which functions leave the waiting and selected goals alone.
-/
namespace ONA

/-- The goals, and what selects them. -/
def Sys.aims (s : Sys) : ((Nat → PriorityQueue ℚ Nat) × (Nat → Nat → Event)) × (Nat → Event) × (Nat → ℚ) × Nat × Int :=
  (s.goalBuffers, s.selectedGoals, s.selectedGoalsPriority, s.goalsSelectedCnt, s.currentTime)

/-- They are as given. -/
def Aim (v : ((Nat → PriorityQueue ℚ Nat) × (Nat → Nat → Event)) × (Nat → Event) × (Nat → ℚ) × Nat × Int) (s : Sys) : Prop :=
  s.aims = v

section
variable {σ : Type} {v : ((Nat → PriorityQueue ℚ Nat) × (Nat → Nat → Event)) × (Nat → Event) × (Nat → ℚ) × Nat × Int}

theorem Aim.modifyConcept (c : Nat) (f : Concept → Concept) : Keeps (Aim v) (modifyConcept c f) fun _ => True :=
  Keeps.modify fun _ h => h

/-- One step of the search for a proof. -/
macro "aim1" : tactic => `(tactic| with_reducible first
  | exact Keeps.pure trivial
  | exact Keeps.throw
  | exact Keeps.lift fun _ _ => trivial
  | exact Aim.modifyConcept _ _
  | assumption
  | refine Keeps.bind_get fun _ _ => ?_
  | refine Keeps.bind_lift fun _ _ => ?_
  | refine Keeps.ite (fun _ => ?_) fun _ => ?_
  | refine Keeps.seq (Q := fun _ => True) ?_ fun _ => ?_
  | refine Keeps.set ?_
  | refine Keeps.modify fun _ _ => ?_
  | split)

/-- One step, or the end of the search. -/
macro "aim" : tactic => `(tactic| first | aim1 | (show Aim _ _; assumption))

theorem Aim.find (t : Term) : Keeps (Aim v) (Memory_FindConceptByTerm t) fun _ => True := by
  unfold Memory_FindConceptByTerm
  repeat' aim

theorem Aim.forgetConcept (n : Narsese) (c : Nat) : Keeps (Aim v) (forgetConcept n c) fun _ => True := by
  unfold ONA.forgetConcept
  repeat' aim

theorem Aim.createConcept (n : Narsese) (c : Nat) (t : Term) (now : Int) : Keeps (Aim v) (createConcept n c t now) fun _ => True := by
  unfold ONA.createConcept
  repeat' aim

theorem Aim.conceptualize (n : Narsese) (t : Term) (now : Int) : Keeps (Aim v) (Memory_Conceptualize n t now) fun _ => True := by
  unfold Memory_Conceptualize
  repeat' first | exact Aim.find _ | exact Aim.forgetConcept _ _ | exact Aim.createConcept _ _ _ _ | aim

theorem Aim.nextProcessID : Keeps (Aim v) nextProcessID fun _ => True := by
  unfold ONA.nextProcessID
  repeat' aim

theorem Aim.marked (s : Sys) (c : Nat) (h : Aim v s) : Aim v (s.marked c) := h

variable [Arith]

theorem Aim.considerLinks (n : Narsese) (c : Nat) (g : Event) (now : Int) (subs : Substitution) (b : Bool) (o : Nat)
    (best : Candidate) : Keeps (Aim v) (considerLinks n c g now subs b o best) fun _ => True := by
  unfold ONA.considerLinks
  refine Keeps.seq (Q := fun _ => True) (Keeps.loop' (fun st => ?_) _ _) fun _ => ?_
  · repeat' aim
  · repeat' aim

theorem Aim.considerTables (n : Narsese) (c : Nat) (g : Event) (now : Int) (subs : Substitution) (b : Bool) (l : List Nat) :
    ∀ best : Candidate, Keeps (Aim v) (considerOperationTables n c g now subs b l best) fun _ => True := by
  induction l with
  | nil => intro best; unfold considerOperationTables; repeat' aim
  | cons o l ih =>
    intro best
    unfold considerOperationTables
    repeat' first | exact ih _ | exact Aim.considerLinks _ _ _ _ _ _ _ _ | aim

theorem Aim.setNext {s : Sys} (h : Aim v s) (r : BitVec 64) : Aim v { s with next := r } := h

theorem Aim.nextRand : Keeps (Aim v) nextRand fun _ => True := by
  unfold ONA.nextRand
  refine Keeps.bind_get fun s hs => ?_
  exact Keeps.seq (Q := fun _ => True) (Keeps.set (Aim.setNext hs _)) fun _ => Keeps.pure trivial

theorem Aim.emit (o : Output) : Keeps (Aim v) (emit o) fun _ => True := Keeps.modify fun _ h => h

theorem Aim.bestCandidate (n : Narsese) (c : Nat) (g : Event) (now : Int) :
    Keeps (Aim v) (Decision_BestCandidate n c g now) fun _ => True := by
  unfold Decision_BestCandidate
  repeat' first | exact Aim.considerTables _ _ _ _ _ _ _ _ | exact Aim.emit _ | aim

theorem Aim.randMod (b : Nat) : Keeps (Aim v) (randMod b) fun _ => True := by
  unfold ONA.randMod
  repeat' first | exact Aim.nextRand | aim

theorem Aim.babbling (n : Narsese) : Keeps (Aim v) (Decision_MotorBabbling n) fun _ => True := by
  unfold Decision_MotorBabbling
  repeat' first | exact Aim.randMod _ | aim

theorem Aim.suggest (n : Narsese) (c : Nat) (g : Event) (now : Int) :
    Keeps (Aim v) (Decision_Suggest n c g now) fun _ => True := by
  unfold Decision_Suggest
  repeat' first | exact Aim.nextRand | exact Aim.babbling _ | exact Aim.bestCandidate _ _ _ _ | aim

theorem Aim.activate (n : Narsese) (c : Nat) (e : Event) (now : Int) :
    Keeps (Aim v) (Cycle_ActivateSensorimotorConcept n c e now) fun _ => True := by
  unfold Cycle_ActivateSensorimotorConcept
  repeat' first | exact Aim.suggest _ _ _ _ | aim

theorem Aim.processRelated (n : Narsese) (e : Event) (now : Int) (c : Nat) (d : Decision) :
    Keeps (Aim v) (processRelatedConcept n e now c d) fun _ => True := by
  unfold processRelatedConcept
  repeat' first | exact Aim.activate _ _ _ _ | aim

theorem Aim.processEvent (n : Narsese) (fuel : Nat) (e : Event) (now : Int) :
    Keeps (Aim v) (Cycle_ProcessSensorimotorEvent n fuel e now) fun _ => True := by
  unfold Cycle_ProcessSensorimotorEvent
  repeat' first
    | exact Aim.conceptualize _ _ _
    | exact Aim.nextProcessID
    | exact Keeps.related' Aim.marked (fun _ _ => Aim.processRelated _ _ _ _ _) _ _ _
    | aim

end
end ONA

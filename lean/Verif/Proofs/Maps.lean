import Verif.Spec.Related
import Verif.Proofs.Subgoals
import Verif.Proofs.Related
/-
Which functions leave the map of the memory alone: the concepts there are, their terms and marks, and the index.
-/
namespace ONA

/-- The map is as given. -/
abbrev Map (v s : Sys) : Prop := SameMap v s

section
variable {v : Sys}

theorem Map.modifyConcept (c : Nat) (f : Concept → Concept)
    (hf : ∀ x, (f x).term = x.term ∧ (f x).id = x.id ∧ (f x).processID = x.processID) :
    Keeps (Map v) (modifyConcept c f) fun _ => True := by
  refine Keeps.modify fun s h => ?_
  refine h.trans ⟨rfl, rfl, rfl, rfl, rfl, fun k => ?_, fun k => ?_, fun k => ?_⟩
  all_goals
    dsimp only
    rw [upd_apply]
    split
    · next hk => subst hk; first | exact (hf _).1 | exact (hf _).2.1 | exact (hf _).2.2
    · rfl

/-- A change outside of the map. -/
theorem Map.other {s s' : Sys} (h : Map v s) (h1 : s'.concepts = s.concepts) (h2 : s'.HTconcepts = s.HTconcepts)
    (h3 : s'.index = s.index) (h4 : s'.concept_id = s.concept_id) (h5 : s'.conceptProcessID = s.conceptProcessID)
    (h6 : s'.concept_storage = s.concept_storage) : Map v s' :=
  h.trans ⟨h1, h2, h3, h4, h5, fun _ => by rw [h6], fun _ => by rw [h6], fun _ => by rw [h6]⟩

/-- One step of the search for a proof. -/
macro "map1" : tactic => `(tactic| with_reducible first
  | exact Keeps.pure trivial
  | exact Keeps.throw
  | exact Keeps.lift fun _ _ => trivial
  | assumption
  | refine Keeps.bind_get fun _ _ => ?_
  | refine Keeps.bind_lift fun _ _ => ?_
  | refine Keeps.ite (fun _ => ?_) fun _ => ?_
  | refine Keeps.seq (Q := fun _ => True) ?_ fun _ => ?_
  | refine Map.modifyConcept _ _ fun _ => ?_
  | exact ⟨rfl, rfl, rfl⟩
  | refine Keeps.set (Map.other (by assumption) rfl rfl rfl rfl rfl rfl)
  | refine Keeps.modify fun _ h => Map.other h rfl rfl rfl rfl rfl rfl
  | split)

variable [Arith]

theorem Map.considerLinks (n : Narsese) (c : Nat) (g : Event) (now : Int) (subs : Substitution) (b : Bool) (o : Nat)
    (best : Candidate) : Keeps (Map v) (considerLinks n c g now subs b o best) fun _ => True := by
  unfold ONA.considerLinks
  refine Keeps.seq (Q := fun _ => True) (Keeps.loop' (fun st => ?_) _ _) fun _ => ?_
  · repeat' map1
  · repeat' map1

theorem Map.considerTables (n : Narsese) (c : Nat) (g : Event) (now : Int) (subs : Substitution) (b : Bool) (l : List Nat) :
    ∀ best : Candidate, Keeps (Map v) (considerOperationTables n c g now subs b l best) fun _ => True := by
  induction l with
  | nil => intro best; unfold considerOperationTables; repeat' map1
  | cons o l ih =>
    intro best
    unfold considerOperationTables
    repeat' first | exact ih _ | exact Map.considerLinks _ _ _ _ _ _ _ _ | map1

theorem Map.setNext {s : Sys} (h : Map v s) (r : BitVec 64) : Map v { s with next := r } := h.other rfl rfl rfl rfl rfl rfl

theorem Map.nextRand : Keeps (Map v) nextRand fun _ => True := by
  unfold ONA.nextRand
  refine Keeps.bind_get fun s hs => ?_
  exact Keeps.seq (Q := fun _ => True) (Keeps.set (Map.setNext hs _)) fun _ => Keeps.pure trivial

theorem Map.emit (o : Output) : Keeps (Map v) (emit o) fun _ => True :=
  Keeps.modify fun _ h => h.other rfl rfl rfl rfl rfl rfl

theorem Map.bestCandidate (n : Narsese) (c : Nat) (g : Event) (now : Int) :
    Keeps (Map v) (Decision_BestCandidate n c g now) fun _ => True := by
  unfold Decision_BestCandidate
  repeat' first | exact Map.considerTables _ _ _ _ _ _ _ _ | exact Map.emit _ | map1

theorem Map.randMod (b : Nat) : Keeps (Map v) (randMod b) fun _ => True := by
  unfold ONA.randMod
  repeat' first | exact Map.nextRand | map1

theorem Map.babbling (n : Narsese) : Keeps (Map v) (Decision_MotorBabbling n) fun _ => True := by
  unfold Decision_MotorBabbling
  repeat' first | exact Map.randMod _ | map1

theorem Map.suggest (n : Narsese) (c : Nat) (g : Event) (now : Int) :
    Keeps (Map v) (Decision_Suggest n c g now) fun _ => True := by
  unfold Decision_Suggest
  repeat' first | exact Map.nextRand | exact Map.babbling _ | exact Map.bestCandidate _ _ _ _ | map1

theorem Map.activate (n : Narsese) (c : Nat) (e : Event) (now : Int) :
    Keeps (Map v) (Cycle_ActivateSensorimotorConcept n c e now) fun _ => True := by
  unfold Cycle_ActivateSensorimotorConcept
  repeat' first | exact Map.suggest _ _ _ _ | map1

theorem Map.processRelated (n : Narsese) (e : Event) (now : Int) (c : Nat) (d : Decision) :
    Keeps (Map v) (processRelatedConcept n e now c d) fun r => r.1 = true := by
  unfold processRelatedConcept
  have act : ∀ e : Event, Keeps (Map v) (Cycle_ActivateSensorimotorConcept n c e now) fun _ => True :=
    fun e => Map.activate n c e now
  dsimp only
  refine Keeps.seq (Q := fun _ => True) ?_ fun d => ?_
  · repeat' first | exact act _ | map1
  · refine Keeps.ite (fun _ => ?_) fun _ => Keeps.pure rfl
    refine Keeps.bind_get fun s hs => ?_
    refine Keeps.bind_lift fun subs _ => ?_
    refine Keeps.ite (fun _ => ?_) fun _ => Keeps.pure rfl
    refine Keeps.bind_lift fun r _ => ?_
    refine Keeps.ite (fun _ => ?_) fun _ => Keeps.pure rfl
    exact Keeps.seq (act _) fun _ => Keeps.pure rfl

theorem Map.onlyGoals {s s' : Sys} (h : Map v s) (ho : OnlyGoals s s') : Map v s' := by
  rw [ho]
  exact h.other rfl rfl rfl rfl rfl rfl

theorem Map.subgoal (n : Narsese) (imp : Implication) (g : Event) (now : Int) (p : ℚ) (layer : Nat) :
    Keeps (Map v) (deriveSubgoal n imp g now p layer) fun _ => True := by
  unfold ONA.deriveSubgoal
  refine Keeps.bind_lift fun subs _ => ?_
  refine Keeps.ite (fun _ => ?_) fun _ => Keeps.pure trivial
  refine Keeps.bind_lift fun r _ => ?_
  refine Keeps.ite (fun _ => ?_) fun _ => Keeps.pure trivial
  refine Keeps.bind_lift fun d hd => ?_
  intro s a s' hs e
  exact ⟨hs.onlyGoals (addGoal_only (e := Inference_EventUpdate d now) (by have := goalDeduction_type hd; exact this) now _ layer s _ _ e), trivial⟩

theorem Map.subgoals (n : Narsese) (c : Nat) (table : LinkTable) (now : Int) (p : ℚ) (layer : Nat) :
    Keeps (Map v) (subgoalsOfTable n c table now p layer) fun _ => True := by
  unfold subgoalsOfTable
  refine Keeps.seq (Q := fun _ => True) (Keeps.loop' (fun st => ?_) _ _) fun _ => ?_
  · refine Keeps.bind_get fun s hs => ?_
    refine Keeps.ite (fun _ => ?_) fun _ => Keeps.pure trivial
    refine Keeps.bind_lift fun b _ => ?_
    refine Keeps.ite (fun _ => ?_) fun _ => ?_
    · exact Keeps.seq (Map.subgoal _ _ _ _ _ _) fun _ => Keeps.pure trivial
    · refine Keeps.seq (Map.modifyConcept _ _ fun x => ?_) fun _ => Keeps.pure trivial
      cases table <;> exact ⟨rfl, rfl, rfl⟩
  · exact Keeps.pure trivial

theorem Map.deriveSubgoals (n : Narsese) (g : Event) (p : ℚ) (now : Int) (layer c : Nat) (u : Unit) :
    Keeps (Map v) (deriveSubgoals n g p now layer c u) fun r => r.1 = true := by
  unfold ONA.deriveSubgoals
  refine Keeps.bind_get fun s hs => ?_
  refine Keeps.bind_lift fun subs _ => ?_
  refine Keeps.ite (fun _ => ?_) fun _ => Keeps.pure rfl
  refine Keeps.bind_lift fun r _ => ?_
  refine Keeps.seq (Map.modifyConcept _ _ fun x => ⟨rfl, rfl, rfl⟩) fun _ => ?_
  exact Keeps.seq (Keeps.forM fun t _ => Map.subgoals _ _ _ _ _ _) fun _ => Keeps.pure rfl

end
end ONA

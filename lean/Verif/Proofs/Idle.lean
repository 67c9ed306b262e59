import Verif.Proofs.Calm
import Verif.Proofs.RunFacts
import Verif.Spec.Idle
/-
The system without goals.
-/
namespace ONA

/-- Nothing was printed since, there are no goals, and no concept has a goal as belief. -/
structure Idle (L : List Output) (s : Sys) : Prop where
  output : s.output = L
  goals : ∀ l, (s.cycling_goal_events l).itemsAmount = 0
  belief : ∀ c, (s.concept_storage c).belief.type ≠ .goal

section
variable {α : Type} {L : List Output}

/-- What does not touch the goals keeps the system idle. -/
theorem Idle.of_calm {x : M α} {Q : α → Prop} (h : ∀ v, Keeps (Calm v) x Q) : Keeps (Idle L) x Q := by
  intro s a s' hs e
  obtain ⟨⟨hv, hb⟩, hq⟩ := h (s.cycling_goal_events, s.cycling_goal_event_storage, s.output) s a s' ⟨rfl, hs.belief⟩ e
  simp only [Prod.mk.injEq] at hv
  exact ⟨⟨hv.2.2.trans hs.output, fun l => by rw [hv.1]; exact hs.goals l, hb⟩, hq⟩

theorem popMax_empty {q : PriorityQueue ℚ Nat} (h : q.itemsAmount = 0) : q.popMax = .ok (none, q) := by
  unfold PriorityQueue.popMax
  rw [if_pos h]

theorem Idle.popGoals (layer : Nat) {s s' : Sys} (hs : Idle L s) (e : popGoalEvents layer s = .ok ((), s')) :
    Idle L s' ∧ s'.goalsSelectedCnt = 0 := by
  have key : WP (popGoalEvents layer) (fun _ s' => Idle L s' ∧ s'.goalsSelectedCnt = 0) s := by
    unfold popGoalEvents
    refine WP.get (WP.bind (WP.lift fun r hr => ?_))
    rw [popMax_empty (hs.goals layer)] at hr
    cases hr
    dsimp only
    refine WP.bind (WP.lift fun _ _ => WP.set ?_)
    refine ⟨⟨hs.output, fun l => ?_, hs.belief⟩, rfl⟩
    dsimp only
    by_cases hl : l = layer
    · subst hl; rw [upd_same]; exact hs.goals l
    · rw [upd_other _ _ hl]; exact hs.goals l
  exact key _ _ e

section
variable [Arith]

theorem processGoals_none {n : Narsese} {fuel : Nat} {add : Term → M Unit} {now : Int} {layer : Nat} {s s' : Sys}
    (hs : s.goalsSelectedCnt = 0) (e : Cycle_ProcessAndInferGoalEvents n fuel add now layer s = .ok ((), s')) : s' = s := by
  have key : WP (Cycle_ProcessAndInferGoalEvents n fuel add now layer) (fun _ s' => s' = s) s := by
    unfold Cycle_ProcessAndInferGoalEvents
    refine WP.get ?_
    rw [hs]
    refine WP.bind (WP.pure ?_)
    refine WP.bind (WP.pure ?_)
    refine WP.get ?_
    rw [hs]
    exact WP.pure rfl
  exact key _ _ e

theorem Idle.goalLayer (n : Narsese) (fuel : Nat) (add : Term → M Unit) (now : Int) (layer : Nat) :
    Keeps (Idle L) (processGoalLayer n fuel add now layer) fun _ => True := by
  intro s _ s' hs e
  unfold processGoalLayer at e
  by_cases hlay : layer < CYCLING_GOAL_EVENTS_LAYERS
  swap
  · rw [if_neg hlay] at e; cases e
  rw [if_pos hlay] at e
  obtain ⟨_, s1, e1, e2⟩ := M.bind_ok.1 e
  obtain ⟨h1, h2⟩ := hs.popGoals layer e1
  rw [processGoals_none h2 e2]
  exact ⟨h1, trivial⟩

theorem decayQueue_empty {q r : PriorityQueue ℚ Nat} (h : q.itemsAmount = 0) (e : decayQueue q = .ok r) : r.itemsAmount = 0 := by
  unfold decayQueue at e
  rw [h] at e
  unfold setPriorities at e
  rw [R.ok_bind] at e
  unfold PriorityQueue.rebuild at e
  rw [h, if_neg (by omega)] at e
  unfold PriorityQueue.rebuildLoop at e
  rw [R.ok_bind] at e
  cases e
  rfl

theorem decayLayers_empty : ∀ (ls : List Nat) (f g : Nat → PriorityQueue ℚ Nat), (∀ l, (f l).itemsAmount = 0) →
    decayLayers ls f = .ok g → ∀ l, (g l).itemsAmount = 0 := by
  intro ls
  induction ls with
  | nil => intro f g hf e; cases e; exact hf
  | cons layer rest ih =>
    intro f g hf e
    unfold decayLayers at e
    rw [R.bind_eq_ok] at e
    obtain ⟨q, e1, e⟩ := e
    refine ih _ g (fun l => ?_) e
    by_cases hl : l = layer
    · subst hl; rw [upd_same]; exact decayQueue_empty (hf l) e1
    · rw [upd_other _ _ hl]; exact hf l

theorem decayConcepts_belief (q : PriorityQueue ℚ Nat) : ∀ (ls : List Nat) (f : Nat → Concept) (c : Nat),
    (decayConcepts q ls f c).belief = (f c).belief := by
  intro ls
  induction ls with
  | nil => intro f c; rfl
  | cons i rest ih =>
    intro f c
    unfold decayConcepts
    dsimp only
    rw [ih]
    by_cases h : c = (q.items i).address
    · subst h; rw [upd_same]
    · rw [upd_other _ _ h]

theorem Idle.forgetting (now : Int) : Keeps (Idle L) (Cycle_RelativeForgetting now) fun _ => True := by
  unfold Cycle_RelativeForgetting
  refine Keeps.bind_get fun s hs => Keeps.bind_lift fun _ _ => Keeps.bind_lift fun g hg => Keeps.bind_lift fun _ _ =>
    Keeps.bind_lift fun _ _ => Keeps.set ⟨hs.output, decayLayers_empty _ _ _ hs.goals hg, fun c => ?_⟩
  dsimp only
  rw [decayConcepts_belief]
  exact hs.belief c

theorem Calm.addGeneralized {v : Sys.Goals} (n : Narsese) {e : Event} (he : e.type ≠ .goal) (now : Int) (side : Nat) (skip : Term) :
    Keeps (Calm v) (addGeneralized n e now side skip) fun _ => True := by
  unfold ONA.addGeneralized
  refine Keeps.bind_lift fun r _ => Keeps.ite (fun _ => ?_) fun _ => Keeps.pure trivial
  exact Keeps.seq (Calm.addEvent' n (e := { e with term := r.2 }) he _ _ _ _ _) fun _ => Keeps.pure trivial

theorem Calm.getTemporalLinkTruth {v : Sys.Goals} (a b : Term) : Keeps (Calm v) (Memory_getTemporalLinkTruth a b) fun _ => True := by
  unfold Memory_getTemporalLinkTruth
  refine Keeps.seq (Calm.find _) fun c => ?_
  cases c with
  | none => exact Keeps.pure trivial
  | some c => exact Keeps.bind_get fun s _ => Keeps.lift fun _ _ => trivial

theorem Calm.noTemporalLink {v : Sys.Goals} (a b : Term) : Keeps (Calm v) (noTemporalLink a b) fun _ => True := by
  unfold ONA.noTemporalLink
  refine Keeps.seq (Calm.getTemporalLinkTruth _ _) fun t => Keeps.ite (fun _ => ?_) fun _ => Keeps.pure trivial
  exact Keeps.seq (Calm.getTemporalLinkTruth _ _) fun t => Keeps.pure trivial

theorem Calm.addFunctionalImplication {v : Sys.Goals} (n : Narsese) (a b : Term) (tv : R Truth) (st : Stamp) (now : Int) (t2 t3 : Term) :
    Keeps (Calm v) (addFunctionalImplication n a b tv st now t2 t3) fun _ => True := by
  unfold ONA.addFunctionalImplication
  dsimp only
  refine Keeps.ite (fun _ => Keeps.pure trivial) fun _ => ?_
  refine Keeps.seq (Calm.noTemporalLink _ _) fun r => Keeps.ite (fun _ => Keeps.pure trivial) fun _ => ?_
  refine Keeps.bind_lift fun t _ => ?_
  refine Keeps.seq (Calm.addEvent' n (fun h => (by cases h)) _ _ _ _ _) fun _ => ?_
  refine Keeps.seq (Calm.addGeneralized n (fun h => (by cases h)) _ _ _) fun _ => ?_
  exact Keeps.seq (Calm.addGeneralized n (fun h => (by cases h)) _ _ _) fun _ => Keeps.pure trivial

theorem Calm.compareImplications {v : Sys.Goals} (n : Narsese) (i j : Implication) (now : Int) :
    Keeps (Calm v) (compareImplications n i j now) fun _ => True := by
  unfold ONA.compareImplications
  dsimp only
  refine Keeps.ite (fun _ => Keeps.pure trivial) fun _ => ?_
  refine Keeps.ite (fun _ => Keeps.pure trivial) fun _ => ?_
  refine Keeps.ite (fun _ => ?_) fun _ => Keeps.pure trivial
  refine Keeps.seq (Calm.addFunctionalImplication n _ _ _ _ _ _ _) fun t => ?_
  exact Keeps.seq (Calm.addFunctionalImplication n _ _ _ _ _ _ _) fun t => Keeps.pure trivial

theorem Calm.functionalEquivalence {v : Sys.Goals} (n : Narsese) (now : Int) (d : Decision) :
    Keeps (Calm v) (functionalEquivalence n now d) fun _ => True := by
  unfold ONA.functionalEquivalence
  dsimp only
  refine Keeps.ite (fun _ => ?_) fun _ => Keeps.pure trivial
  refine Keeps.seq (Calm.find _) fun r => ?_
  cases r with
  | none => exact Keeps.pure trivial
  | some c =>
    refine Keeps.seq (Q := fun _ => True) (Keeps.loop' (fun j => ?_) _ _) fun _ => Keeps.pure trivial
    refine Keeps.bind_get fun s hs => Keeps.ite (fun _ => ?_) fun _ => Keeps.pure trivial
    exact Keeps.seq (Calm.compareImplications n _ _ _) fun _ => Keeps.pure trivial

theorem Idle.perform (n : Narsese) (fuel : Nat) (add : Term → M Unit) (now : Int) :
    Keeps (Idle L) (Cycle_Perform n fuel add now) fun _ => True := by
  unfold Cycle_Perform
  refine Keeps.seq (Idle.of_calm fun _ => Calm.popBeliefs) fun _ => ?_
  refine Keeps.seq (Idle.of_calm fun _ => Calm.processBeliefs n fuel now) fun _ => ?_
  refine Keeps.seq (Idle.of_calm fun _ => Calm.anticipate n 0 Term.zero true now) fun _ => ?_
  refine Keeps.seq (Keeps.forM fun l _ => Idle.goalLayer n fuel add now l) fun _ => ?_
  exact Keeps.seq (Idle.of_calm fun _ => Calm.inference n fuel now) fun _ => Idle.forgetting now

theorem Idle.oneCycle (n : Narsese) (fuel : Nat) (add : Term → M Unit) : Keeps (Idle L) (oneCycle n fuel add) fun _ => True := by
  unfold ONA.oneCycle
  refine Keeps.bind_get fun s _ => Keeps.seq (Idle.perform n fuel add _) fun _ => Keeps.modify fun s hs => ?_
  exact ⟨hs.output, hs.goals, hs.belief⟩

theorem Idle.cycles (n : Narsese) (fuel : Nat) (add : Term → M Unit) (k : Nat) :
    Keeps (Idle L) (cyclesWith n fuel add k) fun _ => True := by
  unfold ONA.cyclesWith
  exact Keeps.bind_get fun s _ => Keeps.bind_lift fun _ _ => Keeps.forM fun _ _ => Idle.oneCycle n fuel add

theorem Idle.addInput (n : Narsese) (fuel : Nat) (add : Term → M Unit) (term : Term) {type : EventType} (ht : type ≠ .goal)
    (truth : Truth) (eternal : Bool) (o : ℚ) : Keeps (Idle L) (addInputWith n fuel add term type truth eternal o) fun _ => True := by
  unfold ONA.addInputWith
  refine Keeps.bind_get fun s hs => Keeps.bind_lift fun _ _ => ?_
  refine Keeps.seq (Q := fun _ => True) (Keeps.set ⟨hs.output, hs.goals, hs.belief⟩) fun _ => ?_
  refine Keeps.seq (Q := fun _ => True) (Idle.of_calm fun _ => ?_) fun _ => Keeps.seq (Idle.cycles n fuel add 1) fun _ => Keeps.pure trivial
  unfold Memory_AddInputEvent
  refine Calm.addEvent' n ?_ _ _ _ _ _
  split <;> exact ht

end
end
end ONA

import Verif.Proofs.Waiting
import Verif.Proofs.Effects
/-
C89: attention goes to the most urgent.
-/
namespace ONA
variable [Arith] {n n' : Narsese} {s s' : Sys} {z : Sizes}

/-- **C89.** A cycle selects one of the most urgent of the waiting beliefs and events; the others go on waiting. -/
theorem C89_selected (h : Good n s) (e : popBeliefEvents s = .ok ((), s')) :
    Selects s.waitingBeliefs s'.waitingBeliefs s'.selectedBelief ∧ ∀ layer, s'.waitingGoals layer = s.waitingGoals layer :=
  ⟨(popBelief_selects h e).1, fun l => congrFun (popBelief_selects h e).2 l⟩

/-- **C89.** A cycle selects one of the most urgent of the waiting goals of each layer; the others go on waiting. -/
theorem C89_selected_goal (h : Good n s) {layer : Nat} (e : popGoalEvents layer s = .ok ((), s')) :
    Selects (s.waitingGoals layer) (s'.waitingGoals layer) s'.selectedGoal ∧ s'.waitingBeliefs = s.waitingBeliefs ∧
      ∀ l, l ≠ layer → s'.waitingGoals l = s.waitingGoals l := popGoal_selects h e

/-- **C89.** Starting anew leaves nobody waiting. -/
theorem C89_anew {fuel : Fuel} {c : Call} (hr : c.restarts = true)
    (e : c.run z fuel n s = .ok (n', s')) : s'.waitingBeliefs = [] ∧ ∀ layer, s'.waitingGoals layer = [] := by
  have hm : EmptyMemory z s' := by
    cases c with
    | init => exact init_empty e
    | addInput => cases hr
    | addOperation => cases hr
    | addNarsese => cases hr
    | command c =>
      cases c with
      | reset => exact shellInit_empty e
      | _ => cases hr
  refine ⟨?_, fun l => ?_⟩
  · unfold Sys.waitingBeliefs; rw [hm.cycling_belief_events]; rfl
  · unfold Sys.waitingGoals; rw [hm.cycling_goal_events]; rfl

/-- **C89.** Whatever other call is made: those waiting change only by the moves of Spec/Waiting.lean. -/
theorem C89_moves (hz : z.Ok) (h : Reachable z n s) {fuel : Fuel} {c : Call} (hl : c.Legal n s) (hr : c.restarts = false)
    (e : c.run z fuel n s = .ok (n', s')) :
    Moves (Crowd.Move z.memory.beliefEvents) s.waitingBeliefs s'.waitingBeliefs ∧
      ∀ layer < CYCLING_GOAL_EVENTS_LAYERS, Moves (Crowd.GoalMove z.memory.goalEvents) (s.waitingGoals layer) (s'.waitingGoals layer) := by
  obtain ⟨hg, hn⟩ := h.good hz
  cases call_effects hz hg hn hl e with
  | restart h => rw [hr] at h; cases h
  | run s1 t x _ hm hg1 hr =>
    obtain ⟨h1, h2⟩ := hr.waiting hg1
    have hsz := h.sizes hz
    refine ⟨?_, fun l hl => ?_⟩
    · unfold Sys.waitingBeliefs at h1 ⊢
      rw [hm.cycling_belief_events, hm.cycling_belief_event_storage, hsz.2.1] at h1
      exact h1
    · have h2 := h2 l hl
      unfold Sys.waitingGoals at h2 ⊢
      rw [hm.cycling_goal_events, hm.cycling_goal_event_storage, hsz.2.2 l] at h2
      exact h2

/-- **C89.** No waiting belief or event is lost during a call which does not start anew: it goes on waiting, or at some point it was one
of the most urgent (and got attention), or one of the least urgent of a full buffer (and was replaced by another event of no lower
priority). -/
theorem C89_not_lost {room : Nat} {a b : Crowd} (m : Moves (Crowd.Move room) a b) {x : ℚ × Event} (hx : x ∈ a) :
    (∃ y ∈ b, y.2 = x.2) ∨ ∃ c d y, Moves (Crowd.Move room) a c ∧ Crowd.Move room c d ∧ Moves (Crowd.Move room) d b ∧ y ∈ c ∧ y.2 = x.2 ∧
      (c.MostUrgent y ∨ (c.length = room ∧ c.LeastUrgent y ∧ ∃ w ∈ d, y.1 ≤ w.1 ∧ ¬ Alike w.2 y.2)) :=
  fate (why := fun c d y => c.MostUrgent y ∨ (c.length = room ∧ c.LeastUrgent y ∧ ∃ w ∈ d, y.1 ≤ w.1 ∧ ¬ Alike w.2 y.2))
    (fun m hx => move_loses m hx) m hx

/-- **C89.** The same for goals, which may also be dropped all at once. -/
theorem C89_goal_not_lost {room : Nat} {a b : Crowd} (m : Moves (Crowd.GoalMove room) a b) {x : ℚ × Event} (hx : x ∈ a) :
    (∃ y ∈ b, y.2 = x.2) ∨ ∃ c d y, Moves (Crowd.GoalMove room) a c ∧ Crowd.GoalMove room c d ∧ Moves (Crowd.GoalMove room) d b ∧
      y ∈ c ∧ y.2 = x.2 ∧
      (d = [] ∨ c.MostUrgent y ∨ (c.length = room ∧ c.LeastUrgent y ∧ ∃ w ∈ d, y.1 ≤ w.1 ∧ ¬ Alike w.2 y.2)) :=
  fate (why := fun c d y => d = [] ∨ c.MostUrgent y ∨ (c.length = room ∧ c.LeastUrgent y ∧ ∃ w ∈ d, y.1 ≤ w.1 ∧ ¬ Alike w.2 y.2))
    (fun m hx => by
      cases m with
      | move m => exact (move_loses m hx).imp_right .inr
      | dropped h => exact .inr (.inl h)) m hx

/-- There are never more waiting than places. -/
theorem Crowd.Move.bound {room : Nat} {a b : Crowd} (m : Crowd.Move room a b) (h : a.length ≤ room) : b.length ≤ room := by
  cases m with
  | comes p e entered hp hp1 hc hn ho =>
    cases ho with
    | added h1 h2 => have := h2.length_eq; simp only [List.length_cons] at this; omega
    | refused h1 h2 h3 => rw [h3.length_eq]; exact h
    | replaced lost rest h1 h2 h3 h4 h5 =>
      have := h2.length_eq
      have := h5.length_eq
      simp only [List.length_cons] at *
      omega
  | taken x h1 h2 => have := h2.length_eq; simp only [List.length_cons] at this; omega
  | fade h1 => rw [h1.length_eq, List.length_map]; exact h

end ONA

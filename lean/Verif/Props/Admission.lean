import Verif.Proofs.Admission
import Verif.Props.Links
import Verif.Proofs.API
/-
C88: what gets attention is what is new.
-/
namespace ONA
variable [Arith] {n : Narsese} {s s' : Sys}

/-- **C88.** An event which is already waiting, already known, or an eternal belief held with more confidence, is ignored: nothing
changes. -/
theorem C88_ignored (hg : Good n s) {e : Event} (he : e.Good n) {p : ℚ} {layer : Nat} {b : Bool} (h : s.Ignores e)
    (r : Memory_addCyclingEvent e p layer s = .ok (b, s')) : b = false ∧ s' = s :=
  (addCycling_offers hg he.stamp p layer _ _ r).elim (fun x => x.2) fun x => absurd h x.1

/-- **C88.** Every other event is offered to the buffer of beliefs, or to that of the next layer of goals: it gets in if there is room, or
in place of one of the waiting events of lowest priority, if that is not higher than its own; otherwise what waits stays. -/
theorem C88_offered (hg : Good n s) {e : Event} (he : e.Good n) {p : ℚ} {layer : Nat} {b : Bool} (h : ¬ s.Ignores e)
    (r : Memory_addCyclingEvent e p layer s = .ok (b, s')) : s.Offers e p layer b s' :=
  (addCycling_offers hg he.stamp p layer _ _ r).elim (fun x => absurd x.1 h) fun x => x.2

/-- **C88.** Offering never fails: every event which is a belief or a goal is either ignored or offered. -/
theorem C88_total (hg : Good n s) {e : Event} (hty : e.type = .belief ∨ e.type = .goal) (he : e.Good n) (p : ℚ) (layer : Nat) :
    ∃ b s', Memory_addCyclingEvent e p layer s = .ok (b, s') := by
  unfold Memory_addCyclingEvent
  have hc : ∀ m, cassert (decide (e.type = .belief) || decide (e.type = .goal)) m = .ok () := fun m => by
    unfold cassert
    rw [if_pos (by simpa using hty)]
  rw [hc]
  obtain ⟨r, er, -⟩ := contains_known hg he.stamp hty
  obtain ⟨r', er', -⟩ := stronger_outdone hg e
  have hpb : ∃ b s', pushBeliefEvent e p s = .ok (b, s') := by
    obtain ⟨fb, q, hq, -⟩ := PriorityQueue.push_spec hg.beliefs.queue hg.beliefs.pos p
    cases ha : fb.addedItem with
    | none => exact ⟨false, { s with cycling_belief_events := q }, M.bind_ok.2 ⟨_, _, M.get_ok.2 ⟨rfl, rfl⟩, M.bind_ok.2
        ⟨(fb, q), s, M.lift_ok.2 ⟨hq, rfl⟩, by dsimp only; rw [ha]; rfl⟩⟩⟩
    | some item => exact ⟨true, _, M.bind_ok.2 ⟨_, _, M.get_ok.2 ⟨rfl, rfl⟩, M.bind_ok.2
        ⟨(fb, q), s, M.lift_ok.2 ⟨hq, rfl⟩, by dsimp only; rw [ha]; rfl⟩⟩⟩
  have hpg : ∀ layer, ∃ b s', pushGoalEvent e p layer s = .ok (b, s') := by
    intro layer
    obtain ⟨fb, q, hq, -⟩ := PriorityQueue.push_spec (hg.goals layer).queue (hg.goals layer).pos p
    cases ha : fb.addedItem with
    | none => exact ⟨false, _, M.bind_ok.2 ⟨_, _, M.get_ok.2 ⟨rfl, rfl⟩, M.bind_ok.2
        ⟨(fb, q), s, M.lift_ok.2 ⟨hq, rfl⟩, by dsimp only; rw [ha]; rfl⟩⟩⟩
    | some item => exact ⟨true, _, M.bind_ok.2 ⟨_, _, M.get_ok.2 ⟨rfl, rfl⟩, M.bind_ok.2
        ⟨(fb, q), s, M.lift_ok.2 ⟨hq, rfl⟩, by dsimp only; rw [ha]; rfl⟩⟩⟩
  have no : ∃ b s', (pure false : M Bool) s = .ok (b, s') := ⟨false, s, rfl⟩
  have step : ∀ {α : Type} {x : M α} {f : α → M Bool} {a : α}, x s = .ok (a, s) → (∃ b s', f a s = .ok (b, s')) →
      ∃ b s', (x >>= f) s = .ok (b, s') := fun hx ⟨b, s', h⟩ => ⟨b, s', M.bind_ok.2 ⟨_, _, hx, h⟩⟩
  have split : ∀ {c : Prop} [Decidable c] {x y : M Bool}, (∃ b s', x s = .ok (b, s')) → (∃ b s', y s = .ok (b, s')) →
      ∃ b s', (if c then x else y) s = .ok (b, s') := by
    intro c _ x y hx hy
    by_cases h : c
    · rw [if_pos h]; exact hx
    · rw [if_neg h]; exact hy
  refine step (M.lift_ok.2 ⟨rfl, rfl⟩) (step (M.get_ok.2 ⟨rfl, rfl⟩) (split no (step er (split no (split no (step er' (split no ?_)))))))
  exact split hpb (hpg _)

end ONA

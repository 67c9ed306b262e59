import Verif.Proofs.Past
import Verif.Props.Links
import Verif.Proofs.API
/-
C87: what has happened and what is expected are kept apart.
-/
namespace ONA
variable [Arith] {n : Narsese} {s s' : Sys}

/-- **C87.** Adding an event or belief (not an implication): either nothing changes, or exactly one concept takes note of it, the one of its
term: in its record of what has happened if the event is not in the future, in its record of what is expected if it is. -/
theorem C87_added (hg : Good n s) {e : Event} (he : e.Good n) (hb : e.type = .belief) (himp : ¬ IsImplication n e.term)
    {now : Int} {priority : ℚ} (hu : InUnit priority) {input : Bool} {layer : Nat}
    (r : Memory_AddEvent' n e now priority input false layer s = .ok ((), s')) (room : s'.HasRoom) :
    s' = s ∨ s.Notes n e now s' := by
  have hnf : ¬ s'.full := by rw [full_iff]; exact not_not.2 room
  unfold Memory_AddEvent' at r
  rw [M.bind_ok] at r
  obtain ⟨_, _, e1, r⟩ := r
  obtain ⟨rfl, rfl⟩ := M.get_ok.1 e1
  exact (add_notes he hb himp _ now hu input layer hg _ _ r).elim (fun h => .inl h.1) fun h => .inr (h.resolve_left hnf)

/-- **C87.** What is told with enough confidence is always noted. -/
theorem C87_told (hg : Good n s) {e : Event} (he : e.Good n) (hb : e.type = .belief) (himp : ¬ IsImplication n e.term)
    (hc : MIN_CONFIDENCE ≤ e.truth.confidence) {now : Int} (r : Memory_AddInputEvent n e now s = .ok ((), s')) (room : s'.HasRoom) :
    s.Notes n e now s' := by
  have hnf : ¬ s'.full := by rw [full_iff]; exact not_not.2 room
  unfold Memory_AddInputEvent Memory_AddEvent' at r
  rw [M.bind_ok] at r
  obtain ⟨_, _, e1, r⟩ := r
  obtain ⟨rfl, rfl⟩ := M.get_ok.1 e1
  rcases add_notes he hb himp _ now ⟨zero_le_one, le_refl _⟩ true 0 hg _ _ r with ⟨-, h⟩ | h
  · rcases h rfl with h | h
    · exact absurd hc (not_le.2 h)
    · exact absurd h (by norm_num)
  · exact h.resolve_left hnf

/-- The time of a chosen or revised event is the time of one of both. -/
theorem revisionAndChoice_time {a b c : Event} {r : Bool} (h : Inference_RevisionAndChoice n a b = .ok (c, r)) :
    c = b ∨ a.type ≠ .deleted ∧ (c = a ∨ c.occurrenceTime = max a.occurrenceTime b.occurrenceTime) := by
  unfold Inference_RevisionAndChoice at h
  split at h
  · injection h with h
    injection h with h
    exact .inl h.symm
  · rename_i hd
    dsimp only at h
    have hL : (if a.occurrenceTime > b.occurrenceTime then a.occurrenceTime else b.occurrenceTime) = max a.occurrenceTime b.occurrenceTime := by
      split <;> omega
    rw [hL] at h
    split at h
    · split at h
      · injection h with h; injection h with h; exact .inl h.symm
      · injection h with h; injection h with h; exact .inr ⟨hd, .inl h.symm⟩
    · refine .inr ⟨hd, .inr ?_⟩
      cases e : Inference_EventRevision (Inference_EventUpdate a (max a.occurrenceTime b.occurrenceTime))
        (Inference_EventUpdate b (max a.occurrenceTime b.occurrenceTime)) with
      | error x => rw [e] at h; cases h
      | ok v =>
        rw [e] at h
        have hv : v.occurrenceTime = max a.occurrenceTime b.occurrenceTime := by
          unfold Inference_EventRevision at e
          dsimp only at e
          cases e2 : Truth_Revision (Truth_Projection (Inference_EventUpdate a (max a.occurrenceTime b.occurrenceTime)).truth
            (Inference_EventUpdate a (max a.occurrenceTime b.occurrenceTime)).occurrenceTime
            (Inference_EventUpdate b (max a.occurrenceTime b.occurrenceTime)).occurrenceTime)
            (Inference_EventUpdate b (max a.occurrenceTime b.occurrenceTime)).truth with
          | error x => rw [e2] at e; cases e
          | ok w =>
            rw [e2] at e
            injection e with e
            rw [← e]
            rfl
        have h : (if v.truth.confidence ≥ (Inference_EventUpdate a (max a.occurrenceTime b.occurrenceTime)).truth.confidence then .ok (v, true)
          else .error (.assertFail "Revision outcome can't be lower in confidence than existing event") : R (Event × Bool)) = .ok (c, r) := h
        split at h
        · injection h with h; injection h with h; rw [← h]; exact hv
        · cases h

/-- **C87.** If nothing known to have happened was in the future, then nothing is after an event was added. -/
theorem C87_not_in_the_future {e : Event} {now : Int} (h : s.Notes n e now s') (old : s.PastIsPast now) : s'.PastIsPast now := by
  obtain ⟨i, x, -, ht, hx, hn, ho, hl, -⟩ := h
  have key : (s'.concept_storage i).belief_spike.type ≠ .deleted → (s'.concept_storage i).belief_spike.occurrenceTime ≤ now := by
    have hxo : x.belief_spike.type ≠ .deleted → x.belief_spike.occurrenceTime ≤ now := by
      rcases hx with ⟨hi, rfl⟩ | ⟨-, hz, -⟩
      · exact old i hi
      · rw [hz]; exact fun h => absurd rfl h
    by_cases hh : HasHappened e now
    · obtain ⟨u, r, h1, h2⟩ := hn.past hh
      rw [h2]
      intro hd
      dsimp only at hd ⊢
      rcases revisionAndChoice_time h1 with rfl | ⟨h3, rfl | h3'⟩
      · exact hh.2
      · exact hxo h3
      · rw [h3']; exact max_le (hxo h3) hh.2
    · rw [hn.notPast hh]; exact hxo
  intro c hc
  by_cases hci : c = i
  · rw [hci]; exact key
  · have hc := (hl c hc).resolve_right hci
    rw [((ho c hc).2.2 hci).past]
    exact old c hc

end ONA

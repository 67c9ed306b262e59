import Verif.Proofs.Rest
import Verif.Spec.Learning
/-
After every call the buffered belief events are less urgent than a new one.
-/
namespace ONA
variable [Arith] {n n' : Narsese} {z : Sizes} {s s' : Sys}

theorem EVENT_DURABILITY_lt : (rnd (9999 / 10000) : ℚ) < 1 := by
  obtain ⟨_, h2⟩ := rnd_lit (x := 9999 / 10000) (by norm_num)
  refine lt_of_le_of_lt h2 ?_
  norm_num

theorem decayQueue_settled {type : EventType} {q q' : PriorityQueue ℚ Nat} {st : Nat → Event} (h : BufferOk n type q st)
    (hd : decayQueue q = .ok q') : ∀ x ∈ q'.contents, x.priority < 1 := by
  unfold decayQueue at hd
  rw [R.bind_eq_ok] at hd
  obtain ⟨q1, e1, e2⟩ := hd
  have e3 := PriorityQueue.setPriorities_overwrite _ (fun item => fmul item.priority (rnd (9999 / 10000))) q q1
    (fun x _ p hp => by cases hp; rfl) e1
  subst e3
  obtain ⟨q2, e4, hi, hm, hn, hs, hperm⟩ := PriorityQueue.rebuild_spec
    (q := q.overwrite fun item => fmul item.priority (rnd (9999 / 10000))) h.queue.bound
    (by rw [PriorityQueue.overwrite_slots]; exact h.queue.nodup)
  rw [e2] at e4
  cases e4
  rw [PriorityQueue.overwrite_contents] at hperm
  intro x hx
  obtain ⟨y, hy, rfl⟩ := List.mem_map.1 (hperm.mem_iff.1 hx)
  refine lt_of_le_of_lt ?_ EVENT_DURABILITY_lt
  show rnd (y.priority * rnd (9999 / 10000)) ≤ _
  rw [← rnd_idem (9999 / 10000)]
  refine rnd_mono ?_
  rw [rnd_idem]
  obtain ⟨h1, h2⟩ := h.priority y hy
  have h0 : (0 : ℚ) ≤ rnd (9999 / 10000) := rnd_nonneg (by norm_num)
  nlinarith

theorem forgetting_settled (now : Int) (hg : Good n s) : WP (Cycle_RelativeForgetting now) (fun _ s' => s'.Settled) s := by
  unfold Cycle_RelativeForgetting
  refine WP.get (WP.bind (WP.lift fun q hq => WP.bind (WP.lift fun _ _ => WP.bind (WP.lift fun _ _ => WP.bind (WP.lift fun _ _ => ?_)))))
  exact WP.set (decayQueue_settled hg.beliefs hq)

theorem settled_restful (z : Sizes) : Restful z Sys.Settled where
  forgets := fun now hg => forgetting_settled now hg
  empty := fun h => by
    unfold Sys.Settled
    rw [h.cycling_belief_events]
    intro x hx
    cases hx
  same := fun h e _ _ _ => by
    unfold Sys.Settled
    rw [e]
    exact h
  asked := fun h e => by
    unfold Sys.Settled
    rw [e.beliefs]
    exact h

/-- Whenever the system is not busy, all buffered belief events are less urgent than a new one. -/
theorem Reachable.settled (hz : z.Ok) (h : Reachable z n s) : s.Settled := h.rests (settled_restful z) hz

end ONA

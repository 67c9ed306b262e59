import Verif.Spec.Admission
import Verif.Proofs.Announced
import Verif.Props.Stamp
/-
Helpers for C88.
-/
namespace ONA

theorem Event_Equal_alike {a b : Event} (hb : b.stamp.WF) : Event_Equal a b = true ↔ Alike a b := by
  unfold Event_Equal Truth_Equal Alike SameEvidence
  rw [← Stamp_Equal_iff a.stamp b.stamp hb]
  cases a.truth
  cases b.truth
  simp only [Bool.and_eq_true, decide_eq_true_iff, Truth.mk.injEq]
  tauto

theorem less_addsNothing {a b : Event} (hb : b.stamp.WF) :
    Event_EqualTermEqualStampLessConfidentThan a b = true ↔ AddsNothing a b := by
  unfold Event_EqualTermEqualStampLessConfidentThan AddsNothing SameEvidence
  rw [← Stamp_Equal_iff a.stamp b.stamp hb]
  simp only [Bool.and_eq_true, decide_eq_true_iff]
  tauto

theorem contains_waiting {q : PriorityQueue ℚ Nat} {st : Nat → Event} {e : Event} (hw : ∀ i, (st i).stamp.WF) :
    Memory_containsEvent q st e = true ↔ ∃ x ∈ waitingIn q st, Alike e x.2 := by
  unfold Memory_containsEvent waitingIn
  rw [List.any_eq_true]
  constructor
  · rintro ⟨i, hi, h⟩
    exact ⟨_, List.mem_map_of_mem (PriorityQueue.mem_contents.2 ⟨i, List.mem_range.1 hi, rfl⟩), (Event_Equal_alike (hw _)).1 h⟩
  · rintro ⟨x, hx, h⟩
    obtain ⟨y, hy, rfl⟩ := List.mem_map.1 hx
    obtain ⟨i, hi, rfl⟩ := PriorityQueue.mem_contents.1 hy
    exact ⟨i, List.mem_range.2 hi, (Event_Equal_alike (hw _)).2 h⟩

section
variable [Arith] {n : Narsese} {s : Sys}

theorem contains_known (hg : Good n s) {e : Event} (he : e.stamp.WF) (hty : e.type = .belief ∨ e.type = .goal) :
    ∃ r, Memory_containsBeliefOrGoal e s = .ok (r, s) ∧ (r = true ↔ s.AlreadyKnown e) := by
  obtain ⟨r', e', hf⟩ := hg.mem.find_eq e.term
  unfold Memory_containsBeliefOrGoal
  cases r' with
  | none =>
    refine ⟨false, M.bind_ok.2 ⟨_, _, e', M.pure_ok.2 ⟨rfl, rfl⟩⟩, fun h => (by cases h), fun h => ?_⟩
    obtain ⟨c, hc, h, -⟩ := h
    exact absurd h (hf c hc)
  | some j =>
    obtain ⟨hj, hjt⟩ := hf
    have only : ∀ {P : Nat → Prop}, (∃ c ∈ s.live, s.termOf c = e.term ∧ P c) ↔ P j := fun {P} =>
      ⟨fun ⟨c, hc, ht, h⟩ => (hg.mem.term_inj hc hj (ht.trans hjt.symm)) ▸ h, fun h => ⟨j, hj, hjt, h⟩⟩
    have hc := hg.concepts j
    unfold Sys.AlreadyKnown
    rw [only]
    by_cases hb : e.type = .belief
    · by_cases ht : e.occurrenceTime = OCCURRENCE_ETERNAL
      · refine ⟨decide ((s.concept_storage j).belief.type ≠ .deleted) && Event_Equal e (s.concept_storage j).belief, M.bind_ok.2 ⟨_, _, e', M.bind_ok.2 ⟨_, _, M.get_ok.2 ⟨rfl, rfl⟩, ?_⟩⟩, ?_⟩
        · rw [if_pos hb, if_pos ht]
          exact M.pure_ok.2 ⟨rfl, rfl⟩
        · rw [Bool.and_eq_true, decide_eq_true_iff, Event_Equal_alike hc.belief.stamp]
          simp [hb, ht]
      · refine ⟨decide ((s.concept_storage j).belief_spike.type ≠ .deleted) && Event_EqualTermEqualStampLessConfidentThan e (s.concept_storage j).belief_spike, M.bind_ok.2 ⟨_, _, e', M.bind_ok.2 ⟨_, _, M.get_ok.2 ⟨rfl, rfl⟩, ?_⟩⟩, ?_⟩
        · rw [if_pos hb, if_neg ht]
          exact M.pure_ok.2 ⟨rfl, rfl⟩
        · rw [Bool.and_eq_true, decide_eq_true_iff, less_addsNothing hc.belief_spike.stamp]
          simp [hb, ht]
    · have hgo := hty.resolve_left hb
      refine ⟨decide (e.type = .goal) && decide ((s.concept_storage j).goal_spike.type ≠ .deleted) && Event_Equal (s.concept_storage j).goal_spike e, M.bind_ok.2 ⟨_, _, e', M.bind_ok.2 ⟨_, _, M.get_ok.2 ⟨rfl, rfl⟩, ?_⟩⟩, ?_⟩
      · rw [if_neg hb]
        exact M.pure_ok.2 ⟨rfl, rfl⟩
      · rw [Bool.and_eq_true, Bool.and_eq_true, decide_eq_true_iff, decide_eq_true_iff, Event_Equal_alike he]
        simp [hgo]

theorem stronger_outdone (hg : Good n s) (e : Event) :
    ∃ r, strongerBeliefKnown e s = .ok (r, s) ∧ (r = true ↔ s.Outdone e) := by
  obtain ⟨r', e', hf⟩ := hg.mem.find_eq e.term
  unfold strongerBeliefKnown
  cases r' with
  | none =>
    refine ⟨false, M.bind_ok.2 ⟨_, _, e', M.pure_ok.2 ⟨rfl, rfl⟩⟩, fun h => (by cases h), fun h => ?_⟩
    obtain ⟨-, -, c, hc, h, -⟩ := h
    exact absurd h (hf c hc)
  | some j =>
    obtain ⟨hj, hjt⟩ := hf
    have only : ∀ {P : Nat → Prop}, (∃ c ∈ s.live, s.termOf c = e.term ∧ P c) ↔ P j := fun {P} =>
      ⟨fun ⟨c, hc, ht, h⟩ => (hg.mem.term_inj hc hj (ht.trans hjt.symm)) ▸ h, fun h => ⟨j, hj, hjt, h⟩⟩
    unfold Sys.Outdone
    rw [only]
    refine ⟨decide (e.type = .belief) && decide ((s.concept_storage j).belief.type ≠ .deleted) &&
      decide (e.occurrenceTime = OCCURRENCE_ETERNAL) && decide ((s.concept_storage j).belief.truth.confidence > e.truth.confidence),
      M.bind_ok.2 ⟨_, _, e', M.bind_ok.2 ⟨_, _, M.get_ok.2 ⟨rfl, rfl⟩, M.pure_ok.2 ⟨rfl, rfl⟩⟩⟩, ?_⟩
    simp only [Bool.and_eq_true, decide_eq_true_iff, gt_iff_lt]
    tauto

omit [Arith] in
theorem waiting_upd {q : PriorityQueue ℚ Nat} (st : Nat → Event) {a : Nat} (e : Event) {p : ℚ} {rest : List (Item ℚ Nat)}
    (h : q.contents.Perm (⟨p, a⟩ :: rest)) (hn : a ∉ rest.map (·.address)) :
    (waitingIn q (upd st a e)).Perm ((p, e) :: rest.map fun x => (x.priority, st x.address)) := by
  unfold waitingIn
  refine (h.map _).trans ?_
  rw [List.map_cons, upd_same]
  refine List.Perm.cons _ (List.Perm.of_eq (List.map_congr_left fun x hx => ?_))
  rw [upd_other st e (show x.address ≠ a from fun h => hn (h ▸ List.mem_map_of_mem hx))]

omit [Arith] in
theorem push_offered {q q' : PriorityQueue ℚ Nat} {st : Nat → Event} {e : Event} {p : ℚ} {fb : PushFeedback ℚ Nat}
    (hi : q.Inv) (hpos : 0 < q.maxElements) (hpush : q.push p = .ok (fb, q')) :
    match fb.addedItem with
    | none => Offered q.maxElements p e (waitingIn q st) (waitingIn q' st) false
    | some item => Offered q.maxElements p e (waitingIn q st) (waitingIn q' (upd st item.address e)) true := by
  obtain ⟨fb', q2, e1, hi', -, -, hstep⟩ := PriorityQueue.push_spec hi hpos p
  rw [hpush] at e1
  cases e1
  have len : (waitingIn q st).length = q.contents.length := List.length_map ..
  cases hstep with
  | room a S' h1 h2 h3 h4 =>
    exact .added (len ▸ h1) (waiting_upd st e h4 h3)
  | reject S' h1 h2 h3 =>
    refine .refused (len ▸ h1) (fun x hx => ?_) (h3.map _)
    obtain ⟨y, hy, rfl⟩ := List.mem_map.1 hx
    exact h2 y hy
  | evict x rest S' h1 h2 h3 h4 h5 =>
    refine .replaced (x.priority, st x.address) (rest.map fun x => (x.priority, st x.address)) (len ▸ h1) (h4.map _) (fun y hy => ?_) h3
      (waiting_upd st e h5 ?_)
    · obtain ⟨z, hz, rfl⟩ := List.mem_map.1 hy
      exact h2.2 z hz
    · have := (h4.map (·.address)).nodup_iff.1 (PriorityQueue.addr_nodup hi)
      exact (List.nodup_cons.1 this).1

theorem pushBelief_offers (hg : Good n s) {e : Event} (hb : e.type = .belief) (p : ℚ) (layer : Nat) :
    WP (pushBeliefEvent e p) (fun b s' => s.Offers e p layer b s') s := by
  unfold pushBeliefEvent
  refine WP.get (WP.bind (WP.lift fun r hr => ?_))
  obtain ⟨fb, q⟩ := r
  have := push_offered (st := s.cycling_belief_event_storage) (e := e) hg.beliefs.queue hg.beliefs.pos hr
  have hng : ¬ e.type = .goal := by rw [hb]; exact fun h => by cases h
  dsimp only
  cases ha : fb.addedItem with
  | none =>
    rw [ha] at this
    exact WP.bind (WP.set (WP.pure ⟨fun _ => ⟨_, _, rfl, this⟩, fun h => absurd h hng⟩))
  | some item =>
    rw [ha] at this
    exact WP.bind (WP.set (WP.pure ⟨fun _ => ⟨_, _, rfl, this⟩, fun h => absurd h hng⟩))

theorem upd_unchanged {α : Type} (f : Nat → α) (i : Nat) : upd f i (f i) = f := by
  funext j
  by_cases h : j = i
  · subst h; exact upd_same _ _ _
  · exact upd_other f _ h

theorem pushGoal_offers (hg : Good n s) {e : Event} (hb : e.type = .goal) (p : ℚ) (layer : Nat) :
    WP (pushGoalEvent e p (goalLayer layer)) (fun b s' => s.Offers e p layer b s') s := by
  unfold pushGoalEvent
  refine WP.get (WP.bind (WP.lift fun r hr => ?_))
  obtain ⟨fb, q⟩ := r
  have := push_offered (st := s.cycling_goal_event_storage (goalLayer layer)) (e := e) (hg.goals _).queue (hg.goals _).pos hr
  have hnb : ¬ e.type = .belief := by rw [hb]; exact fun h => by cases h
  dsimp only
  cases ha : fb.addedItem with
  | none =>
    rw [ha] at this
    refine WP.bind (WP.set (WP.pure ⟨fun h => absurd h hnb, fun _ => ⟨_, _, ?_, this⟩⟩))
    rw [upd_unchanged]
  | some item =>
    rw [ha] at this
    exact WP.bind (WP.set (WP.pure ⟨fun h => absurd h hnb, fun _ => ⟨_, _, rfl, this⟩⟩))

/-- What happens to an event which is offered for attention. -/
theorem addCycling_offers (hg : Good n s) {e : Event} (he : e.stamp.WF) (p : ℚ) (layer : Nat) :
    WP (Memory_addCyclingEvent e p layer) (fun b s' => (s.Ignores e ∧ b = false ∧ s' = s) ∨ (¬ s.Ignores e ∧ s.Offers e p layer b s')) s := by
  unfold Memory_addCyclingEvent
  refine WP.bind (WP.lift fun _ hty => WP.get ?_)
  have hty : e.type = .belief ∨ e.type = .goal := by
    unfold cassert at hty
    split at hty
    · rename_i h
      simpa using h
    · cases hty
  have hbw := contains_waiting (q := s.cycling_belief_events) (st := s.cycling_belief_event_storage) (e := e)
    fun i => (hg.beliefs.good i).stamp
  have hgw := fun layer => contains_waiting (q := s.cycling_goal_events layer) (st := s.cycling_goal_event_storage layer) (e := e)
    fun i => ((hg.goals layer).good i).stamp
  refine WP.ite (fun hx => WP.pure (.inl ⟨.inl (.inl ?_), rfl, rfl⟩)) fun h1 => ?_
  · rw [Bool.and_eq_true, decide_eq_true_iff, hbw] at hx
    exact hx
  rw [Bool.and_eq_true, decide_eq_true_iff, hbw] at h1
  obtain ⟨r, er, hr⟩ := contains_known hg he hty
  refine WP.bind (fun a s1 e1 => ?_)
  rw [er] at e1
  cases e1
  refine WP.ite (fun hx => WP.pure (.inl ⟨.inr (.inl (hr.1 hx)), rfl, rfl⟩)) fun h2 => ?_
  rw [hr] at h2
  refine WP.ite (fun hx => WP.pure (.inl ⟨.inl (.inr ?_), rfl, rfl⟩)) fun h3 => ?_
  · rw [Bool.and_eq_true, decide_eq_true_iff, List.any_eq_true] at hx
    obtain ⟨hx, l, hl, h⟩ := hx
    exact ⟨hx, l, List.mem_range.1 hl, (hgw l).1 h⟩
  have h3 : ¬ (e.type = .goal ∧ ∃ layer < CYCLING_GOAL_EVENTS_LAYERS,
      ∃ x ∈ waitingIn (s.cycling_goal_events layer) (s.cycling_goal_event_storage layer), Alike e x.2) := by
    rintro ⟨h, l, hl, hx⟩
    apply h3
    rw [Bool.and_eq_true, decide_eq_true_iff, List.any_eq_true]
    exact ⟨h, l, List.mem_range.2 hl, (hgw l).2 hx⟩
  obtain ⟨r', er', hr'⟩ := stronger_outdone hg e
  refine WP.bind (fun a s1 e1 => ?_)
  rw [er'] at e1
  cases e1
  refine WP.ite (fun hx => WP.pure (.inl ⟨.inr (.inr (hr'.1 hx)), rfl, rfl⟩)) fun h4 => ?_
  rw [hr'] at h4
  have hno : ¬ s.Ignores e := fun h => h.elim (fun h => h.elim h1 h3) fun h => h.elim h2 h4
  refine WP.ite (fun hb => ?_) fun hb => ?_
  · exact (pushBelief_offers hg hb p layer).mono fun b s' h => .inr ⟨hno, h⟩
  · exact (pushGoal_offers hg (hty.resolve_left hb) p layer).mono fun b s' h => .inr ⟨hno, h⟩
end

end ONA

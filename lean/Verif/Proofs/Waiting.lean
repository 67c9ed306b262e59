import Verif.Spec.Waiting
import Verif.Proofs.Admission
import Verif.Proofs.RunFacts
import Verif.Props.Forgetting
/-
Helpers for C89.
-/
namespace ONA
variable [Arith] {n n' : Narsese} {s s' s0 : Sys} {z : Sizes}

omit [Arith] in
theorem pop_selects {q q' : PriorityQueue ℚ Nat} {st : Nat → Event} {o : Option (Item ℚ Nat)} (hi : q.Inv) (e : q.popMax = .ok (o, q')) :
    Selects (waitingIn q st) (waitingIn q' st) (o.map fun x => (x.priority, st x.address)) := by
  obtain ⟨o1, q1, e1, -, -, -, hs⟩ := PriorityQueue.popMax_spec hi
  rw [e1] at e
  cases e
  unfold waitingIn
  cases o with
  | none => exact ⟨by rw [hs.1]; rfl, by rw [hs.2]; rfl⟩
  | some x =>
    obtain ⟨⟨h1, h2⟩, h3⟩ := hs
    refine ⟨⟨List.mem_map_of_mem h1, fun y hy => ?_⟩, h3.map _⟩
    obtain ⟨w, hw, rfl⟩ := List.mem_map.1 hy
    exact h2 w hw

theorem popBelief_selects (h : Good n s) (e : popBeliefEvents s = .ok ((), s')) :
    Selects s.waitingBeliefs s'.waitingBeliefs s'.selectedBelief ∧ s'.waitingGoals = s.waitingGoals := by
  unfold popBeliefEvents at e
  simp only [M.bind_ok] at e
  obtain ⟨s1, s2, e1, e⟩ := e
  obtain ⟨rfl, rfl⟩ := M.get_ok.1 e1
  obtain ⟨⟨out, q1⟩, s3, e2, e⟩ := e
  obtain ⟨e3, rfl⟩ := M.lift_ok.1 e2
  have hsel := pop_selects (st := s.cycling_belief_event_storage) h.beliefs.queue e3
  cases out with
  | none =>
    dsimp only at e
    rw [M.bind_ok] at e
    obtain ⟨_, s4, e4, e5⟩ := e
    obtain ⟨_, f3⟩ := M.lift_ok.1 e4
    subst f3
    have f4 := M.set_ok.1 e5
    subst f4
    exact ⟨hsel, rfl⟩
  | some item =>
    have f4 := M.set_ok.1 e
    subst f4
    refine ⟨?_, rfl⟩
    have : Sys.selectedBelief { s with
      cycling_belief_events := q1
      selectedBeliefsPriority := upd s.selectedBeliefsPriority 0 item.priority
      selectedBeliefs := upd s.selectedBeliefs 0 (s.cycling_belief_event_storage item.address)
      beliefsSelectedCnt := 1 } = some (item.priority, s.cycling_belief_event_storage item.address) := by
      unfold Sys.selectedBelief
      rw [if_neg (by exact Nat.one_ne_zero)]
      simp only [upd_same]
    rw [this]
    exact hsel

theorem popGoal_selects (h : Good n s) {layer : Nat} (e : popGoalEvents layer s = .ok ((), s')) :
    Selects (s.waitingGoals layer) (s'.waitingGoals layer) s'.selectedGoal ∧ s'.waitingBeliefs = s.waitingBeliefs ∧
      ∀ l, l ≠ layer → s'.waitingGoals l = s.waitingGoals l := by
  unfold popGoalEvents at e
  simp only [M.bind_ok] at e
  obtain ⟨s1, s2, e1, e⟩ := e
  obtain ⟨rfl, rfl⟩ := M.get_ok.1 e1
  obtain ⟨⟨out, q1⟩, s3, e2, e⟩ := e
  obtain ⟨e3, rfl⟩ := M.lift_ok.1 e2
  have hsel := pop_selects (st := s.cycling_goal_event_storage layer) (h.goals layer).queue e3
  cases out with
  | none =>
    dsimp only at e
    rw [M.bind_ok] at e
    obtain ⟨_, s4, e4, e5⟩ := e
    obtain ⟨_, f3⟩ := M.lift_ok.1 e4
    subst f3
    have f4 := M.set_ok.1 e5
    subst f4
    refine ⟨?_, rfl, fun l hl => ?_⟩
    · unfold Sys.waitingGoals
      dsimp only
      rw [upd_same]
      exact hsel
    · unfold Sys.waitingGoals
      dsimp only
      rw [upd_other _ _ hl]
  | some item =>
    have f4 := M.set_ok.1 e
    subst f4
    refine ⟨?_, rfl, fun l hl => ?_⟩
    · have : Sys.selectedGoal { s with
        cycling_goal_events := upd s.cycling_goal_events layer q1
        selectedGoalsPriority := upd s.selectedGoalsPriority 0 item.priority
        selectedGoals := upd s.selectedGoals 0 (s.cycling_goal_event_storage layer item.address)
        goalsSelectedCnt := 1 } = some (item.priority, s.cycling_goal_event_storage layer item.address) := by
        unfold Sys.selectedGoal
        rw [if_neg (by exact Nat.one_ne_zero)]
        simp only [upd_same]
      rw [this]
      unfold Sys.waitingGoals
      dsimp only
      rw [upd_same]
      exact hsel
    · unfold Sys.waitingGoals
      dsimp only
      rw [upd_other _ _ hl]

omit [Arith] in
/-- A selection is a move, or nothing was there. -/
theorem Selects.move {room : Nat} {a b : Crowd} {o : Option (ℚ × Event)} [Arith] (h : Selects a b o) : b = a ∨ Crowd.Move room a b := by
  cases o with
  | none => exact .inl (h.2.trans h.1.symm)
  | some x => exact .inr (.taken x h.1 h.2)

theorem pushGoal_offered (hg : Good n s) (e : Event) (p : ℚ) (layer : Nat) :
    WP (pushGoalEvent e p layer) (fun b s' => Offered (s.cycling_goal_events layer).maxElements p e (s.waitingGoals layer) (s'.waitingGoals layer) b ∧
      s'.waitingBeliefs = s.waitingBeliefs ∧ ∀ l, l ≠ layer → s'.waitingGoals l = s.waitingGoals l) s := by
  unfold pushGoalEvent
  refine WP.get (WP.bind (WP.lift fun r hr => ?_))
  obtain ⟨fb, q⟩ := r
  have := push_offered (st := s.cycling_goal_event_storage layer) (e := e) (hg.goals _).queue (hg.goals _).pos hr
  dsimp only
  cases ha : fb.addedItem with
  | none =>
    rw [ha] at this
    refine WP.bind (WP.set (WP.pure ⟨?_, rfl, fun l hl => ?_⟩))
    · unfold Sys.waitingGoals; dsimp only; rw [upd_same]; exact this
    · unfold Sys.waitingGoals; dsimp only; rw [upd_other _ _ hl]
  | some item =>
    rw [ha] at this
    refine WP.bind (WP.set (WP.pure ⟨?_, rfl, fun l hl => ?_⟩))
    · unfold Sys.waitingGoals; dsimp only; rw [upd_same, upd_same]; exact this
    · unfold Sys.waitingGoals; dsimp only; rw [upd_other _ _ hl, upd_other _ _ hl]

/-- What one change of the state does to those who wait. -/
theorem Step.waiting (h : Good n s) (st : Step n s s') :
    (s'.waitingBeliefs = s.waitingBeliefs ∨ Crowd.Move s.cycling_belief_events.maxElements s.waitingBeliefs s'.waitingBeliefs) ∧
    ∀ layer < CYCLING_GOAL_EVENTS_LAYERS, s'.waitingGoals layer = s.waitingGoals layer ∨
      Crowd.GoalMove (s.cycling_goal_events layer).maxElements (s.waitingGoals layer) (s'.waitingGoals layer) := by
  have same : ∀ {s s' : Sys}, s'.waitingBeliefs = s.waitingBeliefs → s'.waitingGoals = s.waitingGoals →
      (s'.waitingBeliefs = s.waitingBeliefs ∨ Crowd.Move s.cycling_belief_events.maxElements s.waitingBeliefs s'.waitingBeliefs) ∧
      ∀ layer < CYCLING_GOAL_EVENTS_LAYERS, s'.waitingGoals layer = s.waitingGoals layer ∨
        Crowd.GoalMove (s.cycling_goal_events layer).maxElements (s.waitingGoals layer) (s'.waitingGoals layer) :=
    fun h1 h2 => ⟨.inl h1, fun l _ => .inl (congrFun h2 l)⟩
  cases st with
  | conceptualize t now r s' hk e =>
    obtain ⟨st, q, ht, idx, k, rfl, _⟩ := conceptualized_concepts (conceptualize_cases h.mem e).1
    exact same rfl rfl
  | concept i c st => exact same rfl rfl
  | pushBelief e p b s' he ht hc hp hp1 hn hpush =>
    have h2 := (pushBelief_offers h ht p 0 _ _ hpush).1 ht
    obtain ⟨q, st, rfl, h2⟩ := h2
    refine ⟨.inr (.comes p e b hp hp1 hc (fun x hx hal => ?_) h2), fun l _ => .inl rfl⟩
    have := (contains_waiting (fun i => (h.beliefs.good i).stamp)).2 ⟨x, hx, hal⟩
    rw [hn] at this
    cases this
  | pushGoal e p layer b s' he ht hti hc hp hp1 hl hn hpush =>
    obtain ⟨h1, h2, h3⟩ := pushGoal_offered h e p layer _ _ hpush
    refine ⟨.inl h2, fun l _ => ?_⟩
    by_cases hll : l = layer
    · subst hll
      refine .inr (.move (.comes p e b hp hp1 hc (fun x hx hal => ?_) h1))
      have := (contains_waiting (fun i => ((h.goals l).good i).stamp)).2 ⟨x, hx, hal⟩
      rw [hn l hl] at this
      cases this
    · exact .inl (h3 l hll)
  | popBelief s' e =>
    obtain ⟨h1, h2⟩ := popBelief_selects h e
    exact ⟨h1.move, fun l _ => .inl (congrFun h2 l)⟩
  | popGoal layer s' e =>
    obtain ⟨h1, h2, h3⟩ := popGoal_selects h e
    refine ⟨.inl h2, fun l _ => ?_⟩
    by_cases hll : l = layer
    · subst hll
      exact h1.move.imp_right .move
    · exact .inl (h3 l hll)
  | clearGoals => exact ⟨.inl rfl, fun l _ => .inr (.dropped rfl)⟩
  | forget now s' e =>
    have hf := C80_forgetting h e
    have fade : ∀ {q q' : PriorityQueue ℚ Nat} {st : Nat → Event}, Faded q q' →
        (waitingIn q' st).Perm ((waitingIn q st).map fun x => (fmul x.1 (rnd (9999 / 10000)), x.2)) := by
      intro q q' st hq
      unfold waitingIn
      refine (List.Perm.map _ hq).trans (List.Perm.of_eq ?_)
      rw [List.map_map, List.map_map]
      rfl
    have hr := hf.rest
    have h1 : s'.cycling_belief_event_storage = s.cycling_belief_event_storage := by rw [hr]
    have h2 : s'.cycling_goal_event_storage = s.cycling_goal_event_storage := by rw [hr]
    refine ⟨.inr (.fade ?_), fun l hl => .inr (.move (.fade ?_))⟩
    · unfold Sys.waitingBeliefs; rw [h1]; exact fade hf.beliefs
    · unfold Sys.waitingGoals; rw [h2]; exact fade (hf.goals l hl)
  | remember => exact same rfl rfl
  | internal => exact same rfl rfl
  | decision => exact same rfl rfl

/-- What a run does to those who wait. -/
theorem Run.waiting (h : Good n s0) {t x : Nat} (r : Run n s0 t x s) :
    Moves (Crowd.Move s0.cycling_belief_events.maxElements) s0.waitingBeliefs s.waitingBeliefs ∧
    ∀ layer < CYCLING_GOAL_EVENTS_LAYERS,
      Moves (Crowd.GoalMove (s0.cycling_goal_events layer).maxElements) (s0.waitingGoals layer) (s.waitingGoals layer) := by
  induction r with
  | refl => exact ⟨.none, fun _ _ => .none⟩
  | step r st ih =>
    obtain ⟨h1, h2⟩ := st.waiting (r.good h)
    have hs := r.sizes h
    rw [hs.beliefs] at h1
    refine ⟨h1.elim (fun e => e ▸ ih.1) fun m => .more ih.1 m, fun l hl => ?_⟩
    have h2 := h2 l hl
    rw [hs.goals] at h2
    exact h2.elim (fun e => e ▸ ih.2 l hl) fun m => .more (ih.2 l hl) m
  | execute k action args _ _ _ _ ih => exact ih
  | input term type truth offset _ ih => exact ih
  | answer lines _ _ ih => exact ih
  | tick _ ih => exact ih

/-- Those who waited: still waiting, or taken as most urgent, or replaced as least urgent. -/
theorem fate {move : Crowd → Crowd → Prop} {why : Crowd → Crowd → ℚ × Event → Prop}
    (hm : ∀ {a b x}, move a b → x ∈ a → (∃ y ∈ b, y.2 = x.2) ∨ why a b x) {a b : Crowd} (m : Moves move a b) {x : ℚ × Event} (hx : x ∈ a) :
    (∃ y ∈ b, y.2 = x.2) ∨ ∃ c d y, Moves move a c ∧ move c d ∧ Moves move d b ∧ y ∈ c ∧ y.2 = x.2 ∧ why c d y := by
  induction m with
  | none => exact .inl ⟨x, hx, rfl⟩
  | more m st ih =>
    rcases ih with ⟨y, hy, hyx⟩ | ⟨c, d, y, h1, h2, h3, h4⟩
    · rcases hm st hy with ⟨w, hw, hwy⟩ | h
      · exact .inl ⟨w, hw, hwy.trans hyx⟩
      · exact .inr ⟨_, _, y, m, st, .none, hy, hyx, h⟩
    · exact .inr ⟨c, d, y, h1, h2, .more h3 st, h4⟩

/-- A move loses an event only as the most urgent or the least urgent one. -/
theorem move_loses {room : Nat} {a b : Crowd} {x : ℚ × Event} (m : Crowd.Move room a b) (hx : x ∈ a) :
    (∃ y ∈ b, y.2 = x.2) ∨ a.MostUrgent x ∨ (a.length = room ∧ a.LeastUrgent x ∧ ∃ y ∈ b, x.1 ≤ y.1 ∧ ¬ Alike y.2 x.2) := by
  cases m with
  | comes p e entered hp hp1 hc hn ho =>
    cases ho with
    | added h1 h2 => exact .inl ⟨x, h2.mem_iff.2 (List.mem_cons_of_mem _ hx), rfl⟩
    | refused h1 h2 h3 => exact .inl ⟨x, h3.mem_iff.2 hx, rfl⟩
    | replaced lost rest h1 h2 h3 h4 h5 =>
      rcases List.mem_cons.1 (h2.mem_iff.1 hx) with h | h
      · subst h
        exact .inr (.inr ⟨h1, ⟨hx, h3⟩, _, h5.mem_iff.2 (List.mem_cons_self ..), h4, hn x hx⟩)
      · exact .inl ⟨x, h5.mem_iff.2 (List.mem_cons_of_mem _ h), rfl⟩
  | taken y h1 h2 =>
    rcases List.mem_cons.1 (h2.mem_iff.1 hx) with h | h
    · subst h; exact .inr (.inl h1)
    · exact .inl ⟨x, h, rfl⟩
  | fade h => exact .inl ⟨_, h.mem_iff.2 (List.mem_map_of_mem hx), rfl⟩

end ONA

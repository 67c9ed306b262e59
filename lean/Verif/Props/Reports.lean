import Verif.Proofs.Reported
import Verif.Props.Settings
import Verif.Spec.API
/-
C85: the reports of the shell.
-/
namespace ONA
variable [Arith] {z : Sizes} {n : Narsese} {s : Sys}

/-- **C85 (statistics).** The statistics are those of the state, whenever it is not time 0. -/
theorem C85_stats (hz : z.Ok) (h : Reachable z n s) (ht : s.currentTime ≠ 0) :
    ∃ x, Report.stats.print n s = .ok (.stats x) ∧ StatsOf n s x := by
  obtain ⟨x, e, hx⟩ := stats_ok (h.good hz).1 (h.good hz).2 ht
  refine ⟨x, ?_, hx⟩
  unfold Report.print
  rw [e]
  rfl

/-- **C85 (time 0).** At time 0 there are no statistics: the program divides by zero. -/
theorem C85_time0 (hz : z.Ok) (h : Reachable z n s) (ht : s.currentTime = 0) :
    Report.stats.print n s = .error (.ub "division by zero") := by
  unfold Report.print
  rw [stats_zero (h.good hz).1 ht]
  rfl

/-- **C85 (concepts).** Every concept in memory is listed once, with what is stored about it; but the links of the last operation
are left out. -/
theorem C85_concepts_partial (hz : z.Ok) (h : Reachable z n s) : ∃ l, Report.concepts.print n s = .ok (.concepts l) ∧
    List.Forall₂ (ConceptLineOf s) s.concepts.contents l ∧ (l.map (·.term)).Nodup ∧
    (∀ t, t ∈ l.map (·.term) ↔ ∃ c ∈ s.live, s.termOf c = t) := by
  have hg := (h.good hz).1
  have hmap : (Shell_concepts s).map (·.term) = s.live.map s.termOf := by
    unfold Shell_concepts Sys.live
    rw [List.map_map, List.map_map]
    rfl
  refine ⟨_, rfl, ?_, ?_, ?_⟩
  · unfold Shell_concepts
    rw [inOrder_eq, List.forall₂_map_right_iff, List.forall₂_same]
    intro item _
    constructor
    · rfl
    · rfl
    · rfl
    · rfl
    · rfl
    · rfl
    · rfl
    · intro e
      show (if (s.concept_storage item.address).belief.type ≠ .deleted then some (s.concept_storage item.address).belief else none)
        = some e ↔ _
      split
      · next hb => exact ⟨fun h => ⟨hb, (Option.some.inj h).symm⟩, fun h => congrArg _ h.2.symm⟩
      · next hb => exact ⟨fun h => (by cases h), fun h => absurd h.1 hb⟩
    · intro l
      dsimp only
      rw [List.mem_flatMap]
      simp only [List.mem_range]
      rfl
  · rw [hmap]
    exact List.Nodup.map_on (fun c hc d hd e => hg.mem.term_inj hc hd e) hg.mem.live_nodup
  · intro t
    rw [hmap, List.mem_map]

/-- **C85 (belief events).** The events in the buffer of the beliefs are listed, each once. -/
theorem C85_beliefs (hz : z.Ok) (h : Reachable z n s) : ∃ l, Report.beliefEvents.print n s = .ok (.events l) ∧
    List.Forall₂ (EventLineOf s.cycling_belief_event_storage) s.cycling_belief_events.contents l ∧
    (s.cycling_belief_events.contents.map (·.address)).Nodup := by
  refine ⟨_, rfl, ?_, ?_⟩
  · unfold Shell_beliefEvents
    rw [inOrder_eq, List.forall₂_map_right_iff, List.forall₂_same]
    exact fun item _ => ⟨rfl, rfl, rfl, rfl⟩
  · exact contents_nodup (h.good hz).1.beliefs.queue

/-- **C85 (goal events).** The events in the buffers of the goals are listed, layer by layer, each once. -/
theorem C85_goals (hz : z.Ok) (h : Reachable z n s) : ∃ l : List (List EventLine),
    Report.goalEvents.print n s = .ok (.events l.flatten) ∧
    List.Forall₂ (fun layer l => List.Forall₂ (EventLineOf (s.cycling_goal_event_storage layer))
      (s.cycling_goal_events layer).contents l) (List.range CYCLING_GOAL_EVENTS_LAYERS) l ∧
    (∀ layer, ((s.cycling_goal_events layer).contents.map (·.address)).Nodup) ∧
    ∀ layer, CYCLING_GOAL_EVENTS_LAYERS ≤ layer → (s.cycling_goal_events layer).contents = [] := by
  have hg := (h.good hz).1
  refine ⟨_, congrArg _ (congrArg _ (List.flatMap_def)), ?_, fun layer => contents_nodup (hg.goals layer).queue, ?_⟩
  · rw [List.forall₂_map_right_iff, List.forall₂_same]
    intro layer _
    rw [inOrder_eq, List.forall₂_map_right_iff, List.forall₂_same]
    exact fun item _ => ⟨rfl, rfl, rfl, rfl⟩
  · intro layer hl
    unfold PriorityQueue.contents
    rw [hg.layers layer hl]
    rfl

/-- **C85 (inverted atom index).** An atom is listed with a term, once, if and only if it is a simple atom among the first 31 places
of the term and there is a concept with this term. -/
theorem C85_index (hz : z.Ok) (h : Reachable z n s) : ∃ l, Report.invertedAtomIndex.print n s = .ok (.invertedAtomIndex l) ∧
    l.Nodup ∧ ∀ a t, (a, t) ∈ l ↔ ∃ c ∈ s.live, s.termOf c = t ∧ IndexSpec.Lists n t a := by
  obtain ⟨l, e, h1⟩ := index_ok (h.good hz).1
  refine ⟨l, ?_, h1⟩
  unfold Report.print
  dsimp only
  rw [e]
  rfl

/-- **C85 (operations).** The operations which have a name, and their babbling arguments. -/
theorem C85_operations : ∃ x, Report.opConfig.print n s = .ok (.opConfig x) ∧
    x.motorBabbling = s.MOTOR_BABBLING_CHANCE ∧ x.babblingOps = s.BABBLING_OPS ∧
    (∀ k t, (k, t) ∈ x.names ↔ 1 ≤ k ∧ k ≤ OPERATIONS_MAX ∧ t = (s.operations (k - 1)).term ∧ t.get 0 ≠ 0) ∧
    (∀ k j t, (k, j, t) ∈ x.arguments ↔ 1 ≤ k ∧ k ≤ OPERATIONS_MAX ∧ 1 ≤ j ∧ j ≤ OPERATIONS_BABBLE_ARGS_MAX ∧
      t = (s.operations (k - 1)).arguments (j - 1) ∧ t.get 0 ≠ 0) := by
  refine ⟨_, rfl, rfl, rfl, ?_, ?_⟩
  · intro k t
    unfold Shell_opConfig
    dsimp only
    rw [List.mem_map]
    constructor
    · rintro ⟨i, hi, e⟩
      cases e
      rw [List.mem_filter, List.mem_range] at hi
      exact ⟨by omega, by omega, rfl, by simpa using hi.2⟩
    · rintro ⟨h1, h2, rfl, h4⟩
      refine ⟨k - 1, ?_, ?_⟩
      · rw [List.mem_filter, List.mem_range]
        exact ⟨by omega, by simpa using h4⟩
      · rw [Nat.sub_add_cancel h1]
  · intro k j t
    unfold Shell_opConfig
    dsimp only
    rw [List.mem_flatMap]
    constructor
    · rintro ⟨i, hi, h⟩
      obtain ⟨m, hm, e⟩ := List.mem_map.1 h
      cases e
      rw [List.mem_filter, List.mem_range] at hm
      have := List.mem_range.1 hi
      exact ⟨by omega, by omega, by omega, by omega, rfl, by simpa using hm.2⟩
    · rintro ⟨h1, h2, h3, h4, rfl, h6⟩
      refine ⟨k - 1, List.mem_range.2 (by omega), List.mem_map.2 ⟨j - 1, ?_, ?_⟩⟩
      · rw [List.mem_filter, List.mem_range]
        exact ⟨by omega, by simpa using h6⟩
      · rw [Nat.sub_add_cancel h1, Nat.sub_add_cancel h3]

/-- **C85 (only printing).** A report changes nothing. -/
theorem C85_nothing_changes {fuel : Fuel} {r : Report} {n' : Narsese} {s' : Sys}
    (e : (Command.report r).run z.memory z.atoms fuel n s = .ok (n', s')) : n' = n ∧ s' = s := report_same e

/-- **C85 (no failure).** The only failure of a report is the statistics at time 0. -/
theorem C85_no_failure (hz : z.Ok) (h : Reachable z n s) {r : Report} {e : Err} (he : r.print n s = .error e) :
    e = .ub "division by zero" ∧ s.currentTime = 0 := report_ok (h.good hz).1 (h.good hz).2 he

end ONA

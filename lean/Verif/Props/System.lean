import Verif.Proofs.Kept
/-
Properties of every state the reasoner can reach by calls of its interface, and of every call. Concrete histories which
meet the hypotheses are in Props/SystemExamples.lean.
-/
namespace ONA
section
variable [Arith] {n n' : Narsese} {s s' : Sys} {z : Sizes}

/-! ### C56: truth values -/

theorem Good.event (h : Good n s) {e : Event} (he : StoredEvent s e) : e.Good n := by
  cases he with
  | belief c => exact (h.concepts c).belief
  | belief_spike c => exact (h.concepts c).belief_spike
  | predicted_belief c => exact (h.concepts c).predicted_belief
  | goal_spike c => exact (h.concepts c).goal_spike
  | bufferedBelief i => exact h.beliefs.good i
  | bufferedGoal l i => exact (h.goals l).good i

theorem Good.table (h : Good n s) {t : Table} (ht : StoredTable s t) : t.Good n := by
  cases ht with
  | precondition_beliefs c k => exact (h.concepts c).precondition_beliefs k
  | implication_links c => exact (h.concepts c).implication_links

theorem Good.link (h : Good n s) {l : Implication} (hl : StoredLink s l) : l.Good n := by
  obtain ⟨t, ht, i, hi, rfl⟩ := hl
  exact (h.table ht).good _ (mem_entries.2 ⟨i, hi, rfl⟩)

/-- **C56.** In every reachable state every stored truth value (beliefs, goals, links, buffered events) has frequency and
confidence in `[0, 1]`. -/
theorem C56_truths (hz : z.Ok) (h : Reachable z n s) (t : Truth) (ht : StoredTruth s t) :
    (0 ≤ t.frequency ∧ t.frequency ≤ 1) ∧ 0 ≤ t.confidence ∧ t.confidence ≤ 1 := by
  have hv : t.Valid := by
    cases ht with
    | event e he => exact ((h.good hz).1.event he).truth
    | link l hl => exact ((h.good hz).1.link hl).truth
  exact ⟨⟨hv.f_nonneg, hv.f_le⟩, hv.c_nonneg, hv.c_le⟩

/-! ### C64: vocabulary -/

/-- **C64.** In every reachable state every atom of every stored term is the number of a registered name (or the empty
slot 0): the name kept under this number is found under this number, without a new registration. -/
theorem C64_vocabulary (hz : z.Ok) (h : Reachable z n s) (t : Term) (ht : StoredTerm s t) (i : Nat) (hi : t.get i ≠ 0) :
    Narsese_AtomicTermIndex n (n.atomNames ((t.get i).toNat - 1)) = .ok ((t.get i).toNat, n) := by
  obtain ⟨hg, ns, hr⟩ := h.good hz
  have hk : n.Knows t := by
    cases ht with
    | concept c => exact (hg.concepts c).term
    | event e he => exact (hg.event he).term
    | link l hl => exact (hg.link hl).term
  have hle := hk i
  rw [hr.count] at hle
  have hpos : (t.get i).toNat ≠ 0 := fun h0 => hi (BitVec.eq_of_toNat_eq (by rw [h0]; rfl))
  have hlt : (t.get i).toNat - 1 < ns.length := by omega
  have hname : n.atomNames ((t.get i).toNat - 1) = ns[(t.get i).toNat - 1] := by
    rw [hr.names _ hlt]
    simp [hlt]
  have hmem : ns[(t.get i).toNat - 1] ∈ ns := List.getElem_mem _
  have htr : truncName ns[(t.get i).toNat - 1] = ns[(t.get i).toNat - 1] := truncName_of_short (hr.short _ hmem)
  rw [hname, hr.index_known (by rw [htr]; exact hmem), htr, hr.nodup.idxOf_getElem]
  congr 2
  omega

/-! ### C11, C63: ranking -/

/-- **C11 (in memory).** In every reachable state every table of links in the memory holds at most `TABLE_SIZE` links, in
decreasing order of expectation, with different terms. -/
theorem C11_memory (hz : z.Ok) (h : Reachable z n s) (t : Table) (ht : StoredTable s t) :
    t.itemsAmount ≤ TABLE_SIZE ∧ ∀ i j, i < j → j < t.itemsAmount →
      Truth_Expectation (t.array j).truth ≤ Truth_Expectation (t.array i).truth ∧ (t.array i).term ≠ (t.array j).term := by
  have hI := ((h.good hz).1.table ht).inv
  refine ⟨hI.bound, fun i j hij hj => ?_⟩
  have hl := t.entries_length
  have hget : ∀ k (hk : k < t.itemsAmount), t.entries[k]'(by omega) = t.array k := by
    intro k hk
    simp [Table.entries]
  have h1 := List.pairwise_iff_getElem.1 hI.ranked i j (by omega) (by omega) hij
  have h2 := List.pairwise_iff_getElem.1 hI.nodup i j (by omega) (by omega) hij
  rw [hget i (by omega), hget j hj] at h1 h2
  exact ⟨h1, h2⟩

/-- **C63.** In every reachable state all priorities are in `[0, 1]`: of concepts, in the concept queue (at most 1), and in
the attention buffers. -/
theorem C63_priorities (hz : z.Ok) (h : Reachable z n s) :
    (∀ c, 0 ≤ (s.concept_storage c).priority ∧ (s.concept_storage c).priority ≤ 1) ∧
    (∀ x ∈ s.concepts.contents, x.priority ≤ 1) ∧
    (∀ x ∈ s.cycling_belief_events.contents, 0 ≤ x.priority ∧ x.priority ≤ 1) ∧
    (∀ layer, ∀ x ∈ (s.cycling_goal_events layer).contents, 0 ≤ x.priority ∧ x.priority ≤ 1) := by
  have hg := (h.good hz).1
  exact ⟨fun c => (hg.concepts c).priority, hg.prios, hg.beliefs.priority, fun l => (hg.goals l).priority⟩

/-! ### C41, C42, C43: attention buffers -/

/-- **C43.** In every reachable state the belief buffer holds at most 40 events, all of them beliefs, and each goal buffer
layer at most 400 events, all of them goals; there are no goals in layers above 29. -/
theorem C43_buffers (h : Reachable Sizes.program n s) :
    s.cycling_belief_events.contents.length ≤ 40 ∧
    (∀ x ∈ s.cycling_belief_events.contents, (s.cycling_belief_event_storage x.address).type = .belief) ∧
    (∀ layer, (s.cycling_goal_events layer).contents.length ≤ 400) ∧
    (∀ layer, ∀ x ∈ (s.cycling_goal_events layer).contents, (s.cycling_goal_event_storage layer x.address).type = .goal) ∧
    (∀ layer, 30 ≤ layer → (s.cycling_goal_events layer).contents = []) := by
  have hg := (h.good Sizes.program_ok).1
  obtain ⟨_, h2, h3⟩ := h.sizes Sizes.program_ok
  refine ⟨?_, hg.beliefs.type, fun l => ?_, fun l => (hg.goals l).type, fun l hl => ?_⟩
  · rw [PriorityQueue.contents_length]
    exact le_trans hg.beliefs.queue.bound (le_of_eq h2)
  · rw [PriorityQueue.contents_length]
    exact le_trans (hg.goals l).queue.bound (le_of_eq (h3 l))
  · have := hg.layers l hl
    rw [← List.length_eq_zero_iff, PriorityQueue.contents_length]
    exact this

/-- **C43 (any sizes).** The same for any sizes of the arrays. -/
theorem C43_buffers_sizes (hz : z.Ok) (h : Reachable z n s) :
    s.cycling_belief_events.contents.length ≤ z.memory.beliefEvents ∧
    ∀ layer, (s.cycling_goal_events layer).contents.length ≤ z.memory.goalEvents := by
  have hg := (h.good hz).1
  obtain ⟨_, h2, h3⟩ := h.sizes hz
  refine ⟨?_, fun l => ?_⟩
  · rw [PriorityQueue.contents_length]
    exact h2 ▸ hg.beliefs.queue.bound
  · rw [PriorityQueue.contents_length]
    exact h3 l ▸ (hg.goals l).queue.bound

/-- **C41 (stored).** In every reachable state every event in the attention buffers has at least the minimal
confidence. -/
theorem C41_stored (hz : z.Ok) (h : Reachable z n s) :
    (∀ x ∈ s.cycling_belief_events.contents, MIN_CONFIDENCE ≤ (s.cycling_belief_event_storage x.address).truth.confidence) ∧
    ∀ layer, ∀ x ∈ (s.cycling_goal_events layer).contents,
      MIN_CONFIDENCE ≤ (s.cycling_goal_event_storage layer x.address).truth.confidence := by
  have hg := (h.good hz).1
  exact ⟨hg.beliefs.confidence, fun l => (hg.goals l).confidence⟩

/-- **C42 (stored).** In every reachable state no two entries of the belief buffer hold the same event, and no two entries
of the goal buffers, in whichever layers. -/
theorem C42_stored (hz : z.Ok) (h : Reachable z n s) :
    (∀ x ∈ s.cycling_belief_events.contents, ∀ y ∈ s.cycling_belief_events.contents, x.address ≠ y.address →
      ¬ SameEvent (s.cycling_belief_event_storage x.address) (s.cycling_belief_event_storage y.address)) ∧
    ∀ l k, ∀ x ∈ (s.cycling_goal_events l).contents, ∀ y ∈ (s.cycling_goal_events k).contents,
      (l, x.address) ≠ (k, y.address) →
        ¬ SameEvent (s.cycling_goal_event_storage l x.address) (s.cycling_goal_event_storage k y.address) :=
  ⟨(h.good hz).1.beliefsOnce, (h.good hz).1.goalsOnce⟩

/-- **C41 (weak events).** Adding an event of less than the minimal confidence, or with a priority which is not positive,
changes nothing, whatever the state. -/
theorem C41_weak (n : Narsese) (e : Event) (now : Int) (priority : ℚ) (input revised : Bool) (layer : Nat) (s : Sys)
    (hweak : e.truth.confidence < MIN_CONFIDENCE ∨ priority ≤ 0) (u : Unit) (s' : Sys)
    (hr : Memory_AddEvent' n e now priority input revised layer s = .ok (u, s')) : s' = s := by
  unfold Memory_AddEvent' at hr
  rw [M.bind_ok] at hr
  obtain ⟨s0, s1, h1, hr⟩ := hr
  obtain ⟨rfl, rfl⟩ := M.get_ok.1 h1
  unfold Memory_AddEvent at hr
  rw [M.bind_ok] at hr
  obtain ⟨e1, s1, h1, hr⟩ := hr
  cases h1
  rw [M.bind_ok] at hr
  obtain ⟨s2, s3, h1, hr⟩ := hr
  obtain ⟨rfl, rfl⟩ := M.get_ok.1 h1
  rw [M.bind_ok] at hr
  obtain ⟨r, s4, h1, hr⟩ := hr
  have f := Closed.reads_find _ _ _ _ h1
  subst f
  split at hr
  · exact (M.pure_ok.1 hr).2.symm
  · rw [M.bind_ok] at hr
    obtain ⟨q, s5, h2, hr⟩ := hr
    obtain ⟨h3, rfl⟩ := M.lift_ok.1 h2
    have hq : e.truth.confidence < MIN_CONFIDENCE ∨ q ≤ 0 := by
      refine hweak.imp id fun hp => ?_
      rcases Closed.effectivePriority_scale h3 with rfl | ⟨w, hw, rfl⟩
      · exact hp
      · have := rnd_mono (show priority * w ≤ 0 from mul_nonpos_of_nonpos_of_nonneg hp hw.1)
        rwa [rnd_zero] at this
    rw [if_pos (by simpa using hq)] at hr
    exact (M.pure_ok.1 hr).2.symm

/-- **C41 (weak events, no failure).** In a reachable state, adding a weak event about a statement that is not empty
succeeds. -/
theorem C41_weak_total (hz : z.Ok) (h : Reachable z n s) (e : Event) (now : Int) (priority : ℚ) (input revised : Bool)
    (layer : Nat) (hweak : e.truth.confidence < MIN_CONFIDENCE ∨ priority ≤ 0) (hterm : Term_Complexity e.term ≠ 0) :
    Memory_AddEvent' n e now priority input revised layer s = .ok ((), s) := by
  have hm := (h.good hz).1.mem
  obtain ⟨r, hr, _⟩ := hm.find_eq e.term
  have hq : ∃ q, effectivePriority e priority input revised = .ok q := by
    unfold effectivePriority
    split
    · have h1 : (2 : ℚ) ≤ fadd 1 (Term_Complexity e.term : ℚ) := by
        have h2 : (1 : ℚ) ≤ (Term_Complexity e.term : ℚ) := by exact_mod_cast Nat.one_le_iff_ne_zero.2 hterm
        have h3 := rnd_mono (show (2 : ℚ) ≤ 1 + (Term_Complexity e.term : ℚ) by linarith)
        have h4 := rnd_nat 2 (by norm_num)
        have h5 : (2 : ℚ) = rnd 2 := by
          have : ((2 : ℕ) : ℚ) = 2 := by norm_num
          rw [this] at h4
          exact h4.symm
        unfold fadd
        exact h5 ▸ h3
      have h2 := Arith.log2_ge_one h1
      have h3 : fdiv 1 (Arith.log2 (fadd 1 (Term_Complexity e.term : ℚ))) =
          .ok (rnd (1 / Arith.log2 (fadd 1 (Term_Complexity e.term : ℚ)))) := by
        unfold fdiv
        rw [if_neg (by intro h0; rw [h0] at h2; norm_num at h2)]
      exact ⟨_, R.bind_eq_ok.2 ⟨_, h3, rfl⟩⟩
    · exact ⟨_, rfl⟩
  obtain ⟨q, hq⟩ := hq
  cases hres : Memory_AddEvent' n e now priority input revised layer s with
  | ok p => rw [show p = (p.1, p.2) from rfl, C41_weak n e now priority input revised layer s hweak p.1 p.2 hres]
  | error err =>
    exfalso
    have hw : e.truth.confidence < MIN_CONFIDENCE ∨ q ≤ 0 := by
      refine hweak.imp id fun hp => ?_
      rcases Closed.effectivePriority_scale hq with rfl | ⟨w, hw, rfl⟩
      · exact hp
      · have := rnd_mono (show priority * w ≤ 0 from mul_nonpos_of_nonpos_of_nonneg hp hw.1)
        rwa [rnd_zero] at this
    have : ∃ u, Memory_AddEvent' n e now priority input revised layer s = .ok (u, s) := by
      unfold Memory_AddEvent' Memory_AddEvent
      simp only [M.bind_ok]
      refine ⟨(), s, s, rfl, e, s, rfl, s, s, rfl, r, s, hr, ?_⟩
      split
      · rfl
      · rw [M.bind_ok]
        refine ⟨q, s, M.lift_ok.2 ⟨hq, rfl⟩, ?_⟩
        rw [if_pos (by simpa using hw)]
        rfl
    obtain ⟨u, hu⟩ := this
    rw [hu] at hres
    cases hres

/-- **C42 (refused).** In a reachable state, an event which is already in the belief buffer (for a belief), or in any goal
buffer (for a goal), is not added again: nothing changes. -/
theorem C42_refused (hz : z.Ok) (h : Reachable z n s) (e : Event) (priority : ℚ) (layer : Nat)
    (hdup : e.type = .belief ∧ Holds s.cycling_belief_events s.cycling_belief_event_storage e ∨
      e.type = .goal ∧ ∃ l, Holds (s.cycling_goal_events l) (s.cycling_goal_event_storage l) e)
    (b : Bool) (s' : Sys) (hr : Memory_addCyclingEvent e priority layer s = .ok (b, s')) : b = false ∧ s' = s := by
  have hg := (h.good hz).1
  have key : ∀ (q : PriorityQueue ℚ Nat) (st : Nat → Event), (∀ i, (st i).stamp.WF) → Holds q st e →
      Memory_containsEvent q st e = true := by
    rintro q st hw ⟨x, hx, hs⟩
    cases hc : Memory_containsEvent q st e with
    | true => rfl
    | false => exact absurd hs.symm (not_contains hw hc x hx)
  unfold Memory_addCyclingEvent at hr
  rw [M.bind_ok] at hr
  obtain ⟨_, s1, h1, hr⟩ := hr
  obtain ⟨_, rfl⟩ := M.lift_ok.1 h1
  rw [M.bind_ok] at hr
  obtain ⟨s2, s3, h1, hr⟩ := hr
  obtain ⟨rfl, rfl⟩ := M.get_ok.1 h1
  split at hr
  · obtain ⟨rfl, rfl⟩ := M.pure_ok.1 hr; exact ⟨rfl, rfl⟩
  · rename_i hnb
    rw [M.bind_ok] at hr
    obtain ⟨b1, s3, h2, hr⟩ := hr
    have f := Closed.reads_containsBeliefOrGoal _ _ _ _ h2
    subst f
    split at hr
    · obtain ⟨rfl, rfl⟩ := M.pure_ok.1 hr; exact ⟨rfl, rfl⟩
    · split at hr
      · obtain ⟨rfl, rfl⟩ := M.pure_ok.1 hr; exact ⟨rfl, rfl⟩
      · rename_i hng
        exfalso
        rcases hdup with ⟨ht, hh⟩ | ⟨ht, l, hh⟩
        · exact hnb (by rw [decide_eq_true ht, key _ _ (fun i => (hg.beliefs.good i).stamp) hh]; rfl)
        · apply hng
          rw [decide_eq_true ht, Bool.true_and, List.any_eq_true]
          have hl : l < CYCLING_GOAL_EVENTS_LAYERS := by
            by_contra hn
            have h0 := hg.layers l (not_lt.1 hn)
            obtain ⟨x, hx, _⟩ := hh
            rw [← PriorityQueue.contents_length, List.length_eq_zero_iff] at h0
            rw [h0] at hx
            cases hx
          exact ⟨l, List.mem_range.2 hl, key _ _ (fun i => ((hg.goals l).good i).stamp) hh⟩

/-- **C43 (layers).** Adding a goal with a given layer changes only the goal buffer one layer deeper (at most layer 29);
if the call says it is added, it is there afterwards with the given priority. -/
theorem C43_layer (hz : z.Ok) (h : Reachable z n s) (e : Event) (hgoal : e.type = .goal) (priority : ℚ) (layer : Nat)
    (b : Bool) (s' : Sys) (hr : Memory_addCyclingEvent e priority layer s = .ok (b, s')) :
    s'.cycling_belief_events = s.cycling_belief_events ∧
    s'.cycling_belief_event_storage = s.cycling_belief_event_storage ∧ s'.concept_storage = s.concept_storage ∧
    (∀ l, l ≠ min 29 (layer + 1) → s'.cycling_goal_events l = s.cycling_goal_events l ∧
      s'.cycling_goal_event_storage l = s.cycling_goal_event_storage l) ∧
    (b = true → ∃ x ∈ (s'.cycling_goal_events (min 29 (layer + 1))).contents, x.priority = priority ∧
      s'.cycling_goal_event_storage (min 29 (layer + 1)) x.address = e) := by
  have hg := (h.good hz).1
  unfold Memory_addCyclingEvent at hr
  rw [M.bind_ok] at hr
  obtain ⟨_, s1, h1, hr⟩ := hr
  obtain ⟨_, rfl⟩ := M.lift_ok.1 h1
  rw [M.bind_ok] at hr
  obtain ⟨s2, s3, h1, hr⟩ := hr
  obtain ⟨rfl, rfl⟩ := M.get_ok.1 h1
  have stop : ∀ {b s'}, (pure false : M Bool) s = .ok (b, s') → s'.cycling_belief_events = s.cycling_belief_events ∧
    s'.cycling_belief_event_storage = s.cycling_belief_event_storage ∧ s'.concept_storage = s.concept_storage ∧
    (∀ l, l ≠ min 29 (layer + 1) → s'.cycling_goal_events l = s.cycling_goal_events l ∧
      s'.cycling_goal_event_storage l = s.cycling_goal_event_storage l) ∧
    (b = true → ∃ x ∈ (s'.cycling_goal_events (min 29 (layer + 1))).contents, x.priority = priority ∧
      s'.cycling_goal_event_storage (min 29 (layer + 1)) x.address = e) := by
    intro b s' hp
    obtain ⟨rfl, rfl⟩ := M.pure_ok.1 hp
    exact ⟨rfl, rfl, rfl, fun _ _ => ⟨rfl, rfl⟩, fun h => by cases h⟩
  split at hr
  · exact stop hr
  · rw [M.bind_ok] at hr
    obtain ⟨b1, s3, h2, hr⟩ := hr
    have f := Closed.reads_containsBeliefOrGoal _ _ _ _ h2
    subst f
    split at hr
    · exact stop hr
    · split at hr
      · exact stop hr
      · rw [M.bind_ok] at hr
        obtain ⟨b2, s4, h3, hr⟩ := hr
        have f := Closed.reads_strongerBeliefKnown _ _ _ _ h3
        subst f
        split at hr
        · exact stop hr
        · rw [if_neg (by rw [hgoal]; exact fun h => by cases h)] at hr
          have hl : min (CYCLING_GOAL_EVENTS_LAYERS - 1) (layer + 1) = min 29 (layer + 1) := rfl
          rw [hl] at hr
          generalize min 29 (layer + 1) = k at hr ⊢
          unfold pushGoalEvent at hr
          simp only [M.bind_ok] at hr
          obtain ⟨s1, s2, e1, hr⟩ := hr
          obtain ⟨rfl, rfl⟩ := M.get_ok.1 e1
          obtain ⟨⟨fb, q⟩, s3, e2, hr⟩ := hr
          obtain ⟨hpush, rfl⟩ := M.lift_ok.1 e2
          dsimp only at hr
          obtain ⟨fb', q'', e3, _, _, _, hstep⟩ := PriorityQueue.push_spec (hg.goals k).queue (hg.goals k).pos priority
          rw [hpush] at e3
          cases e3
          cases hfb : fb.addedItem with
          | none =>
            rw [hfb] at hr
            dsimp only at hr
            rw [M.bind_ok] at hr
            obtain ⟨_, s4, e4, e5⟩ := hr
            have f3 := M.set_ok.1 e4
            obtain ⟨rfl, f4⟩ := M.pure_ok.1 e5
            subst f3 f4
            exact ⟨rfl, rfl, rfl, fun l hl => ⟨upd_other _ _ hl, rfl⟩, fun h => by cases h⟩
          | some item =>
            rw [hfb] at hr
            dsimp only at hr
            rw [M.bind_ok] at hr
            obtain ⟨_, s4, e4, e5⟩ := hr
            have f3 := M.set_ok.1 e4
            obtain ⟨rfl, f4⟩ := M.pure_ok.1 e5
            subst f3 f4
            refine ⟨rfl, rfl, rfl, fun l hl => ⟨upd_other _ _ hl, upd_other _ _ hl⟩, fun _ => ?_⟩
            dsimp only
            rw [upd_same, upd_same]
            have hin : ∀ (st : Nat → Event) (S' r : List (Item ℚ Nat)) (a : Nat), S'.Perm (⟨priority, a⟩ :: r) →
                ∃ x ∈ S', x.priority = priority ∧ upd st a e x.address = e :=
              fun st S' r a hp => ⟨⟨priority, a⟩, hp.mem_iff.2 (by simp), rfl, upd_same _ _ _⟩
            cases hstep with
            | room a S' _ _ _ hp => cases hfb; exact hin _ _ _ _ hp
            | reject S' _ _ _ => cases hfb
            | evict x rest S' _ _ _ _ hp => cases hfb; exact hin _ _ _ _ hp

/-! ### C37, C39, C44: concepts over time -/

/-- **C37 (in every reachable state).** Every concept in memory is found under its term, no two have the same term, a term
without concept is not found, and there are at most as many concepts as cells. -/
theorem C37_memory (hz : z.Ok) (h : Reachable z n s) :
    (∀ c ∈ s.live, Memory_FindConceptByTerm (s.termOf c) s = .ok (some c, s)) ∧
    (∀ c ∈ s.live, ∀ d ∈ s.live, s.termOf c = s.termOf d → c = d) ∧
    (∀ t, (∀ c ∈ s.live, s.termOf c ≠ t) → Memory_FindConceptByTerm t s = .ok (none, s)) ∧
    s.live.Nodup ∧ s.live.length ≤ z.memory.concepts := by
  have hI := (h.good hz).1.mem
  refine ⟨?_, fun c hc d hd e => hI.term_inj hc hd e, ?_, hI.live_nodup, ?_⟩
  · intro c hcl
    obtain ⟨r, e, hr⟩ := hI.find_eq (s.termOf c)
    cases r with
    | none => exact absurd rfl (hr c hcl)
    | some d => rw [e, hI.term_inj hr.1 hcl hr.2]
  · intro t ht
    obtain ⟨r, e, hr⟩ := hI.find_eq t
    cases r with
    | none => exact e
    | some d => exact absurd hr.2 (ht d hr.1)
  · have := hI.live_length
    exact le_trans this (le_of_eq (h.sizes hz).1)

/-- What a call does to the concepts. -/
theorem call_kept (hz : z.Ok) (h : Reachable z n s) {fuel : Fuel} {c : Call} (hl : c.Legal n s)
    (e : c.run z fuel n s = .ok (n', s')) : s'.live = [] ∨ KeptOrNew s s' := by
  have hg := h.good hz
  cases call_effect hz hg.1 hg.2 hl e with
  | restart h =>
    left
    unfold Sys.live
    rw [h.concepts]
    rfl
  | run s1 t x _ hm hg hr => exact .inr ((KeptOrNew.of_eq hm.concept_storage hm.concept_id).trans (hr.kept hg))

/-- **C44.** A call of the interface never lowers the confidence of the eternal belief of a concept, nor removes it: if a
concept is in memory before and after the call (same cell, same identity), it is about the same term and its belief,
if it had one, is at least as confident as before. -/
theorem C44_confidence (hz : z.Ok) (h : Reachable z n s) (fuel : Fuel) (c : Call) (hl : c.Legal n s)
    (e : c.run z fuel n s = .ok (n', s')) (k : Nat) (hk : k ∈ s.live) (hk' : k ∈ s'.live) (hid : s'.idOf k = s.idOf k) :
    s'.termOf k = s.termOf k ∧ ((s.concept_storage k).belief.type ≠ .deleted →
      (s'.concept_storage k).belief.type ≠ .deleted ∧
      (s.concept_storage k).belief.truth.confidence ≤ (s'.concept_storage k).belief.truth.confidence) := by
  rcases call_kept hz h hl e with h0 | hkn
  · rw [h0] at hk'; cases hk'
  · rcases hkn.cell k with h1 | h1
    · exact ⟨h1.term, h1.belief⟩
    · have := ((h.good hz).1.mem.ids k hk).2
      rw [hid] at h1
      exact absurd h1 (not_le.2 this)

/-- **C39 (over calls).** A link created from a concept in memory and checked after a call of the interface is reported
valid only if this concept is still in memory: it is in the same cell, under the same term. -/
theorem C39_calls (hz : z.Ok) (h : Reachable z n s) (fuel : Fuel) (c : Call) (hl : c.Legal n s)
    (e : c.run z fuel n s = .ok (n', s')) (k : Nat) (hk : k ∈ s.live) (hk' : k ∈ s'.live) (imp : Implication)
    (hsrc : imp.sourceConcept = some k) (hid : imp.sourceConceptId = s.idOf k) (b : Bool)
    (hv : Memory_ImplicationValid imp s' = .ok (b, s')) :
    (b = true → Memory_FindConceptByTerm (s.termOf k) s' = .ok (some k, s')) ∧
    (b = false → s.concept_id ≤ s'.idOf k ∧ s'.idOf k ≠ s.idOf k) := by
  have hb : b = decide (imp.sourceConceptId = s'.idOf k) := by
    unfold Memory_ImplicationValid Sys.implicationValid at hv
    rw [M.bind_ok] at hv
    obtain ⟨s1, s2, h1, h2⟩ := hv
    obtain ⟨rfl, rfl⟩ := M.get_ok.1 h1
    rw [hsrc] at h2
    exact (Except.ok.inj (M.lift_ok.1 h2).1).symm
  have hr' : Reachable z n' s' := .call fuel c h hl e
  rw [hid] at hb
  refine ⟨fun hb1 => ?_, fun hb0 => ?_⟩
  · rw [hb1] at hb
    have heq := of_decide_eq_true hb.symm
    have := (C44_confidence hz h fuel c hl e k hk hk' heq.symm).1
    rw [← this]
    exact (C37_memory hz hr').1 k hk'
  · rw [hb0] at hb
    have hne := of_decide_eq_false hb.symm
    refine ⟨?_, fun h => hne h.symm⟩
    rcases call_kept hz h hl e with h0 | hkn
    · rw [h0] at hk'; cases hk'
    · rcases hkn.cell k with h1 | h1
      · exact absurd h1.same.symm hne
      · exact h1

/-! ### C46: the clock -/

theorem between_clock {b : Nat} (h : Good n s) (hb : Between n s b 0 s') : ∃ new, s'.output = s.output ++ new ∧
    s.currentTime + b ≤ s'.currentTime ∧ s'.currentTime ≤ s.currentTime + b + executions new := by
  obtain ⟨_, t, x, hr, h1, h2⟩ := hb
  obtain ⟨h3, ⟨new, h4, h5⟩, _⟩ := hr.effect h
  refine ⟨new, h4, ?_, ?_⟩
  · rw [h3]; omega
  · rw [h3, h5]; omega

/-- **C46 (cycles).** A request for `k` cycles advances the clock by `k` and by at most one more for each executed
operation (its feedback is an input with a cycle of its own): by exactly `k` if none is executed. -/
theorem C46_cycles (hz : z.Ok) (h : Reachable z n s) (fuel : Fuel) (k : Nat)
    (e : NAR_Cycles n fuel k s = .ok ((), s')) : ∃ new, s'.output = s.output ++ new ∧
      s.currentTime + k ≤ s'.currentTime ∧ s'.currentTime ≤ s.currentTime + k + executions new :=
  between_clock (h.good hz).1 (cycles_between fuel k (h.good hz).1 e)

/-- **C46 (input).** An input belief or goal comes with one cycle. -/
theorem C46_input (hz : z.Ok) (h : Reachable z n s) (fuel : Fuel) (term : Term) (hk : n.Knows term) (type : EventType)
    (truth : Truth) (ht : truth.Valid) (eternal : Bool) (offset : ℚ) (ev : Event)
    (e : NAR_AddInput n fuel term type truth eternal offset s = .ok (ev, s')) : ∃ new, s'.output = s.output ++ new ∧
      s.currentTime + 1 ≤ s'.currentTime ∧ s'.currentTime ≤ s.currentTime + 1 + executions new := by
  have := between_clock (h.good hz).1 (addInput_between fuel hk type ht eternal offset (h.good hz).1 e)
  exact_mod_cast this

/-- A question only prints answers and changes the attention of a concept. -/
theorem answerQuestion_quiet (q : Question) (u : Unit) (e : answerQuestion n q s = .ok (u, s')) :
    s'.currentTime = s.currentTime ∧ ∃ lines, s'.output = s.output ++ lines ∧ ∀ o ∈ lines, o.IsAnswer := by
  have key : WP (answerQuestion n q) (fun _ s' => s'.currentTime = s.currentTime ∧
      ∃ lines, s'.output = s.output ++ lines ∧ ∀ o ∈ lines, o.IsAnswer) s := by
    unfold answerQuestion
    refine WP.get (WP.bind (WP.lift fun a ha => ?_))
    refine WP.bind (WP.modify ?_)
    have last : ∀ {s1 : Sys}, (s1.currentTime = s.currentTime ∧ s1.output = s.output ++ a.printed) →
        WP (if !q.queryCommand then
          emit (printedAnswer a.best_stamp a.best_term a.best_truth a.answerOccurrenceTime a.answerCreationTime) else pure ())
        (fun _ s' => s'.currentTime = s.currentTime ∧
          ∃ lines, s'.output = s.output ++ lines ∧ ∀ o ∈ lines, o.IsAnswer) s1 := by
      rintro s1 ⟨h1, h2⟩
      refine WP.ite (fun _ => ?_) fun _ => WP.pure ⟨h1, _, h2, bestAnswer_answers ha⟩
      unfold emit
      refine WP.modify ⟨h1, _, by dsimp only; rw [h2, List.append_assoc], ?_⟩
      intro o ho
      rcases List.mem_append.1 ho with ho | ho
      · exact bestAnswer_answers ha o ho
      · rw [List.mem_singleton] at ho; rw [ho]; exact printedAnswer_isAnswer _ _ _ _ _
    cases a.best_belief_concept with
    | none => exact last ⟨rfl, rfl⟩
    | some c =>
      refine WP.ite (fun hp => ?_) fun _ => last ⟨rfl, rfl⟩
      refine WP.bind ?_
      unfold modifyConcept
      exact WP.modify (last ⟨rfl, rfl⟩)
  exact key _ _ e

/-- **C46 (sentence).** So does a sentence; a question takes no time. -/
theorem C46_sentence (hz : z.Ok) (h : Reachable z n s) (fuel : Fuel) (text : CStr) (hl : ValidText n text)
    (e : NAR_AddInputNarsese n fuel text s = .ok (n', s')) : ∃ sentence new,
      Narsese_Sentence n text = .ok (sentence, n') ∧ s'.output = s.output ++ new ∧
      (sentence.punctuation = '?' → s'.currentTime = s.currentTime) ∧
      (sentence.punctuation ≠ '?' → s.currentTime + 1 ≤ s'.currentTime ∧
        s'.currentTime ≤ s.currentTime + 1 + executions new) := by
  have hg := h.good hz
  obtain ⟨_, hx, se, h1, h2⟩ := addNarsese_between fuel hg.1 hg.2 hl e
  obtain ⟨new, h3, h4, h5⟩ := between_clock (hg.1.extends hx) h2
  refine ⟨se, new, h1, h3, fun hq => ?_, fun hq => ?_⟩
  · unfold NAR_AddInputNarsese NAR_AddInputNarsese2 at e
    rw [h1, R.ok_bind] at e
    dsimp only at e
    rw [if_pos hq, R.bind_eq_ok] at e
    obtain ⟨⟨u, s1⟩, e2, e⟩ := e
    cases e
    exact (answerQuestion_quiet _ u e2).1
  · rw [if_neg hq] at h4 h5
    exact ⟨by exact_mod_cast h4, by exact_mod_cast h5⟩

/-- The calls which set the clock: initialisation, reset, `*currenttime` and `*concurrent`. -/
def Call.SetsClock : Call → Prop
  | .init => True
  | .command .reset => True
  | .command (.currentTime _) => True
  | .command .concurrent => True
  | _ => False

/-- **C46 (never back).** Only the calls which set the clock can turn it back. -/
theorem C46_monotone (hz : z.Ok) (h : Reachable z n s) (fuel : Fuel) (c : Call) (hl : c.Legal n s) (hc : ¬ c.SetsClock)
    (e : c.run z fuel n s = .ok (n', s')) : s.currentTime ≤ s'.currentTime := by
  have hg := h.good hz
  have btw : ∀ {m : Narsese} {b : Nat}, Good m s → Between m s b 0 s' → s.currentTime ≤ s'.currentTime := by
    intro m b hg hb
    obtain ⟨_, _, h4, _⟩ := between_clock hg hb
    omega
  have text : ∀ {text : CStr} {query : Bool} {threshold : ℚ}, ValidText n text →
      NAR_AddInputNarsese2 n fuel text query threshold s = .ok (n', s') → s.currentTime ≤ s'.currentTime := by
    intro text query threshold hl e
    obtain ⟨_, hx, se, h1, h2⟩ := addNarsese_between fuel hg.1 hg.2 hl e
    exact btw (hg.1.extends hx) h2
  cases c with
  | init => exact absurd trivial hc
  | addInput t ty tr eternal o =>
    unfold Call.run at e
    dsimp only at e
    rw [R.bind_eq_ok] at e
    obtain ⟨⟨_, s1⟩, e1, e⟩ := e
    cases e
    exact btw hg.1 (addInput_between fuel hl.1 ty hl.2 eternal o hg.1 e1)
  | addOperation name f => exact le_of_eq (addOperation_memory e).2.1.symm
  | addNarsese t query threshold => exact text hl e
  | command c =>
    cases c with
    | nothing => cases e; exact le_refl _
    | report r => obtain ⟨rfl, rfl⟩ := report_same (sz := z.memory) (atoms := z.atoms) (fuel := fuel) e; exact le_refl _
    | exit => cases e; exact le_refl _
    | cycles k =>
      unfold Call.run Command.run at e
      dsimp only at e
      rw [R.bind_eq_ok] at e
      obtain ⟨⟨_, s1⟩, e1, e⟩ := e
      cases e
      exact btw hg.1 (cycles_between fuel k hg.1 e1)
    | reset => exact absurd trivial hc
    | restrictedConceptCreation b => cases e; exact le_refl _
    | parameter p v => cases e; cases p <;> exact le_refl _
    | babblingOps k => cases e; exact le_refl _
    | currentTime t => exact absurd trivial hc
    | stampId b => cases e; exact le_refl _
    | stampImport ids => cases e; exact le_refl _
    | setValue v g name =>
      unfold Call.run Command.run at e
      dsimp only at e
      rw [R.bind_eq_ok] at e
      obtain ⟨n1, e1, e⟩ := e
      cases e
      exact le_refl _
    | space g name =>
      unfold Call.run Command.run at e
      dsimp only at e
      rw [R.bind_eq_ok] at e
      obtain ⟨_, _, e⟩ := e
      rw [R.bind_eq_ok] at e
      obtain ⟨n1, e1, e⟩ := e
      cases e
      exact le_refl _
    | setOpName k name =>
      unfold Call.run Command.run Shell_setOpName at e
      dsimp only at e
      rw [R.bind_eq_ok] at e
      obtain ⟨_, _, e⟩ := e
      rw [R.bind_eq_ok] at e
      obtain ⟨_, _, e⟩ := e
      rw [R.bind_eq_ok] at e
      obtain ⟨⟨t, n1⟩, e1, e⟩ := e
      cases e
      exact le_refl _
    | setOpArg k j text =>
      unfold Call.run Command.run Shell_setOpArg at e
      dsimp only at e
      rw [R.bind_eq_ok] at e
      obtain ⟨_, _, e⟩ := e
      rw [R.bind_eq_ok] at e
      obtain ⟨_, _, e⟩ := e
      rw [R.bind_eq_ok] at e
      obtain ⟨⟨t, n1⟩, e1, e⟩ := e
      cases e
      exact le_refl _
    | setOpStdin k =>
      unfold Call.run Command.run at e
      dsimp only at e
      rw [R.bind_eq_ok] at e
      obtain ⟨s1, e1, e⟩ := e
      cases e
      unfold Shell_setOpStdin at e1
      split at e1
      · cases e1; exact le_refl _
      · cases e1
    | query threshold t =>
      unfold Call.run Command.run at e
      dsimp only at e
      rw [R.bind_eq_ok] at e
      obtain ⟨_, _, e⟩ := e
      exact text hl e
    | concurrent => exact absurd trivial hc
    | narsese t => exact text hl e

end

end ONA

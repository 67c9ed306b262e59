import Verif.Proofs.Maps
import Verif.Proofs.Adopts
import Verif.Proofs.ClosedCycle
import Verif.Props.Subgoals
/-
C76 Every related concept is considered, once.
-/
namespace ONA
variable [Arith] {n : Narsese}

/-- After the counter is increased no concept counts as visited. -/
theorem Good.fresh {s : Sys} (h : Good n s) (c : Nat) : (s.unmarked.concept_storage c).processID ≠ s.unmarked.conceptProcessID := by
  have := h.marks.2 c
  show (s.concept_storage c).processID ≠ s.conceptProcessID + 1
  omega

theorem Good.mem_unmarked {s : Sys} (h : Good n s) : MemInv n s.unmarked :=
  h.mem.congr rfl rfl rfl rfl (fun _ _ => rfl) fun _ _ => rfl

omit [Arith] in
theorem Visits.all {σ : Type} {body : Nat → σ → M (Bool × σ)} (hb : ∀ c st s r s', body c st s = .ok (r, s') → r.1 = true)
    {l : List Nat} {st st' : σ} {s s' : Sys} {b : Bool} (h : Visits body l st s b st' s') : b = true := by
  induction h with
  | nil => rfl
  | last e => exact hb _ _ _ _ _ e
  | cons _ _ ih => exact ih

/-- A traversal which is not broken off. -/
theorem relatedConcepts_all {σ : Type} {body : Nat → σ → M (Bool × σ)} {s : Sys} (h : Good n s)
    (hb : ∀ c st v, Keeps (Map v) (body c st) fun r => r.1 = true) {fuel : Nat} {t : Term} {st st' : σ} {s' : Sys}
    (e : relatedConcepts fuel t body st s.unmarked = .ok (st', s')) :
    ∃ l, l.Nodup ∧ (∀ c, c ∈ l ↔ s.Related n t c) ∧ Visits body l st s.unmarked true st' s' := by
  have hb1 : ∀ c st s r s', body c st s = .ok (r, s') → SameMap s s' := fun c st s r s' e =>
    (hb c st s s r s' (SameMap.refl s) e).1
  have hb2 : ∀ c st s r s', body c st s = .ok (r, s') → r.1 = true := fun c st s r s' e =>
    (hb c st s s r s' (SameMap.refl s) e).2
  obtain ⟨l, b, h1, h2, h3, -, h5, -⟩ := relatedConcepts_visits hb1 h.mem_unmarked (fun c _ => h.fresh c) e
  have hx := h5.all hb2
  subst hx
  exact ⟨l, h1, fun c => ⟨fun hc => h2 c hc, fun hc => h3 rfl c hc⟩, h5⟩

/-- **C76 (an event).** When an event is processed, it gets a concept, which is remembered as recent if the event is a sequence without
variables, and then every concept in memory which is related to it
is visited, exactly once. -/
theorem C76_event {fuel : Nat} {ev : Event} {now : Int} {s s' : Sys} {d : Decision} (h : Good n s) (hk : n.Knows ev.term)
    (e : Cycle_ProcessSensorimotorEvent n fuel ev now s = .ok (d, s')) :
    ∃ r s1, Memory_Conceptualize n ev.term now s = .ok (r, s1) ∧
      (r = none ∧ d = Decision.zero ∧ s' = s1 ∨
      ∃ (c : Nat) (s2 : Sys) (l : List Nat), r = some c ∧
        (s2 = { s1 with occurrenceTimeIndex := s1.occurrenceTimeIndex.add c } ∧ PlainSequence n ev.term ∨ s2 = s1 ∧ ¬ PlainSequence n ev.term) ∧
        l.Nodup ∧ (∀ c, c ∈ l ↔ s1.Related n ev.term c) ∧
        Visits (processRelatedConcept n ev now) l Decision.zero s2.unmarked true d s') := by
  unfold Cycle_ProcessSensorimotorEvent at e
  obtain ⟨_, s0, e0, e⟩ := M.bind_ok.1 e
  obtain ⟨-, rfl⟩ := M.lift_ok.1 e0
  obtain ⟨r, s1, e1, e⟩ := M.bind_ok.1 e
  have hg1 := (good_closed n).step h (.conceptualize ev.term now r s1 hk e1)
  refine ⟨r, s1, e1, ?_⟩
  cases r with
  | none =>
    obtain ⟨h1, h2⟩ := M.pure_ok.1 e
    exact .inl ⟨rfl, h1.symm, h2.symm⟩
  | some c =>
    right
    have fin : ∀ s2 : Sys, Good n s2 → (s2 = { s1 with occurrenceTimeIndex := s1.occurrenceTimeIndex.add c } ∧ PlainSequence n ev.term ∨
          s2 = s1 ∧ ¬ PlainSequence n ev.term) →
        (nextProcessID >>= fun _ => relatedConcepts fuel ev.term (processRelatedConcept n ev now) Decision.zero) s2 = .ok (d, s') →
        ∃ (c' : Nat) (s2 : Sys) (l : List Nat), some c = some c' ∧
        (s2 = { s1 with occurrenceTimeIndex := s1.occurrenceTimeIndex.add c' } ∧ PlainSequence n ev.term ∨ s2 = s1 ∧ ¬ PlainSequence n ev.term) ∧
        l.Nodup ∧ (∀ c, c ∈ l ↔ s1.Related n ev.term c) ∧
        Visits (processRelatedConcept n ev now) l Decision.zero s2.unmarked true d s' := by
      intro s2 hg2 hs2 e
      obtain ⟨_, s3, e3, e⟩ := M.bind_ok.1 e
      have e3 := M.modify_ok.1 e3
      subst e3
      obtain ⟨l, h1, h2, h3⟩ := relatedConcepts_all hg2 (fun c st v => Map.processRelated n ev now c st) e
      refine ⟨c, s2, l, rfl, hs2, h1, fun k => ?_, h3⟩
      rw [h2]
      rcases hs2 with ⟨rfl, -⟩ | ⟨rfl, -⟩ <;> rfl
    dsimp only at e
    split at e
    · rename_i hx
      rw [Bool.and_eq_true, Bool.not_eq_true'] at hx
      obtain ⟨_, s2, e2, e⟩ := M.bind_ok.1 e
      have e2 := M.modify_ok.1 e2
      subst e2
      exact fin _ ((good_closed n).step hg1 (.remember c
        ((((good_closed n).conceptualize_lasting hk now h) _ _ e1).2 c rfl |>.imp_right And.left))) (.inl ⟨rfl, hx⟩) e
    · rename_i hx
      rw [Bool.and_eq_true, Bool.not_eq_true'] at hx
      exact fin s1 hg1 (.inr ⟨rfl, hx⟩) e

/-! ### Events without variables -/

/-- What a concept does with a belief event. -/
theorem processRelated_belief {ev : Event} (ht : ev.type = .belief) (hv : Variable_hasVariable n ev.term true true true = false)
    {now : Int} {c : Nat} {d : Decision} {r : Bool × Decision} {s s' : Sys}
    (e : processRelatedConcept n ev now c d s = .ok (r, s')) :
    ∃ subs, Variable_Unify n (s.concept_storage c).term ev.term = .ok subs ∧
      s' = if subs.success then s.notice c { ev with processed := true, creationTime := now } now else s := by
  have key : WP (processRelatedConcept n ev now c d) (fun _ s' => ∃ subs, Variable_Unify n (s.concept_storage c).term ev.term = .ok subs ∧
      s' = if subs.success then s.notice c { ev with processed := true, creationTime := now } now else s) s := by
    unfold processRelatedConcept
    dsimp only
    rw [hv]
    refine WP.bind (WP.mono (Q := fun _ s' => ∃ subs, Variable_Unify n (s.concept_storage c).term ev.term = .ok subs ∧
      s' = if subs.success then s.notice c { ev with processed := true, creationTime := now } now else s) ?_ ?_)
    · refine WP.ite (fun _ => ?_) fun hx => absurd rfl hx
      refine WP.get ?_
      refine WP.bind (WP.lift fun subs hs => ?_)
      refine WP.ite (fun hx => ?_) fun hx => WP.pure ⟨subs, hs, by rw [if_neg hx]⟩
      refine WP.bind ?_
      unfold Cycle_ActivateSensorimotorConcept
      refine WP.bind (WP.modify ?_)
      refine WP.ite (fun _ => ?_) fun hx => absurd ht hx
      refine WP.bind (WP.modify (WP.pure (WP.pure ⟨subs, hs, ?_⟩)))
      rw [if_pos hx]
      unfold Sys.notice
      congr 1
      dsimp only
      rw [upd_same]
      funext k
      by_cases hkc : k = c
      swap
      · rw [upd_other _ _ hkc, upd_other _ _ hkc, upd_other _ _ hkc]
      subst hkc
      rw [upd_same, upd_same]
      unfold Concept.notices
      simp only [Bool.or_eq_true, decide_eq_true_eq, gt_iff_lt]
      split <;> rfl
    · intro d' s1 h1
      exact WP.ite (fun hx => absurd hx (by decide)) fun _ => WP.pure h1
  exact key _ _ e

omit [Arith] in
theorem visited_cell (s : Sys) (c k : Nat) : ((s.visited c).concept_storage k).plain = (s.concept_storage k).plain ∧
    ((s.visited c).concept_storage k).term = (s.concept_storage k).term := by
  show (upd _ _ _ _ : Concept).plain = _ ∧ (upd _ _ _ _ : Concept).term = _
  rw [upd_apply]
  split
  · next h => subst h; exact ⟨rfl, rfl⟩
  · exact ⟨rfl, rfl⟩

omit [Arith] in
theorem notices_plain {c c' : Concept} (h : c.plain = c'.plain) (e : Event) (now : Int) :
    (c.notices e now).plain = (c'.notices e now).plain := by
  have h1 : c.plain.notices e now = c'.plain.notices e now := by rw [h]
  have h2 : (c.plain.notices e now).plain = (c'.plain.notices e now).plain := by rw [h1]
  exact h2

open Classical in
theorem visits_belief {ev : Event} (ht : ev.type = .belief) (hv : Variable_hasVariable n ev.term true true true = false)
    {now : Int} {l : List Nat} {d d' : Decision} {b : Bool} {s s' : Sys}
    (h : Visits (processRelatedConcept n ev now) l d s b d' s') (hl : l.Nodup) (k : Nat) :
    (s'.concept_storage k).plain = (if k ∈ l ∧ ∃ subs, Variable_Unify n (s.concept_storage k).term ev.term = .ok subs ∧ subs.success = true
      then (s.concept_storage k).notices { ev with processed := true, creationTime := now } now else s.concept_storage k).plain := by
  induction h with
  | nil => rw [if_neg (by simp)]
  | last e =>
    cases (Map.processRelated (v := _) n ev now _ _ _ _ _ (SameMap.refl _) e).2
  | @cons c l st st1 st' s s1 s' b e _ ih =>
    obtain ⟨hc, hl⟩ := List.nodup_cons.1 hl
    obtain ⟨subs, h1, h2⟩ := processRelated_belief ht hv e
    rw [ih hl]
    by_cases hk : k = c
    · subst hk
      rw [if_neg fun h => hc h.1]
      rw [(visited_cell s k k).2] at h1
      by_cases hx : subs.success = true
      · rw [if_pos ⟨List.mem_cons_self .., subs, h1, hx⟩, h2, if_pos hx]
        unfold Sys.notice
        dsimp only
        rw [upd_same]
        exact notices_plain (visited_cell s k k).1 _ _
      · rw [if_neg, h2, if_neg hx]
        · exact (visited_cell s k k).1
        · rintro ⟨-, subs', h3, h4⟩
          rw [h1] at h3
          cases h3
          exact hx h4
    · have e1 : s1.concept_storage k = s.concept_storage k := by
        have : s1.concept_storage k = (s.visited c).concept_storage k := by
          rw [h2]
          split
          · exact upd_other _ _ hk
          · rfl
        exact this.trans (upd_other _ _ hk)
      rw [e1]
      simp only [List.mem_cons, hk, false_or]

open Classical in
/-- **C76 (noticed).** A belief event without variables is noticed by exactly those concepts in memory which are related to it
and match it; no other concept changes. -/
theorem C76_noticed {fuel : Nat} {ev : Event} {now : Int} {s s' : Sys} {d : Decision} (h : Good n s) (hk : n.Knows ev.term)
    (ht : ev.type = .belief) (hv : Variable_hasVariable n ev.term true true true = false)
    (e : Cycle_ProcessSensorimotorEvent n fuel ev now s = .ok (d, s')) :
    ∃ r s1, Memory_Conceptualize n ev.term now s = .ok (r, s1) ∧ ∀ c, (s'.concept_storage c).plain =
      (if r ≠ none ∧ s1.Related n ev.term c ∧
          ∃ subs, Variable_Unify n (s1.concept_storage c).term ev.term = .ok subs ∧ subs.success = true
        then (s1.concept_storage c).notices { ev with processed := true, creationTime := now } now
        else s1.concept_storage c).plain := by
  obtain ⟨r, s1, h1, h2⟩ := C76_event h hk e
  refine ⟨r, s1, h1, fun c => ?_⟩
  obtain ⟨rfl, -, rfl⟩ | ⟨c0, s2, l, rfl, h3, h4, h5, h6⟩ := h2
  · rw [if_neg fun h => h.1 rfl]
  · rw [visits_belief ht hv h6 h4 c]
    have hc : s2.unmarked.concept_storage c = s1.concept_storage c := by
      show s2.concept_storage c = _
      rcases h3 with ⟨rfl, -⟩ | ⟨rfl, -⟩ <;> rfl
    rw [hc]
    simp only [ne_eq, reduceCtorEq, not_false_eq_true, true_and, h5]

/-! ### Goals -/

open Classical in
/-- **C76 (adopted).** A goal without variables is taken over by exactly those concepts in memory which are related to it and
match it; no other concept changes, except that links of operations are removed when their source is gone. -/
theorem C76_adopted {fuel : Nat} {ev : Event} {now : Int} {s s' : Sys} {d : Decision} (h : Good n s) (hk : n.Knows ev.term)
    (ht : ev.type = .goal) (hv : Variable_hasVariable n ev.term true true true = false)
    (e : Cycle_ProcessSensorimotorEvent n fuel ev now s = .ok (d, s')) :
    ∃ r s1, Memory_Conceptualize n ev.term now s = .ok (r, s1) ∧ ∀ c, (s'.concept_storage c).aside =
      (if r ≠ none ∧ s1.Related n ev.term c ∧
          ∃ subs, Variable_Unify n (s1.concept_storage c).term ev.term = .ok subs ∧ subs.success = true
        then (s1.concept_storage c).adopts { ev with processed := true, creationTime := now } now
        else s1.concept_storage c).aside := by
  obtain ⟨r, s1, h1, h2⟩ := C76_event h hk e
  refine ⟨r, s1, h1, fun c => ?_⟩
  obtain ⟨rfl, -, rfl⟩ | ⟨c0, s2, l, rfl, h3, h4, h5, h6⟩ := h2
  · rw [if_neg fun h => h.1 rfl]
  · rw [visits_goal (by rw [ht]; decide) hv h6 h4 c]
    have hc : s2.unmarked.concept_storage c = s1.concept_storage c := by
      show s2.concept_storage c = _
      rcases h3 with ⟨rfl, -⟩ | ⟨rfl, -⟩ <;> rfl
    rw [hc]
    simp only [ne_eq, reduceCtorEq, not_false_eq_true, true_and, h5]

/-- **C76 (goals).** For each goal which is processed in a cycle, every related concept is visited exactly once, unless an
operation is executed. -/
theorem C76_goals {fuel : Nat} {add : Term → M Unit} {now : Int} {layer : Nat} {s s' : Sys} (h : Good n s)
    (e : processGoalLayer n fuel add now layer s = .ok ((), s')) :
    ∃ goals s1 d s2, TakesGoal layer s goals s1 ∧
      processSelectedGoals n fuel now layer (List.range goals.length) Decision.zero s1 = .ok (d, s2) ∧
      (d.execute = false → Pursues n now layer goals s2 s') := by
  unfold processGoalLayer at e
  by_cases hlay : layer < CYCLING_GOAL_EVENTS_LAYERS
  swap
  · rw [if_neg hlay] at e; cases e
  rw [if_pos hlay] at e
  obtain ⟨u, s1, e1, e2⟩ := M.bind_ok.1 e
  obtain ⟨h1, h2⟩ := popGoals_takes h e1
  have hg1 := (good_closed n).step h (.popGoal layer s1 e1)
  have hk1 := popGoal_known h e1
  unfold Cycle_ProcessAndInferGoalEvents at e2
  obtain ⟨s1', s1'', e3, e2⟩ := M.bind_ok.1 e2
  obtain ⟨rfl, rfl⟩ := M.get_ok.1 e3
  obtain ⟨d, s2, e4, e2⟩ := M.bind_ok.1 e2
  have hlen : s1.chosen.length = s1.goalsSelectedCnt := by unfold Sys.chosen; rw [List.length_map, List.length_range]
  refine ⟨s1.chosen, s1, d, s2, h1, by rw [hlen]; exact e4, fun hd => ?_⟩
  have hd2 : Deriving n now layer s1.chosen s1 s1 s2 :=
    ((processSelected_deriving h2 fuel _ Decision.zero fun i hi => List.mem_range.1 hi) s1 d s2 ⟨.refl, rfl, rfl, rfl⟩ e4).1
  have hg2 : Good n s2 ∧ SelectedGoals n s1.goalsSelectedCnt s2 :=
    (((good_closed n).withGoals s1.goalsSelectedCnt).selectedGoals And.right fuel now layer _ (fun i hi => List.mem_range.1 hi) _
      ⟨⟨hg1, hk1⟩, Decision.zero_fit _, fun h => by cases h⟩ _ _ e4).1
  have key : ∀ (l : List Nat), (∀ i ∈ l, i < s1.goalsSelectedCnt) → ∀ {s3 : Sys}, Good n s3 ∧ SelectedGoals n s1.goalsSelectedCnt s3 →
      Deriving n now layer s1.chosen s1 s1 s3 → WP (l.forM fun i => do
        let s ← get
        nextProcessID
        relatedConcepts fuel (s.selectedGoals i).term
          (deriveSubgoals n (s.selectedGoals i) (s.selectedGoalsPriority i) now layer) ())
        (fun _ s' => Pursues n now layer (l.map fun i => (s1.selectedGoals i, s1.selectedGoalsPriority i)) s3 s') s3 := by
    intro l
    induction l with
    | nil => intro _ s3 _ _; exact WP.pure .nil
    | cons i l ih =>
      intro hl s3 hg3 hd3
      have hi := hl i (List.mem_cons_self ..)
      refine WP.bind ?_
      refine WP.get ?_
      refine WP.bind (WP.modify ?_)
      intro u s4 e5
      have hsel := hg3.2 i hi
      obtain ⟨vs, k1, k2, k3⟩ := relatedConcepts_all hg3.1 (fun c st v => Map.deriveSubgoals n _ _ now layer c st) e5
      have hc := (good_closed n).withGoals s1.goalsSelectedCnt
      have hun := (hc.nextProcessID s3 () s3.unmarked hg3 rfl).1
      have hg4 := (related_keeps' hc (fun c st => hc.deriveSubgoals hsel.1 hsel.2.1 now layer c st) _ _ _ _ _ _ hun e5).1
      have hm : (s3.selectedGoals i, s3.selectedGoalsPriority i) ∈ s1.chosen := by
        rw [hd3.events, hd3.priorities]
        exact mem_chosen hi
      have hd4 := ((relatedSubgoals_deriving hm fuel _) _ _ _ (hd3.other (s' := s3.unmarked) rfl rfl rfl rfl) e5).1
      refine WP.mono (ih (fun j hj => hl j (List.mem_cons_of_mem _ hj)) hg4 hd4) fun _ s5 h5 => ?_
      rw [hd3.events] at k2
      rw [hd3.events, hd3.priorities] at k3
      exact .cons k1 k2 k3 h5
  have hx : (d.execute && decide (d.operationID > 0)) = false := by rw [hd]; rfl
  rw [if_neg (by rw [hx]; decide)] at e2
  rw [if_pos (by rw [hd]; rfl)] at e2
  obtain ⟨s5, s6, e5, e2⟩ := M.bind_ok.1 e2
  obtain ⟨rfl, rfl⟩ := M.get_ok.1 e5
  have := key (List.range s1.goalsSelectedCnt) (fun i hi => List.mem_range.1 hi) hg2 hd2 () s'
  rw [hd2.count] at e2
  exact this e2

end ONA

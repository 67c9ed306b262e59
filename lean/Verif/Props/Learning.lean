import Verif.Proofs.Learning
import Verif.Props.Related
import Verif.Props.Links
import Verif.Proofs.Family
import Verif.Proofs.Noting
import Verif.Proofs.Settled
/-
C78: experience is turned into links.
-/
namespace ONA
variable [Arith] {n : Narsese} {z : Sizes} {s s' : Sys}

/-! ### Perceiving the outcome -/

theorem visits_rest {ev : Event} (ht : ev.type = .belief) (hv : Variable_hasVariable n ev.term true true true = false)
    {now : Int} {l : List Nat} {d d' : Decision} {b : Bool} {s s' : Sys}
    (h : Visits (processRelatedConcept n ev now) l d s b d' s') : s' = { s with concept_storage := s'.concept_storage } := by
  induction h with
  | nil => rfl
  | last e => cases (Map.processRelated (v := _) n ev now _ _ _ _ _ (SameMap.refl _) e).2
  | @cons c l st st1 st' s s1 s' b e _ ih =>
    obtain ⟨subs, -, h2⟩ := processRelated_belief ht hv e
    rw [ih, h2]
    split <;> rfl

omit [Arith] in
theorem facts_plain {x y : Concept} (h : y.plain = x.plain) : SameFacts x y :=
  have key : ∀ {α : Type} (f : Concept → α), f y.plain = f x.plain := fun f => congrArg f h
  ⟨key Concept.term, key Concept.id, key Concept.belief_spike, key Concept.lastSelectionTime⟩

/-- Perceiving an event changes nothing about the concepts which do not match it. -/
theorem perceive {fuel : Nat} {b : Event} {now : Int} {d : Decision} (h : Good n s) (hk : n.Knows b.term) (ht : b.type = .belief)
    (hb : s.Outcome n b) (e : Cycle_ProcessSensorimotorEvent n fuel b now s = .ok (d, s')) :
    s'.full ∨ s'.HasConcept b.term ∧ ∀ p ∈ s.live, ∀ o ∈ s.live, s.Differs n p b.term → s.Differs n o b.term → Recall s s' p o := by
  classical
  -- without a new entry of the history
  have hist : ∀ {r s1}, Memory_Conceptualize n b.term now s = .ok (r, s1) → s'.occurrenceTimeIndex = s1.occurrenceTimeIndex := by
    intro r s1 e1
    unfold Cycle_ProcessSensorimotorEvent at e
    obtain ⟨_, s0, e0, e⟩ := M.bind_ok.1 e
    obtain ⟨-, rfl⟩ := M.lift_ok.1 e0
    obtain ⟨r', s1', e1', e⟩ := M.bind_ok.1 e
    rw [e1] at e1'
    cases e1'
    cases r with
    | none =>
      obtain ⟨-, h2⟩ := M.pure_ok.1 e
      rw [h2]
    | some c =>
      dsimp only at e
      rw [if_neg (by rw [hb.noSequence]; exact Bool.false_ne_true)] at e
      obtain ⟨_, s3, e3, e⟩ := M.bind_ok.1 e
      have e3 := M.modify_ok.1 e3
      have hg1 := (good_closed n).step h (.conceptualize b.term now _ s1 hk e1)
      obtain ⟨l, -, -, h3⟩ := relatedConcepts_all (body := processRelatedConcept n b now) hg1 (fun c st v => Map.processRelated n b now c st)
        (show _ = _ from e3 ▸ e)
      rw [visits_rest ht hb.ground h3]
      rfl
  obtain ⟨r, s1, e1, h2⟩ := C76_event h hk e
  have hist := hist e1
  obtain ⟨r', s1', e1', h3⟩ := C76_noticed h hk ht hb.ground e
  rw [e1] at e1'
  cases e1'
  have hsc := (Staged.conceptualize (n := n) (v := s) b.term now _ _ _ (Staged.start h.mem) e1).1.2
  obtain ⟨rfl, -, rfl⟩ | ⟨c, s2, l, rfl, h4, -, -, h6⟩ := h2
  · exact .inl (conceptualize_none h e1)
  have h4 : s2 = { s1 with occurrenceTimeIndex := s2.occurrenceTimeIndex } := by
    rcases h4 with ⟨rfl, -⟩ | ⟨rfl, -⟩ <;> rfl
  have hrest := visits_rest ht hb.ground h6
  have hlive : s'.live = s1.live := by
    rw [hrest]
    show s2.live = _
    rw [h4]
    rfl
  have hcon : s'.concepts = s1.concepts := by
    rw [hrest]
    show s2.concepts = _
    rw [h4]
  by_cases hf : s1.full
  · left
    unfold Sys.full at hf ⊢
    rw [hcon]
    exact hf
  right
  have hsc := hsc.resolve_left hf
  have hterm : ∀ k, s'.termOf k = s1.termOf k := by
    intro k
    have := congrArg Concept.term (h3 k)
    split at this <;> exact this
  refine ⟨?_, fun p hp o ho dp d_o => ?_⟩
  · obtain ⟨hl, htm⟩ := ((((good_closed n).conceptualize_lasting hk now h) _ _ e1).2 c rfl).resolve_left hf
    refine ⟨c, by rw [hlive]; exact hl, (hterm c).trans htm⟩
  · have same : ∀ q ∈ s.live, s.Differs n q b.term → SameFacts (s.concept_storage q) (s'.concept_storage q) := by
      intro q hq hd
      have hx := hsc.concepts q hq
      have := h3 q
      rw [if_neg] at this
      · have := facts_plain this
        exact ⟨this.term.trans hx.term, this.id.trans hx.id, this.spike.trans hx.spike, this.selected.trans hx.selected⟩
      · rintro ⟨-, -, subs, u1, u2⟩
        rw [hx.term] at u1
        rw [hd subs u1] at u2
        cases u2
    refine ⟨hist.trans hsc.history, ?_, fun k hk => by rw [hlive]; exact hsc.live k hk, fun k hk => (hterm k).trans (hsc.concepts k hk).term,
      same p hp dp, same o ho d_o⟩
    rw [hrest]
    show s2.operations = _
    rw [h4]
    exact hsc.operations

/-! ### Processing it -/

theorem processBelief_learns {p o : Nat} {b : Event} {link : Implication} (hb : b.Good n) (ht : b.type = .belief)
    {s : Sys} (hg : Good n s) (h : Ready n s p o b link) (fuel : Nat) (prio : ℚ) :
    WP (processBeliefEvent n fuel b prio s.currentTime)
      (fun _ s' => Good n s' ∧ Stored n (s.linkIndex n link.term) link.term s') s := by
  have hcl : Closed n fun s' => Good n s' ∧ s'.operations = s.operations :=
    (good_closed n).and fun h1 h2 st => ((st.frame h1).1.operations).trans h2
  unfold processBeliefEvent
  dsimp only
  refine WP.ite (fun _ => ?_) fun hx => ?_
  swap
  · exfalso
    refine hx ?_
    have h1 : (Narsese_copulaEquals n (b.term.get 0) HAS_CONTINUOUS_PROPERTY &&
        !Narsese_copulaEquals n (b.term.get 1) PRODUCT) = false := by
      cases h2 : Narsese_copulaEquals n (b.term.get 0) HAS_CONTINUOUS_PROPERTY with
      | false => rfl
      | true => rw [h.outcome.noValue h2]; rfl
    rw [h1]
    simp [h.outcome.fresh, ht, h.outcome.timed, h.outcome.recent]
  refine WP.bind (WP.lift fun _ _ => WP.bind ?_)
  intro d s1 e1
  have hI1 := (hcl.processSensorimotor_keeps fuel hb s.currentTime _ _ _ ⟨hg, rfl⟩ e1).1
  have hp := perceive hg hb.term ht h.outcome e1
  have hop : s1.operationID n b.term = s.operationID n b.term := operationID_congr hI1.2 _
  unfold Memory_getOperationID
  refine WP.bind (WP.get (WP.pure ?_))
  refine WP.bind ?_
  unfold nextProcessID2
  refine WP.modify ?_
  set s2 : Sys := { s1 with conceptProcessID2 := s1.conceptProcessID2 + 1 } with hs2
  have hI2 : Good n s2 ∧ s2.operations = s.operations :=
    hcl.processIDs hI1 s1.conceptProcessID (s1.conceptProcessID2 + 1) s1.conceptProcessID3 (Int.le_refl _) (by omega) (Int.le_refl _)
  have fresh : ∀ c, (s2.concept_storage c).processID2 ≠ s2.conceptProcessID2 := by
    intro c
    have := hI1.1.marks2.2 c
    show (s1.concept_storage c).processID2 ≠ s1.conceptProcessID2 + 1
    omega
  have hidx : s2.linkIndex n link.term = s.linkIndex n link.term := by
    unfold Sys.linkIndex
    dsimp only
    rw [operationID_congr hI2.2]
  rw [if_pos (hop.trans h.outcome.noOperation)]
  refine WP.bind ((operations_learn (link := link) (p := p) (o := o) hcl (fun h => h.2) hb ht hI2 fresh).mono ?_)
  rintro _ s3 ⟨hI3, hst3, hsc⟩
  have hS3 : Stored n (s.linkIndex n link.term) link.term s3 := by
    refine hsc.elim .inl fun hx => ?_
    rw [← hidx]
    refine hp.elim (fun hf => .inl (hst3.full hf)) fun ⟨hcon, hrec⟩ => ?_
    have hr := hrec p h.live_first o h.live_second h.differs_first h.differs_second
    have hr2 : Recall s s2 p o := ⟨hr.history, hr.operations, hr.live, hr.terms, hr.first, hr.second⟩
    refine hx.2 ⟨hr2.teaches h.teaches, hcon, hr2.live _ h.live_first, hr2.live _ h.live_second, ?_, ?_⟩
    · unfold Sys.Recent; rw [hr2.history]; exact h.recent_first
    · unfold Sys.Recent; rw [hr2.history]; exact h.recent_second
  have hcl2 : Closed n fun s' => Good n s' ∧ Stored n (s.linkIndex n link.term) link.term s' :=
    (good_closed n).and fun h1 h2 st => h2.stable (st.stable h1)
  refine ((Keeps.seq hcl2.nextProcessID2 fun _ => Keeps.seq (hcl2.sequences fuel hb _ _ _) fun _ =>
    Keeps.ite (fun _ => hcl2.anticipate _ _ _ _) fun _ => Keeps.pure trivial :
      Keeps _ _ fun _ => True).wp ⟨hI3.1, hS3⟩).mono fun _ _ h => h.1

/-! ### The cycle -/

theorem Sys.Attends.pop {s : Sys} {b : Event} (hg : Good n s) (h : s.Attends b) :
    WP popBeliefEvents (fun _ s' => ∃ (q : PriorityQueue ℚ Nat) (pr : Nat → ℚ) (sel : Nat → Event), sel 0 = b ∧
      s' = { s with cycling_belief_events := q, selectedBeliefsPriority := pr, selectedBeliefs := sel, beliefsSelectedCnt := 1 }) s := by
  unfold popBeliefEvents
  refine WP.get (WP.bind (WP.lift fun r hr => ?_))
  obtain ⟨out, q⟩ := r
  obtain ⟨x, hx, hxb, hmax⟩ := h
  obtain ⟨out', q', e1, -, -, -, hstep⟩ := PriorityQueue.popMax_spec hg.beliefs.queue
  rw [hr] at e1
  cases e1
  cases out with
  | none =>
    obtain ⟨h1, -⟩ := hstep
    rw [h1] at hx
    cases hx
  | some item =>
    obtain ⟨⟨h1, h2⟩, -⟩ := hstep
    have : item = x := by
      by_contra hne
      exact absurd (h2 x hx) (not_le.2 (hmax item h1 hne))
    subst this
    exact WP.set ⟨q, _, _, (upd_same _ _ _).trans hxb, rfl⟩

/-- A stored link stays. -/
theorem storedFamilies (n : Narsese) (opi : Nat) (t : Term) : Families n fun _ _ s => Good n s ∧ Stored n opi t s := by
  have hc : ∀ {s s' : Sys}, s'.concepts = s.concepts → s'.concept_storage = s.concept_storage → Stored n opi t s → Stored n opi t s' :=
    fun h1 h2 hs => hs.stable (.of_eq h1 h2)
  refine ⟨fun b => ⟨fun k => ?_, fun h => h, fun j action args ha h hj _ => ?_, fun t ty tr o h => ?_, fun h => ?_⟩, fun h => ?_⟩
  · exact (good_closed n).and fun h1 h2 st => h2.stable (st.stable h1)
  · exact ⟨h.1.congr rfl h.1.stdin, hc rfl rfl h.2⟩
  · exact ⟨h.1.input _ _ _ _, hc rfl rfl h.2⟩
  · exact ⟨h.1.congr rfl h.1.stdin, hc rfl rfl h.2⟩
  · exact ⟨h.1.congr rfl h.1.stdin, hc rfl rfl h.2⟩

theorem Ready.attended {s : Sys} {p o : Nat} {b : Event} {link : Implication} (h : Ready n s p o b link)
    (q : PriorityQueue ℚ Nat) (pr : Nat → ℚ) (sel : Nat → Event) (k : Nat) :
    Ready n { s with cycling_belief_events := q, selectedBeliefsPriority := pr, selectedBeliefs := sel, beliefsSelectedCnt := k }
      p o b link := by
  have hr : Recall s { s with cycling_belief_events := q, selectedBeliefsPriority := pr, selectedBeliefs := sel, beliefsSelectedCnt := k } p o :=
    ⟨rfl, rfl, fun _ h => h, fun _ _ => rfl, ⟨rfl, rfl, rfl, rfl⟩, ⟨rfl, rfl, rfl, rfl⟩⟩
  exact ⟨{ h.outcome with recent := h.outcome.recent, noOperation := h.outcome.noOperation }, hr.teaches h.teaches, h.recent_first, h.recent_second, h.live_first, h.live_second,
    h.differs_first, h.differs_second⟩

theorem cycle_learns {p o : Nat} {b : Event} {link : Implication} {s : Sys} (hg : Good n s) (hatt : s.Attends b)
    (h : Ready n s p o b link) (chain depth : Nat) :
    WP (oneCycle n chain (addInputBeliefNested n chain depth))
      (fun _ s' => Good n s' ∧ Stored n (s.linkIndex n link.term) link.term s') s := by
  unfold oneCycle
  refine WP.get (WP.bind (WP.mono (Q := fun _ s' => Good n s' ∧ Stored n (s.linkIndex n link.term) link.term s') ?_ ?_))
  swap
  · intro _ s1 hs1
    exact WP.modify ((storedFamilies n _ _).cycle (b := 0) hs1)
  unfold Cycle_Perform
  refine WP.bind ?_
  intro _ s1 e1
  have hg1 := (good_closed n).step hg (.popBelief s1 e1)
  have hk1 := popBelief_known hg e1
  obtain ⟨q, pr, sel, hsel, rfl⟩ := hatt.pop hg _ _ e1
  have hr1 := h.attended q pr sel 1
  set s1 : Sys := { s with cycling_belief_events := q, selectedBeliefsPriority := pr, selectedBeliefs := sel, beliefsSelectedCnt := 1 } with hs1
  have hb := hk1 0 (show 0 < 1 by omega)
  have hsel' : s1.selectedBeliefs 0 = b := hsel
  rw [hsel'] at hb
  set J : Sys → Prop := fun s' => Good n s' ∧ Stored n (s.linkIndex n link.term) link.term s' with hJ
  have hcl : Closed n J := (good_closed n).and fun h1 h2 st => h2.stable (st.stable h1)
  refine WP.bind (WP.mono (Q := fun _ s' => J s' ∧ BeliefsKnown n s') ?_ ?_)
  · refine WP.and ?_ ?_
    · unfold Cycle_ProcessBeliefEvents
      refine WP.get ?_
      show WP ((List.range 1).forM _) _ _
      rw [show List.range 1 = [0] from rfl]
      simp only [List.forM_eq_forM, List.forM_cons, List.forM_nil]
      refine WP.bind (WP.mono ?_ fun _ _ h => WP.pure h)
      rw [hsel']
      exact processBelief_learns hb.1 hb.2.2 hg1 hr1 _ _
    · exact (((good_closed n).beliefsKnown.processBeliefs And.right _ _).wp ⟨hg1, hk1⟩).mono fun _ _ h => h.1.2
  rintro _ s2 hs2
  refine WP.mono (Keeps.wp (I := fun s => J s ∧ BeliefsKnown n s) (Q := fun _ => True) ?_ hs2) fun _ _ h => h.1.1
  have hB := hcl.beliefsKnown
  refine Keeps.seq (hB.anticipate _ _ _ _) fun _ => ?_
  refine Keeps.seq (Keeps.forM fun layer _ => Hooks.goalLayer hB (((storedFamilies n _ _).family 0).hooks chain depth 0) _ _ _) fun _ => ?_
  exact Keeps.seq (hB.inference And.right _ _) fun _ => hB.forgetting _

theorem cycles_learn {p o : Nat} {b : Event} {link : Implication} {s : Sys} (hg : Good n s) (hatt : s.Attends b)
    (h : Ready n s p o b link) (chain depth k : Nat) :
    WP (cyclesWith n chain (addInputBeliefNested n chain depth) (k + 1))
      (fun _ s' => Stored n (s.linkIndex n link.term) link.term s') s := by
  unfold cyclesWith
  refine WP.get (WP.bind (WP.lift fun _ _ => ?_))
  have key : ∀ (l : List Nat) (s1 : Sys), Good n s1 ∧ Stored n (s.linkIndex n link.term) link.term s1 →
      WP (l.forM fun _ => oneCycle n chain (addInputBeliefNested n chain depth))
        (fun _ s2 => Good n s2 ∧ Stored n (s.linkIndex n link.term) link.term s2) s1 := by
    intro l
    induction l with
    | nil => intro s1 h1; exact WP.pure h1
    | cons a l ih =>
      intro s1 h1
      simp only [List.forM_eq_forM, List.forM_cons] at ih ⊢
      exact WP.bind (((storedFamilies n _ _).oneCycle chain depth (b := 0) h1).mono fun _ s2 h2 => ih s2 h2)
  rw [List.range_succ_eq_map]
  simp only [List.forM_eq_forM, List.forM_cons] at key ⊢
  exact WP.bind ((cycle_learns hg hatt h chain depth).mono fun _ s1 h1 => (key _ s1 h1).mono fun _ s2 h2 => h2.2)

/-- C78: when an event is attended to which followed an earlier event and an operation, the link from those to the event is
learned: after the cycle, and any number of further ones, it is at the concept of the event, unless the table there or the memory
is full. -/
theorem C78_learned (hz : z.Ok) (h : Reachable z n s) {p o : Nat} {b : Event} {link : Implication} (hatt : s.Attends b)
    (hready : Ready n s p o b link) (fuel : Fuel) (k : Nat) (e : NAR_Cycles n fuel (k + 1) s = .ok ((), s')) (room : s'.HasRoom) :
    s'.LinkStored n (s.linkIndex n link.term) link.term := by
  refine (cycles_learn (h.good hz).1 hatt hready _ _ k _ _ e).resolve_left ?_
  rw [full_iff]
  exact not_not.2 room

/-! ### Telling the outcome -/

omit [Arith] in
theorem ground_atom {t : Term} (h : Variable_hasVariable n t true true true = false) (i : Nat) : Variable_isVariable n (t.get i) = true →
    t.get i = 0 := by
  intro hv
  by_cases hi : i < COMPOUND_TERM_SIZE_MAX
  · exfalso
    unfold Variable_hasVariable at h
    rw [List.any_eq_false] at h
    refine h i (List.mem_range.2 hi) ?_
    unfold Variable_isVariable at hv
    simpa [or_assoc, or_comm, or_left_comm] using hv
  · exact t.get_out (not_lt.1 hi)

/-- A term without variables matches itself. -/
theorem ground_self {t : Term} (h : Variable_hasVariable n t true true true = false) :
    ∃ sub, Variable_Unify n t t = .ok sub ∧ sub.success = true := by
  have key : ∀ k sub, ∃ sub', unifyLoop n 1 ⟨0, 0⟩ t t false k sub = .ok sub' ∧ sub'.success = true := by
    intro k
    induction k with
    | zero => intro sub; exact ⟨_, rfl, rfl⟩
    | succ k ih =>
      intro sub
      unfold unifyLoop
      dsimp only
      by_cases h0 : t.get (COMPOUND_TERM_SIZE_MAX - (k + 1)) = 0
      · rw [if_pos h0]; exact ih sub
      · rw [if_neg h0, if_neg (show ¬ allowedVar n false _ = true from fun hx => h0 (ground_atom h _ hx)), if_neg (by simp)]
        exact ih sub
  exact key _ _

omit [Arith] in
theorem recent_add {s : Sys} (hg : ∃ l, s.occurrenceTimeIndex = OccurrenceTimeIndex.afterAdds l) {c i : Nat} (h : s.StillRecent c) :
    ∃ k < (s.occurrenceTimeIndex.add i).itemsAmount, (s.occurrenceTimeIndex.add i).getKthNewestElement k = .ok (some c) := by
  obtain ⟨k, h1, h2, h3⟩ := h
  obtain ⟨l, hl⟩ := hg
  rw [hl] at h1 h3 ⊢
  have e : OccurrenceTimeIndex.add i (OccurrenceTimeIndex.afterAdds l) = OccurrenceTimeIndex.afterAdds (i :: l) := rfl
  rw [e]
  obtain ⟨a1, -, a3⟩ := OccurrenceTimeIndex.C14_kth_newest l k
  obtain ⟨b1, -, b3⟩ := OccurrenceTimeIndex.C14_kth_newest (i :: l) (k + 1 : Nat)
  rw [a3] at h1
  rw [a1 k rfl (by omega)] at h3
  refine ⟨k + 1, ?_, ?_⟩
  · rw [b3, List.length_cons]
    omega
  · rw [b1 (k + 1) rfl h2, List.getElem?_cons_succ]
    exact h3

/-- After taking note of the event everything is ready. -/
theorem Ready.noted {s s' : Sys} {p o i : Nat} {b : Event} {link : Implication} (hg : Good n s) (h : Ready n s p o b link)
    (hp : s.StillRecent p) (ho : s.StillRecent o) {q : PriorityQueue ℚ Nat} {st : Nat → Event}
    (hq : Unheard s b.term (s.occurrenceTimeIndex.add i) q st s') : Ready n s' p o b link := by
  have diff : ∀ {c}, s.Differs n c b.term → s.termOf c ≠ b.term := by
    intro c hd ht
    obtain ⟨sub, h1, h2⟩ := ground_self h.outcome.ground
    unfold Sys.Differs at hd
    rw [ht] at hd
    rw [hd sub h1] at h2
    cases h2
  have hhist : ∃ l, s.occurrenceTimeIndex = OccurrenceTimeIndex.afterAdds l := let ⟨l, e, _⟩ := hg.history; ⟨l, e⟩
  have hr : Recall { s with occurrenceTimeIndex := s.occurrenceTimeIndex.add i } s' p o :=
    ⟨hq.history, hq.operations, hq.live, hq.terms, hq.facts p h.live_first (diff h.differs_first),
      hq.facts o h.live_second (diff h.differs_second)⟩
  have ht := h.teaches
  have hT : Sys.Teaches n { s with occurrenceTimeIndex := s.occurrenceTimeIndex.add i } s.currentTime p o b link :=
    ⟨ht.executed, ht.executed_type, ht.executed_known, ht.executed_before, ht.executed_near, ht.executed_selected, ht.happened,
      ht.happened_type, ht.happened_known, ht.happened_before, ht.happened_near, ht.happened_selected, ht.happened_plain,
      ht.independent, ht.seq, ht.own⟩
  refine ⟨{ h.outcome with recent := ?_, noOperation := ?_ }, ?_, ?_, ?_, hq.live _ h.live_first, hq.live _ h.live_second, ?_, ?_⟩
  · rw [hq.time]; exact h.outcome.recent
  · rw [operationID_congr hq.operations]; exact h.outcome.noOperation
  · rw [hq.time]; exact hr.teaches hT
  · unfold Sys.Recent; rw [hq.history]; exact recent_add hhist hp
  · unfold Sys.Recent; rw [hq.history]; exact recent_add hhist ho
  · unfold Sys.Differs; rw [hq.terms p h.live_first]; exact h.differs_first
  · unfold Sys.Differs; rw [hq.terms o h.live_second]; exact h.differs_second

theorem addInput_event {t : Term} {truth : Truth} {offset : ℚ} {fuel : Fuel} {b : Event}
    (e : NAR_AddInput n fuel t .belief truth false offset s = .ok (b, s')) :
    b = (Event_InputEvent s.event t .belief truth offset s.currentTime).1 := by
  unfold NAR_AddInput addInputWith at e
  rw [M.bind_ok] at e
  obtain ⟨_, _, e1, e⟩ := e
  obtain ⟨rfl, rfl⟩ := M.get_ok.1 e1
  rw [M.bind_ok] at e
  obtain ⟨_, _, e2, e⟩ := e
  obtain ⟨-, rfl⟩ := M.lift_ok.1 e2
  dsimp only at e
  rw [M.bind_ok] at e
  obtain ⟨_, s2, e3, e⟩ := e
  rw [M.bind_ok] at e
  obtain ⟨_, s3, e4, e⟩ := e
  rw [M.bind_ok] at e
  obtain ⟨_, s4, e5, e⟩ := e
  obtain ⟨hb, -⟩ := M.pure_ok.1 e
  rw [if_neg (by decide)] at hb
  exact hb.symm

/-- What `NAR_AddInput` does with a new event: it takes note of it, and attends to it in the cycle that follows. -/
theorem addInput_noted (hg : Good n s) (hset : s.Settled) {t : Term} (hk : n.Knows t) {truth : Truth} (ht : truth.Valid)
    (hc : MIN_CONFIDENCE ≤ truth.confidence) (hord : Ordinary n t) {o : ℚ} {fuel : Fuel} {b : Event}
    (hnew : s.News b) (htime : b.occurrenceTime ≠ OCCURRENCE_ETERNAL)
    (hval : Narsese_copulaEquals n (t.get 0) HAS_CONTINUOUS_PROPERTY = true → Narsese_copulaEquals n (t.get 1) PRODUCT = true)
    (e : NAR_AddInput n fuel t .belief truth false o s = .ok (b, s')) :
    b = (Event_InputEvent s.event t .belief truth o s.currentTime).1 ∧
    ∃ s1, NAR_Cycles n fuel 1 s1 = .ok ((), s') ∧ Good n s1 ∧ (s1.full ∨
      ∃ i q st, Attended q st b ∧ Unheard s t (s.occurrenceTimeIndex.add i) q st s1) := by
  unfold NAR_AddInput addInputWith at e
  rw [M.bind_ok] at e
  obtain ⟨_, _, e1, e⟩ := e
  obtain ⟨rfl, rfl⟩ := M.get_ok.1 e1
  rw [M.bind_ok] at e
  obtain ⟨_, _, e2, e⟩ := e
  obtain ⟨-, rfl⟩ := M.lift_ok.1 e2
  dsimp only at e
  rw [M.bind_ok] at e
  obtain ⟨_, s2, e3, e⟩ := e
  have e3 := M.set_ok.1 e3
  rw [M.bind_ok] at e
  obtain ⟨_, s3, e4, e⟩ := e
  rw [M.bind_ok] at e
  obtain ⟨_, s4, e5, e⟩ := e
  obtain ⟨hb, rfl⟩ := M.pure_ok.1 e
  rw [if_neg (by decide)] at hb e4
  have hgb := inputEvent_good hg hk .belief ht o s.currentTime
  have hg2 := hg.input t .belief truth o
  refine ⟨hb.symm, s3, e5, ?_⟩
  rw [hb] at e4 hgb
  have hbt : b.term = t := by rw [← hb]; unfold Event_InputEvent; rfl
  have hby : b.type = .belief := by rw [← hb]; unfold Event_InputEvent; rfl
  have hbc : b.truth = truth := by rw [← hb]; unfold Event_InputEvent; rfl
  rw [e3] at hg2
  have h1 := noted (s := s2) (b := b) hg2 (by rw [← e3]; exact hset) hgb hby htime (by rw [hbc]; exact hc) (by rw [← e3]; exact hnew)
    (by rw [hbt]; exact hord.noImplication) (by rw [hbt]; exact fun hx => ⟨hval hx, hord.noRelation hx⟩) s.currentTime _ _ e4
  refine ⟨h1.1, h1.2.imp_right ?_⟩
  rintro ⟨i, q, st, h2, h3⟩
  refine ⟨i, q, st, h2, ?_⟩
  rw [← e3, hbt] at h3
  exact ⟨h3.history, h3.queue, h3.events, h3.operations, h3.time, h3.live, h3.terms, h3.facts⟩

/-- C78, by telling: when an event is told which follows an earlier event and an operation, the link from those to the event is
learned in the course of the call. -/
theorem C78_told (hz : z.Ok) (h : Reachable z n s) {t : Term} (hk : n.Knows t) {truth : Truth} (ht : truth.Valid)
    (hc : MIN_CONFIDENCE ≤ truth.confidence) (hord : Ordinary n t) {offset : ℚ} {fuel : Fuel} {b : Event}
    (e : NAR_AddInput n fuel t .belief truth false offset s = .ok (b, s')) {p o : Nat} {link : Implication}
    (hnew : s.News b) (hp : s.StillRecent p) (ho : s.StillRecent o) (hready : Ready n s p o b link) (room : s'.HasRoom) :
    s'.LinkStored n (s.linkIndex n link.term) link.term := by
  have hg := (h.good hz).1
  have hbt : b.term = t := by rw [addInput_event e]; unfold Event_InputEvent; rfl
  obtain ⟨hb, s1, e1, hg1, hx⟩ := addInput_noted hg (h.settled hz) hk ht hc hord hnew hready.outcome.timed
    (by rw [← hbt]; exact hready.outcome.noValue) e
  have hnf : ¬ s'.full := by rw [full_iff]; exact not_not.2 room
  have hnf1 : ¬ s1.full := by
    obtain ⟨hg', t', x', hr, -⟩ := cycles_between fuel 1 hg1 e1
    exact fun hf => hnf ((hr.stable hg1).full hf)
  obtain ⟨i, q, st, h2, h3⟩ := hx.resolve_left hnf1
  rw [← hbt] at h3
  have hr := hready.noted hg hp ho h3
  have hatt : s1.Attends b := by
    unfold Sys.Attends
    rw [h3.queue, h3.events]
    exact h2
  have := (cycles_learn hg1 hatt hr _ _ 0 _ _ e1).resolve_left hnf
  rwa [show s1.linkIndex n link.term = s.linkIndex n link.term by
    unfold Sys.linkIndex; dsimp only; rw [operationID_congr h3.operations]] at this

end ONA

import Verif.Proofs.EndsDecision
import Verif.Proofs.ClosedCycle
import Verif.Proofs.Maps
/-
How the inference cycle can end.
-/
namespace ONA
variable [Arith] [Bounds] {n : Narsese} {I : Sys → Prop}

theorem EndsAt.activate (h : Closed n I) {c : Nat} {e : Event} (he : e.Good n) {now : Int} {s : Sys} (hs : I s) :
    EndsAt (Cycle_ActivateSensorimotorConcept n c e now) s := by
  unfold Cycle_ActivateSensorimotorConcept
  have step1 : ∀ s, I s → ConceptChange n s c { s.concept_storage c with
      lastSelectionTime := now, usage := Usage_use (s.concept_storage c).usage now false } := by
    intro s hs
    have hg := (h.good hs).concepts c
    refine .attention _ _ _ _ _ _ ?_ hg.priority .same
    have := hg.useCount
    show 0 ≤ (Usage_use _ _ _).useCount
    unfold Usage_use
    split <;> (simp only [ETERNAL_INPUT_USAGE_BOOST, Bool.false_eq_true, if_false, if_true] at * <;> omega)
  refine EndsAt.bind (Ending.modifyConcept (I := I) s hs) ((h.modifyConcept_wp hs (step1 s hs)).mono ?_)
  rintro _ s1 ⟨hs1, -⟩
  refine EndsAt.ite (fun _ => EndsAt.bind (Ending.modifyConcept (I := I) s1 hs1) fun _ _ _ => EndsAt.pure) fun _ => ?_
  refine EndsAt.bind (Ending.modifyConcept (I := I) s1 hs1) ((h.modifyConcept_wp hs1 ?_).mono ?_)
  · split
    · exact .goal_spike _ he
    · exact h.attention hs1 c id fun c => ⟨_, _, _, _, .same, rfl⟩
  · rintro _ s2 ⟨hs2, -⟩
    exact Ending.suggest h he.term s2 hs2

theorem EndsAt.processRelated (h : Closed n I) {e : Event} (he : e.Good n) (now : Int) (c : Nat) (d : Decision) (s : Sys)
    (hs : Closed.Carry n I d s) : EndsAt (processRelatedConcept n e now c d) s := by
  unfold processRelatedConcept
  dsimp only
  have hE : ({ e with processed := true, creationTime := now } : Event).Good n := ⟨he.term, he.truth, he.stamp⟩
  refine EndsAt.bind ?_ ?_
  · refine EndsAt.ite (fun _ => EndsAt.bind_get ?_) fun _ => EndsAt.pure
    refine EndsAt.bind_lift Ends.unify fun subs _ => ?_
    refine EndsAt.ite (fun _ => ?_) fun _ => EndsAt.pure
    exact EndsAt.bind (EndsAt.activate h hE hs.1) fun _ _ _ => EndsAt.pure
  have first : WP (if (!Variable_hasVariable n e.term true true true || Variable_hasVariable n e.term false false true) = true
      then do
        let s ← MonadState.get
        let subs ← Variable_Unify n (s.concept_storage c).term e.term
        if subs.success then
          let decision ← Cycle_ActivateSensorimotorConcept n c { e with processed := true, creationTime := now } now
          Pure.pure (Decision_BetterDecision d decision)
        else Pure.pure d
      else Pure.pure d : M Decision) (fun r => Closed.Carry n I r) s := by
    refine WP.ite (fun _ => WP.get ?_) fun _ => WP.pure hs
    refine WP.bind (WP.lift fun subs _ => ?_)
    refine WP.ite (fun _ => ?_) fun _ => WP.pure hs
    exact WP.bind ((h.activateCarry c hE now d hs).mono fun d' s' h' => WP.pure h')
  refine first.mono ?_
  intro d1 s1 hs1
  refine EndsAt.ite (fun _ => EndsAt.bind_get ?_) fun _ => EndsAt.pure
  refine EndsAt.bind_lift Ends.unify fun subs hsu => ?_
  refine EndsAt.ite (fun hsub => ?_) fun _ => EndsAt.pure
  refine EndsAt.bind_lift (Ends.apply hsub) fun t ht => ?_
  refine EndsAt.ite (fun _ => ?_) fun _ => EndsAt.pure
  exact EndsAt.bind (EndsAt.activate h (e := { e with processed := true, creationTime := now, term := t.1 }) ⟨he.term.apply (((h.good hs1.1).concepts c).term.unify hsu) ht, he.truth, he.stamp⟩ hs1.1)
    fun _ _ _ => EndsAt.pure

omit [Arith] in
theorem Ending.nextProcessID : Ending I ONA.nextProcessID := Ending.modify
omit [Arith] in
theorem Ending.nextProcessID2 : Ending I ONA.nextProcessID2 := Ending.modify

theorem Ending.processSensorimotor (h : Closed n I) {fuel : Nat} (hf : Enough I fuel) {e : Event} (he : e.Good n)
    (ht : e.occurrenceTime ≠ OCCURRENCE_ETERNAL) {now : Int} : Ending I (Cycle_ProcessSensorimotorEvent n fuel e now) := by
  unfold Cycle_ProcessSensorimotorEvent
  refine Ending.bind_lift (Ends.assert (decide_eq_true ht)) fun _ _ => ?_
  intro s hs
  refine EndsAt.bind (Ending.conceptualize h s hs) ((h.conceptualize_lasting he.term now hs).mono ?_)
  rintro c s1 ⟨hs1, hc⟩
  have zero : ∀ {s}, I s → Closed.Carry n I Decision.zero s := fun hs => ⟨hs, Decision.zero_fit _, fun h => by cases h⟩
  cases c with
  | none => exact EndsAt.pure
  | some c =>
    have rest : ∀ {s}, I s → EndsAt (do
        ONA.nextProcessID
        relatedConcepts fuel e.term (processRelatedConcept n e now) Decision.zero) s := by
      intro s hs
      refine EndsAt.bind (Ending.nextProcessID (I := I) s hs) ((h.nextProcessID.wp hs).mono ?_)
      rintro _ s2 ⟨hs2, -⟩
      exact related_ends h.carry (fun c d s hs => h.processRelated he now c d s hs)
        (fun c d s hs => EndsAt.processRelated h he now c d s hs) (m := fun _ => 0) (fun _ => Nat.zero_le _)
        (fun c d s _ r s' e => .inl ⟨(Map.processRelated n _ now c d s r s' (SameMap.refl s) e).1.index, Nat.le_refl _⟩) _
        (hf.mono fun s hs => hs.choose_spec.1) _ _ _ (zero hs2)
    refine EndsAt.ite (fun _ => ?_) fun _ => rest hs1
    exact EndsAt.bind_modify (rest (h.internal hs1 ((hc c rfl).imp_right fun h => h.1)))

/-! ### Selection -/

theorem Ending.popBeliefs (h : Closed n I) : Ending I popBeliefEvents := by
  unfold popBeliefEvents
  intro s hs
  refine EndsAt.bind_get ?_
  obtain ⟨out, q, e, -, -, -, hstep⟩ := PriorityQueue.popMax_spec (h.good hs).beliefs.queue
  refine EndsAt.bind_lift (Ends.of_ok e) fun r hr => ?_
  rw [e] at hr
  cases hr
  cases out with
  | some item => exact EndsAt.set
  | none =>
    refine EndsAt.bind_lift (Ends.assert ?_) fun _ _ => EndsAt.set
    obtain ⟨-, h2⟩ := hstep
    have : q.contents.length = 0 := by rw [h2]; rfl
    rw [PriorityQueue.contents_length] at this
    exact decide_eq_true this

theorem Ending.popGoals (h : Closed n I) {layer : Nat} : Ending I (popGoalEvents layer) := by
  unfold popGoalEvents
  intro s hs
  refine EndsAt.bind_get ?_
  obtain ⟨out, q, e, -, -, -, hstep⟩ := PriorityQueue.popMax_spec ((h.good hs).goals layer).queue
  refine EndsAt.bind_lift (Ends.of_ok e) fun r hr => ?_
  rw [e] at hr
  cases hr
  cases out with
  | some item => exact EndsAt.set
  | none =>
    refine EndsAt.bind_lift (Ends.assert ?_) fun _ _ => EndsAt.set
    obtain ⟨-, h2⟩ := hstep
    have : q.contents.length = 0 := by rw [h2]; rfl
    rw [PriorityQueue.contents_length] at this
    exact decide_eq_true this

/-! ### Goals -/

omit [Arith] in
theorem Ends.goalComponents : ∀ (fuel i : Nat) (t : Term) (l : List Term), MAX_SEQUENCE_LEN + 1 < i + fuel → i ≤ MAX_SEQUENCE_LEN + 1 →
    Ends (ONA.goalComponents n fuel i t l) := by
  intro fuel
  induction fuel with
  | zero => intro i t l h1 h2; omega
  | succ k ih =>
    intro i t l h1 h2
    unfold ONA.goalComponents
    refine Ends.ite (fun _ => Ends.bind_cassert .sequence fun hi => ih _ _ _ (by omega) ?_) fun _ => ?_
    · have := of_decide_eq_true hi
      omega
    exact Ends.ite (fun _ => Ends.ok) fun _ => Ends.error .components

omit [Arith] in
theorem Ends.substitutable {comps : List Term} {subs : Substitution} (h : subs.success = true) : ∀ j,
    Ends (ONA.substitutable n comps subs j) := by
  intro j
  induction j with
  | zero => exact Ends.ok
  | succ j ih =>
    unfold ONA.substitutable
    exact Ends.bind (Ends.apply h) fun r _ => Ends.ite (fun _ => ih) fun _ => Ends.ok

omit [Arith] in
theorem substitutable_congr {comps comps' : List Term} {subs : Substitution} : ∀ j,
    (∀ i < j, comps'.getD i Term.zero = comps.getD i Term.zero) →
    ONA.substitutable n comps' subs j = ONA.substitutable n comps subs j := by
  intro j
  induction j with
  | zero => intro _; rfl
  | succ j ih =>
    intro h
    unfold ONA.substitutable
    rw [h j (Nat.lt_succ_self j), ih fun i hi => h i (Nat.lt_succ_of_lt hi)]

omit [Arith] in
/-- The substitution which was found applicable can be applied. -/
theorem Ends.substituteComponents {subs : Substitution} : ∀ (j : Nat) (comps : List Term),
    ONA.substitutable n comps subs j = .ok true → Ends (ONA.substituteComponents n subs j comps) := by
  intro j
  induction j with
  | zero => intro comps _; exact Ends.ok
  | succ j ih =>
    intro comps h
    unfold ONA.substitutable at h
    obtain ⟨r, e, h⟩ := R.bind_eq_ok.1 h
    rcases Bool.eq_false_or_eq_true r.2 with hr | hr
    · rw [if_pos hr] at h
      unfold ONA.substituteComponents
      refine Ends.bind (Ends.of_ok e) fun r' hr' => ?_
      rw [e] at hr'
      cases hr'
      refine Ends.bind_assert hr (ih _ ?_)
      rw [← h]
      refine substitutable_congr _ fun i hi => ?_
      rw [List.getD_eq_getElem?_getD, List.getD_eq_getElem?_getD, List.getElem?_set_ne (by omega)]
    · rw [if_neg (by rw [hr]; exact fun h => by cases h)] at h
      cases h

/-- The choice of a belief for a component: its substitution applies to the components before. -/
def Choice (n : Narsese) (comps : List Term) (j : Nat) (b : ℚ × Option (Nat × Substitution)) : Prop :=
  Closed.KnownChoice n b ∧ ∀ c subs, b.2 = some (c, subs) → ONA.substitutable n comps subs j = .ok true

theorem choice_componentBelief (h : Closed n I) (comps : List Term) (j : Nat) (last : Int) (c : Nat)
    (b : ℚ × Option (Nat × Substitution)) (hb : Choice n comps j b) :
    Keeps I (componentBelief n comps j last c b) fun r => Choice n comps j r.2 := by
  unfold componentBelief
  refine Keeps.bind_get fun s hs => ?_
  dsimp only
  refine Keeps.ite (fun _ => ?_) fun _ => Keeps.pure hb
  refine Keeps.bind_lift fun subs hsu => ?_
  refine Keeps.ite (fun _ => ?_) fun _ => Keeps.pure hb
  refine Keeps.ite (fun _ => Keeps.pure hb) fun _ => ?_
  refine Keeps.ite (fun _ => Keeps.pure hb) fun _ => ?_
  refine Keeps.bind_lift fun x hx => ?_
  refine Keeps.ite (fun hc => Keeps.pure ?_) fun _ => Keeps.pure hb
  refine ⟨?_, ?_⟩
  · intro c' subs' e
    cases e
    exact ((h.good hs).concepts c).term.unify hsu
  · intro c' subs' e
    cases e
    rw [Bool.and_eq_true] at hc
    rw [hx, hc.1]

theorem Ending.componentBelief (comps : List Term) (j : Nat) (last : Int) (c : Nat)
    (b : ℚ × Option (Nat × Substitution)) : Ending I (ONA.componentBelief n comps j last c b) := by
  unfold ONA.componentBelief
  refine Ending.bind_get fun s hs => ?_
  dsimp only
  refine Ending.ite (fun _ => ?_) fun _ => Ending.pure
  refine Ending.bind_lift Ends.unify fun subs hsu => ?_
  refine Ending.ite (fun hsub => ?_) fun _ => Ending.pure
  refine Ending.ite (fun _ => Ending.pure) fun _ => ?_
  refine Ending.ite (fun _ => Ending.pure) fun _ => ?_
  rw [Bool.and_eq_true] at hsub
  refine Ending.bind_lift (Ends.substitutable hsub.1 _) fun x hx => ?_
  exact Ending.ite (fun _ => Ending.pure) fun _ => Ending.pure

theorem componentBelief_reads {v : Sys} (comps : List Term) (j : Nat) (last : Int) (c : Nat)
    (b : ℚ × Option (Nat × Substitution)) : Keeps (fun s => s = v) (componentBelief n comps j last c b) fun _ => True := by
  unfold componentBelief
  refine Keeps.bind_get fun s hs => ?_
  dsimp only
  refine Keeps.ite (fun _ => ?_) fun _ => Keeps.pure trivial
  refine Keeps.bind_lift fun subs hsu => ?_
  refine Keeps.ite (fun _ => ?_) fun _ => Keeps.pure trivial
  refine Keeps.ite (fun _ => Keeps.pure trivial) fun _ => ?_
  refine Keeps.ite (fun _ => Keeps.pure trivial) fun _ => ?_
  exact Keeps.bind_lift fun x hx => Keeps.ite (fun _ => Keeps.pure trivial) fun _ => Keeps.pure trivial

theorem Ending.decomposition (h : Closed n I) {fuel : Nat} (hf : Enough I fuel) : ∀ (j : Nat) (comps : List Term) (last : Int) {g : Event},
    (∀ u ∈ comps, n.Knows u) → g.Good n → Ending I (decompositionLoop n fuel j comps last g) := by
  intro j
  induction j with
  | zero => intro comps last g hc hg; exact Ending.pure
  | succ j ih =>
    intro comps last g hc hg
    unfold decompositionLoop
    refine Ending.seq Ending.nextProcessID h.nextProcessID fun _ => ?_
    refine Ending.bind (Ending.related h (P := Choice n comps j) (fun c st hst => choice_componentBelief h _ _ _ _ _ hst)
      (fun c st _ => Ending.componentBelief _ _ _ _ _) (fun c st s r s' e => by rw [componentBelief_reads _ _ _ _ _ s r s' rfl e |>.1]) hf
      ⟨fun _ _ e => (by cases e), fun _ _ e => (by cases e)⟩)
      (related_keeps h (P := Choice n comps j) (fun c st hst => choice_componentBelief h _ _ _ _ _ hst) _ _ _
        ⟨fun _ _ e => (by cases e), fun _ _ e => (by cases e)⟩) fun best hbest => ?_
    split
    · exact Ending.pure
    · rename_i c subs hbs
      refine Ending.ite (fun _ => Ending.pure) fun _ => ?_
      refine Ending.bind_lift (Ends.substituteComponents _ _ (hbest.2 c subs hbs)) fun comps' hcs => ?_
      refine Ending.bind_get fun s hs => ?_
      have hc' := Narsese.Knows.substituteComponents (hbest.1 c subs hbs) _ hc hcs
      refine ih _ _ hc' ?_
      have := hg.goalSequenceDeduction ((h.good hs).concepts c).belief_spike s.currentTime
      exact ⟨Narsese.knows_getD hc' _, this.truth, this.stamp⟩

theorem Ending.goalDecomposition (h : Closed n I) {fuel : Nat} (hf : Enough I fuel) {g : Event} (hg : g.Good n) {p : ℚ} (hp : InUnit p) {layer : Nat} :
    Ending I (Cycle_GoalSequenceDecomposition n fuel g p layer) := by
  unfold Cycle_GoalSequenceDecomposition
  refine Ending.ite (fun _ => Ending.pure) fun _ => ?_
  refine Ending.bind_lift (Ends.goalComponents _ _ _ _ (by decide) (by decide)) fun comps hcomps => ?_
  have hc := Narsese.Knows.goalComponents _ hg.term (fun _ hu => by cases hu) hcomps
  refine Ending.bind_get fun s hs => ?_
  refine Ending.bind (Ending.decomposition h hf _ _ _ hc (hg.update _)) (h.decomposition fuel _ _ _ hc (hg.update _)) fun r hr => ?_
  cases r with
  | none => exact Ending.pure
  | some x =>
    obtain ⟨j, comps', g'⟩ := x
    obtain ⟨hc', hg'⟩ := hr _ _ _ rfl
    dsimp only
    have key : ∀ e : Event, e.Good n → Ending I (do
        Memory_AddEvent' n e s.currentTime (fmul p (Truth_Expectation e.truth)) false false layer
        Pure.pure true) := by
      intro e he
      exact Ending.seq (Ending.addEvent' h he (hp.mul (expectation_unit he.truth)).2)
        (h.addEvent' he _ (hp.mul (expectation_unit he.truth)).2 _ _ _) fun _ => Ending.pure
    refine key _ ?_
    split
    · exact ⟨Narsese.knows_getD hc' _, TruthFunction.StructuralDeduction.run_valid hg'.truth hg'.truth rfl, hg'.stamp⟩
    · exact hg'

theorem Ending.deriveSubgoal (h : Closed n I) {imp : Implication} (hi : imp.Good n) {g : Event} (hg : g.Good n) {now : Int} {p : ℚ}
    (hp : InUnit p) {layer : Nat} : Ending I (ONA.deriveSubgoal n imp g now p layer) := by
  unfold ONA.deriveSubgoal
  refine Ending.bind_lift Ends.unify fun subs hsu => ?_
  refine Ending.ite (fun hsub => ?_) fun _ => Ending.pure
  refine Ending.bind_lift (Ends.apply hsub) fun r hr => ?_
  refine Ending.ite (fun _ => ?_) fun _ => Ending.pure
  refine Ending.bind_lift Ends.goalDeduction fun ng e => ?_
  have h1 : ng.Good n := hg.goalDeduction (i := { imp with term := r.1 }) ⟨hi.term.apply (hg.term.unify hsu) hr, hi.truth, hi.stamp⟩ e
  have h2 := h1.update now
  exact Ending.addEvent' h h2 (hp.mul (expectation_unit h2.truth)).2

omit [Bounds] in
/-- Deriving a subgoal leaves the concepts alone. -/
theorem subgoal_only {imp : Implication} {g : Event} {now : Int} {p : ℚ} {layer : Nat} {s s' : Sys} {u : Unit}
    (e : deriveSubgoal n imp g now p layer s = .ok (u, s')) : s'.concept_storage = s.concept_storage := by
  have key : Keeps (fun t => t.concept_storage = s.concept_storage) (deriveSubgoal n imp g now p layer) fun _ => True := by
    unfold deriveSubgoal
    refine Keeps.bind_lift fun subs _ => ?_
    refine Keeps.ite (fun _ => ?_) fun _ => Keeps.pure trivial
    refine Keeps.bind_lift fun r _ => ?_
    refine Keeps.ite (fun _ => ?_) fun _ => Keeps.pure trivial
    refine Keeps.bind_lift fun d hd => ?_
    intro s a s' hs e
    have := addGoal_only (e := Inference_EventUpdate d now) (by have := goalDeduction_type hd; exact this) now _ layer s _ _ e
    rw [show OnlyGoals s s' from this]
    exact ⟨hs, trivial⟩
  exact (key s u s' rfl e).1

omit [Arith] [Bounds] in
theorem linkTable_get_set (table : LinkTable) (t : Table) (c : Concept) : table.get (table.set t c) = t := by
  cases table with
  | op i => exact upd_same _ _ _
  | declarative => rfl

theorem Ending.subgoalsOfTable (h : Closed n I) {c : Nat} {table : LinkTable} {now : Int} {p : ℚ} (hp : InUnit p) {layer : Nat} :
    Ending I (ONA.subgoalsOfTable n c table now p layer) := by
  have key : ∀ j : Nat, Keeps I (do
      let s ← MonadState.get
      let concept := s.concept_storage c
      let t := table.get concept
      if j < t.itemsAmount then
        if (← s.implicationValid (t.array j)) then
          ONA.deriveSubgoal n (t.array j) concept.goal_spike now p layer
          Pure.pure (true, j + 1)
        else
          ONA.modifyConcept c (table.set (Table_Remove t j))
          Pure.pure (true, j)
      else Pure.pure (false, j)) fun _ => True := by
    intro j
    refine Keeps.of_wp fun s hs => WP.get ?_
    have hg := (h.good hs).concepts c
    refine WP.ite (fun hj => ?_) fun _ => WP.pure ⟨hs, trivial⟩
    refine WP.bind (WP.lift fun v hv => ?_)
    refine WP.ite (fun _ => ?_) fun hv' => ?_
    · refine WP.bind (((h.deriveSubgoal ((Closed.linkTable_good hg table).array hj) hg.goal_spike now hp layer).wp hs).mono ?_)
      rintro _ s1 ⟨hs1, -⟩
      exact WP.pure ⟨hs1, trivial⟩
    · exact WP.bind (WP.modify (WP.pure ⟨h.concept hs (Closed.linkTable_set table (.step .refl (.remove _ _ hj (by
        rw [Bool.not_eq_true] at hv'; rw [hv, hv'])))), trivial⟩))
  unfold ONA.subgoalsOfTable
  refine Ending.seq (fun s hs => Ending.loop (P := fun _ => True) (fun j s => (table.get (s.concept_storage c)).itemsAmount - j)
      (fun j _ => ?_) (fun j _ => (key j).mono fun _ _ => trivial) ?_ _ _ _ trivial hs
      (Nat.lt_succ_of_le ((Nat.sub_le _ _).trans (Closed.linkTable_good ((h.good hs).concepts c) table).inv.bound)))
    (Keeps.loop' key _ _) fun _ => Ending.pure
  swap
  · intro j s _ hs
    refine WP.get (WP.ite (fun hj => WP.bind (WP.lift fun v _ => WP.ite (fun _ => ?_) fun _ => ?_)) fun _ => WP.pure fun h => nomatch h)
    · refine WP.bind fun _ s1 e => WP.pure fun _ => ?_
      dsimp only at hj ⊢
      rw [subgoal_only e]
      omega
    · refine WP.bind (WP.modify (WP.pure fun _ => ?_))
      dsimp only at hj ⊢
      rw [upd_same, linkTable_get_set]
      show _ - 1 - _ < _
      omega
  intro s hs
  have hg := (h.good hs).concepts c
  refine EndsAt.bind_get (EndsAt.ite (fun hj => ?_) fun _ => EndsAt.pure)
  have hi := (Closed.linkTable_good hg table).array hj
  refine EndsAt.bind_lift (Ends.implicationValid ((Closed.linkTable_good hg table).source hj)) fun v hv => ?_
  refine EndsAt.ite (fun _ => ?_) fun _ => EndsAt.bind_modify EndsAt.pure
  exact EndsAt.bind (Ending.deriveSubgoal h hi hg.goal_spike hp s hs) fun _ _ _ => EndsAt.pure

theorem Ending.deriveSubgoals (h : Closed n I) {g : Event} (hg : g.Good n) {p : ℚ} (hp : InUnit p) {now : Int} {layer c : Nat} {u : Unit} :
    Ending I (ONA.deriveSubgoals n g p now layer c u) := by
  unfold ONA.deriveSubgoals
  intro s hs
  refine EndsAt.bind_get ?_
  dsimp only
  refine EndsAt.bind_lift Ends.unify fun subs _ => ?_
  refine EndsAt.ite (fun _ => ?_) fun _ => EndsAt.pure
  refine EndsAt.bind_lift Ends.revisionAndChoice fun r e => ?_
  obtain ⟨r1, r2⟩ := r
  refine EndsAt.bind (Ending.modifyConcept (I := I) s hs)
    ((h.modifyConcept_wp hs (.goal_spike _ (((h.good hs).concepts c).goal_spike.revisionAndChoice hg e))).mono ?_)
  rintro _ s1 ⟨hs1, -⟩
  exact EndsAt.bind (Ending.forM (fun t _ => Ending.subgoalsOfTable h hp) (fun t _ => h.subgoalsOfTable c t now hp layer) s1 hs1)
    fun _ _ _ => EndsAt.pure

theorem EndsAt.selectedGoals (h : Closed n I) {k : Nat} (hk : ∀ {s}, I s → SelectedGoals n k s) {fuel : Nat} (hf : Enough I fuel) (now : Int)
    (layer : Nat) : ∀ (l : List Nat), (∀ i ∈ l, i < k) → ∀ (d : Decision) {s : Sys},
    Closed.Carry n I d s → EndsAt (processSelectedGoals n fuel now layer l d) s := by
  intro l
  induction l with
  | nil => intro _ d s hs; exact EndsAt.pure
  | cons i l ih =>
    intro hl d s hs
    have ih := ih fun j hj => hl j (List.mem_cons_of_mem _ hj)
    unfold processSelectedGoals
    refine EndsAt.bind_get ?_
    have hg := hk hs.1 i (hl i List.mem_cons_self)
    refine EndsAt.bind (Ending.goalDecomposition h hf hg.1 hg.2.1 s hs.1)
      ((((h.carry d).goalDecomposition fuel hg.1 hg.2.1 layer).wp hs).mono ?_)
    rintro b s1 ⟨hs1, -⟩
    refine EndsAt.ite (fun _ => ih _ hs1) fun _ => ?_
    refine EndsAt.bind (Ending.processSensorimotor h hf hg.1 hg.2.2 s1 hs1.1) (((h.carry d).processSensorimotor fuel hg.1 now hs1).mono ?_)
    rintro d' s2 ⟨h1, h2, h3⟩
    exact ih _ (Closed.better h1 ⟨h1.1, h2, h3⟩)

/-! ### Beliefs -/

theorem Ending.reinforce (h : Closed n I) {a b : Event} (ha : a.Good n) (hb : b.Good n) : Ending I (Cycle_ReinforceLink n a b) := by
  unfold Cycle_ReinforceLink
  refine Ending.base h fun hn => ?_
  refine Ending.ite (fun _ => ?_) fun _ => Ending.pure
  refine Ending.seq (Ending.find h) (h.find _) fun A => Ending.seq (Ending.find h) (h.find _) fun B => ?_
  refine Ending.ite (fun _ => ?_) fun _ => Ending.pure
  refine Ending.bind_lift ?_ fun imp e => ?_
  · unfold Inference_BeliefInduction
    refine Ends.bind_cassert .induction fun _ => ?_
    dsimp only
    exact Ends.ite (fun _ => Ends.bind Ends.induction fun _ _ => Ends.ok) fun _ => Ends.ok
  cases imp with
  | none => exact Ending.pure
  | some imp =>
    have hi := induction_good hn ha hb e
    dsimp only
    refine Ending.ite (fun _ => ?_) fun _ => Ending.pure
    refine Ending.bind_get fun s hs => ?_
    exact Ending.derivedEvent h ⟨hi.stamp, ⟨zero_le_one, le_refl _⟩, ⟨zero_le_one, le_refl _⟩⟩ hi.truth hi.term _ _

/-- The occurrence time index holds a concept for every number below its size. -/
theorem newest_ok {s : Sys} (hg : Good n s) {j : Nat} (hj : j < s.occurrenceTimeIndex.itemsAmount) :
    ∃ c, s.occurrenceTimeIndex.getKthNewestElement j = .ok (some c) := by
  obtain ⟨l, e, -⟩ := hg.history
  rw [e] at hj ⊢
  obtain ⟨h1, -, h3⟩ := OccurrenceTimeIndex.C14_kth_newest l j
  rw [h3] at hj
  have hl : j < l.length := lt_of_lt_of_le hj (min_le_left _ _)
  exact ⟨l[j], by rw [h1 j rfl (lt_of_lt_of_le hj (min_le_right _ _)), List.getElem?_eq_getElem hl]⟩

theorem history_size {s : Sys} (hg : Good n s) : s.occurrenceTimeIndex.itemsAmount ≤ OCCURRENCE_TIME_INDEX_SIZE := by
  obtain ⟨l, e, -⟩ := hg.history
  rw [e, (OccurrenceTimeIndex.C14_kth_newest l 0).2.2]
  exact min_le_right _ _

theorem EndsAt.newest {s : Sys} (hg : Good n s) {j : Nat} (hj : j < s.occurrenceTimeIndex.itemsAmount) :
    EndsAt (newestConcept j) s := by
  unfold newestConcept
  obtain ⟨c, e⟩ := newest_ok hg hj
  refine EndsAt.bind_get (EndsAt.bind_lift (Ends.of_ok e) fun r hr => ?_)
  rw [e] at hr
  cases hr
  exact EndsAt.pure

theorem Ending.condition (h : Closed n I) {opc prec : Nat} {post : Event} (hp : post.Good n) {now : Int} :
    Ending I (conditionOperation n opc prec post now) := by
  unfold conditionOperation
  refine Ending.bind_get fun s hs => ?_
  have g1 := ((h.good hs).concepts prec).belief_spike
  have g2 := ((h.good hs).concepts opc).belief_spike
  refine Ending.ite (fun hc => ?_) fun _ => Ending.pure
  simp only [Bool.and_eq_true, decide_eq_true_eq] at hc
  refine Ending.bind_lift (Ends.intersection (le_of_lt hc.1.1.1.1.1.2)) fun x e => ?_
  cases x with
  | none => exact Ending.pure
  | some seq =>
    have hn := (h.good hs).base
    have hseq := Event.Good.intersection hn g1 g2 e
    dsimp only
    refine Ending.ite (fun _ => ?_) fun _ => Ending.pure
    refine Ending.ite (fun _ => ?_) fun _ => Ending.pure
    exact Ending.reinforce h ⟨hn.opSequence _ g1.term g2.term, hseq.truth, hseq.stamp⟩ hp

theorem Ending.preconditions (h : Closed n I) {opc : Nat} {id : Int} {post : Event} (hp : post.Good n) {now : Int} :
    Ending I (preconditionLoop n opc id post now) := by
  unfold preconditionLoop
  refine Ending.seq (Q := fun _ => True) (Ending.count (fun j => ?_) (fun j => ?_) fun j s hs => ?_) (Keeps.loop' (fun j => ?_) _ _) fun _ => Ending.pure
  rotate_left 2
  · refine WP.get (WP.ite (fun hj => WP.bind fun _ _ _ => ?_) fun _ => WP.pure fun h => nomatch h)
    rw [Bool.and_eq_true, decide_eq_true_eq, decide_eq_true_eq] at hj
    have hj := lt_of_lt_of_le hj.2 (history_size (h.good hs))
    refine WP.bind fun _ _ _ => WP.ite (fun _ => WP.bind fun _ _ _ => WP.pure fun _ => ⟨hj, rfl⟩) fun _ => WP.pure fun _ => ⟨hj, rfl⟩
  rotate_left 1
  · intro s hs
    refine EndsAt.bind_get (EndsAt.ite (fun hc => ?_) fun _ => EndsAt.pure)
    rw [Bool.and_eq_true, decide_eq_true_eq, decide_eq_true_eq] at hc
    refine EndsAt.bind (EndsAt.newest (h.good hs) hc.2) ((Closed.newest_same _ s).mono ?_)
    rintro prec _ rfl
    dsimp only
    refine EndsAt.bind (Ending.modifyConcept (I := I) _ hs) ((h.mark3 hs prec).mono ?_)
    rintro _ s2 ⟨hs2, -⟩
    refine EndsAt.ite (fun _ => ?_) fun _ => EndsAt.pure
    exact EndsAt.bind (Ending.condition h hp s2 hs2) fun _ _ _ => EndsAt.pure
  all_goals
    refine Keeps.of_wp fun s hs => WP.get ?_
    refine WP.ite (fun _ => ?_) fun _ => WP.pure ⟨hs, trivial⟩
    refine WP.bind ((Closed.newest_same _ s).mono ?_)
    rintro prec _ rfl
    dsimp only
    refine WP.bind ((h.mark3 hs prec).mono ?_)
    rintro _ s1 ⟨hs1, -⟩
    refine Keeps.wp ?_ hs1
    refine Keeps.ite (fun _ => ?_) fun _ => Keeps.pure trivial
    exact Keeps.seq (h.condition _ _ hp _) fun _ => Keeps.pure trivial

theorem Ending.operations (h : Closed n I) {post : Event} (hp : post.Good n) {now : Int} :
    Ending I (operationLoop n post now) := by
  unfold operationLoop
  refine Ending.seq (Q := fun _ => True) (Ending.count (fun j => ?_) (fun j => ?_) fun j s hs => ?_) (Keeps.loop' (fun j => ?_) _ _) fun _ => Ending.pure
  rotate_left 2
  · refine WP.get (WP.ite (fun hj => WP.bind fun _ _ _ => ?_) fun _ => WP.pure fun h => nomatch h)
    have hj := lt_of_lt_of_le hj (history_size (h.good hs))
    refine WP.bind fun _ _ _ => WP.ite (fun _ => WP.bind fun _ _ _ => WP.bind fun _ _ _ => WP.pure fun _ => ⟨hj, rfl⟩) fun _ => WP.pure fun _ => ⟨hj, rfl⟩
  rotate_left 1
  · intro s hs
    refine EndsAt.bind_get (EndsAt.ite (fun hc => ?_) fun _ => EndsAt.pure)
    refine EndsAt.bind (EndsAt.newest (h.good hs) hc) ((Closed.newest_same _ s).mono ?_)
    rintro opc _ rfl
    dsimp only
    refine EndsAt.bind (Ending.modifyConcept (I := I) _ hs) ((h.mark2 hs opc).mono ?_)
    rintro _ s2 ⟨hs2, -⟩
    refine EndsAt.ite (fun _ => ?_) fun _ => EndsAt.pure
    refine EndsAt.bind_modify ?_
    exact EndsAt.bind (Ending.preconditions h hp _ (h.processIDs hs2 s2.conceptProcessID s2.conceptProcessID2 _ (Int.le_refl _) (Int.le_refl _) (by omega))) fun _ _ _ => EndsAt.pure
  all_goals
    refine Keeps.of_wp fun s hs => WP.get ?_
    refine WP.ite (fun _ => ?_) fun _ => WP.pure ⟨hs, trivial⟩
    refine WP.bind ((Closed.newest_same _ s).mono ?_)
    rintro opc _ rfl
    dsimp only
    refine WP.bind ((h.mark2 hs opc).mono ?_)
    rintro _ s1 ⟨hs1, -⟩
    refine Keeps.wp ?_ hs1
    refine Keeps.ite (fun _ => ?_) fun _ => Keeps.pure trivial
    refine Keeps.seq (Keeps.modify fun s hs => h.processIDs hs s.conceptProcessID s.conceptProcessID2 _ (Int.le_refl _) (Int.le_refl _) (by omega)) fun _ => ?_
    exact Keeps.seq (h.preconditions _ _ hp _) fun _ => Keeps.pure trivial

theorem Ends.getAtomValue {a : Atom} (h : Narsese_hasAtomValue n a = .ok true) : Ends (Narsese_getAtomValue n a) := by
  unfold Narsese_getAtomValue
  unfold Narsese_hasAtomValue at h
  obtain ⟨_, e, _⟩ := R.bind_eq_ok.1 h
  exact Ends.bind_assert (cassert_eq_ok.1 e) Ends.ok

theorem Ends.attributeRelation {t : Term} : Ends (ONA.attributeRelation n t) := by
  unfold ONA.attributeRelation
  dsimp only
  refine Ends.ite (fun _ => ?_) fun _ => Ends.ok
  refine Ends.bind Ends.hasAtomValue fun h1 e1 => Ends.ite (fun c1 => ?_) fun _ => Ends.ok
  refine Ends.bind Ends.hasAtomValue fun h2 e2 => Ends.ite (fun c2 => ?_) fun _ => Ends.ok
  rw [c1] at e1
  rw [c2] at e2
  exact Ends.bind (Ends.getAtomValue e1) fun _ _ => Ends.bind (Ends.getAtomValue e2) fun _ _ => Ends.ok

theorem Ending.buildSeq (h : Closed n I) {fuel : Nat} (hf : Enough I fuel) {seq : Event} (hs : seq.Good n) (ht : seq.occurrenceTime ≠ OCCURRENCE_ETERNAL)
    {opi : Nat} (ho : opi ≤ OPERATIONS_MAX) {b : Bool} {p : ℚ} {now : Int} : Ending I (buildSequence n fuel seq opi b p now) := by
  unfold buildSequence
  refine Ending.base h fun hn => ?_
  refine Ending.seq (Ending.processSensorimotor h hf hs ht) (h.processSensorimotor_keeps fuel hs now) fun _ => ?_
  refine Ending.bind_lift Ends.attributeRelation fun x hx => ?_
  have rest : Ending I (if (b && decide (p ≥ 1)) = true then Decision_Anticipate n opi seq.term false now else Pure.pure ()) :=
    Ending.ite (fun _ => Ending.anticipate h ho) fun _ => Ending.pure
  cases x with
  | none => exact rest
  | some t =>
    have hg : ({ seq with term := t } : Event).Good n := ⟨hn.attributeRelation hs.term hx, hs.truth, hs.stamp⟩
    exact Ending.seq (Ending.addEvent' h hg (le_refl _)) (h.addEvent' hg _ (le_refl _) _ _ _) fun _ => rest

theorem intersection_time {a b e : Event} (h : Inference_BeliefIntersection a b = .ok (some e)) :
    e.occurrenceTime = b.occurrenceTime := by
  unfold Inference_BeliefIntersection at h
  obtain ⟨_, _, h⟩ := R.bind_eq_ok.1 h
  dsimp only at h
  split at h
  · cases h; rfl
  · cases h

theorem Ending.sequenceWith (h : Closed n I) {fuel c : Nat} (hf : Enough I fuel) {post : Event} (hp : post.Good n)
    (ht : post.occurrenceTime ≠ OCCURRENCE_ETERNAL) {opi : Nat} (ho : opi ≤ OPERATIONS_MAX) {p : ℚ} {now : Int} :
    Ending I (ONA.sequenceWith n fuel c post opi p now) := by
  unfold ONA.sequenceWith
  refine Ending.bind_get fun s hs => ?_
  have hsp := ((h.good hs).concepts c).belief_spike
  dsimp only
  refine Ending.ite (fun hc => ?_) fun _ => Ending.pure
  simp only [Bool.and_eq_true, decide_eq_true_eq] at hc
  refine Ending.ite (fun _ => ?_) fun _ => Ending.pure
  refine Ending.bind_lift (Ends.intersection hc.1.2) fun x e => ?_
  cases x with
  | none => exact Ending.pure
  | some seq =>
    have hseq := Event.Good.intersection (h.good hs).base hsp hp e
    have htime : seq.occurrenceTime ≠ OCCURRENCE_ETERNAL := by rw [intersection_time e]; exact ht
    dsimp only
    refine Ending.ite (fun _ => ?_) fun _ => Ending.pure
    have rest : ∀ q : Sys → Bool, Ending I (do
        let s1 ← MonadState.get
        if q s1 then
          buildSequence n fuel seq opi
            (decide (opi ≠ 0) && decide (s.operationID n (s.concept_storage c).belief_spike.term ≠ 0)) p now : M Unit) := by
      intro q
      refine Ending.bind_get fun s1 hs1 => ?_
      exact Ending.ite (fun _ => Ending.buildSeq h hf hseq htime ho) fun _ => Ending.pure
    refine Ending.ite (fun _ => ?_) fun _ => rest _
    refine Ending.seq (Ending.reinforce h hsp hp) (h.reinforce hsp hp) fun _ => ?_
    refine Ending.bind_get fun s1 hs1 => ?_
    have hsp1 := ((h.good hs1).concepts c).belief_spike
    refine Ending.ite (fun _ => ?_) fun _ => rest _
    exact Ending.seq (Ending.reinforce h hp hsp1) (h.reinforce hp hsp1) fun _ => rest _

theorem Ending.sequences (h : Closed n I) {fuel : Nat} (hf : Enough I fuel) {post : Event} (hp : post.Good n)
    (ht : post.occurrenceTime ≠ OCCURRENCE_ETERNAL) {opi : Nat} (ho : opi ≤ OPERATIONS_MAX) {p : ℚ} {now : Int} :
    Ending I (sequenceLoop n fuel post opi p now) := by
  unfold sequenceLoop
  refine Ending.seq (Q := fun _ => True) (Ending.count (fun j => ?_) (fun j => ?_) fun j s hs => ?_) (Keeps.loop' (fun j => ?_) _ _) fun _ => Ending.pure
  rotate_left 2
  · refine WP.get (WP.ite (fun hj => WP.bind fun _ _ _ => ?_) fun _ => WP.pure fun h => nomatch h)
    have hj := lt_of_lt_of_le hj (history_size (h.good hs))
    refine WP.bind fun _ _ _ => WP.ite (fun _ => WP.bind fun _ _ _ => WP.pure fun _ => ⟨hj, rfl⟩) fun _ => WP.pure fun _ => ⟨hj, rfl⟩
  rotate_left 1
  · intro s hs
    refine EndsAt.bind_get (EndsAt.ite (fun hc => ?_) fun _ => EndsAt.pure)
    refine EndsAt.bind (EndsAt.newest (h.good hs) hc) ((Closed.newest_same _ s).mono ?_)
    rintro c _ rfl
    dsimp only
    refine EndsAt.bind (Ending.modifyConcept (I := I) _ hs) ((h.mark2 hs c).mono ?_)
    rintro _ s2 ⟨hs2, -⟩
    refine EndsAt.ite (fun _ => ?_) fun _ => EndsAt.pure
    exact EndsAt.bind (Ending.sequenceWith h hf hp ht ho s2 hs2) fun _ _ _ => EndsAt.pure
  all_goals
    refine Keeps.of_wp fun s hs => WP.get ?_
    refine WP.ite (fun _ => ?_) fun _ => WP.pure ⟨hs, trivial⟩
    refine WP.bind ((Closed.newest_same _ s).mono ?_)
    rintro c _ rfl
    dsimp only
    refine WP.bind ((h.mark2 hs c).mono ?_)
    rintro _ s1 ⟨hs1, -⟩
    refine Keeps.wp ?_ hs1
    refine Keeps.ite (fun _ => ?_) fun _ => Keeps.pure trivial
    exact Keeps.seq (h.sequenceWith _ _ hp _ _ _) fun _ => Keeps.pure trivial

theorem Ending.processBelief (h : Closed n I) {fuel : Nat} (hf : Enough I fuel) {e : Event} (he : e.Good n) (hty : e.type = .belief) {p : ℚ} {now : Int} :
    Ending I (processBeliefEvent n fuel e p now) := by
  unfold processBeliefEvent
  dsimp only
  refine Ending.ite (fun hc => ?_) fun _ => Ending.pure
  simp only [Bool.and_eq_true, decide_eq_true_eq] at hc
  have ht := hc.1.2
  refine Ending.bind_lift (Ends.assert (decide_eq_true hty)) fun _ _ => ?_
  refine Ending.seq (Ending.processSensorimotor h hf he ht) (h.processSensorimotor_keeps fuel he now) fun _ => ?_
  unfold Memory_getOperationID
  intro s hs
  refine EndsAt.bind (EndsAt.bind_get EndsAt.pure) (WP.get (WP.pure ?_))
  have ho := operationID_le (n := n) s e.term
  generalize s.operationID n e.term = opi at ho ⊢
  refine (Ending.seq Ending.nextProcessID2 h.nextProcessID2 fun _ => ?_ : Ending I _) s hs
  have rest : Ending I (do
      ONA.nextProcessID2
      sequenceLoop n fuel e opi p now
      if p ≥ 1 then Decision_Anticipate n opi (Narsese_getOperationTerm n termDepth e.term) false now) := by
    refine Ending.seq Ending.nextProcessID2 h.nextProcessID2 fun _ => ?_
    refine Ending.seq (Ending.sequences h hf he ht ho) (h.sequences fuel he _ _ _) fun _ => ?_
    exact Ending.ite (fun _ => Ending.anticipate h ho) fun _ => Ending.pure
  refine Ending.ite (fun _ => ?_) fun _ => rest
  exact Ending.seq (Ending.operations h he) (h.operations he now) fun _ => rest

theorem Ending.processBeliefs (h : Closed n I) (hb : ∀ {s}, I s → BeliefsKnown n s) {fuel : Nat} (hf : Enough I fuel) {now : Int} :
    Ending I (Cycle_ProcessBeliefEvents n fuel now) := by
  unfold Cycle_ProcessBeliefEvents
  refine Ending.bind_get fun s hs => ?_
  exact Ending.forM (fun i hi => Ending.processBelief h hf (hb hs i (List.mem_range.1 hi)).1 (hb hs i (List.mem_range.1 hi)).2.2)
    fun i hi => h.processBelief fuel (hb hs i (List.mem_range.1 hi)).1 _ _

end ONA

import Verif.Proofs.EndsInfer
import Verif.Proofs.Idle
/-
How the execution of operations and the inference cycle can end.
-/
namespace ONA
variable [Arith] [Bounds] {n : Narsese} {I I1 : Sys → Prop} {add : Term → M Unit}

theorem Ending.readResult {op : Operation} {args : Term} {subs : Substitution} :
    Ending I (readOperationResult n op args subs) := by
  unfold readOperationResult
  refine Ending.ite (fun _ => ?_) fun _ => Ending.pure
  intro s hs
  refine EndsAt.bind_get ?_
  split
  · exact EndsAt.pure
  · exact EndsAt.bind_set EndsAt.pure
  · exact EndsAt.bind_set (EndsAt.bind_lift Ends.unify fun _ _ => EndsAt.pure)

/-- The result of an operation is a successful substitution. -/
theorem readResult_success {op : Operation} {args : Term} {subs : Substitution} {s : Sys} :
    WP (readOperationResult n op args subs) (fun r _ => ∀ x, r = some x → x.success = true) s := by
  unfold readOperationResult
  refine WP.ite (fun _ => WP.get ?_) fun _ => WP.pure (by rintro x ⟨⟩; rfl)
  split
  · exact WP.pure (by rintro x ⟨⟩)
  · exact WP.bind (WP.set (WP.pure (by rintro x ⟨⟩)))
  · refine WP.bind (WP.set (WP.bind (WP.lift fun subs hsu => WP.pure ?_)))
    intro x hx
    split at hx
    · cases hx; assumption
    · cases hx

/-- There are no goals. -/
def Quiet (s : Sys) : Prop := ∀ l, (s.cycling_goal_events l).itemsAmount = 0

omit [Bounds] in
theorem Quiet.idle {s : Sys} (h : Quiet s) (hg : Good n s) : Idle s.output s := ⟨rfl, h, fun c => (hg.concepts c).belief_type⟩

theorem readResult_quiet {op : Operation} {args : Term} {subs : Substitution} :
    Keeps Quiet (readOperationResult n op args subs) fun _ => True := by
  unfold readOperationResult
  refine Keeps.ite (fun _ => ?_) fun _ => Keeps.pure trivial
  refine Keeps.bind_get fun s hs => ?_
  split
  · exact Keeps.pure trivial
  · exact Keeps.seq (Q := fun _ => True) (Keeps.set hs) fun _ => Keeps.pure trivial
  · exact Keeps.seq (Q := fun _ => True) (Keeps.set hs) fun _ => Keeps.bind_lift fun _ _ => Keeps.pure trivial

theorem EndsAt.execute (h : Hooks n I I1 add) (hadd : ∀ t {s}, n.Knows t → I1 s → Quiet s → EndsAt (add t) s) (now : Int) {d : Decision}
    (hd : d.Ok n) {s : Sys} (hs : I s) (h0 : d.operationID ≠ 0) (hj : Justified s d.operationID) (hq : Quiet s) : EndsAt (executeOperation n add now d) s := by
  unfold executeOperation
  refine EndsAt.bind_get ?_
  dsimp only
  split
  · exact EndsAt.pure
  · rename_i fb hfb
    have hop := (h.closed.good hs).operations (d.operationID - 1)
    have hkf := (h.closed.good hs).base.feedback hop.term hd.arguments hfb
    unfold emit
    refine EndsAt.bind_modify ?_
    cases ha : (s.operations (d.operationID - 1)).action with
    | none => exact EndsAt.throw .action
    | some action =>
      have h1 := h.exec (d.operationID - 1) action d.arguments ha hs (by rwa [Nat.sub_add_cancel (Nat.pos_of_ne_zero h0)]) hd.own
      dsimp only
      refine EndsAt.ite (fun _ => ?_) fun _ => EndsAt.pure
      refine EndsAt.bind (Ending.readResult (I := I1) _ h1) (((((Hooks.readResult h.closed1 _ _ (hop.action action ha d.arguments)).wp h1).and
        readResult_success).and (readResult_quiet.wp (s := { s with output := s.output ++ [Output.executed (s.operations (d.operationID - 1)).term d.arguments] }) hq)).mono ?_)
      rintro r s1 ⟨⟨⟨hs1, hr⟩, hok⟩, hq1, -⟩
      cases r with
      | none => exact EndsAt.pure
      | some subs =>
        dsimp only
        refine EndsAt.bind_lift (Ends.apply (hok subs rfl)) fun t ht => ?_
        refine EndsAt.ite (fun _ => ?_) fun _ => EndsAt.pure
        have hkt := hkf.apply (hr subs rfl) ht
        refine EndsAt.bind (hadd t.1 hkt hs1 hq1) ((h.add t.1 hkt hs1).mono ?_)
        intro _ s2 hs2
        exact Ending.anticipateMissing h.closed hd s2 hs2

theorem EndsAt.decisionExecute (h : Hooks n I I1 add) (hadd : ∀ t {s}, n.Knows t → I1 s → Quiet s → EndsAt (add t) s) (now : Int) {d : Decision}
    (hd : d.Ok n) {s : Sys} (hs : I s) (hj : Justified s d.operationID) (hq : Quiet s) : EndsAt (Decision_Execute n add now d) s := by
  unfold Decision_Execute
  refine EndsAt.bind (Ending.functionalEquivalence h.closed hd s hs) (((((h.closed.justified d.operationID).functionalEquivalence now hd).wp ⟨hs, hj⟩).and
    ((Idle.of_calm fun _ => Calm.functionalEquivalence n now d).wp (hq.idle (h.closed.good hs)))).mono ?_)
  rintro _ s1 ⟨⟨⟨hs1, hj1⟩, -⟩, hq1, -⟩
  exact EndsAt.ite (fun h0 => EndsAt.execute h hadd now hd hs1 h0 hj1 hq1.goals) fun _ => EndsAt.pure

theorem EndsAt.goals (h : Hooks n I I1 add) (hadd : ∀ t {s}, n.Knows t → I1 s → Quiet s → EndsAt (add t) s)
    (hg : ∀ {s}, I s → GoalsKnown n s) {fuel : Nat} (hf : Enough I fuel) (now : Int) (layer : Nat) {s : Sys} (hs : I s) :
    EndsAt (Cycle_ProcessAndInferGoalEvents n fuel add now layer) s := by
  unfold Cycle_ProcessAndInferGoalEvents
  refine EndsAt.bind_get ?_
  have hG := h.closed.withGoals s.goalsSelectedCnt
  refine EndsAt.bind (EndsAt.selectedGoals hG And.right (hf.mono fun _ hs => hs.1) now layer _
    (fun i hi => List.mem_range.1 hi) _ ⟨⟨hs, hg hs⟩, Decision.zero_fit _, fun h => by cases h⟩) ((hG.selectedGoals And.right fuel now layer _
    (fun i hi => List.mem_range.1 hi) _ ⟨⟨hs, hg hs⟩, Decision.zero_fit _, fun h => by cases h⟩).mono ?_)
  rintro d s1 ⟨⟨hs1, -⟩, ⟨hd, hm⟩, hj⟩
  have rest : ∀ {s}, I s → EndsAt (do
      if !d.execute then
        let s ← MonadState.get
        (List.range s.goalsSelectedCnt).forM fun i => do
          let s ← MonadState.get
          nextProcessID
          relatedConcepts fuel (s.selectedGoals i).term
            (deriveSubgoals n (s.selectedGoals i) (s.selectedGoalsPriority i) now layer) () : M Unit) s := by
    intro s hs
    refine EndsAt.ite (fun _ => EndsAt.bind_get ?_) fun _ => EndsAt.pure
    have hc := h.closed.withGoals s.goalsSelectedCnt
    refine (Ending.forM (fun i hi => ?_) (fun i hi => ?_) : Ending (fun t => I t ∧ SelectedGoals n s.goalsSelectedCnt t) _) s ⟨hs, hg hs⟩
    · refine Ending.bind_get fun s2 hs2 => ?_
      have hg := hs2.2 i (List.mem_range.1 hi)
      refine Ending.seq Ending.nextProcessID hc.nextProcessID fun _ => ?_
      exact Ending.related' hc (fun c st => hc.deriveSubgoals hg.1 hg.2.1 now layer c st)
        (fun c st => Ending.deriveSubgoals hc hg.1 hg.2.1)
        (fun c st s r s' e => (Map.deriveSubgoals n _ _ _ _ _ _ s r s' (SameMap.refl s) e).1.index) (hf.mono fun _ hs => hs.1)
    · refine Keeps.bind_get fun s2 hs2 => ?_
      have hg := hs2.2 i (List.mem_range.1 hi)
      refine Keeps.seq hc.nextProcessID fun _ => ?_
      exact related_keeps' hc (fun c st => hc.deriveSubgoals hg.1 hg.2.1 now layer c st) _ _ _
  refine EndsAt.ite (fun hx => ?_) fun _ => rest hs1
  have hx' : d.execute = true := by
    rw [Bool.and_eq_true] at hx; exact hx.1
  refine EndsAt.bind_modify ?_
  have hc := (h.closed.justified d.operationID).step ⟨hs1, hj hx'⟩ .clearGoals
  exact EndsAt.bind (EndsAt.decisionExecute h hadd now hd hc.1 hc.2 fun _ => rfl)
    ((h.decisionExecute now hd hc.1 (hm.stable (Stable.of_eq rfl rfl)) hc.2).mono fun _ s2 hs2 => rest hs2)

theorem Ending.goalLayer {J : Sys → Prop} (hJ : Closed n J) (h : Hooks n (fun s => J s ∧ GoalsKnown n s) I1 add)
    (hadd : ∀ t {s}, n.Knows t → I1 s → Quiet s → EndsAt (add t) s) {fuel : Nat} (hf : Enough J fuel) (now : Int)
    {layer : Nat} (hlay : layer < CYCLING_GOAL_EVENTS_LAYERS) : Ending J (processGoalLayer n fuel add now layer) := by
  unfold processGoalLayer
  rw [if_pos hlay]
  intro s hs
  refine EndsAt.bind (Ending.popGoals hJ s hs) ?_
  intro _ s1 e
  exact EndsAt.goals h hadd And.right (hf.mono fun _ hs => hs.1) now layer ⟨hJ.step hs (.popGoal layer s1 e), popGoal_known (hJ.good hs) e⟩

theorem Ending.cycle {J : Sys → Prop} (hJ : Closed n J) (h : Hooks n (fun s => (J s ∧ BeliefsKnown n s) ∧ GoalsKnown n s) I1 add)
    (hadd : ∀ t {s}, n.Knows t → I1 s → Quiet s → EndsAt (add t) s) {fuel : Nat} (hf : Enough J fuel) (now : Int) : Ending J (Cycle_Perform n fuel add now) := by
  unfold Cycle_Perform
  intro s hs
  refine EndsAt.bind (Ending.popBeliefs hJ s hs) ?_
  intro _ s1 e
  have hB := hJ.beliefsKnown
  refine (?_ : Ending (fun s => J s ∧ BeliefsKnown n s) _) s1 ⟨hJ.step hs (.popBelief s1 e), popBelief_known (hJ.good hs) e⟩
  refine Ending.seq (Ending.processBeliefs hB And.right (hf.mono fun _ hs => hs.1)) (hB.processBeliefs And.right _ _) fun _ => ?_
  refine Ending.seq (Ending.anticipate hB (Nat.zero_le _)) (hB.anticipate _ _ _ _) fun _ => ?_
  refine Ending.seq (Q := fun _ => True) (Ending.forM (fun layer hl => Ending.goalLayer hB h hadd (hf.mono fun _ hs => hs.1) _ (List.mem_range.1 hl)) (fun layer _ => Hooks.goalLayer hB h _ _ _))
    (Keeps.forM fun layer _ => Hooks.goalLayer hB h _ _ _) fun _ => ?_
  exact Ending.seq (Ending.inference hB And.right (hf.mono fun _ hs => hs.1) _) (hB.inference And.right _ _) fun _ => Ending.forgetting hB _

theorem EndsAt.noGoals {fuel : Nat} {now : Int} {layer : Nat} {s : Sys} (hs : s.goalsSelectedCnt = 0) :
    EndsAt (Cycle_ProcessAndInferGoalEvents n fuel add now layer) s := by
  unfold Cycle_ProcessAndInferGoalEvents
  refine EndsAt.bind_get ?_
  rw [hs]
  refine EndsAt.bind EndsAt.pure (WP.pure ?_)
  refine EndsAt.bind_get ?_
  rw [hs]
  exact EndsAt.pure

/-- Without goals no operation is executed. -/
theorem EndsAt.quietCycle {J : Sys → Prop} (hJ : Closed n J) {fuel : Nat} (hf : Enough J fuel) (now : Int) {s : Sys} (hs : J s)
    (hq : Quiet s) : EndsAt (Cycle_Perform n fuel add now) s := by
  unfold Cycle_Perform
  have hi := hq.idle (hJ.good hs)
  generalize s.output = L at hi
  have hB := hJ.beliefsKnown
  refine EndsAt.bind (Ending.popBeliefs hJ s hs) ?_
  intro _ s1 e
  refine (?_ : Ending (fun s => (J s ∧ BeliefsKnown n s) ∧ Idle L s) _) s1
    ⟨⟨hJ.step hs (.popBelief s1 e), popBelief_known (hJ.good hs) e⟩, ((Idle.of_calm fun _ => Calm.popBeliefs) s _ s1 hi e).1⟩
  have both {α : Type} {x : M α} (h1 : Ending (fun s => J s ∧ BeliefsKnown n s) x) : Ending (fun s => (J s ∧ BeliefsKnown n s) ∧ Idle L s) x :=
    fun s hs => h1 s hs.1
  have keep {α : Type} {x : M α} {Q : α → Prop} (h1 : Keeps (fun s => J s ∧ BeliefsKnown n s) x Q) (h2 : Keeps (Idle L) x fun _ => True) :
      Keeps (fun s => (J s ∧ BeliefsKnown n s) ∧ Idle L s) x fun _ => True :=
    fun s a s' hs e => ⟨⟨(h1 s a s' hs.1 e).1, (h2 s a s' hs.2 e).1⟩, trivial⟩
  refine Ending.seq (both (Ending.processBeliefs hB And.right (hf.mono fun _ hs => hs.1)))
    (keep (hB.processBeliefs And.right _ _) (Idle.of_calm fun _ => Calm.processBeliefs n fuel now)) fun _ => ?_
  refine Ending.seq (both (Ending.anticipate hB (Nat.zero_le _)))
    (keep (hB.anticipate _ _ _ _) (Idle.of_calm fun _ => Calm.anticipate n 0 Term.zero true now)) fun _ => ?_
  have layer : ∀ l, Keeps (fun s => (J s ∧ BeliefsKnown n s) ∧ Idle L s) (processGoalLayer n fuel add now l) fun _ => True := by
    intro l s u s' hs e
    unfold processGoalLayer at e
    by_cases hlay : l < CYCLING_GOAL_EVENTS_LAYERS
    swap
    · rw [if_neg hlay] at e; cases e
    rw [if_pos hlay] at e
    obtain ⟨_, s1, e1, e2⟩ := M.bind_ok.1 e
    obtain ⟨h1, h2⟩ := hs.2.popGoals l e1
    rw [processGoals_none h2 e2]
    exact ⟨⟨hB.step hs.1 (.popGoal l s1 e1), h1⟩, trivial⟩
  refine Ending.seq (Q := fun _ => True) (Ending.forM (fun l hl => ?_) fun l _ => layer l) (Keeps.forM fun l _ => layer l) fun _ => ?_
  · intro s hs
    unfold processGoalLayer
    rw [if_pos (List.mem_range.1 hl)]
    refine EndsAt.bind (Ending.popGoals hB s hs.1) ?_
    intro _ s1 e
    exact EndsAt.noGoals (hs.2.popGoals l e).2
  · exact Ending.seq (both (Ending.inference hB And.right (hf.mono fun _ hs => hs.1) _))
      (keep (hB.inference And.right _ _) (Idle.of_calm fun _ => Calm.inference n fuel now)) fun _ => both (Ending.forgetting hB _)

end ONA

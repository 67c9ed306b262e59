import Verif.Proofs.ClosedDecision
/-
The inference cycle.
-/
namespace ONA
variable [Arith] {n : Narsese} {I : Sys → Prop}

namespace Closed

theorem attention (h : Closed n I) {s : Sys} (hs : I s) (c : Nat) (f : Concept → Concept)
    (hf : ∀ c, ∃ i1 i2 i3 t, Marked s.marks c i1 i2 i3 ∧ f c = { c with processID := i1, processID2 := i2, processID3 := i3, lastSelectionTime := t }) :
    ConceptChange n s c (f (s.concept_storage c)) := by
  obtain ⟨i1, i2, i3, t, hi, e⟩ := hf (s.concept_storage c)
  rw [e]
  have hg := (h.good hs).concepts c
  exact .attention _ _ _ _ _ _ hg.useCount hg.priority hi

theorem processIDs (h : Closed n I) {s : Sys} (hs : I s) (i1 i2 i3 : Int) (hi : s.conceptProcessID ≤ i1)
    (hi2 : s.conceptProcessID2 ≤ i2) (hi3 : s.conceptProcessID3 ≤ i3) :
    I { s with conceptProcessID := i1, conceptProcessID2 := i2, conceptProcessID3 := i3 } :=
  h.step hs (.internal s.conceptPriorityThreshold i1 i2 i3
    s.Stats_countConceptsMatchedTotal s.Stats_countConceptsMatchedMax s.next s.stdin (h.good hs).stdin hi hi2 hi3)

theorem nextProcessID (h : Closed n I) : Keeps I ONA.nextProcessID fun _ => True :=
  Keeps.modify fun s hs => h.processIDs hs _ s.conceptProcessID2 s.conceptProcessID3 (by omega) (Int.le_refl _) (Int.le_refl _)

theorem nextProcessID2 (h : Closed n I) : Keeps I ONA.nextProcessID2 fun _ => True :=
  Keeps.modify fun s hs => h.processIDs hs s.conceptProcessID _ s.conceptProcessID3 (Int.le_refl _) (by omega) (Int.le_refl _)

theorem activate (h : Closed n I) (c : Nat) {e : Event} (he : e.Good n) (now : Int) {s : Sys} (hs : I s) :
    WP (Cycle_ActivateSensorimotorConcept n c e now) (Carry n I) s := by
  unfold Cycle_ActivateSensorimotorConcept
  have step1 : ∀ s, I s → ConceptChange n s c { s.concept_storage c with
      lastSelectionTime := now, usage := Usage_use (s.concept_storage c).usage now false } := by
    intro s hs
    have hg := (h.good hs).concepts c
    refine .attention _ _ _ _ _ _ ?_ hg.priority .same
    have := hg.useCount
    show 0 ≤ (Usage_use _ _ _).useCount
    unfold Usage_use
    split <;> (simp only [ETERNAL_INPUT_USAGE_BOOST, Bool.false_eq_true, if_false, if_true] at * <;> omega)
  refine WP.bind ((h.modifyConcept_wp hs (step1 s hs)).mono ?_)
  rintro _ s1 ⟨hs1, -⟩
  refine WP.ite (fun _ => ?_) fun _ => ?_
  · refine WP.bind ((h.modifyConcept_wp hs1 ?_).mono ?_)
    · split
      · exact .belief_spike _ he
      · exact h.attention hs1 c id fun c => ⟨_, _, _, _, .same, rfl⟩
    · rintro _ s2 ⟨hs2, -⟩
      exact WP.pure ⟨hs2, Decision.zero_fit _, fun h => by cases h⟩
  · refine WP.bind ((h.modifyConcept_wp hs1 ?_).mono ?_)
    · split
      · exact .goal_spike _ he
      · exact h.attention hs1 c id fun c => ⟨_, _, _, _, .same, rfl⟩
    · rintro _ s2 ⟨hs2, -⟩
      exact h.suggest c he.term now hs2

theorem activateCarry (h : Closed n I) (c : Nat) {e : Event} (he : e.Good n) (now : Int) (d : Decision) {s : Sys}
    (hs : Carry n I d s) :
    WP (Cycle_ActivateSensorimotorConcept n c e now) (fun d' s => Carry n I (Decision_BetterDecision d d') s) s := by
  refine (((h.carry d).activate c he now hs)).mono ?_
  rintro d' s' ⟨h1, h2, h3⟩
  exact better h1 ⟨h1.1, h2, h3⟩

theorem processRelated (h : Closed n I) {e : Event} (he : e.Good n) (now : Int) (c : Nat) (d : Decision) (s : Sys)
    (hs : Carry n I d s) : WP (processRelatedConcept n e now c d) (fun r => Carry n I r.2) s := by
  unfold processRelatedConcept
  dsimp only
  refine WP.bind ?_
  have first : WP (if (!Variable_hasVariable n e.term true true true || Variable_hasVariable n e.term false false true) = true
      then do
        let s ← get
        let subs ← Variable_Unify n (s.concept_storage c).term e.term
        if subs.success then
          let decision ← Cycle_ActivateSensorimotorConcept n c { e with processed := true, creationTime := now } now
          pure (Decision_BetterDecision d decision)
        else pure d
      else pure d : M Decision) (fun r => Carry n I r) s := by
    refine WP.ite (fun _ => WP.get ?_) fun _ => WP.pure hs
    refine WP.bind (WP.lift fun subs _ => ?_)
    refine WP.ite (fun _ => ?_) fun _ => WP.pure hs
    refine WP.bind ((h.activateCarry c (e := { e with processed := true, creationTime := now })
      ⟨he.term, he.truth, he.stamp⟩ now d hs).mono fun d' s' h' => WP.pure h')
  refine first.mono ?_
  intro d1 s1 hs1
  refine WP.ite (fun _ => WP.get ?_) fun _ => WP.pure hs1
  refine WP.bind (WP.lift fun subs hsu => ?_)
  refine WP.ite (fun _ => ?_) fun _ => WP.pure hs1
  refine WP.bind (WP.lift fun t ht => ?_)
  refine WP.ite (fun _ => ?_) fun _ => WP.pure hs1
  refine WP.bind ((h.activateCarry c (e := { e with processed := true, creationTime := now, term := t.1 })
    ⟨he.term.apply (((h.good hs1.1).concepts c).term.unify hsu) ht, he.truth, he.stamp⟩ now d1 hs1).mono fun d' s' h' => WP.pure h')

theorem processSensorimotor (h : Closed n I) (fuel : Nat) {e : Event} (he : e.Good n) (now : Int) {s : Sys} (hs : I s) :
    WP (Cycle_ProcessSensorimotorEvent n fuel e now) (Carry n I) s := by
  unfold Cycle_ProcessSensorimotorEvent
  refine WP.bind (WP.lift fun _ _ => ?_)
  refine WP.bind ((h.conceptualize_lasting he.term now hs).mono ?_)
  rintro c s1 ⟨hs1, hc⟩
  have zero : ∀ {s}, I s → Carry n I Decision.zero s := fun hs => ⟨hs, Decision.zero_fit _, fun h => by cases h⟩
  cases c with
  | none => exact WP.pure (zero hs1)
  | some c =>
    have rest : ∀ {s}, I s → WP (do
        ONA.nextProcessID
        relatedConcepts fuel e.term (processRelatedConcept n e now) Decision.zero) (Carry n I) s := by
      intro s hs
      refine WP.bind ((h.nextProcessID.wp hs).mono ?_)
      rintro _ s2 ⟨hs2, -⟩
      exact related_wp h.carry (fun c d s hs => h.processRelated he now c d s hs) _ _ _ _ (zero hs2)
    refine WP.ite (fun _ => ?_) fun _ => rest hs1
    exact WP.bind (WP.modify (rest (h.internal hs1 ((hc c rfl).imp_right fun h => h.1))))

theorem processSensorimotor_keeps (h : Closed n I) (fuel : Nat) {e : Event} (he : e.Good n) (now : Int) :
    Keeps I (Cycle_ProcessSensorimotorEvent n fuel e now) fun _ => True :=
  Keeps.of_wp fun _ hs => (h.processSensorimotor fuel he now hs).mono fun _ _ h => ⟨h.1, trivial⟩

/-! ### Goals -/

/-- The substitution of a found belief maps to known terms. -/
def KnownChoice (n : Narsese) (b : ℚ × Option (Nat × Substitution)) : Prop :=
  ∀ c subs, b.2 = some (c, subs) → n.KnowsSubs subs.map

theorem reads_componentBelief (h : Closed n I) (comps : List Term) (j : Nat) (last : Int) (c : Nat)
    (b : ℚ × Option (Nat × Substitution)) (hb : KnownChoice n b) :
    Keeps I (componentBelief n comps j last c b) fun r => KnownChoice n r.2 := by
  unfold componentBelief
  refine Keeps.bind_get fun s hs => ?_
  dsimp only
  refine Keeps.ite (fun _ => ?_) fun _ => Keeps.pure hb
  refine Keeps.bind_lift fun subs hsu => ?_
  refine Keeps.ite (fun _ => ?_) fun _ => Keeps.pure hb
  refine Keeps.ite (fun _ => Keeps.pure hb) fun _ => ?_
  refine Keeps.ite (fun _ => Keeps.pure hb) fun _ => ?_
  refine Keeps.bind_lift fun x _ => ?_
  refine Keeps.ite (fun _ => Keeps.pure ?_) fun _ => Keeps.pure hb
  intro c' subs' e
  cases e
  exact ((h.good hs).concepts c).term.unify hsu

theorem decomposition (h : Closed n I) (fuel : Nat) : ∀ (j : Nat) (comps : List Term) (last : Int) {g : Event},
    (∀ u ∈ comps, n.Knows u) → g.Good n →
    Keeps I (decompositionLoop n fuel j comps last g) fun r => ∀ k l g', r = some (k, l, g') →
      (∀ u ∈ l, n.Knows u) ∧ g'.Good n := by
  intro j
  induction j with
  | zero => intro comps last g hc hg; exact Keeps.pure fun _ _ _ h => by cases h
  | succ j ih =>
    intro comps last g hc hg
    unfold decompositionLoop
    refine Keeps.seq h.nextProcessID fun _ => ?_
    refine Keeps.bind (related_keeps h (P := KnownChoice n) (fun c st hst => h.reads_componentBelief _ _ _ _ _ hst) _ _ _
      fun _ _ e => by cases e) fun best hbest => ?_
    split
    · refine Keeps.pure ?_
      rintro k l g' h
      cases h
      exact ⟨hc, hg⟩
    · rename_i c subs hbs
      refine Keeps.ite (fun _ => Keeps.pure fun _ _ _ h => by cases h) fun _ => ?_
      refine Keeps.bind_lift fun comps' hcs => ?_
      refine Keeps.bind_get fun s hs => ?_
      have hc' := Narsese.Knows.substituteComponents (hbest c subs hbs) _ hc hcs
      refine ih _ _ hc' ?_
      have := hg.goalSequenceDeduction ((h.good hs).concepts c).belief_spike s.currentTime
      exact ⟨Narsese.knows_getD hc' _, this.truth, this.stamp⟩

theorem goalDecomposition (h : Closed n I) (fuel : Nat) {g : Event} (hg : g.Good n) {p : ℚ} (hp : InUnit p) (layer : Nat) :
    Keeps I (Cycle_GoalSequenceDecomposition n fuel g p layer) fun _ => True := by
  unfold Cycle_GoalSequenceDecomposition
  refine Keeps.ite (fun _ => Keeps.pure trivial) fun _ => ?_
  refine Keeps.bind_lift fun comps hcomps => ?_
  have hc := Narsese.Knows.goalComponents _ hg.term (fun _ hu => by cases hu) hcomps
  refine Keeps.bind_get fun s hs => ?_
  refine Keeps.bind (h.decomposition fuel _ _ _ hc (hg.update _)) fun r hr => ?_
  cases r with
  | none => exact Keeps.pure trivial
  | some x =>
    obtain ⟨j, comps', g'⟩ := x
    obtain ⟨hc', hg'⟩ := hr _ _ _ rfl
    dsimp only
    have key : ∀ e : Event, e.Good n → Keeps I (do
        Memory_AddEvent' n e s.currentTime (fmul p (Truth_Expectation e.truth)) false false layer
        pure true) fun _ => True := by
      intro e he
      exact Keeps.seq (h.addEvent' he _ (hp.mul (expectation_unit he.truth)).2 _ _ _) fun _ => Keeps.pure trivial
    refine key _ ?_
    split
    · exact ⟨Narsese.knows_getD hc' _, TruthFunction.StructuralDeduction.run_valid hg'.truth hg'.truth rfl, hg'.stamp⟩
    · exact hg'

theorem linkTable_set {mark : Int × Int × Int} {own : Event → Prop} {bad fit : Implication → Prop} {c : Concept} {t : Table} (table : LinkTable)
    (h : TableSteps n bad fit (table.get c) t) : ConceptStep n mark own bad fit c (table.set t c) := by
  cases table with
  | op k => exact .precondition_beliefs _ _ h
  | declarative => exact .implication_links _ h

theorem linkTable_good {c : Concept} (hc : c.Good n) (table : LinkTable) : (table.get c).Good n := by
  cases table with
  | op k => exact hc.precondition_beliefs k
  | declarative => exact hc.implication_links

theorem deriveSubgoal (h : Closed n I) {imp : Implication} (hi : imp.Good n) {g : Event} (hg : g.Good n) (now : Int) {p : ℚ}
    (hp : InUnit p) (layer : Nat) : Keeps I (ONA.deriveSubgoal n imp g now p layer) fun _ => True := by
  unfold ONA.deriveSubgoal
  refine Keeps.bind_lift fun subs hsu => ?_
  refine Keeps.ite (fun _ => ?_) fun _ => Keeps.pure trivial
  refine Keeps.bind_lift fun r hr => ?_
  refine Keeps.ite (fun _ => ?_) fun _ => Keeps.pure trivial
  refine Keeps.bind_lift fun ng e => ?_
  have h1 : ng.Good n := hg.goalDeduction (i := { imp with term := r.1 }) ⟨hi.term.apply (hg.term.unify hsu) hr, hi.truth, hi.stamp⟩ e
  have h2 := h1.update now
  exact h.addEvent' h2 _ (hp.mul (expectation_unit h2.truth)).2 _ _ _

theorem subgoalsOfTable (h : Closed n I) (c : Nat) (table : LinkTable) (now : Int) {p : ℚ} (hp : InUnit p) (layer : Nat) :
    Keeps I (ONA.subgoalsOfTable n c table now p layer) fun _ => True := by
  unfold ONA.subgoalsOfTable
  refine Keeps.seq (Keeps.loop' (fun j => ?_) _ _) fun _ => Keeps.pure trivial
  refine Keeps.of_wp fun s hs => WP.get ?_
  have hg := (h.good hs).concepts c
  refine WP.ite (fun hj => ?_) fun _ => WP.pure ⟨hs, trivial⟩
  refine WP.bind (WP.lift fun v hv => ?_)
  refine WP.ite (fun _ => ?_) fun hv' => ?_
  · refine WP.bind (((h.deriveSubgoal ((linkTable_good hg table).array hj) hg.goal_spike now hp layer).wp hs).mono ?_)
    rintro _ s1 ⟨hs1, -⟩
    exact WP.pure ⟨hs1, trivial⟩
  · exact WP.bind (WP.modify (WP.pure ⟨h.concept hs (linkTable_set table (.step .refl (.remove _ _ hj (by
      rw [Bool.not_eq_true] at hv'; rw [hv, hv'])))), trivial⟩))

theorem deriveSubgoals (h : Closed n I) {g : Event} (hg : g.Good n) {p : ℚ} (hp : InUnit p) (now : Int) (layer c : Nat) (u : Unit) :
    Keeps I (ONA.deriveSubgoals n g p now layer c u) fun _ => True := by
  unfold ONA.deriveSubgoals
  refine Keeps.of_wp fun s hs => WP.get ?_
  dsimp only
  refine WP.bind (WP.lift fun subs _ => ?_)
  refine WP.ite (fun _ => ?_) fun _ => WP.pure ⟨hs, trivial⟩
  refine WP.bind (WP.lift fun r e => ?_)
  obtain ⟨r1, r2⟩ := r
  refine WP.bind ((h.modifyConcept_wp hs (.goal_spike _ (((h.good hs).concepts c).goal_spike.revisionAndChoice hg e))).mono ?_)
  rintro _ s1 ⟨hs1, -⟩
  refine WP.bind (((Keeps.forM fun t _ => h.subgoalsOfTable c t now hp layer).wp hs1).mono ?_)
  rintro _ s2 ⟨hs2, -⟩
  exact WP.pure ⟨hs2, trivial⟩

theorem selectedGoals (h : Closed n I) {k : Nat} (hk : ∀ {s}, I s → SelectedGoals n k s) (fuel : Nat) (now : Int)
    (layer : Nat) : ∀ (l : List Nat), (∀ i ∈ l, i < k) → ∀ (d : Decision) {s : Sys},
    Carry n I d s → WP (processSelectedGoals n fuel now layer l d) (Carry n I) s := by
  intro l
  induction l with
  | nil => intro _ d s hs; exact WP.pure hs
  | cons i l ih =>
    intro hl d s hs
    have ih := ih fun j hj => hl j (List.mem_cons_of_mem _ hj)
    unfold processSelectedGoals
    refine WP.get ?_
    have hg := hk hs.1 i (hl i List.mem_cons_self)
    refine WP.bind ((((h.carry d).goalDecomposition fuel hg.1 hg.2.1 layer).wp hs).mono ?_)
    rintro b s1 ⟨hs1, -⟩
    refine WP.ite (fun _ => ih _ hs1) fun _ => ?_
    refine WP.bind (((h.carry d).processSensorimotor fuel hg.1 now hs1).mono ?_)
    rintro d' s2 ⟨h1, h2, h3⟩
    exact ih _ (better h1 ⟨h1.1, h2, h3⟩)

/-! ### Beliefs -/

theorem reinforce (h : Closed n I) {a b : Event} (ha : a.Good n) (hb : b.Good n) :
    Keeps I (Cycle_ReinforceLink n a b) fun _ => True := by
  unfold Cycle_ReinforceLink
  refine h.base fun hn => ?_
  refine Keeps.ite (fun _ => ?_) fun _ => Keeps.pure trivial
  refine Keeps.seq (h.find _) fun A => Keeps.seq (h.find _) fun B => ?_
  refine Keeps.ite (fun _ => ?_) fun _ => Keeps.pure trivial
  refine Keeps.bind_lift fun imp e => ?_
  cases imp with
  | none => exact Keeps.pure trivial
  | some imp =>
    have hi := induction_good hn ha hb e
    dsimp only
    refine Keeps.ite (fun _ => ?_) fun _ => Keeps.pure trivial
    refine Keeps.bind_get fun s hs => ?_
    exact h.derivedEvent ⟨hi.stamp, ⟨zero_le_one, le_refl _⟩, ⟨zero_le_one, le_refl _⟩⟩ hi.truth hi.term _ _

theorem newest (_ : Closed n I) (j : Nat) : Keeps I (newestConcept j) fun _ => True := by
  unfold newestConcept
  refine Keeps.bind_get fun s hs => ?_
  refine Keeps.bind_lift fun x _ => ?_
  cases x with
  | none => exact Keeps.throw
  | some c => exact Keeps.pure trivial

omit [Arith] in
theorem newest_same (j : Nat) (s : Sys) : WP (newestConcept j) (fun _ s' => s' = s) s := by
  unfold newestConcept
  refine WP.get (WP.bind (WP.lift fun x _ => ?_))
  cases x with
  | none => exact WP.throw
  | some c => exact WP.pure rfl

/-- Marking a concept. -/
theorem mark2 (h : Closed n I) {s : Sys} (hs : I s) (c : Nat) :
    WP (ONA.modifyConcept c fun x => { x with processID2 := s.conceptProcessID2 }) (fun _ s' => I s' ∧ True) s :=
  h.modifyConcept_wp hs (.attention _ _ _ _ _ _ ((h.good hs).concepts c).useCount ((h.good hs).concepts c).priority .second)

theorem mark3 (h : Closed n I) {s : Sys} (hs : I s) (c : Nat) :
    WP (ONA.modifyConcept c fun x => { x with processID3 := s.conceptProcessID3 }) (fun _ s' => I s' ∧ True) s :=
  h.modifyConcept_wp hs (.attention _ _ _ _ _ _ ((h.good hs).concepts c).useCount ((h.good hs).concepts c).priority .third)

theorem condition (h : Closed n I) (opc prec : Nat) {post : Event} (hp : post.Good n) (now : Int) :
    Keeps I (conditionOperation n opc prec post now) fun _ => True := by
  unfold conditionOperation
  refine Keeps.bind_get fun s hs => ?_
  have g1 := ((h.good hs).concepts prec).belief_spike
  have g2 := ((h.good hs).concepts opc).belief_spike
  refine Keeps.ite (fun _ => ?_) fun _ => Keeps.pure trivial
  refine Keeps.bind_lift fun x e => ?_
  cases x with
  | none => exact Keeps.pure trivial
  | some seq =>
    have hn := (h.good hs).base
    have hseq := Event.Good.intersection hn g1 g2 e
    dsimp only
    refine Keeps.ite (fun _ => ?_) fun _ => Keeps.pure trivial
    refine Keeps.ite (fun _ => ?_) fun _ => Keeps.pure trivial
    exact h.reinforce ⟨hn.opSequence _ g1.term g2.term, hseq.truth, hseq.stamp⟩ hp

theorem preconditions (h : Closed n I) (opc : Nat) (id : Int) {post : Event} (hp : post.Good n) (now : Int) :
    Keeps I (preconditionLoop n opc id post now) fun _ => True := by
  unfold preconditionLoop
  refine Keeps.seq (Keeps.loop' (fun j => ?_) _ _) fun _ => Keeps.pure trivial
  refine Keeps.of_wp fun s hs => WP.get ?_
  refine WP.ite (fun _ => ?_) fun _ => WP.pure ⟨hs, trivial⟩
  refine WP.bind ((Closed.newest_same _ s).mono ?_)
  rintro prec _ rfl
  dsimp only
  refine WP.bind ((h.mark3 hs prec).mono ?_)
  rintro _ s1 ⟨hs1, -⟩
  refine Keeps.wp ?_ hs1
  refine Keeps.ite (fun _ => ?_) fun _ => Keeps.pure trivial
  exact Keeps.seq (h.condition _ _ hp _) fun _ => Keeps.pure trivial

theorem operations (h : Closed n I) {post : Event} (hp : post.Good n) (now : Int) :
    Keeps I (operationLoop n post now) fun _ => True := by
  unfold operationLoop
  refine Keeps.seq (Keeps.loop' (fun j => ?_) _ _) fun _ => Keeps.pure trivial
  refine Keeps.of_wp fun s hs => WP.get ?_
  refine WP.ite (fun _ => ?_) fun _ => WP.pure ⟨hs, trivial⟩
  refine WP.bind ((Closed.newest_same _ s).mono ?_)
  rintro opc _ rfl
  dsimp only
  refine WP.bind ((h.mark2 hs opc).mono ?_)
  rintro _ s1 ⟨hs1, -⟩
  refine Keeps.wp ?_ hs1
  refine Keeps.ite (fun _ => ?_) fun _ => Keeps.pure trivial
  refine Keeps.seq (Keeps.modify fun s hs => h.processIDs hs s.conceptProcessID s.conceptProcessID2 _ (Int.le_refl _) (Int.le_refl _) (by omega)) fun _ => ?_
  exact Keeps.seq (h.preconditions _ _ hp _) fun _ => Keeps.pure trivial

theorem buildSeq (h : Closed n I) (fuel : Nat) {seq : Event} (hs : seq.Good n) (opi : Nat) (b : Bool) (p : ℚ) (now : Int) :
    Keeps I (buildSequence n fuel seq opi b p now) fun _ => True := by
  unfold buildSequence
  refine h.base fun hn => ?_
  refine Keeps.seq (h.processSensorimotor_keeps fuel hs now) fun _ => ?_
  refine Keeps.bind_lift fun x hx => ?_
  have rest : Keeps I (if (b && decide (p ≥ 1)) = true then Decision_Anticipate n opi seq.term false now else pure ()) fun _ => True :=
    Keeps.ite (fun _ => h.anticipate _ _ _ _) fun _ => Keeps.pure trivial
  cases x with
  | none => exact rest
  | some t =>
    exact Keeps.seq (h.addEvent' (e := { seq with term := t }) ⟨hn.attributeRelation hs.term hx, hs.truth, hs.stamp⟩ _ (le_refl _) _ _ _) fun _ => rest

theorem sequenceWith (h : Closed n I) (fuel c : Nat) {post : Event} (hp : post.Good n) (opi : Nat) (p : ℚ) (now : Int) :
    Keeps I (ONA.sequenceWith n fuel c post opi p now) fun _ => True := by
  unfold ONA.sequenceWith
  refine Keeps.bind_get fun s hs => ?_
  have hsp := ((h.good hs).concepts c).belief_spike
  dsimp only
  refine Keeps.ite (fun _ => ?_) fun _ => Keeps.pure trivial
  refine Keeps.ite (fun _ => ?_) fun _ => Keeps.pure trivial
  refine Keeps.bind_lift fun x e => ?_
  cases x with
  | none => exact Keeps.pure trivial
  | some seq =>
    have hseq := Event.Good.intersection (h.good hs).base hsp hp e
    dsimp only
    refine Keeps.ite (fun _ => ?_) fun _ => Keeps.pure trivial
    have rest : ∀ q : Sys → Bool, Keeps I (do
        let s1 ← get
        if q s1 then
          buildSequence n fuel seq opi
            (decide (opi ≠ 0) && decide (s.operationID n (s.concept_storage c).belief_spike.term ≠ 0)) p now : M Unit)
        fun _ => True := by
      intro q
      refine Keeps.bind_get fun s1 hs1 => ?_
      exact Keeps.ite (fun _ => h.buildSeq fuel hseq _ _ _ _) fun _ => Keeps.pure trivial
    refine Keeps.ite (fun _ => ?_) fun _ => rest _
    refine Keeps.seq (h.reinforce hsp hp) fun _ => ?_
    refine Keeps.bind_get fun s1 hs1 => ?_
    refine Keeps.ite (fun _ => ?_) fun _ => rest _
    exact Keeps.seq (h.reinforce hp ((h.good hs1).concepts c).belief_spike) fun _ => rest _

theorem sequences (h : Closed n I) (fuel : Nat) {post : Event} (hp : post.Good n) (opi : Nat) (p : ℚ) (now : Int) :
    Keeps I (sequenceLoop n fuel post opi p now) fun _ => True := by
  unfold sequenceLoop
  refine Keeps.seq (Keeps.loop' (fun j => ?_) _ _) fun _ => Keeps.pure trivial
  refine Keeps.of_wp fun s hs => WP.get ?_
  refine WP.ite (fun _ => ?_) fun _ => WP.pure ⟨hs, trivial⟩
  refine WP.bind ((Closed.newest_same _ s).mono ?_)
  rintro c _ rfl
  dsimp only
  refine WP.bind ((h.mark2 hs c).mono ?_)
  rintro _ s1 ⟨hs1, -⟩
  refine Keeps.wp ?_ hs1
  refine Keeps.ite (fun _ => ?_) fun _ => Keeps.pure trivial
  exact Keeps.seq (h.sequenceWith _ _ hp _ _ _) fun _ => Keeps.pure trivial

theorem processBelief (h : Closed n I) (fuel : Nat) {e : Event} (he : e.Good n) (p : ℚ) (now : Int) :
    Keeps I (processBeliefEvent n fuel e p now) fun _ => True := by
  unfold processBeliefEvent
  dsimp only
  refine Keeps.ite (fun _ => ?_) fun _ => Keeps.pure trivial
  refine Keeps.bind_lift fun _ _ => ?_
  refine Keeps.seq (h.processSensorimotor_keeps fuel he now) fun _ => ?_
  refine Keeps.seq (Q := fun _ => True) ?_ fun opi => ?_
  · unfold Memory_getOperationID
    exact Keeps.bind_get fun s hs => Keeps.pure trivial
  refine Keeps.seq h.nextProcessID2 fun _ => ?_
  have rest : Keeps I (do
      ONA.nextProcessID2
      sequenceLoop n fuel e opi p now
      if p ≥ 1 then Decision_Anticipate n opi (Narsese_getOperationTerm n termDepth e.term) false now) fun _ => True := by
    refine Keeps.seq h.nextProcessID2 fun _ => ?_
    refine Keeps.seq (h.sequences fuel he _ _ _) fun _ => ?_
    exact Keeps.ite (fun _ => h.anticipate _ _ _ _) fun _ => Keeps.pure trivial
  refine Keeps.ite (fun _ => ?_) fun _ => rest
  exact Keeps.seq (h.operations he now) fun _ => rest

theorem processBeliefs (h : Closed n I) (hb : ∀ {s}, I s → BeliefsKnown n s) (fuel : Nat) (now : Int) :
    Keeps I (Cycle_ProcessBeliefEvents n fuel now) fun _ => True := by
  unfold Cycle_ProcessBeliefEvents
  refine Keeps.bind_get fun s hs => ?_
  exact Keeps.forM fun i hi => h.processBelief fuel (hb hs i (List.mem_range.1 hi)).1 _ _

/-! ### Inference -/

theorem deriveSubstituted (h : Closed n I) {d : Derivation} (hd : d.Good) {t : Term} (hk : n.Knows t)
    {subs : Substitution} (hsu : n.KnowsSubs subs.map) {v : R Truth}
    (hv : ∀ t, v = .ok t → t.Valid) : Keeps I (ONA.deriveSubstituted n d t subs v) fun _ => True := by
  unfold ONA.deriveSubstituted
  refine Keeps.bind_lift fun r hr => Keeps.bind_lift fun t ht => ?_
  refine Keeps.ite (fun _ => ?_) fun _ => Keeps.pure trivial
  exact h.derivedEvent (d := { d with conclusionTruth := t }) ⟨hd.stamp, hd.parent, hd.concept⟩ (hv t ht) (hk.apply hsu hr) _ _

theorem remaining (h : Closed n I) {t : Term} (ht : n.Knows t) {v1 v2 : Truth} (h1 : v1.Valid) (h2 : v2.Valid)
    {d : Derivation} (hd : d.Good) {a b : Term} (ha : n.Knows a) (hb : n.Knows b) :
    Keeps I (remainingCondition n t v1 v2 d a b) fun _ => True := by
  unfold remainingCondition
  refine h.base fun hn => ?_
  refine Keeps.bind_lift fun subs hsu => Keeps.bind_lift fun r hr => ?_
  refine Keeps.ite (fun _ => ?_) fun _ => Keeps.pure trivial
  have hr' : n.KnowsSubs r.1.map ∧ n.Knows r.2 := by
    split at hr
    · cases hr; exact ⟨ht.unify hsu, ha.extract 2⟩
    · obtain ⟨subs2, e1, e2⟩ := R.bind_eq_ok.1 hr
      cases e2
      exact ⟨ht.unify e1, ha.extract 1⟩
  refine Keeps.ite (fun _ => ?_) fun _ => Keeps.pure trivial
  exact h.deriveSubstituted hd (hn.compound _ hr'.2 hb) hr'.1 fun t e => TruthFunction.Deduction.run_valid h2 h1 e

theorem special (h : Closed n I) {t1 t2 : Term} (ht1 : n.Knows t1) (ht2 : n.Knows t2) {v1 v2 : Truth} (h1 : v1.Valid)
    (h2 : v2.Valid) {d : Derivation} (hd : d.Good) :
    Keeps I (Cycle_SpecialInferences n t1 t2 v1 v2 d) fun _ => True := by
  unfold Cycle_SpecialInferences
  have w1 : ∀ b : Bool, ∀ t, (Except.ok (if b = true then Truth_Deduction v2 v1 else Truth_Analogy v2 v1) : R Truth) = .ok t →
      t.Valid := by
    rintro b t ⟨⟩
    split
    · exact TruthFunction.Deduction.run_valid h2 h1 rfl
    · exact TruthFunction.Analogy.run_valid h2 h1 rfl
  have w2 : ∀ b : Bool, ∀ t, (if b = true then Truth_Abduction v2 v1 else .ok (Truth_Analogy v2 v1) : R Truth) = .ok t →
      t.Valid := by
    intro b t e
    split at e
    · exact TruthFunction.Abduction.run_valid h2 h1 e
    · exact TruthFunction.Analogy.run_valid h2 h1 e
  have w3 : ∀ t, Truth_AnonymousAnalogy v2 v1 = .ok t → t.Valid := by
    intro t e
    obtain ⟨t', e', hv, _⟩ := C20_truth_functions Truth_AnonymousAnalogy
      (by simp only [allTruthFunctions, List.mem_cons, true_or, or_true]) v2 v1 h2 h1
    rw [e] at e'
    cases e'
    exact hv
  extract_lets b0 sub pred jp1 jp2 jp3
  have k1 : ∀ u, Keeps I (jp1 u) fun _ => True := by
    intro u
    dsimp only [jp1]
    refine Keeps.ite (fun _ => ?_) fun _ => Keeps.pure trivial
    refine Keeps.bind_lift fun subs hsu => ?_
    refine Keeps.ite (fun _ => ?_) fun _ => Keeps.pure trivial
    exact h.deriveSubstituted hd (ht2.extract 2) (ht1.unify hsu) w3
  have k2 : ∀ u, Keeps I (jp2 u) fun _ => True := by
    intro u
    dsimp only [jp2]
    refine Keeps.bind_lift fun subs hsu => ?_
    refine Keeps.ite (fun _ => ?_) fun _ => k1 ()
    exact Keeps.seq (h.deriveSubstituted hd (ht2.extract 1) (ht1.unify hsu) (w2 _)) fun u => k1 u
  have k3 : ∀ u, Keeps I (jp3 u) fun _ => True := by
    intro u
    dsimp only [jp3]
    refine Keeps.ite (fun _ => ?_) fun _ => k2 ()
    exact Keeps.seq (h.remaining ht1 h1 h2 hd (ht2.extract 1) (ht2.extract 2)) fun u => k2 u
  refine Keeps.ite (fun _ => ?_) fun _ => k1 ()
  refine Keeps.bind_lift fun subs hsu => ?_
  refine Keeps.ite (fun _ => ?_) fun _ => k3 ()
  exact Keeps.seq (h.deriveSubstituted hd (ht2.extract 2) (ht1.unify hsu) (w1 _)) fun u => k3 u

theorem used (h : Closed n I) (c : Nat) {spike : Option Event} (hs : ∀ e, spike = some e → e.Good n) :
    Keeps I (usedBelief c spike) fun e => e.Good n := by
  unfold usedBelief
  cases spike with
  | some b => exact Keeps.pure (hs b rfl)
  | none => exact Keeps.bind_get fun s hs => Keeps.pure ((h.good hs).concepts c).belief

theorem projectedSpike_good {e : Event} {c : Concept} (hc : c.Good n) {x : Event} (h : projectedSpike e c = some x) : x.Good n := by
  unfold projectedSpike at h
  dsimp only at h
  split at h
  · cases h
    exact ⟨hc.belief_spike.term, Truth_Projection_valid hc.belief_spike.truth _ _, hc.belief_spike.stamp⟩
  · cases h

theorem infer (h : Closed n I) {e : Event} (he : e.Good n) {p : ℚ} (hp : InUnit p) (now : Int) (c : Nat) (v : Int) :
    Keeps I (inferWith n e p now c v) fun _ => True := by
  unfold inferWith
  refine Keeps.bind_get fun s hs => ?_
  have hsp : ∀ x, projectedSpike e (s.concept_storage c) = some x → x.Good n :=
    fun x hx => projectedSpike_good ((h.good hs).concepts c) hx
  refine Keeps.bind (h.used c hsp) fun belief hb => ?_
  refine Keeps.ite (fun _ => ?_) fun _ => Keeps.pure trivial
  refine Keeps.seq (h.modifyConcept _ _ fun s hs => h.useConcept hs _ _ _) fun _ => ?_
  refine Keeps.bind_get fun s1 hs1 => ?_
  refine Keeps.seq (h.ruleTable ⟨Stamp_make_wf _ _, hp, ((h.good hs1).concepts c).priority⟩ he.term ((h.good hs1).concepts c).term
    he.truth hb.truth _) fun _ => ?_
  refine Keeps.bind_get fun s2 hs2 => ?_
  refine Keeps.bind (h.used c hsp) fun belief2 hb2 => ?_
  refine Keeps.seq (h.special he.term ((h.good hs2).concepts c).term he.truth hb2.truth ⟨Stamp_make_wf _ _, hp, ((h.good hs2).concepts c).priority⟩) fun _ => ?_
  refine Keeps.bind_get fun s3 hs3 => ?_
  refine Keeps.bind (h.used c hsp) fun belief3 hb3 => ?_
  exact h.special ((h.good hs3).concepts c).term he.term hb3.truth he.truth ⟨Stamp_make_wf _ _, hp, ((h.good hs3).concepts c).priority⟩

theorem statistics (h : Closed n I) {s : Sys} (hs : I s) (threshold : ℚ) (m1 m2 : Int) :
    I { s with conceptPriorityThreshold := threshold, Stats_countConceptsMatchedTotal := m1, Stats_countConceptsMatchedMax := m2 } :=
  h.step hs (.internal threshold s.conceptProcessID s.conceptProcessID2 s.conceptProcessID3
    m1 m2 s.next s.stdin (h.good hs).stdin (Int.le_refl _) (Int.le_refl _) (Int.le_refl _))

theorem inferBody (h : Closed n I) {e : Event} (he : e.Good n) {p : ℚ} (hp : InUnit p) (threshold : ℚ) (now : Int) (c : Nat)
    (counts : Nat × Nat) : Keeps I (inferenceBody n e p threshold now c counts) fun _ => True := by
  unfold inferenceBody
  refine Keeps.bind_get fun s hs => ?_
  dsimp only
  refine Keeps.ite (fun _ => Keeps.pure trivial) fun _ => ?_
  refine Keeps.seq (Keeps.set (h.statistics hs s.conceptPriorityThreshold _ s.Stats_countConceptsMatchedMax)) fun _ => ?_
  refine Keeps.ite (fun _ => ?_) fun _ => Keeps.pure trivial
  exact Keeps.seq (h.infer he hp _ _ _) fun _ => Keeps.pure trivial

theorem inferRound (h : Closed n I) (fuel i : Nat) (hi : ∀ {s}, I s → (s.selectedBeliefs i).Good n ∧ InUnit (s.selectedBeliefsPriority i))
    (now : Int) (count : Nat) :
    Keeps I (inferenceRound n fuel i now count) fun _ => True := by
  unfold inferenceRound
  refine Keeps.bind_get fun s hs => ?_
  refine Keeps.bind_lift fun t _ => ?_
  refine Keeps.seq (Keeps.set (h.statistics hs t s.Stats_countConceptsMatchedTotal s.Stats_countConceptsMatchedMax)) fun _ => ?_
  obtain ⟨he, hp⟩ := hi hs
  refine Keeps.seq (h.ruleTable ⟨he.stamp, hp, ⟨zero_le_one, le_refl _⟩⟩ he.term Narsese.knows_zero he.truth Truth.zero_valid _) fun _ => ?_
  refine Keeps.seq (related_keeps' h (fun c st => h.inferBody he hp _ _ _ _) _ _ _) fun counts => ?_
  refine Keeps.seq (Keeps.modify fun s hs => h.statistics hs s.conceptPriorityThreshold s.Stats_countConceptsMatchedTotal _)
    fun _ => Keeps.pure trivial

theorem inference (h : Closed n I) (hb : ∀ {s}, I s → BeliefsKnown n s) (fuel : Nat) (now : Int) : Keeps I (Cycle_Inference n fuel now) fun _ => True := by
  unfold Cycle_Inference
  refine Keeps.of_wp fun s hs => WP.get ?_
  have hc := h.withBeliefs s.beliefsSelectedCnt
  refine WP.mono ((Keeps.forM fun i hi => ?_).wp (I := fun t => I t ∧ SelectedBeliefs n s.beliefsSelectedCnt t)
    ⟨hs, hb hs⟩) fun _ _ h => ⟨h.1.1, trivial⟩
  refine Keeps.seq hc.nextProcessID fun _ => ?_
  exact Keeps.seq (Keeps.loop' (fun j => hc.inferRound _ _ (fun hs => ⟨(hs.2 i (List.mem_range.1 hi)).1, (hs.2 i (List.mem_range.1 hi)).2.1⟩) _ _) _ _)
    fun _ => Keeps.pure trivial

theorem forgetting (h : Closed n I) (now : Int) : Keeps I (Cycle_RelativeForgetting now) fun _ => True := by
  intro s a s' hs e
  exact ⟨h.step hs (.forget now s' e), trivial⟩

theorem popBeliefs (h : Closed n I) : Keeps I popBeliefEvents fun _ => True := by
  intro s a s' hs e
  exact ⟨h.step hs (.popBelief s' e), trivial⟩

theorem popGoals (h : Closed n I) (layer : Nat) : Keeps I (popGoalEvents layer) fun _ => True := by
  intro s a s' hs e
  exact ⟨h.step hs (.popGoal layer s' e), trivial⟩

end Closed

/-- What is needed to follow the execution of operations: `I` holds between the steps, `I1` after an operation was
executed and before its feedback is added. -/
structure Hooks (n : Narsese) (I I1 : Sys → Prop) (add : Term → M Unit) : Prop where
  closed : Closed n I
  closed1 : Closed n I1
  weaken : ∀ {s}, I1 s → I s
  exec : ∀ {s} (k : Nat) (action : Term → Feedback) (args : Term), (s.operations k).action = some action → I s →
    Justified s (k + 1) → OwnArguments n args →
    I1 { s with output := s.output ++ [.executed (s.operations k).term args] }
  stable : ∀ t {s}, n.Knows t → I1 s → WP (add t) (fun _ s' => Stable s s') s
  add : ∀ t {s}, n.Knows t → I1 s → WP (add t) (fun _ => I) s

namespace Hooks
variable {I1 : Sys → Prop} {add : Term → M Unit}

theorem readResult (h : Closed n I) (op : Operation) (args : Term) {subs : Substitution} (hsub : n.KnowsSubs subs.map) :
    Keeps I (readOperationResult n op args subs) fun r => ∀ x, r = some x → n.KnowsSubs x.map := by
  unfold readOperationResult
  refine Keeps.ite (fun _ => ?_) fun _ => Keeps.pure (by rintro x ⟨⟩; exact hsub)
  refine Keeps.of_wp fun s hs => WP.get ?_
  have hk := (h.good hs).stdin
  have hi : ∀ l, (∀ t, some t ∈ l → n.Knows t) → I { s with stdin := l } := fun l hl =>
    h.step hs (.internal s.conceptPriorityThreshold s.conceptProcessID s.conceptProcessID2
      s.conceptProcessID3 s.Stats_countConceptsMatchedTotal s.Stats_countConceptsMatchedMax s.next l hl (Int.le_refl _) (Int.le_refl _) (Int.le_refl _))
  split
  · exact WP.pure ⟨hs, by rintro x ⟨⟩⟩
  · rename_i rest hst
    rw [hst] at hk
    exact WP.bind (WP.set (WP.pure ⟨hi _ fun t ht => hk t (List.mem_cons_of_mem _ ht), by rintro x ⟨⟩⟩))
  · rename_i sa rest hst
    rw [hst] at hk
    refine WP.bind (WP.set (WP.bind (WP.lift fun subs hsu => WP.pure ⟨hi _ fun t ht => hk t (List.mem_cons_of_mem _ ht), ?_⟩)))
    rintro x hx
    split at hx
    · cases hx; exact (hk sa List.mem_cons_self).unify hsu
    · cases hx

theorem execute (h : Hooks n I I1 add) (now : Int) {d : Decision} (hd : d.Ok n) {s : Sys} (hs : I s) (hm : Missing d s)
    (h0 : d.operationID ≠ 0) (hj : Justified s d.operationID) :
    WP (executeOperation n add now d) (fun _ => I) s := by
  unfold executeOperation
  refine WP.get ?_
  dsimp only
  split
  · exact WP.pure hs
  · rename_i fb hfb
    have hop := (h.closed.good hs).operations (d.operationID - 1)
    have hkf := (h.closed.good hs).base.feedback hop.term hd.arguments hfb
    unfold emit
    refine WP.bind (WP.modify ?_)
    cases ha : (s.operations (d.operationID - 1)).action with
    | none => exact WP.throw
    | some action =>
      have h1 := h.exec (d.operationID - 1) action d.arguments ha hs (by rwa [Nat.sub_add_cancel (Nat.pos_of_ne_zero h0)]) hd.own
      dsimp only
      refine WP.ite (fun _ => ?_) fun _ => WP.pure (h.weaken h1)
      have hm1 : Missing d { s with output := s.output ++ [.executed (s.operations (d.operationID - 1)).term d.arguments] } :=
        hm.stable (Stable.of_eq rfl rfl)
      have hc1 : Closed n fun s => I1 s ∧ Missing d s := h.closed1.and fun hs hm st => hm.stable (st.stable (h.closed1.good hs))
      refine WP.bind (((readResult hc1 _ _ (hop.action action ha d.arguments)).wp ⟨h1, hm1⟩).mono ?_)
      rintro r s1 ⟨⟨hs1, hm1⟩, hr⟩
      cases r with
      | none => exact WP.pure (h.weaken hs1)
      | some subs =>
        dsimp only
        refine WP.bind (WP.lift fun t ht => ?_)
        refine WP.ite (fun _ => ?_) fun _ => WP.pure (h.weaken hs1)
        have hkt := hkf.apply (hr subs rfl) ht
        refine WP.bind (((h.add t.1 hkt hs1).and (h.stable t.1 hkt hs1)).mono ?_)
        rintro _ s2 ⟨hs2, st⟩
        have hc : Closed n fun s => I s ∧ Missing d s := h.closed.and fun hs hm st => hm.stable (st.stable (h.closed.good hs))
        exact ((hc.anticipateMissing now hd And.right).wp ⟨hs2, hm1.stable st⟩).mono fun _ _ h => h.1.1

theorem decisionExecute (h : Hooks n I I1 add) (now : Int) {d : Decision} (hd : d.Ok n) {s : Sys} (hs : I s) (hm : Missing d s)
    (hj : Justified s d.operationID) :
    WP (Decision_Execute n add now d) (fun _ => I) s := by
  unfold Decision_Execute
  have hc : Closed n fun s => (I s ∧ Justified s d.operationID) ∧ Missing d s :=
    (h.closed.justified d.operationID).and fun hs hm st => hm.stable (st.stable (h.closed.good hs.1))
  refine WP.bind (((hc.functionalEquivalence now hd).wp ⟨⟨hs, hj⟩, hm⟩).mono ?_)
  rintro _ s1 ⟨⟨⟨hs1, hj1⟩, hm1⟩, -⟩
  exact WP.ite (fun h0 => h.execute now hd hs1 hm1 h0 hj1) fun _ => WP.pure hs1

theorem goals (h : Hooks n I I1 add) (hg : ∀ {s}, I s → GoalsKnown n s) (fuel : Nat) (now : Int) (layer : Nat) {s : Sys} (hs : I s) :
    WP (Cycle_ProcessAndInferGoalEvents n fuel add now layer) (fun _ => I) s := by
  unfold Cycle_ProcessAndInferGoalEvents
  refine WP.get ?_
  refine WP.bind (((h.closed.withGoals s.goalsSelectedCnt).selectedGoals And.right fuel now layer _
    (fun i hi => List.mem_range.1 hi) _ ⟨⟨hs, hg hs⟩, Decision.zero_fit _, fun h => by cases h⟩).mono ?_)
  rintro d s1 ⟨⟨hs1, -⟩, ⟨hd, hm⟩, hj⟩
  have rest : ∀ {s}, I s → WP (do
      if !d.execute then
        let s ← get
        (List.range s.goalsSelectedCnt).forM fun i => do
          let s ← get
          nextProcessID
          relatedConcepts fuel (s.selectedGoals i).term
            (deriveSubgoals n (s.selectedGoals i) (s.selectedGoalsPriority i) now layer) () : M Unit) (fun _ => I) s := by
    intro s hs
    refine WP.ite (fun _ => WP.get ?_) fun _ => WP.pure hs
    have hc := h.closed.withGoals s.goalsSelectedCnt
    refine ((Keeps.forM fun i hi => ?_).wp (I := fun t => I t ∧ SelectedGoals n s.goalsSelectedCnt t)
      ⟨hs, hg hs⟩).mono fun _ _ h => h.1.1
    refine Keeps.bind_get fun s2 hs2 => ?_
    have hg := hs2.2 i (List.mem_range.1 hi)
    refine Keeps.seq hc.nextProcessID fun _ => ?_
    exact related_keeps' hc (fun c st => hc.deriveSubgoals hg.1 hg.2.1 now layer c st) _ _ _
  refine WP.ite (fun hx => ?_) fun _ => rest hs1
  have hx' : d.execute = true := by
    rw [Bool.and_eq_true] at hx; exact hx.1
  refine WP.bind (WP.modify ?_)
  have hc := (h.closed.justified d.operationID).step ⟨hs1, hj hx'⟩ .clearGoals
  exact WP.bind ((h.decisionExecute now hd hc.1 (hm.stable (Stable.of_eq rfl rfl)) hc.2).mono fun _ s2 hs2 => rest hs2)

theorem goalLayer {J : Sys → Prop} (hJ : Closed n J) (h : Hooks n (fun s => J s ∧ GoalsKnown n s) I1 add) (fuel : Nat) (now : Int)
    (layer : Nat) : Keeps J (processGoalLayer n fuel add now layer) fun _ => True := by
  unfold processGoalLayer
  refine Keeps.ite (fun _ => ?_) fun _ => Keeps.throw
  refine Keeps.of_wp fun s hs => WP.bind ?_
  intro _ s1 e
  refine (h.goals And.right fuel now layer ⟨hJ.step hs (.popGoal layer s1 e), popGoal_known (hJ.good hs) e⟩).mono ?_
  exact fun _ _ h => ⟨h.1, trivial⟩

/-- The inference cycle. -/
theorem cycle {J : Sys → Prop} (hJ : Closed n J) (h : Hooks n (fun s => (J s ∧ BeliefsKnown n s) ∧ GoalsKnown n s) I1 add) (fuel : Nat)
    (now : Int) : Keeps J (Cycle_Perform n fuel add now) fun _ => True := by
  unfold Cycle_Perform
  refine Keeps.of_wp fun s hs => WP.bind ?_
  intro _ s1 e
  refine WP.mono (Keeps.wp (I := fun s => J s ∧ BeliefsKnown n s) (Q := fun _ => True) ?_
    ⟨hJ.step hs (.popBelief s1 e), popBelief_known (hJ.good hs) e⟩) fun _ _ h => ⟨h.1.1, trivial⟩
  have hB := hJ.beliefsKnown
  refine Keeps.seq (hB.processBeliefs And.right _ _) fun _ => ?_
  refine Keeps.seq (hB.anticipate _ _ _ _) fun _ => ?_
  refine Keeps.seq (Keeps.forM fun layer _ => goalLayer hB h _ _ _) fun _ => ?_
  exact Keeps.seq (hB.inference And.right _ _) fun _ => hB.forgetting _

end Hooks
end ONA

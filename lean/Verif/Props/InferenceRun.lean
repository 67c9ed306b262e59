import Verif.Props.Derivations
import Verif.Proofs.Rules
/-
C50, C51: the inferences of a cycle.
-/
namespace ONA
variable [Arith] {n : Narsese}

theorem Adds.trans {now : Int} {P : Sys → Event → Prop} {s s1 s2 : Sys} (h : Adds n now P s s1) (h' : Adds n now P s1 s2) :
    Adds n now P s s2 := by
  induction h' with
  | refl => exact h
  | tail _ hp e ih => exact ih.tail hp e

theorem Adds.mono {now : Int} {P Q : Sys → Event → Prop} {s s' : Sys} (h : Adds n now P s s') (hq : ∀ s e, P s e → Q s e) :
    Adds n now Q s s' := by
  induction h with
  | refl => exact .refl
  | tail _ hp e ih => exact ih.tail (hq _ _ hp) e

/-- What is added by derivations with the given parameters and conclusions. -/
def Conclusion (n : Narsese) (d : Derivation) (J : Term → Truth → Bool → Prop) (s : Sys) (e : Event) : Prop :=
  (IsConclusion n d.stamp d.conclusionOccurrence d.currentTime e ∧
    ∀ c id, d.validation = some (c, id) → (s.concept_storage c).id = id) ∧ Follows n J e

theorem derivedEvent_keeps {J : Term → Truth → Bool → Prop} (d : Derivation) (truth : Truth) (term : Term) (varIntro only : Bool)
    (s0 : Sys) (hj : J term truth varIntro) :
    Keeps (Adds n d.currentTime (Conclusion n d J) s0)
      (NAL_DerivedEvent n { d with conclusionTruth := truth } term varIntro only) fun _ => True := by
  intro s u s' hs e
  refine ⟨hs.trans ((C50_derived e).mono fun s1 e1 h => ?_), trivial⟩
  obtain ⟨h1, h2, h3, h4⟩ := h
  refine ⟨⟨⟨h2, ?_, ?_, ?_, ?_⟩, h3⟩, term, varIntro, ?_, h4⟩
  · rw [h1]; rfl
  · rw [h1]; rfl
  · rw [h1]; rfl
  · rw [h1]; rfl
  · rw [h1]; exact hj

theorem ruleTable_keeps (d : Derivation) (t1 t2 : Term) (v1 v2 : Truth) (b : Bool) (s0 : Sys) :
    Keeps (Adds n d.currentTime (Conclusion n d (ByRule n t1 t2 v1 v2 b)) s0) (RuleTable_Apply n t1 t2 v1 v2 d b)
      fun _ => True := by
  unfold RuleTable_Apply
  refine Keeps.forM fun r hr => ?_
  split
  · exact Keeps.pure trivial
  · rename_i c hc
    exact Keeps.bind_lift fun v hv => derivedEvent_keeps d v _ _ _ s0
      ⟨r, hr, c, ruleConclusion_concludes hr hc, reduce_reduces c, hv, rfl⟩

theorem deriveSubstituted_keeps {J : Term → Truth → Bool → Prop} (d : Derivation) (t : Term) (subs : Substitution)
    (truthOf : R Truth) (s0 : Sys)
    (hj : ∀ t' v, Variable_ApplySubstitute n t subs = .ok (t', true) → truthOf = .ok v → J t' v false) :
    Keeps (Adds n d.currentTime (Conclusion n d J) s0) (deriveSubstituted n d t subs truthOf) fun _ => True := by
  unfold deriveSubstituted
  refine Keeps.bind_lift fun r hr => ?_
  refine Keeps.bind_lift fun v hv => ?_
  refine Keeps.ite (fun h => derivedEvent_keeps d v _ _ _ s0 (hj _ _ ?_ hv)) fun _ => Keeps.pure trivial
  rw [hr, ← h]

theorem remainingCondition_keeps (d : Derivation) (t1 t2 : Term) (v1 v2 : Truth) (s0 : Sys)
    (hi : n.Is (t2.get 0) IMPLICATION) (hc : n.Is ((Term_ExtractSubterm t2 1).get 0) CONJUNCTION) :
    Keeps (Adds n d.currentTime (Conclusion n d (Detaches n t1 t2 v1 v2)) s0)
      (remainingCondition n t1 v1 v2 d (Term_ExtractSubterm t2 1) (Term_ExtractSubterm t2 2)) fun _ => True := by
  unfold remainingCondition
  dsimp only
  refine Keeps.bind_lift fun subs1 h1 => ?_
  refine Keeps.bind_lift fun r h2 => ?_
  have hr : ∃ i j, (i = 1 ∧ j = 2 ∨ i = 2 ∧ j = 1) ∧
      Variable_Unify n (Term_ExtractSubterm (Term_ExtractSubterm t2 1) i) t1 = .ok r.1 ∧
      r.2 = Term_ExtractSubterm (Term_ExtractSubterm t2 1) j := by
    by_cases hs : subs1.success = true
    · rw [if_pos hs] at h2
      cases h2
      exact ⟨1, 2, .inl ⟨rfl, rfl⟩, h1, rfl⟩
    · rw [if_neg hs] at h2
      obtain ⟨subs2, h3, h4⟩ := R.bind_eq_ok.1 h2
      cases h4
      exact ⟨2, 1, .inr ⟨rfl, rfl⟩, h3, rfl⟩
  obtain ⟨i, j, hij, hu, hrest⟩ := hr
  refine Keeps.ite (fun hs => ?_) fun _ => Keeps.pure trivial
  refine Keeps.ite (fun hb => deriveSubstituted_keeps d _ _ _ s0 fun t' v ha hv => ?_) fun _ => Keeps.pure trivial
  cases hv
  refine .condition hi hc hij (c := (buildCompound (copulaAtom IMPLICATION) r.2 (Term_ExtractSubterm t2 2)).2) ?_ ⟨r.1, hu, hs, ha⟩
  rw [← hrest, ← hb]

theorem specialInferences_keeps (d : Derivation) (t1 t2 : Term) (v1 v2 : Truth) (s0 : Sys) :
    Keeps (Adds n d.currentTime (Conclusion n d (Detaches n t1 t2 v1 v2)) s0) (Cycle_SpecialInferences n t1 t2 v1 v2 d)
      fun _ => True := by
  have conj : Keeps (Adds n d.currentTime (Conclusion n d (Detaches n t1 t2 v1 v2)) s0)
      (if Narsese_copulaEquals n (t2.get 0) CONJUNCTION = true then do
        let subject_subs ← Variable_Unify n (Term_ExtractSubterm t2 1) t1
        if subject_subs.success = true then
          deriveSubstituted n d (Term_ExtractSubterm t2 2) subject_subs (Truth_AnonymousAnalogy v2 v1)
        else pure ()
      else pure ()) fun _ => True := by
    refine Keeps.ite (fun h => ?_) fun _ => Keeps.pure trivial
    refine Keeps.bind_lift fun r hr => ?_
    exact Keeps.ite (fun hs => deriveSubstituted_keeps d _ _ _ s0 fun t' v ha hv => .member (is_iff.1 h) ⟨r, hr, hs, ha⟩ hv)
      fun _ => Keeps.pure trivial
  unfold Cycle_SpecialInferences
  dsimp only
  refine Keeps.ite (fun hie => ?_) fun _ => conj
  rw [Bool.or_eq_true, is_iff, is_iff] at hie
  refine Keeps.bind_lift fun r hr => ?_
  have last : Keeps (Adds n d.currentTime (Conclusion n d (Detaches n t1 t2 v1 v2)) s0) (do
      let predicate_subs ← Variable_Unify n (Term_ExtractSubterm t2 2) t1
      if predicate_subs.success = true then do
        deriveSubstituted n d (Term_ExtractSubterm t2 1) predicate_subs
          (if Narsese_copulaEquals n (t2.get 0) IMPLICATION = true then Truth_Abduction v2 v1 else .ok (Truth_Analogy v2 v1))
        if Narsese_copulaEquals n (t2.get 0) CONJUNCTION = true then do
          let subject_subs ← Variable_Unify n (Term_ExtractSubterm t2 1) t1
          if subject_subs.success = true then
            deriveSubstituted n d (Term_ExtractSubterm t2 2) subject_subs (Truth_AnonymousAnalogy v2 v1)
          else pure ()
        else pure ()
      else if Narsese_copulaEquals n (t2.get 0) CONJUNCTION = true then do
        let subject_subs ← Variable_Unify n (Term_ExtractSubterm t2 1) t1
        if subject_subs.success = true then
          deriveSubstituted n d (Term_ExtractSubterm t2 2) subject_subs (Truth_AnonymousAnalogy v2 v1)
        else pure ()
      else pure ()) fun _ => True := by
    refine Keeps.bind_lift fun r hr => ?_
    refine Keeps.ite (fun hs => ?_) fun _ => conj
    refine Keeps.seq (deriveSubstituted_keeps d _ _ _ s0 fun t' v ha hv => ?_) fun _ => conj
    by_cases hi : Narsese_copulaEquals n (t2.get 0) IMPLICATION = true
    · rw [if_pos hi] at hv
      exact .abduction (is_iff.1 hi) ⟨r, hr, hs, ha⟩ hv
    · rw [if_neg hi] at hv
      cases hv
      exact .analogy (hie.resolve_left fun h => hi (is_iff.2 h)) (.inr ⟨rfl, rfl⟩) ⟨r, hr, hs, ha⟩
  have middle := Keeps.ite (I := Adds n d.currentTime (Conclusion n d (Detaches n t1 t2 v1 v2)) s0)
    (c := (Narsese_copulaEquals n (t2.get 0) IMPLICATION && Narsese_copulaEquals n ((Term_ExtractSubterm t2 1).get 0) CONJUNCTION) = true)
    (fun h => Keeps.seq (remainingCondition_keeps d t1 t2 v1 v2 s0 (is_iff.1 (Bool.and_eq_true_iff.1 h).1)
      (is_iff.1 (Bool.and_eq_true_iff.1 h).2)) fun _ => last)
    fun _ => last
  refine Keeps.ite (fun hs => ?_) fun _ => middle
  refine Keeps.seq (deriveSubstituted_keeps d _ _ _ s0 fun t' v ha hv => ?_) fun _ => middle
  cases hv
  by_cases hi : Narsese_copulaEquals n (t2.get 0) IMPLICATION = true
  · rw [if_pos hi]
    exact .deduction (is_iff.1 hi) ⟨r, hr, hs, ha⟩
  · rw [if_neg hi]
    exact .analogy (hie.resolve_left fun h => hi (is_iff.2 h)) (.inl ⟨rfl, rfl⟩) ⟨r, hr, hs, ha⟩

/-! ### Control of the traversal -/

omit [Arith] in
theorem content_concept (s : Sys) (c : Nat) (f : Concept → Concept)
    (h : ∀ x, { f x with processID := 0, processID2 := 0, processID3 := 0, usage := ⟨0, 0⟩ } =
      { x with processID := 0, processID2 := 0, processID3 := 0, usage := ⟨0, 0⟩ }) :
    Sys.content { s with concept_storage := upd s.concept_storage c (f (s.concept_storage c)) } = s.content := by
  have hf : (fun i => ({ upd s.concept_storage c (f (s.concept_storage c)) i with
      processID := 0, processID2 := 0, processID3 := 0, usage := ⟨0, 0⟩ } : Concept)) =
      fun i => { s.concept_storage i with processID := 0, processID2 := 0, processID3 := 0, usage := ⟨0, 0⟩ } := by
    funext i
    by_cases hi : i = c
    · subst hi
      rw [upd_same]
      exact h _
    · rw [upd_other _ _ hi]
  exact congrArg (fun g => { s.content with concept_storage := g }) hf

theorem Infers.selection {now : Int} {es : List Event} {s0 s : Sys} (h : Infers n now es s0 s) : s.selection = s0.selection := by
  have ha : ∀ {P : Sys → Event → Prop} {s1 s2 : Sys}, Adds n now P s1 s2 → s2.selection = s1.selection := by
    intro P s1 s2 h
    induction h with
    | refl => rfl
    | @tail sb sc e p _ _ e1 ih =>
      have := (At.addEvent' n e now p false false 0 sb () sc rfl e1).1
      exact (congrArg (fun v => v.2.2.2) this).trans ih
  have hc : ∀ {s1 s2 : Sys}, s2.content = s1.content → s2.selection = s1.selection := by
    intro s1 s2 h
    exact (congrArg Sys.selection h : s2.content.selection = s1.content.selection)
  induction h with
  | refl => rfl
  | control _ h ih => exact (hc h).trans ih
  | one _ _ h ih => exact (ha h).trans ih
  | two _ _ _ _ h ih =>
    obtain ⟨s1, s2, s3, h0, h1, h2, h3⟩ := h
    exact ((ha h3).trans ((ha h2).trans ((ha h1).trans (hc h0)))).trans ih

section
variable {σ : Type} {I : Sys → Prop}

/-- The state with the concept in cell `c` marked as visited. -/
def Sys.marked (s : Sys) (c : Nat) : Sys :=
  let v := { s.concept_storage c with processID := s.conceptProcessID }
  { s with concept_storage := upd s.concept_storage c v }

omit [Arith] in
theorem Keeps.visitConcept' (hm : ∀ s c, I s → I (s.marked c))
    {body : Nat → σ → M (Bool × σ)} (hb : ∀ c st, Keeps I (body c st) fun _ => True) (c : Option Nat) (st : σ) :
    Keeps I (visitConcept body c st) fun _ => True := by
  unfold visitConcept
  cases c with
  | none => exact Keeps.pure trivial
  | some c =>
    refine Keeps.of_wp fun s hs => ?_
    refine WP.get ?_
    refine WP.ite (fun _ => ?_) fun _ => WP.pure ⟨hs, trivial⟩
    refine WP.bind (WP.modify ?_)
    exact (hb c st).wp (hm s c hs)

omit [Arith] in
theorem Keeps.visitChain' (hm : ∀ s c, I s → I (s.marked c))
    {body : Nat → σ → M (Bool × σ)} (hb : ∀ c st, Keeps I (body c st) fun _ => True) : ∀ (fuel : Nat) (e : Option Nat) (st : σ),
    Keeps I (visitChain body fuel e st) fun _ => True := by
  intro fuel
  induction fuel with
  | zero =>
    intro e st
    cases e with
    | none => exact Keeps.pure trivial
    | some e => exact Keeps.throw
  | succ k ih =>
    intro e st
    cases e with
    | none => exact Keeps.pure trivial
    | some e =>
      unfold visitChain
      refine Keeps.bind_get fun s hs => ?_
      refine Keeps.seq (Keeps.visitConcept' hm hb _ _) fun r => ?_
      exact Keeps.ite (fun _ => ih _ _) fun _ => Keeps.pure trivial

/-- A property which the marks of concepts do not affect is preserved by a traversal if each visit preserves it. -/
theorem Keeps.related' (hm : ∀ s c, I s → I (s.marked c))
    {body : Nat → σ → M (Bool × σ)} (hb : ∀ c st, Keeps I (body c st) fun _ => True) (fuel : Nat) (t : Term) (st : σ) :
    Keeps I (relatedConcepts fuel t body st) fun _ => True := by
  unfold relatedConcepts
  generalize List.range UNIFICATION_DEPTH = l
  induction l generalizing st with
  | nil => exact Keeps.pure trivial
  | cons i rest ih =>
    unfold visitRelated
    refine Keeps.seq (Q := fun _ => True) ?_ fun c => ?_
    · refine Keeps.of_wp fun s hs => ?_
      intro a s' e
      obtain rfl := Closed.reads_find t s a s' e
      exact ⟨hs, trivial⟩
    refine Keeps.bind_get fun s hs => ?_
    refine Keeps.seq (Keeps.visitConcept' hm hb _ _) fun r => ?_
    refine Keeps.ite (fun _ => ?_) fun _ => Keeps.pure trivial
    refine Keeps.seq (Keeps.visitChain' hm hb _ _ _) fun r => ?_
    exact Keeps.ite (fun _ => ih _) fun _ => Keeps.pure trivial

end

/-! ### Inference -/

theorem usedBelief_eq (c : Nat) (e : Event) (s : Sys) :
    WP (usedBelief c (projectedSpike e (s.concept_storage c))) (fun b s' => s' = s ∧ b = beliefFor s c e) s := by
  unfold projectedSpike beliefFor
  dsimp only
  have hn : near e.occurrenceTime (s.concept_storage c).belief_spike.occurrenceTime = true ↔
      |e.occurrenceTime - (s.concept_storage c).belief_spike.occurrenceTime| < EVENT_BELIEF_DISTANCE := by
    unfold near
    rw [decide_eq_true_eq, Int.abs_eq_natAbs]
  by_cases h : e.occurrenceTime ≠ OCCURRENCE_ETERNAL ∧ (s.concept_storage c).belief_spike.type ≠ .deleted ∧
      |e.occurrenceTime - (s.concept_storage c).belief_spike.occurrenceTime| < EVENT_BELIEF_DISTANCE
  · rw [if_pos h, if_pos (by
      rw [Bool.and_eq_true, Bool.and_eq_true, decide_eq_true_eq, decide_eq_true_eq]
      exact ⟨⟨h.1, h.2.1⟩, hn.2 h.2.2⟩)]
    exact WP.pure ⟨rfl, rfl⟩
  · rw [if_neg h, if_neg (by
      rw [Bool.and_eq_true, Bool.and_eq_true, decide_eq_true_eq, decide_eq_true_eq]
      exact fun hx => h ⟨hx.1.1, hx.1.2, hn.1 hx.2⟩)]
    exact WP.get (WP.pure ⟨rfl, rfl⟩)

omit [Arith] in
theorem disjoint_iff {a b : Stamp} : Stamp_checkOverlap a b = false ↔ a.Disjoint b := by
  rw [← Bool.not_eq_true, C17_overlap_iff]
  constructor
  · intro h x hx hy
    exact h ⟨x, hx, hy⟩
  · rintro h ⟨x, hx, hy⟩
    exact h x hx hy

theorem usedBelief_later (c : Nat) (e : Event) (s sx : Sys) :
    WP (usedBelief c (projectedSpike e (s.concept_storage c))) (fun b s' => s' = sx ∧ b = beliefLater s c e sx) sx := by
  by_cases h : e.occurrenceTime ≠ OCCURRENCE_ETERNAL ∧ (s.concept_storage c).belief_spike.type ≠ .deleted ∧
      |e.occurrenceTime - (s.concept_storage c).belief_spike.occurrenceTime| < EVENT_BELIEF_DISTANCE
  · have hb := usedBelief_eq c e s
    unfold beliefLater
    dsimp only
    rw [if_pos h]
    have hp : ∃ b, projectedSpike e (s.concept_storage c) = some b := by
      unfold projectedSpike
      dsimp only
      rw [if_pos (by
        rw [Bool.and_eq_true, Bool.and_eq_true, decide_eq_true_eq, decide_eq_true_eq]
        refine ⟨⟨h.1, h.2.1⟩, ?_⟩
        unfold near
        rw [decide_eq_true_eq, ← Int.abs_eq_natAbs]
        exact h.2.2)]
      exact ⟨_, rfl⟩
    obtain ⟨b, hp⟩ := hp
    rw [hp] at hb ⊢
    have := (hb b s rfl).2
    exact WP.pure ⟨rfl, this⟩
  · unfold beliefLater
    dsimp only
    rw [if_neg h]
    have hp : projectedSpike e (s.concept_storage c) = none := by
      unfold projectedSpike
      dsimp only
      rw [if_neg (by
        rw [Bool.and_eq_true, Bool.and_eq_true, decide_eq_true_eq, decide_eq_true_eq]
        rintro ⟨⟨h1, h2⟩, h3⟩
        refine h ⟨h1, h2, ?_⟩
        unfold near at h3
        rw [decide_eq_true_eq, ← Int.abs_eq_natAbs] at h3
        exact h3)]
    rw [hp]
    exact WP.get (WP.pure ⟨rfl, rfl⟩)

/-- **C51, C74.** Inference between an event and a concept: if the evidence overlaps nothing happens, otherwise only
conclusions with the evidence of both are added, which follow by the rules. -/
theorem C51_pair {e : Event} {priority : ℚ} {now : Int} {c : Nat} {s s' : Sys}
    (r : inferWith n e priority now c (s.concept_storage c).id s = .ok ((), s')) :
    (¬ e.stamp.Disjoint (beliefFor s c e).stamp ∧ s' = s) ∨
    (e.stamp.Disjoint (beliefFor s c e).stamp ∧ Pairs n now e c s s') := by
  revert r
  suffices h : WP (inferWith n e priority now c (s.concept_storage c).id) (fun _ s' =>
      (¬ e.stamp.Disjoint (beliefFor s c e).stamp ∧ s' = s) ∨
      (e.stamp.Disjoint (beliefFor s c e).stamp ∧ Pairs n now e c s s')) s from h () s'
  unfold inferWith
  refine WP.get ?_
  dsimp only
  refine WP.bind ((usedBelief_eq c e s).mono ?_)
  rintro b s1 ⟨rfl, hb⟩
  refine WP.ite (fun h => ?_) fun h => WP.pure (.inl ⟨?_, rfl⟩)
  swap
  · intro hd
    rw [← disjoint_iff, ← hb] at hd
    rw [hd] at h
    exact h rfl
  rw [Bool.not_eq_true', disjoint_iff] at h
  refine WP.bind (WP.modify ?_)
  have conv : ∀ {p : ℚ} {J : Term → Truth → Bool → Prop} {sa sb : Sys}, Adds n now (Conclusion n
      { conclusionOccurrence := e.occurrenceTime, conclusionTruth := ⟨0, 0⟩, stamp := Stamp_make e.stamp b.stamp, currentTime := now
        parentPriority := priority, conceptPriority := p, occurrenceTimeOffset := e.occurrenceTimeOffset
        validation := some (c, (s1.concept_storage c).id) } J) sa sb →
      Adds n now (fun s2 e' => (IsConclusion n (Stamp_make e.stamp (beliefFor s1 c e).stamp) e.occurrenceTime now e' ∧
        (s2.concept_storage c).id = (s1.concept_storage c).id) ∧ Follows n J e') sa sb :=
    fun h => h.mono fun s2 e' hc => ⟨⟨by rw [← hb]; exact hc.1.1, hc.1.2 c _ rfl⟩, hc.2⟩
  refine WP.get ?_
  intro u s3 e3
  obtain ⟨u1, s4, e4, e3⟩ := M.bind_ok.1 e3
  have a1 := conv (ruleTable_keeps _ _ _ _ _ _ _ _ u1 s4 .refl e4).1
  obtain ⟨s5, s5', e5, e3⟩ := M.bind_ok.1 e3
  obtain ⟨h5, h5'⟩ := M.get_ok.1 e5
  subst h5 h5'
  obtain ⟨b2, s6, e6, e3⟩ := M.bind_ok.1 e3
  obtain ⟨rfl, hb2⟩ := usedBelief_later c e s1 _ _ _ e6
  obtain ⟨u2, s7, e7, e3⟩ := M.bind_ok.1 e3
  have a2 := conv (specialInferences_keeps _ _ _ _ _ _ _ u2 s7 .refl e7).1
  obtain ⟨s8, s8', e8, e3⟩ := M.bind_ok.1 e3
  obtain ⟨h8, h8'⟩ := M.get_ok.1 e8
  subst h8 h8'
  obtain ⟨b3, s9, e9, e3⟩ := M.bind_ok.1 e3
  obtain ⟨rfl, hb3⟩ := usedBelief_later c e s1 _ _ _ e9
  have a3 := conv (specialInferences_keeps _ _ _ _ _ _ _ u s3 .refl e3).1
  refine .inr ⟨hb ▸ h, _, _, _, content_concept s1 c (fun x => { x with usage := Usage_use x.usage now false }) (fun _ => rfl), ?_,
    hb2 ▸ a2, hb3 ▸ a3⟩
  rw [hb] at a1
  refine a1.mono fun s e' h => ?_
  simpa only [upd_same] using h

theorem inferenceBody_keeps {now : Int} {es : List Event} {s0 : Sys} {e : Event} (he : e ∈ es) (priority threshold : ℚ) (c : Nat)
    (counts : Nat × Nat) :
    Keeps (Infers n now es s0) (inferenceBody n e priority threshold now c counts) fun _ => True := by
  refine Keeps.of_wp fun s hs => ?_
  unfold inferenceBody
  refine WP.get ?_
  refine WP.ite (fun _ => WP.pure ⟨hs, trivial⟩) fun _ => ?_
  refine WP.bind (WP.set ?_)
  dsimp only
  have hs1 : Infers n now es s0 { s with Stats_countConceptsMatchedTotal := s.Stats_countConceptsMatchedTotal + 1 } :=
    hs.control rfl
  refine WP.ite (fun hb => ?_) fun _ => WP.pure ⟨hs1, trivial⟩
  rw [Bool.and_eq_true, decide_eq_true_eq] at hb
  intro r s' e1
  obtain ⟨u, s2, e2, e3⟩ := M.bind_ok.1 e1
  obtain ⟨-, rfl⟩ := M.pure_ok.1 e3
  refine ⟨?_, trivial⟩
  rcases C51_pair e2 with ⟨-, rfl⟩ | ⟨hd, ha⟩
  · exact hs1
  · exact hs1.two he hb.1 hd ha

theorem Infers.control_closed {now : Int} {es : List Event} {s0 : Sys} (s : Sys) (c : Nat) (h : Infers n now es s0 s) :
    Infers n now es s0 (s.marked c) :=
  h.control (content_concept s c (fun x => { x with processID := s.conceptProcessID }) fun _ => rfl)

theorem inferenceRound_keeps {now : Int} {es : List Event} {s0 : Sys} {i : Nat} (hi : s0.selectedBeliefs i ∈ es) (fuel k : Nat) :
    Keeps (Infers n now es s0) (inferenceRound n fuel i now k) fun _ => True := by
  refine Keeps.of_wp fun s hs => ?_
  unfold inferenceRound
  refine WP.get ?_
  refine WP.bind (WP.lift fun th _ => ?_)
  refine WP.bind (WP.set ?_)
  dsimp only
  have hsel : s.selectedBeliefs = s0.selectedBeliefs := congrArg Selection.beliefs hs.selection
  have he : s.selectedBeliefs i ∈ es := by rw [hsel]; exact hi
  have hs1 : Infers n now es s0 { s with conceptPriorityThreshold := th } := hs.control rfl
  intro r s' e1
  obtain ⟨u, s2, e2, e3⟩ := M.bind_ok.1 e1
  have hs2 : Infers n now es s0 s2 := hs1.one he (((ruleTable_keeps _ _ _ _ _ _ _ _ u s2 .refl e2).1).mono fun _ _ h => ⟨h.1.1, h.2⟩)
  obtain ⟨counts, s3, e4, e5⟩ := M.bind_ok.1 e3
  have hs3 := (Keeps.related' Infers.control_closed (fun c st => inferenceBody_keeps he _ _ c st) _ _ _ s2 counts s3 hs2 e4).1
  obtain ⟨u', s4, e6, e7⟩ := M.bind_ok.1 e5
  have h6 := M.modify_ok.1 e6
  obtain ⟨-, h7⟩ := M.pure_ok.1 e7
  subst h7
  subst h6
  exact ⟨hs3.control rfl, trivial⟩

/-- **C51 (inference of a cycle).** All that the inference step of a cycle adds to memory are admissible conclusions: from
one of the selected events alone, with its evidence, or from a selected event and a belief with disjoint evidence, with
the evidence of both. -/
theorem C51_inference {fuel : Nat} {now : Int} {s s' : Sys} (e : Cycle_Inference n fuel now s = .ok ((), s')) :
    Infers n now ((List.range s.beliefsSelectedCnt).map s.selectedBeliefs) s s' := by
  unfold Cycle_Inference at e
  obtain ⟨s1, s1', e1, e2⟩ := M.bind_ok.1 e
  obtain ⟨h1, h1'⟩ := M.get_ok.1 e1
  subst h1 h1'
  refine (Keeps.forM (I := Infers n now ((List.range s.beliefsSelectedCnt).map s.selectedBeliefs) s) (fun i hi => ?_) s () s' .refl e2).1
  refine Keeps.seq (Q := fun _ => True) ?_ fun _ => ?_
  · exact Keeps.modify fun s1 hs1 => hs1.control rfl
  refine Keeps.seq (Q := fun _ => True) ?_ fun _ => Keeps.pure trivial
  exact Keeps.loop' (fun k => inferenceRound_keeps (List.mem_map.2 ⟨i, hi, rfl⟩) fuel k) _ _

/-! ### Induction of links, and sequences -/

/-- **C51 (links).** A link from `a` to `b` is only derived from beliefs with disjoint evidence, in the order of time. What
is added to memory are admissible statements: the implication, or generalisations of it, with the evidence of both. -/
theorem C51_link {a b : Event} {s s' : Sys} (r : Cycle_ReinforceLink n a b s = .ok ((), s')) :
    s' = s ∨ a.type = .belief ∧ b.type = .belief ∧ a.stamp.Disjoint b.stamp ∧ a.occurrenceTime ≤ b.occurrenceTime ∧
      ∃ imp : Implication, Inference_BeliefInduction a b = .ok (some imp) ∧ MIN_CONFIDENCE ≤ imp.truth.confidence ∧
        Adds n s.currentTime (fun _ e => IsConclusion n (Stamp_make a.stamp b.stamp) s.currentTime s.currentTime e ∧
          e.truth = imp.truth ∧ e.occurrenceTimeOffset = ofLong (b.occurrenceTime - a.occurrenceTime) ∧
          (e.term = imp.term ∨ Introduced n imp.term e.term)) s s' := by
  have hfind := fun t => Closed.reads_find t
  revert r
  suffices h : WP (Cycle_ReinforceLink n a b) (fun _ s' => s' = s ∨ a.type = .belief ∧ b.type = .belief ∧
      a.stamp.Disjoint b.stamp ∧ a.occurrenceTime ≤ b.occurrenceTime ∧
      ∃ imp : Implication, Inference_BeliefInduction a b = .ok (some imp) ∧ MIN_CONFIDENCE ≤ imp.truth.confidence ∧
        Adds n s.currentTime (fun _ e => IsConclusion n (Stamp_make a.stamp b.stamp) s.currentTime s.currentTime e ∧
          e.truth = imp.truth ∧ e.occurrenceTimeOffset = ofLong (b.occurrenceTime - a.occurrenceTime) ∧
          (e.term = imp.term ∨ Introduced n imp.term e.term)) s s') s from h () s'
  unfold Cycle_ReinforceLink
  refine WP.ite (fun ht => ?_) fun _ => WP.pure (.inl rfl)
  rw [Bool.and_eq_true, decide_eq_true_eq, decide_eq_true_eq] at ht
  refine WP.reads (hfind _) fun A _ => ?_
  refine WP.reads (hfind _) fun B _ => ?_
  refine WP.ite (fun hc => ?_) fun _ => WP.pure (.inl rfl)
  rw [Bool.and_eq_true, Bool.not_eq_true', disjoint_iff] at hc
  refine WP.bind (WP.lift fun o ho => ?_)
  cases o with
  | none => exact WP.pure (.inl rfl)
  | some imp =>
    dsimp only
    refine WP.ite (fun hm => ?_) fun _ => WP.pure (.inl rfl)
    refine WP.get ?_
    intro u s2 e
    right
    have ho' := ho
    unfold Inference_BeliefInduction at ho'
    obtain ⟨u1, e1, ho'⟩ := R.bind_eq_ok.1 ho'
    have hle : a.occurrenceTime ≤ b.occurrenceTime := by
      have := cassert_eq_ok.1 e1
      rw [decide_eq_true_eq] at this
      exact this
    have hst : imp.stamp = Stamp_make a.stamp b.stamp ∧ imp.occurrenceTimeOffset = ofLong (b.occurrenceTime - a.occurrenceTime) := by
      cases hb : buildCompound (copulaAtom TEMPORAL_IMPLICATION) a.term b.term with
      | mk ok t =>
        simp only [hb] at ho'
        cases ok with
        | false => simp at ho'
        | true =>
          simp only [if_true] at ho'
          obtain ⟨v, ev, ho2⟩ := R.bind_eq_ok.1 ho'
          cases ho2
          exact ⟨rfl, rfl⟩
    refine ⟨ht.1, ht.2, hc.2, hle, imp, ho, hm, (C50_derived e).mono fun s1 e1 h => ?_⟩
    obtain ⟨h1, h2, h3, h4⟩ := h
    refine ⟨⟨h2, ?_, ?_, ?_, ?_⟩, ?_, ?_, ?_⟩
    · rw [h1]; rfl
    · rw [h1]; exact hst.1
    · rw [h1]; rfl
    · rw [h1]; rfl
    · rw [h1]; rfl
    · rw [h1]; exact hst.2
    · rcases h4 with h4 | h4
      · exact .inl h4.1
      · exact .inr h4.2

/-- **C51 (sequences).** If the evidence of an event and of an earlier one overlaps, they are not combined: neither to a
sequence nor to a link. -/
theorem C51_sequence {fuel c : Nat} {post : Event} {op_id : Nat} {priority : ℚ} {now : Int} {s s' : Sys}
    (h : ¬ (s.concept_storage c).belief_spike.stamp.Disjoint post.stamp)
    (r : sequenceWith n fuel c post op_id priority now s = .ok ((), s')) : s' = s := by
  rw [← disjoint_iff, Bool.not_eq_false] at h
  revert r
  suffices hw : WP (sequenceWith n fuel c post op_id priority now) (fun _ s' => s' = s) s from hw () s'
  unfold sequenceWith
  refine WP.get ?_
  dsimp only
  refine WP.ite (fun _ => ?_) fun _ => WP.pure rfl
  refine WP.ite (fun hc => ?_) fun _ => WP.pure rfl
  rw [h] at hc
  simp at hc

/-- **C51 (conditions), partial.** A condition before an operation is only used if its evidence is disjoint from that of the
consequence. That it is disjoint from the evidence of the operation is not checked (see `C51_operation_overlap`). -/
theorem C51_condition_partial {opc prec : Nat} {post : Event} {now : Int} {s s' : Sys}
    (h : ¬ (s.concept_storage prec).belief_spike.stamp.Disjoint post.stamp)
    (r : conditionOperation n opc prec post now s = .ok ((), s')) : s' = s := by
  rw [← disjoint_iff, Bool.not_eq_false] at h
  revert r
  suffices hw : WP (conditionOperation n opc prec post now) (fun _ s' => s' = s) s from hw () s'
  unfold conditionOperation
  refine WP.get ?_
  dsimp only
  refine WP.ite (fun hc => ?_) fun _ => WP.pure rfl
  rw [h] at hc
  simp at hc

end ONA

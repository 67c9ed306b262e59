import Verif.Proofs.EndsCycle
/-
How inference and forgetting can end.
-/
namespace ONA
variable [Arith] [Bounds] {n : Narsese} {I : Sys → Prop}

theorem Ending.deriveSubstituted (h : Closed n I) {d : Derivation} (hd : d.Good) {t : Term} (hk : n.Knows t)
    {subs : Substitution} (hsu : n.KnowsSubs subs.map) (hok : subs.success = true) {v : R Truth} (he : Ends v)
    (hv : ∀ t, v = .ok t → t.Valid) : Ending I (ONA.deriveSubstituted n d t subs v) := by
  unfold ONA.deriveSubstituted
  refine Ending.bind_lift (Ends.apply hok) fun r hr => Ending.bind_lift he fun t ht => ?_
  refine Ending.ite (fun _ => ?_) fun _ => Ending.pure
  exact Ending.derivedEvent h (d := { d with conclusionTruth := t }) ⟨hd.stamp, hd.parent, hd.concept⟩ (hv t ht) (hk.apply hsu hr) _ _

theorem Ending.remaining (h : Closed n I) {t : Term} (ht : n.Knows t) {v1 v2 : Truth} (h1 : v1.Valid) (h2 : v2.Valid)
    {d : Derivation} (hd : d.Good) {a b : Term} (ha : n.Knows a) (hb : n.Knows b) :
    Ending I (remainingCondition n t v1 v2 d a b) := by
  unfold remainingCondition
  refine Ending.base h fun hn => ?_
  refine Ending.bind_lift Ends.unify fun subs hsu => Ending.bind_lift ?_ fun r hr => ?_
  · exact Ends.ite (fun _ => Ends.ok) fun _ => Ends.bind Ends.unify fun _ _ => Ends.ok
  refine Ending.ite (fun hok => ?_) fun _ => Ending.pure
  have hr' : n.KnowsSubs r.1.map ∧ n.Knows r.2 := by
    split at hr
    · cases hr; exact ⟨ht.unify hsu, ha.extract 2⟩
    · obtain ⟨subs2, e1, e2⟩ := R.bind_eq_ok.1 hr
      cases e2
      exact ⟨ht.unify e1, ha.extract 1⟩
  refine Ending.ite (fun _ => ?_) fun _ => Ending.pure
  exact Ending.deriveSubstituted h hd (hn.compound _ hr'.2 hb) hr'.1 hok Ends.ok fun t e => TruthFunction.Deduction.run_valid h2 h1 e

theorem Ending.special (h : Closed n I) {t1 t2 : Term} (ht1 : n.Knows t1) (ht2 : n.Knows t2) {v1 v2 : Truth} (h1 : v1.Valid)
    (h2 : v2.Valid) {d : Derivation} (hd : d.Good) :
    Ending I (Cycle_SpecialInferences n t1 t2 v1 v2 d) := by
  unfold Cycle_SpecialInferences
  have w1 : ∀ b : Bool, ∀ t, (Except.ok (if b = true then Truth_Deduction v2 v1 else Truth_Analogy v2 v1) : R Truth) = .ok t →
      t.Valid := by
    rintro b t ⟨⟩
    split
    · exact TruthFunction.Deduction.run_valid h2 h1 rfl
    · exact TruthFunction.Analogy.run_valid h2 h1 rfl
  have w2 : ∀ b : Bool, ∀ t, (if b = true then Truth_Abduction v2 v1 else .ok (Truth_Analogy v2 v1) : R Truth) = .ok t →
      t.Valid := by
    intro b t e
    split at e
    · exact TruthFunction.Abduction.run_valid h2 h1 e
    · exact TruthFunction.Analogy.run_valid h2 h1 e
  have w3 : ∀ t, Truth_AnonymousAnalogy v2 v1 = .ok t → t.Valid := by
    intro t e
    obtain ⟨t', e', hv, _⟩ := C20_truth_functions Truth_AnonymousAnalogy
      (by simp only [allTruthFunctions, List.mem_cons, true_or, or_true]) v2 v1 h2 h1
    rw [e] at e'
    cases e'
    exact hv
  have e2 : ∀ b : Bool, Ends (if b = true then Truth_Abduction v2 v1 else .ok (Truth_Analogy v2 v1) : R Truth) :=
    fun b => Ends.ite (fun _ => Ends.abduction) fun _ => Ends.ok
  extract_lets b0 sub pred jp1 jp2 jp3
  have k1 : ∀ u, Ending I (jp1 u) := by
    intro u
    dsimp only [jp1]
    refine Ending.ite (fun _ => ?_) fun _ => Ending.pure
    refine Ending.bind_lift Ends.unify fun subs hsu => ?_
    refine Ending.ite (fun hok => ?_) fun _ => Ending.pure
    exact Ending.deriveSubstituted h hd (ht2.extract 2) (ht1.unify hsu) hok Ends.anonymousAnalogy w3
  have k2 : ∀ u, Ending I (jp2 u) := by
    intro u
    dsimp only [jp2]
    refine Ending.bind_lift Ends.unify fun subs hsu => ?_
    refine Ending.ite (fun hok => ?_) fun _ => k1 ()
    exact Ending.seq (Ending.deriveSubstituted h hd (ht2.extract 1) (ht1.unify hsu) hok (e2 _) (w2 _))
      (h.deriveSubstituted hd (ht2.extract 1) (ht1.unify hsu) (w2 _)) fun u => k1 u
  have k3 : ∀ u, Ending I (jp3 u) := by
    intro u
    dsimp only [jp3]
    refine Ending.ite (fun _ => ?_) fun _ => k2 ()
    exact Ending.seq (Ending.remaining h ht1 h1 h2 hd (ht2.extract 1) (ht2.extract 2))
      (h.remaining ht1 h1 h2 hd (ht2.extract 1) (ht2.extract 2)) fun u => k2 u
  refine Ending.ite (fun _ => ?_) fun _ => k1 ()
  refine Ending.bind_lift Ends.unify fun subs hsu => ?_
  refine Ending.ite (fun hok => ?_) fun _ => k3 ()
  exact Ending.seq (Ending.deriveSubstituted h hd (ht2.extract 2) (ht1.unify hsu) hok Ends.ok (w1 _))
    (h.deriveSubstituted hd (ht2.extract 2) (ht1.unify hsu) (w1 _)) fun u => k3 u

omit [Arith] in
theorem Ending.used (c : Nat) (spike : Option Event) : Ending I (usedBelief c spike) := by
  unfold usedBelief
  cases spike with
  | some b => exact Ending.pure
  | none => exact Ending.bind_get fun s hs => Ending.pure

theorem Ending.infer (h : Closed n I) {e : Event} (he : e.Good n) {p : ℚ} (hp : InUnit p) (now : Int) (c : Nat) (v : Int) :
    Ending I (inferWith n e p now c v) := by
  unfold inferWith
  refine Ending.bind_get fun s hs => ?_
  have hsp : ∀ x, projectedSpike e (s.concept_storage c) = some x → x.Good n :=
    fun x hx => Closed.projectedSpike_good ((h.good hs).concepts c) hx
  refine Ending.bind (Ending.used _ _) (h.used c hsp) fun belief hb => ?_
  refine Ending.ite (fun _ => ?_) fun _ => Ending.pure
  refine Ending.seq Ending.modifyConcept (h.modifyConcept _ _ fun s hs => h.useConcept hs _ _ _) fun _ => ?_
  refine Ending.bind_get fun s1 hs1 => ?_
  have d1 : ({ conclusionOccurrence := e.occurrenceTime, conclusionTruth := ⟨0, 0⟩, stamp := Stamp_make e.stamp belief.stamp, currentTime := now, parentPriority := p, conceptPriority := (s1.concept_storage c).priority, occurrenceTimeOffset := e.occurrenceTimeOffset, validation := some (c, v) } : Derivation).Good :=
    ⟨Stamp_make_wf _ _, hp, ((h.good hs1).concepts c).priority⟩
  refine Ending.seq (Ending.ruleTable h d1 he.term ((h.good hs1).concepts c).term he.truth hb.truth _)
    (h.ruleTable d1 he.term ((h.good hs1).concepts c).term he.truth hb.truth _) fun _ => ?_
  refine Ending.bind_get fun s2 hs2 => ?_
  have d2 : ({ conclusionOccurrence := e.occurrenceTime, conclusionTruth := ⟨0, 0⟩, stamp := Stamp_make e.stamp belief.stamp, currentTime := now, parentPriority := p, conceptPriority := (s2.concept_storage c).priority, occurrenceTimeOffset := e.occurrenceTimeOffset, validation := some (c, v) } : Derivation).Good :=
    ⟨Stamp_make_wf _ _, hp, ((h.good hs2).concepts c).priority⟩
  refine Ending.bind (Ending.used _ _) (h.used c hsp) fun belief2 hb2 => ?_
  refine Ending.seq (Ending.special h he.term ((h.good hs2).concepts c).term he.truth hb2.truth d2)
    (h.special he.term ((h.good hs2).concepts c).term he.truth hb2.truth d2) fun _ => ?_
  refine Ending.bind_get fun s3 hs3 => ?_
  refine Ending.bind (Ending.used _ _) (h.used c hsp) fun belief3 hb3 => ?_
  exact Ending.special h ((h.good hs3).concepts c).term he.term hb3.truth he.truth ⟨Stamp_make_wf _ _, hp, ((h.good hs3).concepts c).priority⟩

theorem Ending.inferBody (h : Closed n I) {e : Event} (he : e.Good n) {p : ℚ} (hp : InUnit p) (threshold : ℚ) (now : Int) (c : Nat)
    (counts : Nat × Nat) : Ending I (inferenceBody n e p threshold now c counts) := by
  unfold inferenceBody
  refine Ending.bind_get fun s hs => ?_
  dsimp only
  refine Ending.ite (fun _ => Ending.pure) fun _ => ?_
  refine Ending.seq (Q := fun _ => True) Ending.set
    (Keeps.set (h.statistics hs s.conceptPriorityThreshold _ s.Stats_countConceptsMatchedMax)) fun _ => ?_
  refine Ending.ite (fun _ => ?_) fun _ => Ending.pure
  exact Ending.seq (Ending.infer h he hp _ _ _) (h.infer he hp _ _ _) fun _ => Ending.pure

theorem Ends.adaptedThreshold {t : ℚ} {m now : Int} : Ends (ONA.adaptedThreshold t m now) := by
  unfold ONA.adaptedThreshold
  exact Ends.ite (fun _ => Ends.error .clock) fun _ => Ends.ok

omit [Bounds] in
/-- A visit which may change the index is counted, and there are no more than `BELIEF_CONCEPT_MATCH_TARGET` of them. -/
theorem inferBody_nearer {e : Event} {p : ℚ} {threshold : ℚ} {now : Int} (c : Nat) (counts : Nat × Nat) (s : Sys) :
    WP (inferenceBody n e p threshold now c counts) (fun r s' =>
      Nearer (fun st : Nat × Nat => BELIEF_CONCEPT_MATCH_TARGET - st.2) counts s r.2 s' ∧
        (r.2.2 = counts.2 + 1 ∧ r.2.1 = counts.1 + 1 ∨ r.2 = counts)) s := by
  unfold inferenceBody
  refine WP.get ?_
  dsimp only
  refine WP.ite (fun _ => WP.pure ⟨.inl ⟨rfl, Nat.le_refl _⟩, .inr rfl⟩) fun _ => ?_
  refine WP.bind (WP.set ?_)
  refine WP.ite (fun hc => ?_) fun hc => WP.pure ⟨.inl ⟨rfl, ?_⟩, .inl ⟨rfl, rfl⟩⟩
  · rw [Bool.and_eq_true, decide_eq_true_eq, decide_eq_true_eq] at hc
    refine WP.bind fun _ s' _ => WP.pure ⟨.inr ?_, .inl ⟨rfl, rfl⟩⟩
    have := hc.2
    dsimp only
    omega
  · dsimp only
    omega

omit [Bounds] in
/-- The two counts of matched concepts grow together. -/
theorem inferRelated_counts (h : Closed n I) {e : Event} (he : e.Good n) {p : ℚ} (hp : InUnit p) {threshold : ℚ} {now : Int} (fuel : Nat)
    (count : Nat) : Keeps I (relatedConcepts fuel e.term (inferenceBody n e p threshold now) (0, count)) fun r => r.2 = r.1 + count := by
  refine related_keeps h (P := fun r : Nat × Nat => r.2 = r.1 + count) (fun c st hst => ?_) _ _ _ (Nat.zero_add _).symm
  refine Keeps.of_wp fun s hs => ?_
  refine (((h.inferBody he hp threshold now c st).wp hs).and (inferBody_nearer c st s)).mono ?_
  rintro r s' ⟨⟨hs', -⟩, -, hr⟩
  refine ⟨hs', ?_⟩
  rcases hr with ⟨h1, h2⟩ | h1
  · rw [h1, h2]; omega
  · rw [h1]; exact hst

omit [Bounds] in
/-- A round after which another one follows has matched another concept. -/
theorem inferRound_count (h : Closed n I) (fuel i : Nat) (hi : ∀ {s}, I s → (s.selectedBeliefs i).Good n ∧ InUnit (s.selectedBeliefsPriority i))
    (now : Int) (count : Nat) (s : Sys) (hs : I s) : WP (inferenceRound n fuel i now count)
      (fun r _ => r.1 = true → BELIEF_CONCEPT_MATCH_TARGET - r.2 < BELIEF_CONCEPT_MATCH_TARGET - count) s := by
  unfold inferenceRound
  obtain ⟨he, hp⟩ := hi hs
  refine WP.get (WP.bind (WP.lift fun t _ => WP.bind (WP.set ?_)))
  have hs1 := h.statistics hs t s.Stats_countConceptsMatchedTotal s.Stats_countConceptsMatchedMax
  have d1 : ({ conclusionOccurrence := (s.selectedBeliefs i).occurrenceTime, conclusionTruth := ⟨0, 0⟩, stamp := (s.selectedBeliefs i).stamp, currentTime := now, parentPriority := s.selectedBeliefsPriority i, conceptPriority := 1, occurrenceTimeOffset := 0, validation := none } : Derivation).Good :=
    ⟨he.stamp, hp, ⟨zero_le_one, le_refl _⟩⟩
  refine WP.bind (((h.ruleTable d1 he.term Narsese.knows_zero he.truth Truth.zero_valid _).wp hs1).mono ?_)
  rintro _ s2 ⟨hs2, -⟩
  refine WP.bind (((inferRelated_counts h he hp fuel count).wp hs2).mono ?_)
  rintro counts s3 ⟨hs3, hc⟩
  refine WP.bind (WP.modify (WP.pure fun hr => ?_))
  simp only [Bool.not_eq_true', Bool.or_eq_false_iff, decide_eq_false_iff_not] at hr
  dsimp only
  omega

theorem Ending.inferRound (h : Closed n I) {fuel : Nat} (hf : Enough I fuel) (i : Nat) (hi : ∀ {s}, I s → (s.selectedBeliefs i).Good n ∧ InUnit (s.selectedBeliefsPriority i))
    (now : Int) (count : Nat) : Ending I (inferenceRound n fuel i now count) := by
  unfold inferenceRound
  refine Ending.bind_get fun s hs => ?_
  refine Ending.bind_lift Ends.adaptedThreshold fun t _ => ?_
  refine Ending.seq (Q := fun _ => True) Ending.set
    (Keeps.set (h.statistics hs t s.Stats_countConceptsMatchedTotal s.Stats_countConceptsMatchedMax)) fun _ => ?_
  obtain ⟨he, hp⟩ := hi hs
  have d1 : ({ conclusionOccurrence := (s.selectedBeliefs i).occurrenceTime, conclusionTruth := ⟨0, 0⟩, stamp := (s.selectedBeliefs i).stamp, currentTime := now, parentPriority := s.selectedBeliefsPriority i, conceptPriority := 1, occurrenceTimeOffset := 0, validation := none } : Derivation).Good :=
    ⟨he.stamp, hp, ⟨zero_le_one, le_refl _⟩⟩
  refine Ending.seq (Ending.ruleTable h d1 he.term Narsese.knows_zero he.truth Truth.zero_valid _)
    (h.ruleTable d1 he.term Narsese.knows_zero he.truth Truth.zero_valid _) fun _ => ?_
  refine Ending.seq (fun s hs => related_ends (J := fun _ => I) (fun _ => h) (fun c st s hs => ((h.inferBody he hp _ _ c st).wp hs).mono fun _ _ h => h.1)
      (fun c st s hs => Ending.inferBody h he hp _ _ c st s hs) (m := fun st => BELIEF_CONCEPT_MATCH_TARGET - st.2) (fun _ => Nat.sub_le _ _)
      (fun c st s _ => (inferBody_nearer c st s).mono fun _ _ h => h.1) _ (hf.mono fun _ hs => hs.choose_spec) _ _ s hs)
    (related_keeps' h (fun c st => h.inferBody he hp _ _ _ _) _ _ _) fun counts => ?_
  exact Ending.bind_modify (fun s hs => h.statistics hs s.conceptPriorityThreshold s.Stats_countConceptsMatchedTotal _) Ending.pure

theorem Ending.inference (h : Closed n I) (hb : ∀ {s}, I s → BeliefsKnown n s) {fuel : Nat} (hf : Enough I fuel) (now : Int) :
    Ending I (Cycle_Inference n fuel now) := by
  unfold Cycle_Inference
  intro s hs
  refine EndsAt.bind_get ?_
  have hc := h.withBeliefs s.beliefsSelectedCnt
  refine (Ending.forM (fun i hi => ?_) (fun i hi => ?_) : Ending (fun t => I t ∧ SelectedBeliefs n s.beliefsSelectedCnt t) _) s ⟨hs, hb hs⟩
  · refine Ending.seq Ending.nextProcessID hc.nextProcessID fun _ => ?_
    have hg := fun {s : Sys} (hs : I s ∧ SelectedBeliefs n _ s) => And.intro (hs.2 i (List.mem_range.1 hi)).1 (hs.2 i (List.mem_range.1 hi)).2.1
    refine Ending.seq (Q := fun _ => True) (fun s hs => Ending.loop (P := fun _ => True) (fun count _ => BELIEF_CONCEPT_MATCH_TARGET - count)
      (fun j _ => Ending.inferRound hc (hf.mono fun _ hs => hs.1) _ hg _ _)
      (fun j _ => (hc.inferRound _ _ hg _ _).mono fun _ _ => trivial) (fun j s _ hs => inferRound_count hc _ _ hg _ _ s hs) _ _ _ trivial hs
      (Nat.lt_succ_of_le (Nat.sub_le _ _)))
      (Keeps.loop' (fun j => hc.inferRound _ _ (fun hs => ⟨(hs.2 i (List.mem_range.1 hi)).1, (hs.2 i (List.mem_range.1 hi)).2.1⟩) _ _) _ _) fun _ => Ending.pure
  · refine Keeps.seq hc.nextProcessID fun _ => ?_
    exact Keeps.seq (Keeps.loop' (fun j => hc.inferRound _ _ (fun hs => ⟨(hs.2 i (List.mem_range.1 hi)).1, (hs.2 i (List.mem_range.1 hi)).2.1⟩) _ _) _ _)
      fun _ => Keeps.pure trivial

/-! ### Forgetting -/

omit [Arith] in
theorem Ends.setPriorities {β : Type} {f : Item ℚ β → R ℚ} (h : ∀ x, Ends (f x)) : ∀ (k : Nat) (q : PriorityQueue ℚ β),
    Ends (ONA.setPriorities f q k) := by
  intro k
  induction k with
  | zero => intro q; exact Ends.ok
  | succ k ih => intro q; unfold ONA.setPriorities; exact Ends.bind (h _) fun _ _ => ih _

theorem Ends.decayQueue {type : EventType} {q : PriorityQueue ℚ Nat} {st : Nat → Event} (h : BufferOk n type q st) :
    Ends (ONA.decayQueue q) := by
  unfold ONA.decayQueue
  refine Ends.bind (Ends.setPriorities (fun _ => Ends.ok) _ _) fun q1 e1 => ?_
  have e3 := PriorityQueue.setPriorities_overwrite _ (fun item => fmul item.priority (rnd (9999 / 10000))) q q1
    (fun x _ p hp => by cases hp; rfl) e1
  subst e3
  obtain ⟨q2, e4, -⟩ := PriorityQueue.rebuild_spec
    (q := q.overwrite fun item => fmul item.priority (rnd (9999 / 10000))) h.queue.bound
    (by rw [PriorityQueue.overwrite_slots]; exact h.queue.nodup)
  exact Ends.of_ok e4

theorem Ends.decayLayers {s : Sys} : ∀ (ls : List Nat) (f : Nat → PriorityQueue ℚ Nat),
    (∀ l, BufferOk n .goal (f l) (s.cycling_goal_event_storage l)) → Ends (ONA.decayLayers ls f) := by
  intro ls
  induction ls with
  | nil => intro f _; exact Ends.ok
  | cons layer rest ih =>
    intro f hf
    unfold ONA.decayLayers
    refine Ends.bind (Ends.decayQueue (hf layer)) fun q e => ih _ fun l => ?_
    by_cases h : l = layer
    · subst h; rw [upd_same]; exact (buffer_decay (hf l) e).1
    · rw [upd_other _ _ h]; exact hf l

theorem Ending.forgetting (h : Closed n I) (now : Int) : Ending I (Cycle_RelativeForgetting now) := by
  unfold Cycle_RelativeForgetting
  refine Ending.bind_get fun s hs => ?_
  have hg := h.good hs
  refine Ending.bind_lift (Ends.decayQueue hg.beliefs) fun bq _ => ?_
  refine Ending.bind_lift (Ends.decayLayers _ _ hg.goals) fun gq _ => ?_
  have hu : ∀ c, ∃ x, Usage_usefulness (s.concept_storage c).usage now = .ok x ∧ x ≤ 1 := by
    intro c
    obtain ⟨x, a, _, b, _⟩ := C45_range (s.concept_storage c).usage now (hg.concepts c).useCount
    exact ⟨x, a, b⟩
  choose u hu1 hu2 using hu
  refine Ending.bind_lift (Ends.setPriorities (fun x => Ends.of_ok (hu1 _)) _ _) fun q1 f3 => ?_
  have e5 := PriorityQueue.setPriorities_overwrite _ (fun item => u item.address) s.concepts q1
    (fun x _ p hp => by rw [hu1] at hp; cases hp; rfl) f3
  subst e5
  obtain ⟨q2, e6, -⟩ := PriorityQueue.rebuild_spec (q := s.concepts.overwrite fun item => u item.address)
    hg.mem.queue.bound (by rw [PriorityQueue.overwrite_slots]; exact hg.mem.queue.nodup)
  exact Ending.bind_lift (Ends.of_ok e6) fun _ _ => Ending.set

end ONA

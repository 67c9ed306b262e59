import Verif.Spec.API
import Verif.Proofs.Extends
/-
Every state after a history of calls meets the invariant.
-/
namespace ONA
variable [Arith] {n n' : Narsese} {s s' : Sys} {z : Sizes}

omit [Arith] in
theorem freshQueue_bufferOk [Arith] (ty : EventType) {k : Nat} (hk : 0 < k) : BufferOk n ty (freshQueue k) fun _ => Event.zero := by
  have hc : (freshQueue k).contents = [] := rfl
  refine ⟨PriorityQueue.init_inv _ _ ?_, hk, ?_, ?_, ?_, ?_, fun _ => Event.zero_good⟩
  · simp [List.nodup_range]
  all_goals
    intro x hx
    rw [hc] at hx
    cases hx

theorem Concept.zero_good : Concept.zero.Good n :=
  ⟨Narsese.knows_zero, Event.zero_good, (by show EventType.deleted ≠ .goal; exact fun h => by cases h), (fun h => absurd rfl h), Event.zero_good,
    Event.zero_good, Event.zero_good, fun _ => Table.zero_good, Table.zero_good,
    (by show (0 : Int) ≤ 0; omega), ⟨le_refl _, by show (0 : ℚ) ≤ 1; norm_num⟩⟩

/-- The state after `NAR_INIT`. -/
theorem init_shape {sz : MemorySizes} {atoms : Nat} {s0 : Sys} (e : NAR_INIT_sizes sz atoms s0 = .ok (n, s)) :
    ∃ ht idx, HashTable.init sz.buckets sz.concepts = .ok ht ∧
      InvertedAtomIndex.initWith (UNIFICATION_DEPTH * sz.concepts) = .ok idx ∧ Narsese.initWith atoms = .ok n ∧
      s = { s0 with
        RESTRICTED_CONCEPT_CREATION := false, HTconcepts := ht, conceptPriorityThreshold := 0
        concepts := freshQueue sz.concepts, concept_storage := fun _ => Concept.zero
        cycling_belief_events := freshQueue sz.beliefEvents, cycling_belief_event_storage := fun _ => Event.zero
        cycling_goal_events := fun _ => freshQueue sz.goalEvents, cycling_goal_event_storage := fun _ _ => Event.zero
        index := idx, occurrenceTimeIndex := OccurrenceTimeIndex.zero, operations := fun _ => Operation.zero
        concept_id := 0, event := Event_INIT s0.event, conceptProcessID := 0, conceptProcessID2 := 0
        conceptProcessID3 := 0, currentTime := 1, initialized := true, op_k := 0 } := by
  unfold NAR_INIT_sizes at e
  rw [R.bind_eq_ok] at e
  obtain ⟨_, _, e⟩ := e
  rw [R.bind_eq_ok] at e
  obtain ⟨⟨_, s1⟩, e1, e⟩ := e
  dsimp only at e
  rw [R.bind_eq_ok] at e
  obtain ⟨n1, e2, e⟩ := e
  rw [R.bind_eq_ok] at e
  obtain ⟨⟨_, s2⟩, e3, e⟩ := e
  unfold Memory_INIT_sizes at e1
  simp only [M.bind_ok] at e1
  obtain ⟨ht, u1, g1, e1⟩ := e1
  obtain ⟨k1, rfl⟩ := M.lift_ok.1 g1
  obtain ⟨idx, u2, g2, e1⟩ := e1
  obtain ⟨k2, rfl⟩ := M.lift_ok.1 g2
  have f1 := M.modify_ok.1 e1
  unfold Cycle_INIT at e3
  have f3 := M.modify_ok.1 e3
  subst f1
  subst f3
  cases e
  exact ⟨ht, idx, k1, k2, e2, rfl⟩

theorem init_good (hz : z.Ok) {s0 : Sys} (h0 : Startable s0) (e : NAR_INIT_sizes z.memory z.atoms s0 = .ok (n, s)) :
    Good n s ∧ n.Ok := by
  obtain ⟨ht, idx, k1, k2, k3, rfl⟩ := init_shape e
  obtain ⟨hok, hb⟩ := Narsese.initWith_base hz.atoms k3
  refine ⟨?_, hok⟩
  obtain ⟨t, f1, hmem, hlive, hcap⟩ := memory_init_inv n z.memory hz.concepts hz.buckets s0
  unfold Memory_INIT_sizes at f1
  simp only [M.bind_ok] at f1
  obtain ⟨ht', u1, g1, f1⟩ := f1
  obtain ⟨j1, rfl⟩ := M.lift_ok.1 g1
  obtain ⟨idx', u2, g2, f1⟩ := f1
  obtain ⟨j2, rfl⟩ := M.lift_ok.1 g2
  have f1 := M.modify_ok.1 f1
  rw [j1] at k1
  rw [j2] at k2
  cases k1
  cases k2
  subst f1
  have hfree : ∀ (k : Nat), (freshQueue k).contents = [] := fun k => rfl
  exact
    { mem := hmem.congr rfl rfl rfl rfl (fun _ _ => rfl) (fun _ _ => rfl)
      prios := by
        intro x hx
        have hx : x ∈ (freshQueue z.memory.concepts).contents := hx
        rw [hfree] at hx
        cases hx
      concepts := fun c => Concept.zero_good
      beliefs := freshQueue_bufferOk _ hz.beliefs
      goals := fun l => freshQueue_bufferOk _ hz.goals
      layers := fun l _ => rfl
      beliefsOnce := by
        intro x hx
        have hx : x ∈ (freshQueue z.memory.beliefEvents).contents := hx
        rw [hfree] at hx
        cases hx
      goalsOnce := by
        intro l k x hx
        have hx : x ∈ (freshQueue z.memory.goalEvents).contents := hx
        rw [hfree] at hx
        cases hx
      anticipation := h0.anticipation
      base := hb
      operations := fun k => ⟨Narsese.knows_zero, fun _ => Narsese.knows_zero, fun f hf => by cases hf⟩
      stdin := fun t ht i => le_trans (h0.stdin t ht i) hb.initial
      importstamp := h0.importstamp
      priming := h0.priming
      history := ⟨[], rfl, .inr fun c hc => (by cases hc)⟩
      marks := ⟨le_refl _, fun _ => le_refl _⟩
      marks2 := ⟨le_refl _, fun _ => le_refl _⟩
      marks3 := ⟨le_refl _, fun _ => le_refl _⟩
      home := by
        intro _ c hc
        have hc : c ∈ (freshQueue z.memory.concepts).contents.map (·.address) := hc
        rw [hfree] at hc
        cases hc }

/-! ### Questions -/

theorem printedAnswer_isAnswer (st : Stamp) (t : Term) (tr : Truth) (o c : Int) : (printedAnswer st t tr o c).IsAnswer := by
  unfold printedAnswer
  split <;> trivial

/-- Only answers are printed. -/
def Answer.Answers (a : Answer) : Prop := ∀ o ∈ a.printed, o.IsAnswer

theorem Question.printMatch_answers (q : Question) (x : ℚ) {o : Output} (ho : o.IsAnswer) {a : Answer} (h : a.Answers) :
    (q.printMatch x o a).Answers := by
  unfold Question.printMatch
  split
  · intro o' ho'
    rcases List.mem_append.1 ho' with h1 | h1
    · exact h o' h1
    · rw [List.mem_singleton] at h1; rw [h1]; exact ho
  · exact h

theorem answerLink_answers {q : Question} {a r : Answer} {imp : Implication} (h : a.Answers)
    (e : answerLink n s q a imp = .ok r) : r.Answers := by
  unfold answerLink at e
  rw [R.bind_eq_ok] at e
  obtain ⟨b, _, e⟩ := e
  cases b with
  | false => cases e; exact h
  | true =>
    have hm := q.printMatch_answers (Truth_Expectation imp.truth)
      (printedAnswer_isAnswer imp.stamp imp.term imp.truth a.answerOccurrenceTime imp.creationTime) h
    dsimp only at e
    rw [if_pos rfl] at e
    split at e
    · cases e; exact hm
    · cases e; exact hm

theorem answerTable_answers {q : Question} {a r : Answer} {t : Table} (h : a.Answers)
    (e : answerTable n s q a t = .ok r) : r.Answers :=
  foldlM_inv _ (fun _ hb _ _ _ e => answerLink_answers hb e) _ h _ e

theorem answerSpike_answers (q : Question) (c : Nat) {a : Answer} (h : a.Answers) : (answerSpike s q c a).Answers := by
  unfold answerSpike
  dsimp only
  have hm := fun x => q.printMatch_answers x (printedAnswer_isAnswer (s.concept_storage c).belief_spike.stamp
    (s.concept_storage c).belief_spike.term (s.concept_storage c).belief_spike.truth
    (s.concept_storage c).belief_spike.occurrenceTime (s.concept_storage c).belief_spike.creationTime) h
  split
  · split
    · exact hm _
    · exact hm _
  · exact h

theorem answerPrediction_answers (q : Question) (c : Nat) {a : Answer} (h : a.Answers) : (answerPrediction s q c a).Answers := by
  unfold answerPrediction
  dsimp only
  have hm := fun x => q.printMatch_answers x (printedAnswer_isAnswer (s.concept_storage c).predicted_belief.stamp
    (s.concept_storage c).predicted_belief.term (s.concept_storage c).predicted_belief.truth
    (s.concept_storage c).predicted_belief.occurrenceTime (s.concept_storage c).predicted_belief.creationTime) h
  split
  · split
    · exact hm _
    · exact hm _
  · exact h

theorem answerBelief_answers (q : Question) (c : Nat) {a : Answer} (h : a.Answers) : (answerBelief s q c a).Answers := by
  unfold answerBelief
  dsimp only
  have hm := fun x => q.printMatch_answers x (printedAnswer_isAnswer (s.concept_storage c).belief.stamp
    (s.concept_storage c).belief.term (s.concept_storage c).belief.truth
    (s.concept_storage c).belief.occurrenceTime (s.concept_storage c).belief.creationTime) h
  split
  · split
    · exact hm _
    · exact hm _
  · exact h

theorem answerConcept_answers {q : Question} {c : Nat} {a r : Answer} (h : a.Answers)
    (e : answerConcept n s q c a = .ok r) : r.Answers := by
  unfold answerConcept at e
  dsimp only at e
  rw [R.bind_eq_ok] at e
  obtain ⟨b, _, e⟩ := e
  cases b with
  | false => cases e; exact h
  | true =>
    rw [if_pos rfl] at e
    split at e
    · exact foldlM_inv _ (fun _ hb _ _ _ e => answerTable_answers hb e) _ h _ e
    · split at e
      · cases e; exact answerPrediction_answers q c (answerSpike_answers q c h)
      · cases e; exact answerBelief_answers q c h

theorem bestAnswer_answers {q : Question} {r : Answer} (e : bestAnswer n s q = .ok r) : r.Answers := by
  refine foldlM_inv _ ?_ Answer.initial (fun o ho => by cases ho) r e
  intro a h i _ b e
  unfold answerFrom at e
  dsimp only at e
  split at e
  · rw [R.bind_eq_ok] at e
    obtain ⟨m, _, e⟩ := e
    cases m with
    | false => cases e; exact h
    | true =>
      rw [if_pos rfl, R.bind_eq_ok] at e
      obtain ⟨a1, e1, e⟩ := e
      exact answerConcept_answers (answerTable_answers h e1) e
  · exact answerConcept_answers h e

theorem usage_use_count {u : Usage} (h : 0 ≤ u.useCount) (now : Int) (b : Bool) : 0 ≤ (Usage_use u now b).useCount := by
  unfold Usage_use
  dsimp only
  have : (0 : Int) ≤ ETERNAL_INPUT_USAGE_BOOST := by decide
  split <;> omega

theorem answerQuestion_between {s0 : Sys} {b k : Nat} (q : Question) (h : Between n s0 b k s) :
    WP (answerQuestion n q) (fun _ => Between n s0 b k) s := by
  unfold answerQuestion
  refine WP.get (WP.bind (WP.lift fun a ha => ?_))
  refine WP.bind (WP.modify ?_)
  have answers : ∀ {s : Sys} (lines : List Output), (∀ o ∈ lines, o.IsAnswer) → Between n s0 b k s →
      Between n s0 b k { s with output := s.output ++ lines } := by
    rintro s lines hl ⟨hg, t, x, hr, h1, h2⟩
    exact ⟨hg.congr rfl hg.stdin, t, x, hr.answer lines hl, h1, h2⟩
  have h1 := answers a.printed (bestAnswer_answers ha) h
  have last : ∀ {s : Sys}, Between n s0 b k s → WP (if !q.queryCommand then
      emit (printedAnswer a.best_stamp a.best_term a.best_truth a.answerOccurrenceTime a.answerCreationTime) else pure ())
      (fun _ => Between n s0 b k) s := by
    intro s h
    refine WP.ite (fun _ => ?_) fun _ => WP.pure h
    unfold emit
    refine WP.modify ?_
    exact answers [_] (by intro o ho; rw [List.mem_singleton] at ho; rw [ho]; exact printedAnswer_isAnswer _ _ _ _ _) h
  cases a.best_belief_concept with
  | none => exact last h1
  | some c =>
    refine WP.ite (fun hp => ?_) fun _ => last h1
    refine WP.bind ?_
    unfold modifyConcept
    refine WP.modify (last ?_)
    obtain ⟨hg, t, x, hr, g1, g2⟩ := h1
    have hc := hg.concepts c
    have st : Step n _ _ := .concept (s := { s with output := s.output ++ a.printed }) c _
      (.attention (Usage_use (s.concept_storage c).usage s.currentTime (decide (q.tense = 0)))
        (cMAX (s.concept_storage c).priority s.QUESTION_PRIMING) (s.concept_storage c).processID (s.concept_storage c).processID2
        (s.concept_storage c).processID3 (s.concept_storage c).lastSelectionTime
        (usage_use_count hc.useCount _ _) (by
          have hq := hg.priming
          have hq' : s.QUESTION_PRIMING ≤ 1 := hq
          unfold cMAX
          split
          · exact hc.priority
          · exact ⟨le_of_lt hp, hq'⟩) .same)
    exact ⟨st.good hg, t, x, hr.step st, g1, g2⟩

/-! ### Calls -/

theorem cycles_between (fuel : Fuel) (k : Nat) (h : Good n s) (e : NAR_Cycles n fuel k s = .ok ((), s')) :
    Between n s k 0 s' := by
  have := (between_families n s).narCycles fuel k (Between.start h) () s' e
  rwa [Nat.zero_add] at this

theorem addInput_between (fuel : Fuel) {t : Term} (hk : n.Knows t) (ty : EventType) {tr : Truth} (ht : tr.Valid) (eternal : Bool)
    (o : ℚ) (h : Good n s) {ev : Event} (e : NAR_AddInput n fuel t ty tr eternal o s = .ok (ev, s')) : Between n s 1 0 s' :=
  (between_families n s).narAddInput fuel hk ty ht eternal o (Between.start h) ev s' e

/-- A sentence is a run: of one cycle for a belief or goal, of none for a question. -/
theorem addNarsese_between (fuel : Fuel) {text : CStr} {query : Bool} {threshold : ℚ} (hg : Good n s) (hn : n.Ok)
    (hl : ValidText n text) (e : NAR_AddInputNarsese2 n fuel text query threshold s = .ok (n', s')) :
    n'.Ok ∧ n.Extends n' ∧ ∃ sentence, Narsese_Sentence n text = .ok (sentence, n') ∧
      Between n' s (if sentence.punctuation = '?' then 0 else 1) 0 s' := by
  unfold NAR_AddInputNarsese2 at e
  rw [R.bind_eq_ok] at e
  obtain ⟨⟨se, n1⟩, e1, e⟩ := e
  dsimp only at e
  rw [R.bind_eq_ok] at e
  obtain ⟨⟨_, s1⟩, e2, e⟩ := e
  cases e
  obtain ⟨hok, hx, hk⟩ := Narsese.sentence_extends hn hg.base e1
  have hg1 := hg.extends hx
  have hkr := hg1.base.reduce hk
  refine ⟨hok, hx, se, e1, ?_⟩
  by_cases hp : se.punctuation = '?'
  · rw [if_pos hp] at e2 ⊢
    exact answerQuestion_between _ (Between.start hg1) _ _ e2
  · rw [if_neg hp] at e2 ⊢
    unfold inputSentence at e2
    simp only [M.bind_ok] at e2
    obtain ⟨_, s2, e3, e2⟩ := e2
    obtain ⟨_, f3⟩ := M.lift_ok.1 e3
    obtain ⟨_, s3, e4, e2⟩ := e2
    obtain ⟨_, f4⟩ := M.lift_ok.1 e4
    obtain ⟨ev, s4, e5, e2⟩ := e2
    obtain ⟨_, f6⟩ := M.pure_ok.1 e2
    subst f3 f4 f6
    exact addInput_between fuel hkr _ (hl se n' e1 hp) _ _ hg1 e5

theorem Good.operation {k : Nat} {o : Operation} (h : Good n s) (ho : o.Known n) {kk : Nat} :
    Good n { s with op_k := kk, operations := upd s.operations k o } :=
  { h with
    mem := h.mem.congr rfl rfl rfl rfl (fun _ _ => rfl) (fun _ _ => rfl)
    prios := h.prios
    operations := by
      intro j
      show (upd s.operations k o j).Known n
      by_cases hj : j = k
      · subst hj; rw [upd_same]; exact ho
      · rw [upd_other _ _ hj]; exact h.operations j }

omit [Arith] in
theorem atomicTerm_extends {name : CStr} {t : Term} (hn : n.Ok) (e : Narsese_AtomicTerm n name = .ok (t, n')) :
    n'.Ok ∧ n.Extends n' ∧ n'.Knows t := by
  unfold Narsese_AtomicTerm at e
  rw [R.bind_eq_ok] at e
  obtain ⟨⟨i, n1⟩, e1, e⟩ := e
  cases e
  obtain ⟨h1, h2, h3⟩ := Narsese.index_extends hn e1
  exact ⟨h1, h2, Narsese.knows_zero.put 0 (le_trans (Narsese.toAtom_toNat_le _) h3)⟩

theorem addOperation_good {name : CStr} {f : Term → Feedback} (hg : Good n s) (hn : n.Ok)
    (hf : ∀ args, n.KnowsSubs (f args).subs.map) (e : NAR_AddOperation n name f s = .ok (n', s')) :
    Good n' s' ∧ n'.Ok ∧ n.Extends n' := by
  unfold NAR_AddOperation at e
  rw [R.bind_eq_ok] at e
  obtain ⟨_, _, e⟩ := e
  rw [R.bind_eq_ok] at e
  obtain ⟨⟨t, n1⟩, e1, e⟩ := e
  dsimp only at e
  rw [R.bind_eq_ok] at e
  obtain ⟨⟨_, s1⟩, e2, e⟩ := e
  cases e
  obtain ⟨h1, h2, h3⟩ := atomicTerm_extends hn e1
  refine ⟨?_, h1, h2⟩
  have hg1 := hg.extends h2
  unfold registerOperation at e2
  simp only [M.bind_ok] at e2
  obtain ⟨_, s2, e3, e2⟩ := e2
  obtain ⟨_, f3⟩ := M.lift_ok.1 e3
  obtain ⟨s3, s4, e4, e2⟩ := e2
  obtain ⟨f4, f5⟩ := M.get_ok.1 e4
  obtain ⟨_, s5, e5, e2⟩ := e2
  obtain ⟨_, f6⟩ := M.lift_ok.1 e5
  have f7 := M.set_ok.1 e2
  subst f3 f4 f5 f6 f7
  exact hg1.operation ⟨h3, fun _ => Narsese.knows_zero, fun g hgf args => by
    cases hgf; exact fun k => h2.knows (hf args k)⟩

theorem addNops_good (l : List CStr) : ∀ {n : Narsese} {s : Sys}, Good n s → n.Ok → addNops l n s = .ok (n', s') →
    Good n' s' ∧ n'.Ok := by
  induction l with
  | nil => intro n s hg hn e; cases e; exact ⟨hg, hn⟩
  | cons a l ih =>
    intro n s hg hn e
    unfold addNops at e
    rw [R.bind_eq_ok] at e
    obtain ⟨⟨n1, s1⟩, e1, e⟩ := e
    obtain ⟨h1, h2, _⟩ := addOperation_good hg hn (fun _ _ => Narsese.knows_zero) e1
    exact ih h1 h2 e

omit [Arith] in
theorem setAtomValue_extends {a : Atom} {v : ℚ} {m : CStr} (hn : n.Ok) (e : Narsese_setAtomValue n a v m = .ok n') :
    n'.Ok ∧ n.Extends n' := by
  obtain ⟨ns, h⟩ := hn
  obtain ⟨h1, h2, h3, h4, h5⟩ := setAtomValue_rep h e
  exact ⟨⟨ns, h1⟩, by rw [h5], fun i _ => by rw [h4], h2⟩

omit [Arith] in
theorem setValue_extends {v : ℚ} {g : Int} {name : CStr} (hn : n.Ok) (e : Shell_setValue n v g name = .ok n') :
    n'.Ok ∧ n.Extends n' := by
  unfold Shell_setValue at e
  rw [R.bind_eq_ok] at e
  obtain ⟨_, _, e⟩ := e
  dsimp only at e
  generalize (name ++ (if name = [] then [] else ['_']) ++ formatFixed (if g ≤ 10 then 1 else if g ≤ 100 then 2 else 3) v) = nm at e
  by_cases hlen : nm.length > ATOMIC_TERM_LEN_MAX
  · rw [if_pos hlen] at e; cases e
  · rw [if_neg hlen, R.bind_eq_ok] at e
    obtain ⟨⟨i, n1⟩, e1, e⟩ := e
    obtain ⟨h1, h2, _⟩ := Narsese.index_extends hn e1
    obtain ⟨h3, h4⟩ := setAtomValue_extends h1 e
    exact ⟨h3, h2.trans h4⟩

theorem setSpace_extends {g : Int} {name : CStr} (l : List Nat) : ∀ {n : Narsese}, n.Ok → Shell_setSpace g name l n = .ok n' →
    n'.Ok ∧ n.Extends n' := by
  induction l with
  | nil => intro n hn e; cases e; exact ⟨hn, Narsese.Extends.refl _⟩
  | cons a l ih =>
    intro n hn e
    unfold Shell_setSpace at e
    dsimp only at e
    rw [R.bind_eq_ok] at e
    obtain ⟨n1, e1, e⟩ := e
    obtain ⟨h1, h2⟩ := setValue_extends hn e1
    obtain ⟨h3, h4⟩ := ih h1 e
    exact ⟨h3, h2.trans h4⟩

omit [Arith] in
theorem importedStamp_wf {ids : List Int} (h : (0 : Int) ∉ ids) : (importedStamp ids).WF := by
  intro i j hij _ hi
  show ids.getD j 0 = 0
  have hi : ids.getD i 0 = 0 := hi
  have : ids.length ≤ i := by
    by_contra hlt
    rw [List.getD_eq_getElem?_getD, List.getElem?_eq_getElem (by omega)] at hi
    exact h (hi ▸ List.getElem_mem _)
  rw [List.getD_eq_getElem?_getD, List.getElem?_eq_none (by omega)]
  rfl

theorem Good.startable (h : Good n s) (hs : InitialStdin s) : Startable s := ⟨h.anticipation, h.importstamp, h.priming, hs⟩

theorem shellInit_good (hz : z.Ok) {s0 : Sys} (h0 : Startable s0) (e : Shell_NARInit_sizes z.memory z.atoms s0 = .ok (n, s)) :
    Good n s ∧ n.Ok := by
  unfold Shell_NARInit_sizes at e
  rw [R.bind_eq_ok] at e
  obtain ⟨⟨n1, s1⟩, e1, e⟩ := e
  obtain ⟨h1, h2⟩ := init_good hz h0 e1
  exact addNops_good _ h1 h2 e

theorem setOpName_good {k : Int} {name : CStr} (hg : Good n s) (hn : n.Ok) (e : Shell_setOpName k name n s = .ok (n', s')) :
    Good n' s' ∧ n'.Ok := by
  unfold Shell_setOpName at e
  rw [R.bind_eq_ok] at e
  obtain ⟨_, _, e⟩ := e
  rw [R.bind_eq_ok] at e
  obtain ⟨_, _, e⟩ := e
  rw [R.bind_eq_ok] at e
  obtain ⟨⟨t, n1⟩, e1, e⟩ := e
  obtain ⟨h1, h2, h3⟩ := atomicTerm_extends hn e1
  cases e
  have hg1 := hg.extends h2
  refine ⟨?_, h1⟩
  have hop : ∀ (b : Nat → Bool) j, (if b j = true then ⟨Term.zero, (s.operations j).action, (s.operations j).arguments, (s.operations j).stdinOutput⟩ else s.operations j : Operation).Known n' := by
    intro b j
    have := hg1.operations j
    split
    · exact ⟨Narsese.knows_zero, this.arguments, this.action⟩
    · exact this
  refine { hg1 with mem := hg1.mem.congr rfl rfl rfl rfl (fun _ _ => rfl) (fun _ _ => rfl), prios := hg1.prios, operations := ?_ }
  intro j
  dsimp only
  by_cases hj : j = (k - 1).toNat
  · subst hj
    rw [upd_same]
    have := hop (fun k => decide (k < OPERATIONS_MAX) && (List.range (k + 1)).any fun i => decide ((s.operations i).term = t)) (k - 1).toNat
    refine ⟨h3, this.arguments, ?_⟩
    intro f hf args
    have hact := this.action
    dsimp only at hf hact
    generalize (if (decide ((k - 1).toNat < OPERATIONS_MAX) && (List.range ((k - 1).toNat + 1)).any fun i => decide ((s.operations i).term = t)) = true
      then ⟨Term.zero, (s.operations (k - 1).toNat).action, (s.operations (k - 1).toNat).arguments, (s.operations (k - 1).toNat).stdinOutput⟩
      else s.operations (k - 1).toNat : Operation) = o at *
    cases hoa : o.action with
    | none => rw [hoa] at hf; cases hf; exact fun _ => Narsese.knows_zero
    | some g => rw [hoa] at hf; cases hf; exact hact g hoa args
  · rw [upd_other _ _ hj]
    exact hop (fun k => decide (k < OPERATIONS_MAX) && (List.range (k + 1)).any fun i => decide ((s.operations i).term = t)) j

theorem setOpArg_good {k j : Int} {text : CStr} (hg : Good n s) (hn : n.Ok) (e : Shell_setOpArg k j text n s = .ok (n', s')) :
    Good n' s' ∧ n'.Ok := by
  unfold Shell_setOpArg at e
  rw [R.bind_eq_ok] at e
  obtain ⟨_, _, e⟩ := e
  rw [R.bind_eq_ok] at e
  obtain ⟨_, _, e⟩ := e
  rw [R.bind_eq_ok] at e
  obtain ⟨⟨t, n1⟩, e1, e⟩ := e
  obtain ⟨h1, h2, h3⟩ := Narsese.term_extends hn hg.base e1
  cases e
  have hg1 := hg.extends h2
  refine ⟨?_, h1⟩
  have ho := hg1.operations (k - 1).toNat
  refine hg1.operation (kk := s.op_k) (o := ⟨(s.operations (k - 1).toNat).term, (s.operations (k - 1).toNat).action,
    upd (s.operations (k - 1).toNat).arguments (j - 1).toNat t, (s.operations (k - 1).toNat).stdinOutput⟩) ⟨ho.term, ?_, ho.action⟩
  intro i
  dsimp only
  by_cases hi : i = (j - 1).toNat
  · subst hi; rw [upd_same]; exact h3
  · rw [upd_other _ _ hi]; exact ho.arguments i

theorem setOpStdin_good {k : Int} (hg : Good n s) (e : Shell_setOpStdin k s = .ok s') : Good n s' := by
  unfold Shell_setOpStdin at e
  split at e
  · cases e
    have ho := hg.operations (k - 1).toNat
    exact hg.operation (kk := s.op_k) (o := ⟨(s.operations (k - 1).toNat).term, (s.operations (k - 1).toNat).action,
      (s.operations (k - 1).toNat).arguments, true⟩) ⟨ho.term, ho.arguments, ho.action⟩
  · cases e

omit [Arith] in
theorem report_same [Arith] {sz : MemorySizes} {atoms : Nat} {fuel : Fuel} {r : Report}
    (e : (Command.report r).run sz atoms fuel n s = .ok (n', s')) : n' = n ∧ s' = s := by
  unfold Command.run at e
  dsimp only at e
  obtain ⟨_, _, e⟩ := R.bind_eq_ok.1 e
  cases e
  exact ⟨rfl, rfl⟩

theorem command_good (hz : z.Ok) {fuel : Fuel} {c : Command} (hg : Good n s) (hn : n.Ok) (hl : c.Legal n s)
    (e : c.run z.memory z.atoms fuel n s = .ok (n', s')) : Good n' s' ∧ n'.Ok := by
  cases c with
  | nothing => cases e; exact ⟨hg, hn⟩
  | report r => obtain ⟨rfl, rfl⟩ := report_same e; exact ⟨hg, hn⟩
  | exit => cases e; exact ⟨hg, hn⟩
  | cycles k =>
    unfold Command.run at e
    dsimp only at e
    rw [R.bind_eq_ok] at e
    obtain ⟨⟨_, s1⟩, e1, e⟩ := e
    cases e
    exact ⟨(cycles_between fuel k hg e1).1, hn⟩
  | reset => exact shellInit_good hz (hg.startable hl) e
  | restrictedConceptCreation b => cases e; exact ⟨hg.congr rfl hg.stdin, hn⟩
  | parameter p v =>
    cases e
    refine ⟨?_, hn⟩
    have hm := hg.mem
    cases p with
    | anticipationConfidence =>
      exact { hg with mem := hg.mem.congr rfl rfl rfl rfl (fun _ _ => rfl) (fun _ _ => rfl), prios := hg.prios, anticipation := hl }
    | questionPriming =>
      exact { hg with mem := hg.mem.congr rfl rfl rfl rfl (fun _ _ => rfl) (fun _ _ => rfl), prios := hg.prios, priming := hl }
    | decisionThreshold => exact hg.congr rfl hg.stdin
    | similarityDistance => exact hg.congr rfl hg.stdin
    | motorBabbling => exact hg.congr rfl hg.stdin
  | babblingOps k => cases e; exact ⟨hg.congr rfl hg.stdin, hn⟩
  | currentTime t => cases e; exact ⟨hg.congr rfl hg.stdin, hn⟩
  | stampId b =>
    cases e
    exact ⟨{ hg with mem := hg.mem.congr rfl rfl rfl rfl (fun _ _ => rfl) (fun _ _ => rfl), prios := hg.prios
                     importstamp := hg.importstamp }, hn⟩
  | stampImport ids =>
    cases e
    exact ⟨{ hg with mem := hg.mem.congr rfl rfl rfl rfl (fun _ _ => rfl) (fun _ _ => rfl), prios := hg.prios
                     importstamp := importedStamp_wf hl }, hn⟩
  | setValue v g name =>
    unfold Command.run at e
    dsimp only at e
    rw [R.bind_eq_ok] at e
    obtain ⟨n1, e1, e⟩ := e
    cases e
    obtain ⟨h1, h2⟩ := setValue_extends hn e1
    exact ⟨hg.extends h2, h1⟩
  | space g name =>
    unfold Command.run at e
    dsimp only at e
    rw [R.bind_eq_ok] at e
    obtain ⟨_, _, e⟩ := e
    rw [R.bind_eq_ok] at e
    obtain ⟨n1, e1, e⟩ := e
    cases e
    obtain ⟨h1, h2⟩ := setSpace_extends _ hn e1
    exact ⟨hg.extends h2, h1⟩
  | setOpName k name => exact setOpName_good hg hn e
  | setOpArg k j text => exact setOpArg_good hg hn e
  | setOpStdin k =>
    unfold Command.run at e
    dsimp only at e
    rw [R.bind_eq_ok] at e
    obtain ⟨s1, e1, e⟩ := e
    cases e
    exact ⟨setOpStdin_good hg e1, hn⟩
  | query threshold text =>
    unfold Command.run at e
    dsimp only at e
    rw [R.bind_eq_ok] at e
    obtain ⟨_, _, e⟩ := e
    obtain ⟨h1, _, _, _, h2⟩ := addNarsese_between fuel hg hn hl e
    exact ⟨h2.1, h1⟩
  | concurrent => cases e; exact ⟨hg.congr rfl hg.stdin, hn⟩
  | narsese text =>
    obtain ⟨h1, _, _, _, h2⟩ := addNarsese_between fuel hg hn hl e
    exact ⟨h2.1, h1⟩

theorem call_good (hz : z.Ok) {fuel : Fuel} {c : Call} (hg : Good n s) (hn : n.Ok) (hl : c.Legal n s)
    (e : c.run z fuel n s = .ok (n', s')) : Good n' s' ∧ n'.Ok := by
  cases c with
  | init => exact init_good hz (hg.startable hl) e
  | addInput t ty tr eternal o =>
    unfold Call.run at e
    dsimp only at e
    rw [R.bind_eq_ok] at e
    obtain ⟨⟨_, s1⟩, e1, e⟩ := e
    cases e
    exact ⟨(addInput_between fuel hl.1 ty hl.2 eternal o hg e1).1, hn⟩
  | addOperation name f =>
    obtain ⟨h1, h2, _⟩ := addOperation_good hg hn hl e
    exact ⟨h1, h2⟩
  | addNarsese text query threshold =>
    obtain ⟨h1, _, _, _, h2⟩ := addNarsese_between fuel hg hn hl e
    exact ⟨h2.1, h1⟩
  | command c => exact command_good hz hg hn hl e

/-- The invariant holds in all states. -/
theorem Reachable.good (hz : z.Ok) (h : Reachable z n s) : Good n s ∧ n.Ok := by
  induction h with
  | start h0 e => exact init_good hz h0 e
  | call fuel c _ hl e ih => exact call_good hz ih.1 ih.2 hl e

end ONA

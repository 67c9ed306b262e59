import Verif.Proofs.Aims
/-
The derivation of goals.
-/
namespace ONA
variable [Arith] {n : Narsese}

/-- The states differ in the waiting goals only. -/
def OnlyGoals (s s' : Sys) : Prop :=
  s' = { s with cycling_goal_events := s'.cycling_goal_events, cycling_goal_event_storage := s'.cycling_goal_event_storage }

omit [Arith] in
theorem OnlyGoals.refl (s : Sys) : OnlyGoals s s := rfl

omit [Arith] in
theorem OnlyGoals.trans {s s1 s2 : Sys} (h : OnlyGoals s s1) (h' : OnlyGoals s1 s2) : OnlyGoals s s2 := by
  unfold OnlyGoals at *
  rw [h'] at *
  rw [h]

omit [Arith] in
theorem pushGoal_only (e : Event) (p : ℚ) (layer : Nat) (s : Sys) : WP (pushGoalEvent e p layer) (fun _ s' => OnlyGoals s s') s := by
  unfold pushGoalEvent
  refine WP.get ?_
  refine WP.bind (WP.lift fun r _ => ?_)
  dsimp only
  cases r.1.addedItem with
  | none => exact WP.bind (WP.set (WP.pure rfl))
  | some item => exact WP.bind (WP.set (WP.pure rfl))

theorem addCycling_only {e : Event} (he : e.type = .goal) (p : ℚ) (layer : Nat) (s : Sys) :
    WP (Memory_addCyclingEvent e p layer) (fun _ s' => OnlyGoals s s') s := by
  unfold Memory_addCyclingEvent
  refine WP.bind (WP.lift fun _ ha => ?_)
  refine WP.get ?_
  refine WP.ite (fun _ => WP.pure rfl) fun _ => ?_
  refine WP.reads (Closed.reads_containsBeliefOrGoal e) fun b _ => ?_
  refine WP.ite (fun _ => WP.pure rfl) fun _ => ?_
  refine WP.ite (fun _ => WP.pure rfl) fun _ => ?_
  refine WP.reads (Closed.reads_strongerBeliefKnown e) fun b _ => ?_
  refine WP.ite (fun _ => WP.pure rfl) fun _ => ?_
  refine WP.ite (fun h => ?_) fun _ => pushGoal_only e p _ s
  rw [he] at h
  cases h

/-- Adding a goal changes nothing else. -/
theorem addGoal_only {e : Event} (he : e.type = .goal) (now : Int) (p : ℚ) (layer : Nat) (s : Sys) :
    WP (Memory_AddEvent' n e now p false false layer) (fun _ s' => OnlyGoals s s') s := by
  unfold Memory_AddEvent'
  refine WP.get ?_
  unfold Memory_AddEvent
  have fin : ∀ p, WP (do
      let event ← EventRef.load (.val e)
      if event.type = .goal then
        let _ ← Memory_addCyclingEvent event p layer
        cassert (decide (event.occurrenceTime ≠ OCCURRENCE_ETERNAL)) "Eternal goals are not supported"
      cassert (decide (event.type = .belief) || decide (event.type = .goal)) "Erroneous event type" : M Unit)
      (fun _ s' => OnlyGoals s s') s := by
    intro p
    refine WP.bind (WP.pure ?_)
    refine WP.ite (fun _ => ?_) fun h => absurd he h
    refine WP.bind ((addCycling_only he p layer s).mono fun _ s1 h1 => ?_)
    refine WP.bind (WP.lift fun _ _ => ?_)
    exact WP.lift fun _ _ => h1
  refine WP.bind (WP.pure ?_)
  refine WP.get ?_
  refine WP.reads (Closed.reads_find _) fun o _ => ?_
  refine WP.ite (fun _ => WP.pure rfl) fun _ => ?_
  refine WP.bind (WP.lift fun pr _ => ?_)
  refine WP.ite (fun _ => WP.pure rfl) fun _ => ?_
  refine WP.ite (fun h => ?_) fun _ => fin pr
  rw [he] at h
  cases h

/-! ### Sequences -/

omit [Arith] in
theorem goalComponents_spec : ∀ (fuel i : Nat) (t : Term) (l r : List Term), goalComponents n fuel i t l = .ok r →
    ∃ l', r = l ++ l' ∧ SequenceComponents n t l' := by
  intro fuel
  induction fuel with
  | zero => intro i t l r e; cases e
  | succ fuel ih =>
    intro i t l r e
    unfold goalComponents at e
    by_cases h : Narsese_copulaEquals n (t.get 0) SEQUENCE = true
    · rw [if_pos h] at e
      obtain ⟨_, _, e⟩ := R.bind_eq_ok.1 e
      obtain ⟨l', rfl, hl⟩ := ih _ _ _ _ e
      exact ⟨Term_ExtractSubterm t 2 :: l', by rw [List.append_assoc]; rfl, .more (is_iff.1 h) hl⟩
    · rw [if_neg h] at e
      by_cases hi : i ≤ MAX_SEQUENCE_LEN
      · rw [if_pos hi] at e
        cases e
        exact ⟨[t], rfl, .one fun hx => h (is_iff.2 hx)⟩
      · rw [if_neg hi] at e
        cases e

/-- The result of a traversal, if each visit keeps a property of the local variables. -/
theorem Keeps.related_st {σ : Type} {I : Sys → Prop} {Q : σ → Prop} (hm : ∀ s c, I s → I (s.marked c))
    {body : Nat → σ → M (Bool × σ)} (hb : ∀ c st, Q st → Keeps I (body c st) fun r => Q r.2) (fuel : Nat) (t : Term) (st : σ)
    (hq : Q st) : Keeps I (relatedConcepts fuel t body st) Q := by
  have visit : ∀ (c : Option Nat) (st : σ), Q st → Keeps I (visitConcept body c st) fun r => Q r.2 := by
    intro c st hq
    unfold visitConcept
    cases c with
    | none => exact Keeps.pure hq
    | some c =>
      refine Keeps.of_wp fun s hs => ?_
      refine WP.get ?_
      refine WP.ite (fun _ => ?_) fun _ => WP.pure ⟨hs, hq⟩
      refine WP.bind (WP.modify ?_)
      exact (hb c st hq).wp (hm s c hs)
  have chain : ∀ (fuel : Nat) (e : Option Nat) (st : σ), Q st → Keeps I (visitChain body fuel e st) fun r => Q r.2 := by
    intro fuel
    induction fuel with
    | zero =>
      intro e st hq
      cases e with
      | none => exact Keeps.pure hq
      | some e => exact Keeps.throw
    | succ k ih =>
      intro e st hq
      cases e with
      | none => exact Keeps.pure hq
      | some e =>
        unfold visitChain
        refine Keeps.bind_get fun s hs => ?_
        refine Keeps.bind (visit _ _ hq) fun r hr => ?_
        exact Keeps.ite (fun _ => ih _ _ hr) fun _ => Keeps.pure hr
  unfold relatedConcepts
  generalize List.range UNIFICATION_DEPTH = l
  induction l generalizing st with
  | nil => exact Keeps.pure hq
  | cons i rest ih =>
    unfold visitRelated
    refine Keeps.seq (Q := fun _ => True) ?_ fun c => ?_
    · refine Keeps.of_wp fun s hs => ?_
      intro a s' e
      obtain rfl := Closed.reads_find t s a s' e
      exact ⟨hs, trivial⟩
    refine Keeps.bind_get fun s hs => ?_
    refine Keeps.bind (visit _ _ hq) fun r hr => ?_
    refine Keeps.ite (fun _ => ?_) fun _ => Keeps.pure hr
    refine Keeps.bind (chain _ _ _ hr) fun r hr => ?_
    exact Keeps.ite (fun _ => ih _ hr) fun _ => Keeps.pure hr

/-- A traversal which changes marks only. -/
def Content (v s : Sys) : Prop := s.content = v

omit [Arith] in
theorem Content.marked {v : Sys} (s : Sys) (c : Nat) (h : Content v s) : Content v (s.marked c) :=
  (content_concept s c (fun x => { x with processID := s.conceptProcessID }) fun _ => rfl).trans h

omit [Arith] in
theorem Content.nextProcessID {v : Sys} : Keeps (Content v) nextProcessID fun _ => True := Keeps.modify fun _ h => h

/-- The belief found fulfils the component. -/
def Found (n : Narsese) (v : Sys) (component : Term) (last : Int) (best : ℚ × Option (Nat × Substitution)) : Prop :=
  ∀ c subs, best.2 = some (c, subs) → Fulfils n v component last c subs

theorem componentBelief_found (v : Sys) (l : List Term) (j : Nat) (last : Int) (c : Nat) (best : ℚ × Option (Nat × Substitution))
    (hb : Found n v (l.getD j Term.zero) last best) :
    Keeps (Content v) (componentBelief n l j last c best) fun r => Found n v (l.getD j Term.zero) last r.2 := by
  unfold componentBelief
  refine Keeps.bind_get fun s hs => ?_
  dsimp only
  have old : ∀ b : Bool, Keeps (Content v) (Pure.pure (b, best) : M _) fun r => Found n v (l.getD j Term.zero) last r.2 :=
    fun b => Keeps.pure hb
  refine Keeps.ite (fun h1 => ?_) fun _ => old _
  refine Keeps.bind_lift fun subs h2 => ?_
  refine Keeps.ite (fun h3 => ?_) fun _ => old _
  rw [Bool.and_eq_true, decide_eq_true_eq] at h3
  refine Keeps.ite (fun _ => old _) fun h4 => ?_
  refine Keeps.ite (fun _ => old _) fun h5 => ?_
  refine Keeps.bind_lift fun b _ => ?_
  refine Keeps.ite (fun _ => Keeps.pure ?_) fun _ => old _
  rintro c' subs' he
  cases he
  have hs : s.content = v := hs
  subst hs
  have h1 : Variable_hasVariable n (s.concept_storage c).term true true true = false := by simpa using h1
  exact ⟨h1, h2, h3.1, h3.2, not_lt.1 h4, not_lt.1 h5⟩

omit [Arith] in
theorem substituteComponents_spec {subs : Substitution} : ∀ (j : Nat) (l l' : List Term), j ≤ l.length →
    substituteComponents n subs j l = .ok l' → l'.length = l.length ∧
      List.Forall₂ (fun t t' => Variable_ApplySubstitute n t subs = .ok (t', true)) (l.take j) (l'.take j) := by
  intro j
  induction j with
  | zero =>
    intro l l' _ e
    cases e
    exact ⟨rfl, by rw [List.take_zero]; exact .nil⟩
  | succ j ih =>
    intro l l' hj e
    unfold substituteComponents at e
    obtain ⟨r, h1, e⟩ := R.bind_eq_ok.1 e
    obtain ⟨_, h2, e⟩ := R.bind_eq_ok.1 e
    have h2 := cassert_eq_ok.1 h2
    have keep : ∀ (k : Nat) (l l' : List Term), substituteComponents n subs k l = .ok l' → ∀ i, k ≤ i → l'[i]? = l[i]? := by
      intro k
      induction k with
      | zero => intro l l' e i _; cases e; rfl
      | succ k ih =>
        intro l l' e i hi
        unfold substituteComponents at e
        obtain ⟨r, _, e⟩ := R.bind_eq_ok.1 e
        obtain ⟨_, _, e⟩ := R.bind_eq_ok.1 e
        rw [ih _ _ e i (by omega), List.getElem?_set_ne (by omega)]
    obtain ⟨h3, h4⟩ := ih (l.set j r.1) l' (by rw [List.length_set]; omega) e
    rw [List.length_set] at h3
    refine ⟨h3, ?_⟩
    have e1 : l'[j]? = some r.1 := by
      rw [keep j _ _ e j (Nat.le_refl _), List.getElem?_set_self (by omega)]
    have e2 : l[j]? = some (l.getD j Term.zero) := by
      rw [List.getD_eq_getElem?_getD, List.getElem?_eq_getElem (by omega)]
      rfl
    rw [List.take_add_one, List.take_add_one, e1, e2]
    refine List.rel_append (R := fun t t' => Variable_ApplySubstitute n t subs = .ok (t', true)) ?_ ?_
    · rw [List.take_set_of_le (Nat.le_refl _)] at h4
      exact h4
    · exact .cons (by rw [h1, ← h2]) .nil

/-- What the search for the first component which is not fulfilled returns. -/
def Searched (n : Narsese) (v : Sys) (j : Nat) (l : List Term) (last : Int) (g : Event)
    (r : Option (Nat × List Term × Event)) : Prop :=
  ∀ j' l' g', r = some (j', l', g') → l'.length = l.length ∧ j' < j ∧ (g.type = .goal → g'.type = .goal) ∧
    Remaining n v (l.take j) last g (l'.take (j' + 1)) g' ∧ (j' + 1 = j → l' = l ∧ g' = g)

theorem decompositionLoop_searched (v : Sys) (fuel : Nat) : ∀ (j : Nat) (l : List Term) (last : Int) (g : Event), j ≤ l.length →
    Keeps (Content v) (decompositionLoop n fuel j l last g) (Searched n v j l last g) := by
  intro j
  induction j with
  | zero =>
    intro l last g _
    exact Keeps.pure fun _ _ _ h => by cases h
  | succ j ih =>
    intro l last g hj
    unfold decompositionLoop
    refine Keeps.seq Content.nextProcessID fun _ => ?_
    refine Keeps.bind (Keeps.related_st (Q := Found n v (l.getD j Term.zero) last) Content.marked
      (fun c st hq => componentBelief_found v l j last c st hq) fuel _ _ fun _ _ h => by cases h) fun best hb => ?_
    cases hx : best.2 with
    | none =>
      refine Keeps.pure ?_
      rintro j' l' g' h
      cases h
      exact ⟨rfl, Nat.lt_succ_self _, id, .refl, fun _ => ⟨rfl, rfl⟩⟩
    | some r =>
      obtain ⟨c, subs⟩ := r
      have hf := hb c subs hx
      dsimp only
      refine Keeps.ite (fun _ => Keeps.pure fun _ _ _ h => by cases h) fun hj0 => ?_
      refine Keeps.bind_lift fun l1 h1 => ?_
      refine Keeps.bind_get fun s hs => ?_
      have hs : s.content = v := hs
      obtain ⟨h2, h3⟩ := substituteComponents_spec j l l1 (by omega) h1
      refine (ih l1 _ _ (by omega)).mono fun r hr => ?_
      rintro j' l' g' rfl
      obtain ⟨h4, h5, h6, h7, -⟩ := hr j' l' g' rfl
      refine ⟨h4.trans h2, by omega, fun _ => h6 rfl, ?_, fun h => by omega⟩
      have e1 : l.take (j + 1) = l.take j ++ [l.getD j Term.zero] := by
        rw [List.take_add_one, List.getD_eq_getElem?_getD, List.getElem?_eq_getElem (by omega)]
        rfl
      have e2 : (l1.take j).getLast? = some (l1.getD (j - 1) Term.zero) := by
        rw [List.getLast?_eq_getElem?, List.length_take, Nat.min_eq_left (by omega), List.getElem?_take_of_lt (by omega),
          List.getD_eq_getElem?_getD, List.getElem?_eq_getElem (by omega)]
        rfl
      rw [e1]
      subst hs
      exact .next hf h3 e2 h7

/-- The states with given marks, settings and concepts: what is found by a traversal does not depend on the marks. -/
theorem Fulfils.content {s s' : Sys} (h : s.content = s'.content) {t : Term} {last : Int} {c : Nat} {subs : Substitution}
    (hf : Fulfils n s.content t last c subs) : Fulfils n s' t last c subs := by
  rw [h] at hf
  exact ⟨hf.ground, hf.unify, hf.success, hf.event, hf.order, hf.expected⟩

omit [Arith] in
theorem content_spike {s s' : Sys} (h : s.content = s'.content) (c : Nat) :
    (s.concept_storage c).belief_spike = (s'.concept_storage c).belief_spike := by
  have : (s.content.concept_storage c).belief_spike = (s'.content.concept_storage c).belief_spike := by rw [h]
  exact this

omit [Arith] in
theorem content_time {s s' : Sys} (h : s.content = s'.content) : s.currentTime = s'.currentTime := by
  have : s.content.currentTime = s'.content.currentTime := by rw [h]
  exact this

theorem Remaining.content {s s' : Sys} (h : s.content = s'.content) {l rest : List Term} {last : Int} {g e : Event}
    (hr : Remaining n s.content l last g rest e) : Remaining n s' l last g rest e := by
  rw [h] at hr
  induction hr with
  | refl => exact .refl
  | next hf h2 h3 _ ih => exact .next ⟨hf.ground, hf.unify, hf.success, hf.event, hf.order, hf.expected⟩ h2 h3 ih

/-- The decomposition of a sequence goal adds the goal for a component, or nothing. -/
theorem decomposition_spec {goal : Event} (hg : goal.type = .goal) (fuel : Nat) (p : ℚ) (layer : Nat) (s : Sys) :
    WP (Cycle_GoalSequenceDecomposition n fuel goal p layer) (fun _ s' => ∃ s1, s1.content = s.content ∧ (s' = s1 ∨
      ∃ e, e.type = .goal ∧ SubgoalOfSequence n s1 goal e ∧
        Memory_AddEvent' n e s.currentTime (fmul p (Truth_Expectation e.truth)) false false layer s1 = .ok ((), s'))) s := by
  unfold Cycle_GoalSequenceDecomposition
  refine WP.ite (fun _ => WP.pure ⟨s, rfl, .inl rfl⟩) fun h0 => ?_
  have h0 : n.Is (goal.term.get 0) SEQUENCE := by
    rw [Bool.not_eq_true'] at h0
    exact is_iff.1 (by simpa using h0)
  refine WP.bind (WP.lift fun l' hl => ?_)
  obtain ⟨l, hx, hc⟩ := goalComponents_spec _ _ _ _ _ hl
  rw [List.nil_append] at hx
  subst hx
  dsimp only
  have hne : l' ≠ [] := by cases hc <;> simp
  have hlen : 0 < l'.length := List.length_pos_iff.2 hne
  refine WP.get ?_
  refine WP.bind (((decompositionLoop_searched (n := n) s.content fuel (l'.length - 1 + 1) l' (-1)
    (Inference_EventUpdate goal s.currentTime) (by omega)).wp rfl).mono ?_)
  rintro r s1 ⟨h1, h2⟩
  have h1 : s1.content = s.content := h1
  cases r with
  | none => exact WP.pure ⟨s1, h1, .inl rfl⟩
  | some r =>
    obtain ⟨j, l1, g⟩ := r
    obtain ⟨h3, h4, h5, h6, h7⟩ := h2 j l1 g rfl
    have htime := content_time h1
    dsimp only
    -- the goal added
    have key : ∀ e : Event, e = (if j = l'.length - 1 then
          { g with term := l1.getD (l'.length - 1) Term.zero, truth := Truth_StructuralDeduction g.truth g.truth } else g) →
        e.type = .goal ∧ SubgoalOfSequence n s1 goal e := by
      intro e he
      have hgt : g.type = .goal := h5 hg
      refine ⟨?_, h0, l', hc, ?_⟩
      · rw [he]; split <;> exact hgt
      rw [htime]
      by_cases hj : j = l'.length - 1
      · left
        obtain ⟨rfl, rfl⟩ := h7 (by omega)
        refine ⟨l1.getD (l1.length - 1) Term.zero, ?_, ?_⟩
        · rw [List.getLast?_eq_getElem?, List.getD_eq_getElem?_getD, List.getElem?_eq_getElem (by omega)]
          rfl
        · rw [he, if_pos hj]
      · right
        refine ⟨l1.take (j + 1), ?_, ?_, ?_⟩
        · rw [← List.length_pos_iff, List.length_take]
          omega
        · rw [List.length_take]
          omega
        · rw [he, if_neg hj]
          rw [show l'.length - 1 + 1 = l'.length by omega, List.take_length] at h6
          exact h6.content h1.symm
    intro b s2 e2
    obtain ⟨u, s3, e3, e4⟩ := M.bind_ok.1 e2
    obtain ⟨-, rfl⟩ := M.pure_ok.1 e4
    obtain ⟨k1, k2⟩ := key _ rfl
    exact ⟨s1, h1, .inr ⟨_, k1, k2, e3⟩⟩

/-! ### Links -/

/-- What the derivation of subgoals needs to know of the state. -/
structure Deriving (n : Narsese) (now : Int) (layer : Nat) (goals : List (Event × ℚ)) (v s0 s : Sys) : Prop where
  derives : DerivesGoals n now layer goals s0 s
  events : s.selectedGoals = v.selectedGoals
  priorities : s.selectedGoalsPriority = v.selectedGoalsPriority
  count : s.goalsSelectedCnt = v.goalsSelectedCnt

variable {now : Int} {layer : Nat} {goals : List (Event × ℚ)} {v s0 : Sys}

theorem Deriving.other {s s' : Sys} (h : Deriving n now layer goals v s0 s) (hb : s'.goalBuffers = s.goalBuffers)
    (h1 : s'.selectedGoals = s.selectedGoals) (h2 : s'.selectedGoalsPriority = s.selectedGoalsPriority)
    (h3 : s'.goalsSelectedCnt = s.goalsSelectedCnt) : Deriving n now layer goals v s0 s' :=
  ⟨.other h.derives hb, h1.trans h.events, h2.trans h.priorities, h3.trans h.count⟩

theorem Deriving.aims {s s' : Sys} (h : Deriving n now layer goals v s0 s) (he : s'.aims = s.aims) :
    Deriving n now layer goals v s0 s' :=
  h.other (congrArg (·.1) he) (congrArg (·.2.1) he) (congrArg (·.2.2.1) he) (congrArg (·.2.2.2.1) he)

theorem Deriving.subgoal {s s' : Sys} {goal e : Event} {p : ℚ} {t : Int} (h : Deriving n now layer goals v s0 s)
    (hm : (goal, p) ∈ goals) (he : e.type = .goal) (hj : SubgoalByLink n s now goal e ∨ SubgoalOfSequence n s goal e)
    (ha : Memory_AddEvent' n e t (fmul p (Truth_Expectation e.truth)) false false layer s = .ok ((), s')) :
    Deriving n now layer goals v s0 s' ∧ OnlyGoals s s' := by
  have ho := addGoal_only he t _ layer s _ _ ha
  refine ⟨⟨.subgoal h.derives hm hj ha, ?_, ?_, ?_⟩, ho⟩
  · rw [ho]; exact h.events
  · rw [ho]; exact h.priorities
  · rw [ho]; exact h.count

/-- During the visit of a concept. -/
structure Visiting (n : Narsese) (now : Int) (layer : Nat) (goals : List (Event × ℚ)) (v s0 : Sys) (c : Nat) (t : Term)
    (spike : Event) (s : Sys) : Prop where
  deriving' : Deriving n now layer goals v s0 s
  term : (s.concept_storage c).term = t
  spike : (s.concept_storage c).goal_spike = spike

theorem valid_iff {s : Sys} {imp : Implication} : s.implicationValid imp = .ok true ↔ s.LinkValid imp := by
  unfold Sys.implicationValid Sys.LinkValid
  cases imp.sourceConcept with
  | none => simp
  | some k => simp

theorem goalDeduction_type {g : Event} {imp : Implication} {t : Int} {e : Event}
    (h : Inference_GoalDeduction n g imp t = .ok e) : e.type = .goal := by
  unfold Inference_GoalDeduction at h
  obtain ⟨_, _, h⟩ := R.bind_eq_ok.1 h
  cases h
  rfl

theorem deriveSubgoal_visiting {goal before : Event} {p : ℚ} {wins : Bool} {c : Nat} {t : Term} {spike : Event}
    {imp : Implication} (hm : (goal, p) ∈ goals)
    (ht : ∃ subs, Variable_Unify n t goal.term = .ok subs ∧ subs.success = true)
    (hs : Inference_RevisionAndChoice n before goal = .ok (spike, wins)) {s : Sys} (hl : s.HasLink c imp) (hv : s.LinkValid imp)
    (h : Visiting n now layer goals v s0 c t spike s) :
    WP (deriveSubgoal n imp spike now p layer) (fun _ s' => Visiting n now layer goals v s0 c t spike s' ∧ OnlyGoals s s') s := by
  unfold deriveSubgoal
  refine WP.bind (WP.lift fun subs h1 => ?_)
  refine WP.ite (fun h2 => ?_) fun _ => WP.pure ⟨h, .refl s⟩
  refine WP.bind (WP.lift fun r h3 => ?_)
  refine WP.ite (fun h4 => ?_) fun _ => WP.pure ⟨h, .refl s⟩
  refine WP.bind (WP.lift fun d h5 => ?_)
  dsimp only
  intro u s' e
  have he : (Inference_EventUpdate d now).type = .goal := (goalDeduction_type h5 : d.type = .goal)
  obtain ⟨k1, k2⟩ := h.deriving'.subgoal hm he (.inl ⟨c, imp, before, wins, r.1, by rw [h.term]; exact ht,
    by rw [h.spike]; exact hs, hl, hv, ⟨subs, by rw [h.spike]; exact h1, h2, by rw [h3, ← h4]⟩, d, by rw [h.spike]; exact h5, rfl⟩) e
  refine ⟨⟨k1, ?_, ?_⟩, k2⟩
  · rw [k2]; exact h.term
  · rw [k2]; exact h.spike

omit [Arith] in
theorem LinkTable.hasLink {s : Sys} {c j : Nat} {table : LinkTable} (ht : table ∈ subgoalTables)
    (hj : j < (table.get (s.concept_storage c)).itemsAmount) : s.HasLink c ((table.get (s.concept_storage c)).array j) := by
  unfold subgoalTables at ht
  rw [List.mem_append, List.mem_map] at ht
  obtain ⟨o, ho, rfl⟩ | ht := ht
  · rw [List.mem_range] at ho
    exact .inl ⟨o, by omega, j, hj, rfl⟩
  · rw [List.mem_singleton] at ht
    subst ht
    exact .inr ⟨j, hj, rfl⟩

omit [Arith] in
theorem LinkTable.set_term (t : Table) (table : LinkTable) (c : Concept) : (table.set t c).term = c.term := by
  cases table <;> rfl

omit [Arith] in
theorem LinkTable.set_spike (t : Table) (table : LinkTable) (c : Concept) : (table.set t c).goal_spike = c.goal_spike := by
  cases table <;> rfl

theorem subgoalsOfTable_visiting {goal before : Event} {p : ℚ} {wins : Bool} {c : Nat} {t : Term} {spike : Event}
    {table : LinkTable} (hx : table ∈ subgoalTables) (hm : (goal, p) ∈ goals)
    (ht : ∃ subs, Variable_Unify n t goal.term = .ok subs ∧ subs.success = true)
    (hs : Inference_RevisionAndChoice n before goal = .ok (spike, wins)) :
    Keeps (Visiting n now layer goals v s0 c t spike) (subgoalsOfTable n c table now p layer) fun _ => True := by
  unfold subgoalsOfTable
  refine Keeps.seq (Q := fun _ => True) (Keeps.loop' (fun j => ?_) _ _) fun _ => Keeps.pure trivial
  refine Keeps.of_wp fun s h => ?_
  refine WP.get ?_
  dsimp only
  refine WP.ite (fun hj => ?_) fun _ => WP.pure ⟨h, trivial⟩
  refine WP.bind (WP.lift fun b hv => ?_)
  refine WP.ite (fun hb => ?_) fun _ => ?_
  · subst hb
    rw [h.spike]
    refine WP.bind ((deriveSubgoal_visiting hm ht hs (LinkTable.hasLink hx hj) (valid_iff.1 hv) h).mono fun _ s1 h1 => ?_)
    exact WP.pure ⟨h1.1, trivial⟩
  · refine WP.bind (WP.modify ?_)
    refine WP.pure ⟨⟨h.deriving'.other rfl rfl rfl rfl, ?_, ?_⟩, trivial⟩
    · show (upd _ _ _ _ : Concept).term = t
      rw [upd_same, LinkTable.set_term]
      exact h.term
    · show (upd _ _ _ _ : Concept).goal_spike = spike
      rw [upd_same, LinkTable.set_spike]
      exact h.spike

theorem deriveSubgoals_deriving {goal : Event} {p : ℚ} (hm : (goal, p) ∈ goals) (c : Nat) (st : Unit) :
    Keeps (Deriving n now layer goals v s0) (deriveSubgoals n goal p now layer c st) fun _ => True := by
  unfold deriveSubgoals
  refine Keeps.of_wp fun s h => ?_
  refine WP.get ?_
  dsimp only
  refine WP.bind (WP.lift fun subs h1 => ?_)
  refine WP.ite (fun h2 => ?_) fun _ => WP.pure ⟨h, trivial⟩
  refine WP.bind (WP.lift fun r h3 => ?_)
  refine WP.bind (WP.modify ?_)
  have h4 : Visiting n now layer goals v s0 c (s.concept_storage c).term r.1
      { s with concept_storage := upd s.concept_storage c { s.concept_storage c with goal_spike := r.1 } } :=
    ⟨h.other rfl rfl rfl rfl, by show (upd _ _ _ _ : Concept).term = _; rw [upd_same],
      by show (upd _ _ _ _ : Concept).goal_spike = _; rw [upd_same]⟩
  refine WP.bind (WP.mono ((Keeps.forM (I := Visiting n now layer goals v s0 c (s.concept_storage c).term r.1)
    (l := subgoalTables) fun table hx => subgoalsOfTable_visiting hx hm ⟨subs, h1, h2⟩ h3).wp h4) fun _ s1 k => ?_)
  exact WP.pure ⟨k.1.deriving', trivial⟩

theorem relatedSubgoals_deriving {goal : Event} {p : ℚ} (hm : (goal, p) ∈ goals) (fuel : Nat) (t : Term) :
    Keeps (Deriving n now layer goals v s0) (relatedConcepts fuel t (deriveSubgoals n goal p now layer) ()) fun _ => True :=
  Keeps.related' (fun _ _ h => h.other rfl rfl rfl rfl) (fun c st => deriveSubgoals_deriving hm c st) _ _ _

/-! ### The whole -/

/-- The goals selected, with their priorities. -/
def Sys.chosen (s : Sys) : List (Event × ℚ) :=
  (List.range s.goalsSelectedCnt).map fun i => (s.selectedGoals i, s.selectedGoalsPriority i)

omit [Arith] in
theorem mem_chosen {s : Sys} {i : Nat} (h : i < s.goalsSelectedCnt) :
    (s.selectedGoals i, s.selectedGoalsPriority i) ∈ s.chosen :=
  List.mem_map.2 ⟨i, List.mem_range.2 h, rfl⟩

theorem processSelected_deriving (hg : ∀ i < v.goalsSelectedCnt, (v.selectedGoals i).type = .goal) (fuel : Nat) : ∀ (l : List Nat)
    (best : Decision), (∀ i ∈ l, i < v.goalsSelectedCnt) →
    Keeps (Deriving n now layer v.chosen v s0) (processSelectedGoals n fuel now layer l best) fun _ => True := by
  intro l
  induction l with
  | nil => intro best _; exact Keeps.pure trivial
  | cons i l ih =>
    intro best hl
    have hi := hl i (List.mem_cons_self ..)
    have hl' : ∀ i ∈ l, i < v.goalsSelectedCnt := fun i h => hl i (List.mem_cons_of_mem _ h)
    unfold processSelectedGoals
    refine Keeps.of_wp fun s h => ?_
    refine WP.get ?_
    dsimp only
    rw [h.events, h.priorities]
    refine WP.bind ((decomposition_spec (hg i hi) fuel (v.selectedGoalsPriority i) layer s).mono ?_)
    rintro b s' ⟨s1, h1, h2⟩
    have k1 : Deriving n now layer v.chosen v s0 s1 := by
      have hb : s1.content.goalBuffers = s.content.goalBuffers := by rw [h1]
      have e1 : s1.content.selectedGoals = s.content.selectedGoals := by rw [h1]
      have e2 : s1.content.selectedGoalsPriority = s.content.selectedGoalsPriority := by rw [h1]
      have e3 : s1.content.goalsSelectedCnt = s.content.goalsSelectedCnt := by rw [h1]
      exact h.other hb e1 e2 e3
    have k2 : Deriving n now layer v.chosen v s0 s' := by
      obtain rfl | ⟨e, he, h3, h4⟩ := h2
      · exact k1
      · exact (k1.subgoal (mem_chosen hi) he (.inr h3) h4).1
    refine WP.ite (fun _ => (ih best hl').wp k2) fun _ => ?_
    refine WP.bind (((Aim.processEvent (v := s'.aims) n fuel _ now).wp rfl).mono fun d s2 h5 => ?_)
    exact (ih _ hl').wp (k2.aims h5.1)

end ONA

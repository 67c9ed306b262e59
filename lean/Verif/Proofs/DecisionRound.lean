import Verif.Proofs.DecisionBest
import Verif.Proofs.ClosedCycle
/-
The choice between the decisions for the selected goals.
-/
namespace ONA
variable [Arith] {n : Narsese} {s0 : Sys} {k : Nat} {now : Int} {goals : List Event}

/-- The state while the selected goals are processed. -/
def InRound (n : Narsese) (s0 : Sys) (k : Nat) (s : Sys) : Prop := (Good n s ∧ During n s0 s) ∧ SelectedGoals n k s

theorem inRound_closed : Closed n (InRound n s0 k) :=
  Closed.withGoals (I := fun s => Good n s ∧ During n s0 s)
    ⟨And.left, fun h st => ⟨(good_closed n).step h.1 st, h.2.tail st⟩⟩ k

/-- What is known about the decision so far. -/
def Leads (n : Narsese) (s0 : Sys) (k : Nat) (goals : List Event) (now : Int) (best : Decision) (s : Sys) : Prop :=
  InRound n s0 k s ∧ ∃ lines, At (s0.output ++ lines, s0.DECISION_THRESHOLD, s0.MOTOR_BABBLING_CHANCE, s0.selection) s ∧
    RoundResult n s0 goals now lines best

theorem Leads.quiet {α : Type} {best : Decision} {s : Sys} {x : M α} {Q : α → Prop}
    (h1 : Keeps (InRound n s0 k) x Q) (h2 : ∀ v, Keeps (At v) x fun _ => True) (h : Leads n s0 k goals now best s) :
    WP x (fun a s' => Leads n s0 k goals now best s' ∧ Q a) s := by
  intro a s' e
  obtain ⟨hr, lines, ha, hres⟩ := h
  exact ⟨⟨(h1 s a s' hr e).1, lines, (h2 _ s a s' ha e).1, hres⟩, (h1 s a s' hr e).2⟩

/-- The result of a search. -/
def Decision.Sane (d : Decision) : Prop := (d.execute = true → 0 ≤ d.desire) ∧ (d.execute = false → d = Decision.zero)

theorem Decision.zero_sane : Decision.zero.Sane := ⟨fun h => (by cases h), fun _ => rfl⟩

theorem better_sane {a b : Decision} (ha : a.Sane) (hb : b.Sane) : (Decision_BetterDecision a b).Sane := by
  unfold Decision_BetterDecision
  split
  · exact hb
  · exact ha

theorem better_assoc (a : Decision) {b c : Decision} (hb : b.Sane) (hc : c.Sane) :
    Decision_BetterDecision a (Decision_BetterDecision b c) = Decision_BetterDecision (Decision_BetterDecision a b) c := by
  unfold Decision_BetterDecision
  by_cases hx : c.execute = true
  · by_cases hy : b.execute = true
    · simp only [hx, hy, Bool.true_and, decide_eq_true_eq]
      split_ifs <;> simp_all <;> linarith
    · have hz := hb.2 (by simpa using hy)
      subst hz
      have := hc.1 hx
      simp [hx, Decision.zero, this]
  · simp [hx]

theorem better_zero (best : Decision) : Decision_BetterDecision best Decision.zero = best := by
  unfold Decision_BetterDecision
  rw [if_neg (by simp [Decision.zero])]

theorem Leads.best (hthr : 0 ≤ s0.DECISION_THRESHOLD) {best : Decision} {s : Sys} {gc : Nat} {goal : Event} (hk : n.Knows goal.term)
    (hgoal : ∃ g ∈ goals, InstanceOf goal g)
    (h : Leads n s0 k goals now best s) :
    WP (Decision_BestCandidate n gc goal now) (fun d s' => Leads n s0 k goals now (Decision_BetterDecision best d) s' ∧ d.Sane) s := by
  intro d s' e
  obtain ⟨hr, lines, ha, hres⟩ := h
  have hr' := (inRound_closed.bestCandidate gc hk now hr d s' e).1
  obtain ⟨s1, hp, hd⟩ := bestCandidate_wp hr.1.1 d s' e
  have ha1 : At (s0.output ++ lines, s0.DECISION_THRESHOLD, s0.MOTOR_BABBLING_CHANCE, s0.selection) s1 := by
    obtain ⟨t, rfl, -⟩ := hp
    exact ha
  have hst : s.DECISION_THRESHOLD = s0.DECISION_THRESHOLD := congrArg (fun v => v.2.1) ha
  have hsane : d.Sane := by
    refine ⟨fun hx => ?_, fun hx => ?_⟩
    · rw [if_pos hx] at hd
      exact hthr.trans (hst ▸ hd.1)
    · rw [if_neg (by simp [hx])] at hd
      exact hd.1
  refine ⟨?_, hsane⟩
  by_cases hx : d.execute = true
  · rw [if_pos hx] at hd
    obtain ⟨h1, h2, h3, imp, rfl⟩ := hd
    refine ⟨hr', lines ++ [.decision d.desire imp], ?_, ?_⟩
    · unfold At at ha1 ⊢
      simp only [Prod.mk.injEq] at ha1 ⊢
      obtain ⟨a1, a2, a3, a4⟩ := ha1
      exact ⟨by rw [a1, List.append_assoc], a2, a3, a4⟩
    · have hann : ∀ o ∈ lines ++ [.decision d.desire imp], ∃ d imp, o = .decision d imp ∧ s0.DECISION_THRESHOLD ≤ d := by
        intro o ho
        rcases List.mem_append.1 ho with ho | ho
        · exact hres.announced o ho
        · rw [List.mem_singleton] at ho
          exact ⟨d.desire, imp, ho, hst ▸ h1⟩
      unfold Decision_BetterDecision
      by_cases hge : d.desire ≥ best.desire
      · rw [if_pos (by rw [hx, decide_eq_true hge]; rfl)]
        refine ⟨hann, fun _ => ⟨⟨imp, by simp⟩, ?_, goal, hgoal, s, gc, hr.1.2, hr.1.1, h1, h2, h3⟩, fun hf => by rw [hx] at hf; cases hf⟩
        intro x i hxi
        rcases List.mem_append.1 hxi with hxi | hxi
        · by_cases hb : best.execute = true
          · exact ((hres.chosen hb).2.1 x i hxi).trans hge
          · rw [(hres.otherwise (by simpa using hb)).2] at hxi
            cases hxi
        · simp at hxi
          exact le_of_eq hxi.1
      · rw [if_neg (by rw [hx]; simpa using hge)]
        refine ⟨hann, fun hb => ?_, fun hb => ?_⟩
        · obtain ⟨⟨i, hi⟩, hle, hc⟩ := hres.chosen hb
          refine ⟨⟨i, List.mem_append_left _ hi⟩, ?_, hc⟩
          intro x i hxi
          rcases List.mem_append.1 hxi with hxi | hxi
          · exact hle x i hxi
          · simp at hxi
            rw [hxi.1]
            exact le_of_lt (lt_of_not_ge hge)
        · exfalso
          rw [(hres.otherwise hb).1] at hge
          exact hge (hthr.trans (hst ▸ h1))
  · rw [if_neg hx] at hd
    obtain ⟨rfl, rfl, -⟩ := hd
    rw [better_zero]
    exact ⟨hr', lines, ha1, hres⟩

theorem Leads.suggest (hthr : 0 ≤ s0.DECISION_THRESHOLD) (hc : s0.MOTOR_BABBLING_CHANCE ≤ 0) {best : Decision} {s : Sys} {gc : Nat}
    {goal : Event} (hk : n.Knows goal.term) (hgoal : ∃ g ∈ goals, InstanceOf goal g) (h : Leads n s0 k goals now best s) :
    WP (Decision_Suggest n gc goal now) (fun d s' => Leads n s0 k goals now (Decision_BetterDecision best d) s' ∧ d.Sane) s := by
  unfold Decision_Suggest
  refine WP.bind ((Leads.quiet inRound_closed.nextRand (fun v => At.nextRand) h).mono ?_)
  rintro r s1 ⟨h1, -⟩
  refine WP.get ?_
  have hch : s1.MOTOR_BABBLING_CHANCE = s0.MOTOR_BABBLING_CHANCE := by
    obtain ⟨-, lines, ha, -⟩ := h1
    exact congrArg (fun v => v.2.2.1) ha
  rw [if_neg (Closed.no_babbling (by rw [hch]; exact hc) r)]
  refine WP.bind (WP.pure ?_)
  refine WP.bind ((h1.best hthr hk hgoal).mono ?_)
  intro d s2 h2
  refine WP.ite (fun _ => WP.pure h2) fun hne => absurd ?_ hne
  rfl

theorem Leads.activate (hthr : 0 ≤ s0.DECISION_THRESHOLD) (hc : s0.MOTOR_BABBLING_CHANCE ≤ 0) {best : Decision} {s : Sys} {c : Nat}
    {e : Event} (he : e.Good n) (hgoal : ∃ g ∈ goals, InstanceOf e g) (h : Leads n s0 k goals now best s) :
    WP (Cycle_ActivateSensorimotorConcept n c e now) (fun d s' => Leads n s0 k goals now (Decision_BetterDecision best d) s' ∧ d.Sane) s := by
  unfold Cycle_ActivateSensorimotorConcept
  have modify : ∀ {s : Sys} (f : Concept → Concept), Leads n s0 k goals now best s → ConceptChange n s c (f (s.concept_storage c)) →
      WP (modifyConcept c f) (fun _ s' => Leads n s0 k goals now best s') s := by
    intro s f h hf a s' e
    obtain ⟨hr, lines, ha, hres⟩ := h
    exact ⟨(inRound_closed.modifyConcept_wp hr hf a s' e).1, lines, (At.modifyConcept c f s a s' ha e).1, hres⟩
  refine WP.bind ((modify _ h ?_).mono ?_)
  · have hg := h.1.1.1.concepts c
    refine .attention _ _ _ _ _ _ ?_ hg.priority .same
    have := hg.useCount
    show 0 ≤ (Usage_use _ _ _).useCount
    unfold Usage_use
    split <;> (simp only [ETERNAL_INPUT_USAGE_BOOST, Bool.false_eq_true, if_false, if_true] at * <;> omega)
  intro _ s1 h1
  refine WP.ite (fun _ => ?_) fun _ => ?_
  · refine WP.bind ((modify _ h1 ?_).mono ?_)
    · split
      · exact .belief_spike _ he
      · exact inRound_closed.attention h1.1 c id fun c => ⟨_, _, _, _, .same, rfl⟩
    · intro _ s2 h2
      refine WP.pure ?_
      rw [better_zero]
      exact ⟨h2, Decision.zero_sane⟩
  · refine WP.bind ((modify _ h1 ?_).mono ?_)
    · split
      · exact .goal_spike _ he
      · exact inRound_closed.attention h1.1 c id fun c => ⟨_, _, _, _, .same, rfl⟩
    · intro _ s2 h2
      exact h2.suggest hthr hc he.term hgoal

theorem Leads.related (hthr : 0 ≤ s0.DECISION_THRESHOLD) (hc : s0.MOTOR_BABBLING_CHANCE ≤ 0) {best d : Decision} {s : Sys} {c : Nat}
    {e : Event} (he : e.Good n) (hgoal : ∃ g ∈ goals, InstanceOf e g)
    (h : Leads n s0 k goals now (Decision_BetterDecision best d) s ∧ d.Sane) :
    WP (processRelatedConcept n e now c d)
      (fun r s' => Leads n s0 k goals now (Decision_BetterDecision best r.2) s' ∧ r.2.Sane) s := by
  unfold processRelatedConcept
  dsimp only
  refine WP.bind ?_
  have step : ∀ {d d' : Decision} {s : Sys}, d.Sane → Leads n s0 k goals now (Decision_BetterDecision (Decision_BetterDecision best d) d') s ∧ d'.Sane →
      Leads n s0 k goals now (Decision_BetterDecision best (Decision_BetterDecision d d')) s ∧ (Decision_BetterDecision d d').Sane := by
    intro d d' s hd h
    exact ⟨by rw [better_assoc _ hd h.2]; exact h.1, better_sane hd h.2⟩
  have first : WP (if (!Variable_hasVariable n e.term true true true || Variable_hasVariable n e.term false false true) = true
      then do
        let s ← get
        let subs ← Variable_Unify n (s.concept_storage c).term e.term
        if subs.success then
          let decision ← Cycle_ActivateSensorimotorConcept n c { e with processed := true, creationTime := now } now
          pure (Decision_BetterDecision d decision)
        else pure d
      else pure d : M Decision) (fun r s => Leads n s0 k goals now (Decision_BetterDecision best r) s ∧ r.Sane) s := by
    refine WP.ite (fun _ => WP.get ?_) fun _ => WP.pure h
    refine WP.bind (WP.lift fun subs _ => ?_)
    refine WP.ite (fun _ => ?_) fun _ => WP.pure h
    exact WP.bind ((Leads.activate hthr hc (e := { e with processed := true, creationTime := now })
      ⟨he.term, he.truth, he.stamp⟩ hgoal h.1).mono fun d' s' h' => WP.pure (step h.2 h'))
  refine first.mono ?_
  intro d1 s1 hs1
  refine WP.ite (fun _ => WP.get ?_) fun _ => WP.pure hs1
  refine WP.bind (WP.lift fun subs hsu => ?_)
  refine WP.ite (fun _ => ?_) fun _ => WP.pure hs1
  refine WP.bind (WP.lift fun t ht => ?_)
  refine WP.ite (fun _ => ?_) fun _ => WP.pure hs1
  exact WP.bind ((Leads.activate hthr hc (e := { e with processed := true, creationTime := now, term := t.1 })
    ⟨he.term.apply ((hs1.1.1.1.1.concepts c).term.unify hsu) ht, he.truth, he.stamp⟩ hgoal hs1.1).mono
      fun d' s' h' => WP.pure (step hs1.2 h'))

section
variable {σ : Type} {J : σ → Sys → Prop} {body : Nat → σ → M (Bool × σ)}

theorem visit_wp (hJ : ∀ st s c, J st s → J st { s with concept_storage := upd s.concept_storage c { s.concept_storage c with processID := s.conceptProcessID } })
    (hb : ∀ c st s, J st s → WP (body c st) (fun r => J r.2) s) (c : Option Nat) (st : σ) (s : Sys) (hs : J st s) :
    WP (visitConcept body c st) (fun r => J r.2) s := by
  unfold visitConcept
  cases c with
  | none => exact WP.pure hs
  | some c =>
    refine WP.get ?_
    refine WP.ite (fun _ => ?_) fun _ => WP.pure hs
    exact WP.bind (WP.modify (hb _ _ _ (hJ _ _ _ hs)))

theorem chain_wp (hJ : ∀ st s c, J st s → J st { s with concept_storage := upd s.concept_storage c { s.concept_storage c with processID := s.conceptProcessID } })
    (hb : ∀ c st s, J st s → WP (body c st) (fun r => J r.2) s) : ∀ (fuel : Nat) (e : Option Nat) (st : σ) (s : Sys), J st s →
    WP (visitChain body fuel e st) (fun r => J r.2) s := by
  intro fuel
  induction fuel with
  | zero =>
    intro e st s hs
    cases e with
    | none => exact WP.pure hs
    | some e => exact WP.throw
  | succ k ih =>
    intro e st s hs
    cases e with
    | none => exact WP.pure hs
    | some e =>
      unfold visitChain
      refine WP.get ?_
      refine WP.bind ((visit_wp hJ hb _ _ _ hs).mono ?_)
      intro r s' hr
      exact WP.ite (fun _ => ih _ _ _ hr) fun _ => WP.pure hr

/-- The loop over the related concepts, for an invariant which the marking of visited concepts keeps. -/
theorem relatedConcepts_wp (hJ : ∀ st s c, J st s → J st { s with concept_storage := upd s.concept_storage c { s.concept_storage c with processID := s.conceptProcessID } })
    (hb : ∀ c st s, J st s → WP (body c st) (fun r => J r.2) s) (fuel : Nat) (term : Term) (st : σ) (s : Sys) (hs : J st s) :
    WP (relatedConcepts fuel term body st) J s := by
  unfold relatedConcepts
  generalize List.range UNIFICATION_DEPTH = l
  induction l generalizing st s with
  | nil => exact WP.pure hs
  | cons i rest ih =>
    unfold visitRelated
    refine WP.reads (Closed.reads_find term) fun c _ => ?_
    refine WP.get ?_
    refine WP.bind ((visit_wp hJ hb _ _ _ hs).mono ?_)
    intro r s' hr
    refine WP.ite (fun _ => ?_) fun _ => WP.pure hr
    refine WP.bind ((chain_wp hJ hb _ _ _ _ hr).mono ?_)
    intro r s' hr
    exact WP.ite (fun _ => ih _ _ hr) fun _ => WP.pure hr

end

theorem Leads.mark {best : Decision} {s : Sys} (h : Leads n s0 k goals now best s) (c : Nat) :
    Leads n s0 k goals now best { s with concept_storage := upd s.concept_storage c { s.concept_storage c with processID := s.conceptProcessID } } := by
  obtain ⟨hr, lines, ha, hres⟩ := h
  have hg := hr.1.1.concepts c
  exact ⟨inRound_closed.concept hr (.attention _ _ _ _ _ _ hg.useCount hg.priority .first), lines, ha, hres⟩

/-- The related concepts are all tried. The decision `best` found before is kept aside. -/
theorem Leads.sensorimotor (hthr : 0 ≤ s0.DECISION_THRESHOLD) (hc : s0.MOTOR_BABBLING_CHANCE ≤ 0) (fuel : Nat) {best : Decision} {s : Sys}
    {e : Event} (he : e.Good n) (hgoal : ∃ g ∈ goals, InstanceOf e g) (h : Leads n s0 k goals now best s) :
    WP (Cycle_ProcessSensorimotorEvent n fuel e now)
      (fun d s' => Leads n s0 k goals now (Decision_BetterDecision best d) s' ∧ d.Sane) s := by
  have zero : ∀ {s}, Leads n s0 k goals now best s → Leads n s0 k goals now (Decision_BetterDecision best Decision.zero) s ∧ Decision.zero.Sane :=
    fun h => ⟨by rw [better_zero]; exact h, Decision.zero_sane⟩
  unfold Cycle_ProcessSensorimotorEvent
  refine WP.bind (WP.lift fun _ _ => ?_)
  refine WP.bind (fun r s1 e1 => ?_)
  have hcl := (inRound_closed.conceptualize_lasting he.term now h.1 r s1 e1).2
  have h1 := (Leads.quiet (inRound_closed.conceptualize he.term now) (fun v => At.conceptualize _ _ _) h r s1 e1).1
  cases r with
  | none => exact WP.pure (zero h1)
  | some c =>
    dsimp only
    have rest : ∀ {s}, Leads n s0 k goals now best s → WP (do
        nextProcessID
        relatedConcepts fuel e.term (processRelatedConcept n e now) Decision.zero)
        (fun d s' => Leads n s0 k goals now (Decision_BetterDecision best d) s' ∧ d.Sane) s := by
      intro s hs
      refine WP.bind ((Leads.quiet inRound_closed.nextProcessID (fun v => At.nextProcessID) hs).mono ?_)
      rintro _ s2 ⟨hs2, -⟩
      exact relatedConcepts_wp (J := fun d s' => Leads n s0 k goals now (Decision_BetterDecision best d) s' ∧ d.Sane)
        (fun _ _ c h => ⟨h.1.mark c, h.2⟩) (fun c d s hs => Leads.related hthr hc he hgoal hs) _ _ _ _ (zero hs2)
    refine WP.ite (fun _ => ?_) fun _ => rest h1
    refine WP.bind (WP.modify (rest ?_))
    obtain ⟨hr, lines, ha, hres⟩ := h1
    exact ⟨inRound_closed.internal hr ((hcl c rfl).imp_right fun h => h.1), lines, ha, hres⟩

/-- All selected goals. -/
theorem Leads.round (hthr : 0 ≤ s0.DECISION_THRESHOLD) (hc : s0.MOTOR_BABBLING_CHANCE ≤ 0) (fuel layer : Nat) :
    ∀ (l : List Nat), (∀ i ∈ l, i < k) → (∀ i ∈ l, s0.selectedGoals i ∈ goals) → ∀ {best : Decision} {s : Sys},
    Leads n s0 k goals now best s →
    WP (processSelectedGoals n fuel now layer l best) (fun d s' => Leads n s0 k goals now d s') s := by
  intro l
  induction l with
  | nil => intro _ _ best s hs; exact WP.pure hs
  | cons i l ih =>
    intro hl hg best s hs
    have ih := @ih (fun j hj => hl j (List.mem_cons_of_mem _ hj)) (fun j hj => hg j (List.mem_cons_of_mem _ hj))
    unfold processSelectedGoals
    refine WP.get ?_
    have hgood := hs.1.2 i (hl i List.mem_cons_self)
    have hsel : s.selectedGoals = s0.selectedGoals := by
      obtain ⟨-, lines, ha, -⟩ := hs
      exact congrArg (fun v => v.2.2.2.goals) ha
    refine WP.bind ((Leads.quiet (inRound_closed.goalDecomposition fuel hgood.1 hgood.2.1 layer) (fun v => At.goalSequence _ _ _ _ _) hs).mono ?_)
    rintro b s1 ⟨hs1, -⟩
    refine WP.ite (fun _ => ih hs1) fun _ => ?_
    refine WP.bind ((Leads.sensorimotor hthr hc fuel hgood.1 ⟨_, hg i List.mem_cons_self, ?_⟩ hs1).mono fun d s2 h2 => ih h2.1)
    rw [hsel]
    exact ⟨rfl, rfl, rfl, rfl⟩

end ONA

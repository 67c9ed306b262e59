import Verif.Proofs.DecisionRound
import Verif.Props.Settings
/-
C48: decisions.
-/
namespace ONA
variable [Arith] {n n' : Narsese} {s s' : Sys} {z : Sizes}

/-- **C48 (best candidate).** The search at one concept: if it proposes to act, the desire reaches the threshold, the
proposed operation, arguments and desire are those of a candidate and no candidate is more desired. If it does not,
no candidate reaches the threshold. Nothing else changes but the removal of links with forgotten preconditions and the
announcement. -/
theorem C48_best {gc : Nat} {goal : Event} {now : Int} {d : Decision} (hg : Good n s)
    (e : Decision_BestCandidate n gc goal now s = .ok (d, s')) : ∃ s1, Pruned gc s s1 ∧
      if d.execute = true then
        s.DECISION_THRESHOLD ≤ d.desire ∧ IsCandidate n s gc goal now d ∧
        NoCandidate n s gc goal now (fun d' => d.desire < d'.desire) ∧
        ∃ imp, s' = { s1 with output := s1.output ++ [.decision d.desire imp] }
      else d = Decision.zero ∧ s' = s1 ∧ NoCandidate n s gc goal now (fun d' => s.DECISION_THRESHOLD ≤ d'.desire) :=
  bestCandidate_wp hg d s' e

/-- **C48 (selected goals).** Processing the selected goals without babbling: the decision in the end is the best
candidate for one of them, and is at least as desired as every decision announced for any of them. -/
theorem C48_round {fuel layer k : Nat} {now : Int} {best : Decision} (hg : Good n s) (hsel : SelectedGoals n k s)
    (hthr : 0 ≤ s.DECISION_THRESHOLD) (hb : s.MOTOR_BABBLING_CHANCE ≤ 0)
    (e : processSelectedGoals n fuel now layer (List.range k) Decision.zero s = .ok (best, s')) :
    ∃ lines, s'.output = s.output ++ lines ∧ RoundResult n s ((List.range k).map s.selectedGoals) now lines best := by
  have h0 : Leads n s k ((List.range k).map s.selectedGoals) now Decision.zero s :=
    ⟨⟨⟨hg, .refl⟩, hsel⟩, [], by simp [At], fun o ho => (by cases ho), fun h => (by cases h), fun _ => ⟨rfl, rfl⟩⟩
  obtain ⟨-, lines, ha, hr⟩ := Leads.round hthr hb fuel layer (List.range k) (fun i hi => List.mem_range.1 hi)
    (fun i hi => List.mem_map.2 ⟨i, hi, rfl⟩) h0 best s' e
  exact ⟨lines, congrArg (fun v => v.1) ha, hr⟩

theorem During.operations {s0 s : Sys} (hg : Good n s0) (h : During n s0 s) : Good n s ∧ s.operations = s0.operations := by
  induction h with
  | refl => exact ⟨hg, rfl⟩
  | tail _ st ih => exact ⟨(good_closed n).step ih.1 st, (st.frame ih.1).1.operations.trans ih.2⟩

/-- **C48 (execution).** One round of goal processing without babbling, where the feedback of operations only adds lines:
the operation executed, if any, is the one of the best decision, with its arguments, and it is printed right after the
announcements. If no candidate was chosen nothing is executed. -/
theorem C48_act {fuel layer : Nat} {add : Term → M Unit} {now : Int} (hg : Good n s) (hsel : SelectedGoals n s.goalsSelectedCnt s)
    (hthr : 0 ≤ s.DECISION_THRESHOLD) (hb : s.MOTOR_BABBLING_CHANCE ≤ 0)
    (hadd : ∀ t s s', add t s = .ok ((), s') → s.output <+: s'.output)
    (e : Cycle_ProcessAndInferGoalEvents n fuel add now layer s = .ok ((), s')) :
    ∃ lines best, RoundResult n s ((List.range s.goalsSelectedCnt).map s.selectedGoals) now lines best ∧
      (s'.output = s.output ++ lines ∨ best.execute = true ∧ best.operationID > 0 ∧
        (s.output ++ lines ++ [.executed (s.operations (best.operationID - 1)).term best.arguments]) <+: s'.output) := by
  unfold Cycle_ProcessAndInferGoalEvents at e
  rw [M.bind_ok] at e
  obtain ⟨_, _, eg, e⟩ := e
  rw [M.get_ok] at eg
  obtain ⟨rfl, rfl⟩ := eg
  rw [M.bind_ok] at e
  obtain ⟨best, s1, e1, e⟩ := e
  have h0 : Leads n s s.goalsSelectedCnt ((List.range s.goalsSelectedCnt).map s.selectedGoals) now Decision.zero s :=
    ⟨⟨⟨hg, .refl⟩, hsel⟩, [], by simp [At], fun o ho => (by cases ho), fun h => (by cases h), fun _ => ⟨rfl, rfl⟩⟩
  obtain ⟨hr1, lines, ha, hr⟩ := Leads.round hthr hb fuel layer (List.range s.goalsSelectedCnt) (fun i hi => List.mem_range.1 hi)
    (fun i hi => List.mem_map.2 ⟨i, hi, rfl⟩) h0 best s1 e1
  refine ⟨lines, best, hr, ?_⟩
  have rest : ∀ v, Keeps (At v) (do
      if !best.execute then
        let s ← get
        (List.range s.goalsSelectedCnt).forM fun i => do
          let s ← get
          nextProcessID
          relatedConcepts fuel (s.selectedGoals i).term
            (deriveSubgoals n (s.selectedGoals i) (s.selectedGoalsPriority i) now layer) () : M Unit) fun _ => True := by
    intro v
    refine Keeps.ite (fun _ => ?_) fun _ => Keeps.pure trivial
    refine Keeps.bind_get fun s hs => Keeps.forM fun i hi => ?_
    refine Keeps.bind_get fun s2 hs2 => ?_
    refine Keeps.seq At.nextProcessID fun _ => ?_
    exact At.related (fun _ _ => At.deriveSubgoals _ _ _ _ _ _ _) _ _ _
  have out1 : s1.output = s.output ++ lines := congrArg (fun v => v.1) ha
  have hops : s1.operations = s.operations := (hr1.1.2.operations hg).2
  by_cases hx : (best.execute && decide (best.operationID > 0)) = true
  · rw [if_pos hx] at e
    rw [Bool.and_eq_true, decide_eq_true_iff] at hx
    rw [M.bind_ok] at e
    obtain ⟨_, s2, e2, e⟩ := e
    rw [M.modify_ok] at e2
    rw [M.bind_ok] at e
    obtain ⟨_, s3, e3, e⟩ := e
    have out2 : s2.output = s.output ++ lines := by rw [← e2]; exact out1
    have ops2 : s2.operations = s.operations := by rw [← e2]; exact hops
    have hg2 : Good n s2 := by rw [← e2]; exact (good_closed n).step hr1.1.1 .clearGoals
    have hd : best.Ok n := by
      have := (good_closed n).withGoals s.goalsSelectedCnt |>.selectedGoals And.right fuel now layer (List.range s.goalsSelectedCnt)
        (fun i hi => List.mem_range.1 hi) Decision.zero ⟨⟨hg, hsel⟩, Decision.zero_fit _, fun h => by cases h⟩ best s1 e1
      exact this.2.1.1
    unfold Decision_Execute at e3
    rw [M.bind_ok] at e3
    obtain ⟨_, s4, e4, e3⟩ := e3
    have out4 : s4.output = s.output ++ lines := by
      have := (At.functionalEquivalence n now best (v := (s2.output, s2.DECISION_THRESHOLD, s2.MOTOR_BABBLING_CHANCE, s2.selection))
        s2 () s4 rfl e4).1
      exact (congrArg (fun v => v.1) this : s4.output = s2.output).trans out2
    have ops4 : s4.operations = s.operations := by
      have hc : Closed n fun t => Good n t ∧ t.operations = s2.operations :=
        ⟨And.left, fun h st => ⟨(good_closed n).step h.1 st, (st.frame h.1).1.operations.trans h.2⟩⟩
      exact ((hc.functionalEquivalence now hd) s2 () s4 ⟨hg2, rfl⟩ e4).1.2.trans ops2
    have key : s3.output = s.output ++ lines ∨
        (s.output ++ lines ++ [.executed (s.operations (best.operationID - 1)).term best.arguments]) <+: s3.output := by
      rw [if_pos (by have := hx.2; omega)] at e3
      unfold executeOperation at e3
      rw [M.bind_ok] at e3
      obtain ⟨_, _, eg, e3⟩ := e3
      rw [M.get_ok] at eg
      obtain ⟨rfl, rfl⟩ := eg
      dsimp only at e3
      rw [ops4] at e3
      cases hfb : operationFeedbackTerm (s.operations (best.operationID - 1)).term best.arguments with
      | none =>
        rw [hfb] at e3
        dsimp only at e3
        rw [M.pure_ok] at e3
        obtain ⟨-, rfl⟩ := e3
        exact .inl out4
      | some fb =>
        rw [hfb] at e3
        dsimp only at e3
        right
        unfold emit at e3
        rw [M.bind_ok] at e3
        obtain ⟨_, s5, e5, e3⟩ := e3
        rw [M.modify_ok] at e5
        have out5 : s5.output = s.output ++ lines ++ [.executed (s.operations (best.operationID - 1)).term best.arguments] := by
          rw [← e5]; dsimp only; rw [out4]
        rw [← out5]
        cases hact : (s.operations (best.operationID - 1)).action with
        | none => rw [hact] at e3; cases e3
        | some action =>
          rw [hact] at e3
          dsimp only at e3
          by_cases hf : (!(action best.arguments).failed) = true
          · rw [if_pos hf, M.bind_ok] at e3
            obtain ⟨r, s6, e6, e3⟩ := e3
            have out6 : s6.output = s5.output :=
              congrArg (fun v => v.1) (At.readResult n _ _ _ (v := (s5.output, s5.DECISION_THRESHOLD, s5.MOTOR_BABBLING_CHANCE, s5.selection))
                s5 r s6 rfl e6).1
            rw [← out6]
            cases r with
            | none =>
              rw [M.pure_ok] at e3
              obtain ⟨-, rfl⟩ := e3
              exact List.prefix_rfl
            | some subs =>
              dsimp only at e3
              rw [M.bind_ok] at e3
              obtain ⟨t, s7, e7, e3⟩ := e3
              rw [M.lift_ok] at e7
              obtain ⟨-, rfl⟩ := e7
              by_cases ht : t.2 = true
              · rw [if_pos ht, M.bind_ok] at e3
                obtain ⟨_, s8, e8, e3⟩ := e3
                have h8 := hadd _ _ _ e8
                have out9 : s3.output = s8.output :=
                  congrArg (fun v => v.1) (At.anticipateMissing n now best
                    (v := (s8.output, s8.DECISION_THRESHOLD, s8.MOTOR_BABBLING_CHANCE, s8.selection)) s8 () s3 rfl e3).1
                rw [out9]
                exact h8
              · rw [if_neg ht, M.pure_ok] at e3
                obtain ⟨-, rfl⟩ := e3
                exact List.prefix_rfl
          · rw [if_neg hf, M.pure_ok] at e3
            obtain ⟨-, rfl⟩ := e3
            rw [out5]
    have out3 : s'.output = s3.output :=
      congrArg (fun v => v.1) (rest (s3.output, s3.DECISION_THRESHOLD, s3.MOTOR_BABBLING_CHANCE, s3.selection) s3 () s' rfl e).1
    rw [out3]
    exact key.imp id fun h => ⟨hx.1, hx.2, h⟩
  · rw [if_neg hx] at e
    left
    have out3 : s'.output = s1.output :=
      congrArg (fun v => v.1) (rest (s1.output, s1.DECISION_THRESHOLD, s1.MOTOR_BABBLING_CHANCE, s1.selection) s1 () s' rfl e).1
    rw [out3, out1]

/-- The executions in the log are justified. -/
theorem Run.threshold (h : Good n s) {t x : Nat} (r : Run n s t x s') :
    ∃ new, s'.output = s.output ++ new ∧
      (∀ d imp, .decision d imp ∈ new → s.DECISION_THRESHOLD ≤ d) ∧
      ∀ pre op args post, new = pre ++ .executed op args :: post → OwnArguments n args ∧
        ((∃ before d imp, s.output ++ pre = before ++ [.decision d imp] ∧ s.DECISION_THRESHOLD ≤ d) ∨
          0 < s.MOTOR_BABBLING_CHANCE ∧ ∃ k < s.BABBLING_OPS, op = (s.operations k).term) := by
  have snoc : ∀ {new pre post : List Output} {o x : Output}, new ++ [o] = pre ++ x :: post →
      (post = [] ∧ new = pre ∧ o = x) ∨ ∃ post', post = post' ++ [o] ∧ new = pre ++ x :: post' := by
    intro new pre post o x e
    rcases List.eq_nil_or_concat post with rfl | ⟨post', b, rfl⟩
    · have := List.append_inj' e rfl
      exact .inl ⟨rfl, this.1, by simpa using this.2⟩
    · right
      rw [List.concat_eq_append, ← List.cons_append, ← List.append_assoc] at e
      have := List.append_inj' e rfl
      refine ⟨post', ?_, this.1⟩
      rw [List.concat_eq_append, show o = b by simpa using this.2]
  induction r with
  | refl => exact ⟨[], by simp, fun d imp hm => (by cases hm), fun pre op args post e => by simp at e⟩
  | step r st ih =>
    obtain ⟨new, b, c, d⟩ := ih
    obtain ⟨f, o⟩ := st.frame (r.good h)
    have hset := r.settings h
    cases o with
    | none e => exact ⟨new, by rw [e, b], c, d⟩
    | decision dd imp hd e =>
      refine ⟨new ++ [.decision dd imp], by rw [e, b, List.append_assoc], fun x i hm => ?_, fun pre op args post hx => ?_⟩
      · rcases List.mem_append.1 hm with hm | hm
        · exact c x i hm
        · rw [List.mem_singleton] at hm
          cases hm
          have : s.DECISION_THRESHOLD = _ := (congrArg Settings.decisionThreshold hset).symm
          rw [this]
          exact hd
      · rcases snoc hx with ⟨_, _, h3⟩ | ⟨post', _, h2⟩
        · cases h3
        · exact d pre op args post' h2
  | execute k action args r ha hj ho ih =>
    obtain ⟨new, b, c, d⟩ := ih
    have hset := r.settings h
    refine ⟨new ++ [.executed _ args], by dsimp only; rw [b, List.append_assoc], fun x i hm => ?_, fun pre op a post hx => ?_⟩
    · rcases List.mem_append.1 hm with hm | hm
      · exact c x i hm
      · rw [List.mem_singleton] at hm
        cases hm
    · rcases snoc hx with ⟨h1, h2, h3⟩ | ⟨post', _, h2⟩
      · have h4 : s.MOTOR_BABBLING_CHANCE = _ := (congrArg Settings.motorBabbling hset).symm
        have h5 : s.DECISION_THRESHOLD = _ := (congrArg Settings.decisionThreshold hset).symm
        have h6 : s.BABBLING_OPS = _ := (congrArg Settings.babblingOps hset).symm
        obtain ⟨_, _, hops, _⟩ := r.effect h
        cases h3
        refine ⟨ho, hj.imp ?_ fun hx => ⟨by rw [h4]; exact hx.1, k, by rw [h6]; exact hx.2, by rw [hops]⟩⟩
        rintro ⟨before, dd, imp, hl, ht⟩
        refine ⟨before, dd, imp, ?_, ?_⟩
        · rw [← h2, ← b, hl]
        · rw [h5]; exact ht
      · exact d pre op a post' h2
  | input term type truth offset _ ih => exact ih
  | answer lines r hl ih =>
    obtain ⟨new, b, c, d⟩ := ih
    refine ⟨new ++ lines, by dsimp only; rw [b, List.append_assoc], fun x i hm => ?_, fun pre op args post hx => ?_⟩
    · rcases List.mem_append.1 hm with hm | hm
      · exact c x i hm
      · exact (hl _ hm).elim
    · clear b c
      induction lines using List.reverseRecOn generalizing post with
      | nil => rw [List.append_nil] at hx; exact d pre op args post hx
      | append_singleton l o ihl =>
        rw [← List.append_assoc] at hx
        rcases snoc hx with ⟨_, _, h3⟩ | ⟨post', _, h2⟩
        · exact ((h3 ▸ hl o (by simp) : Output.IsAnswer (.executed op args))).elim
        · exact ihl (fun o ho => hl o (List.mem_append_left _ ho)) post' h2
  | tick _ ih => exact ih

/-- **C48 (threshold).** In every call made in every reachable state: whenever an operation is executed, the line printed just
before announces a decision whose desire reaches the decision threshold (all announced decisions reach it), or motor babbling is
on and the operation is one of the first `BABBLING_OPS`. It is executed without arguments or with those of the system itself. -/
theorem C48_threshold (hz : z.Ok) (h : Reachable z n s) (fuel : Fuel) (c : Call)
    (hl : c.Legal n s) (ht : c.thinks = true) (e : c.run z fuel n s = .ok (n', s')) :
    ∃ new, s'.output = s.output ++ new ∧
      (∀ d imp, .decision d imp ∈ new → s.DECISION_THRESHOLD ≤ d) ∧
      ∀ pre op args post, new = pre ++ .executed op args :: post → (args = Term.zero ∨ args.get 3 = n'.SELF) ∧
        ((∃ before d imp, s.output ++ pre = before ++ [.decision d imp] ∧ s.DECISION_THRESHOLD ≤ d) ∨
          0 < s.MOTOR_BABBLING_CHANCE ∧ ∃ k < s.BABBLING_OPS, op = (s.operations k).term) := by
  obtain ⟨hg, hn⟩ := h.good hz
  obtain ⟨hx, hg', t, x, rr⟩ := call_runs hg hn hl ht e
  exact rr.threshold hg'

end ONA

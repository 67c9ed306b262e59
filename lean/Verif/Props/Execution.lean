import Verif.Spec.Execution
import Verif.Props.Anticipation
import Verif.Props.Equivalence
import Verif.Proofs.API
/-
C84. The execution of an operation.
-/
namespace ONA
variable [Arith] {n : Narsese}

omit [Arith] in
theorem feedback_some {op args t : Term} (h : operationFeedbackTerm op args = some t) : Execution op args t := by
  unfold operationFeedbackTerm at h
  by_cases h0 : args.get 0 = 0
  · rw [if_neg (by simpa using h0)] at h
    cases h
    exact .plain h0
  · rw [if_pos h0] at h
    dsimp only at h
    by_cases h1 : (buildCompound (copulaAtom INHERITANCE) args op).1 = true
    · rw [if_pos h1] at h
      cases h
      exact .applied _ h0 (Prod.ext h1 rfl)
    · rw [if_neg h1] at h
      cases h

omit [Arith] in
theorem feedback_none {op args : Term} (h : operationFeedbackTerm op args = none) (t : Term) : ¬ Execution op args t := by
  unfold operationFeedbackTerm at h
  intro hx
  cases hx with
  | plain h0 => rw [if_neg (by simpa using h0)] at h; cases h
  | applied t h0 h1 =>
    rw [if_pos h0] at h
    dsimp only at h
    rw [if_pos (by rw [h1])] at h
    cases h

theorem result {op : Operation} {args : Term} {subs : Substitution} {s : Sys} :
    WP (readOperationResult n op args subs) (fun r s' => Result n op args subs s r s') s := by
  unfold readOperationResult
  refine WP.ite (fun h => ?_) fun h => WP.pure (.returned (by simpa using h))
  refine WP.get ?_
  split
  · rename_i h1
    exact WP.pure (.ended h h1)
  · rename_i rest h1
    exact WP.bind (WP.set (WP.pure (.nothing rest h h1)))
  · rename_i a rest h1
    refine WP.bind (WP.set (WP.bind (WP.lift fun subs hs => WP.pure ?_)))
    by_cases hb : subs.success = true
    · rw [if_pos hb]
      exact .reported a rest subs h h1 hs hb
    · rw [if_neg hb]
      exact .different a rest subs h h1 hs (by simpa using hb)

theorem assumes {s : Sys} (hg : Good n s) {d : Decision} (hd : d.Ok n) {now : Int} :
    WP (anticipateMissing n now d) (fun _ s' => AssumesFailure n now d s s') s := by
  unfold anticipateMissing
  dsimp only
  refine WP.ite (fun h0 => ?_) fun h0 => WP.pure (.experienced (by simpa using h0))
  refine WP.bind ?_
  intro r s1 e1
  have hg1 := ((good_closed n).conceptualize (hd.missing_term.extract 2) now _ r s1 hg e1).1
  cases r with
  | none => exact WP.pure (.refused s1 h0 e1)
  | some c =>
    dsimp only
    cases hr : d.reason with
    | none => exact WP.throw
    | some p =>
      dsimp only
      refine WP.get ?_
      intro x s2 e2
      obtain ⟨v, h1, h2⟩ := weakens hg1 (hd.missing h0) x e2
      exact .new c p v s1 s2 h0 e1 hr h1 h2

/-- The user's call with which the system is told what it did. -/
def ToldBelief (n : Narsese) (t : Term) (s s' : Sys) : Prop := ∃ fuel ev, NAR_AddInputBelief n fuel t s = .ok (ev, s')

theorem nested_told {chain depth : Nat} {t : Term} {s s' : Sys} {x : Unit} (e : addInputBeliefNested n chain depth t s = .ok (x, s')) :
    ToldBelief n t s s' := by
  cases depth with
  | zero => cases e
  | succ depth =>
    unfold addInputBeliefNested at e
    rw [M.bind_ok] at e
    obtain ⟨ev, s1, e1, e2⟩ := e
    obtain ⟨-, rfl⟩ := M.pure_ok.1 e2
    exact ⟨⟨chain, depth⟩, ev, e1⟩

theorem told_good {t : Term} {s s' : Sys} (hk : n.Knows t) (hg : Good n s) (h : ToldBelief n t s s') : Good n s' := by
  obtain ⟨fuel, ev, e⟩ := h
  exact (addInput_between fuel hk .belief NAR_DEFAULT_TRUTH_valid false 0 hg e).1

/-- **C84.** Executing the operation of a decision does what is described, nothing else; the system is told what it did by the same call
with which a user tells it something. -/
theorem C84_operation {s s' : Sys} (hg : Good n s) {d : Decision} (hd : d.Ok n) {now : Int} {chain depth : Nat}
    (e : executeOperation n (addInputBeliefNested n chain depth) now d s = .ok ((), s')) :
    Executed n (ToldBelief n) now d s s' := by
  suffices key : WP (executeOperation n (addInputBeliefNested n chain depth) now d)
    (fun _ s' => Executed n (ToldBelief n) now d s s') s from key _ _ e
  unfold executeOperation
  refine WP.get ?_
  dsimp only
  cases hf : operationFeedbackTerm (s.operations (d.operationID - 1)).term d.arguments with
  | none => exact WP.pure (.large (feedback_none hf))
  | some t =>
    have hop := hg.operations (d.operationID - 1)
    have hkf := hg.base.feedback hop.term hd.arguments hf
    have hx := feedback_some hf
    dsimp only
    unfold emit
    refine WP.bind (WP.modify ?_)
    cases ha : (s.operations (d.operationID - 1)).action with
    | none => exact WP.throw
    | some action =>
      dsimp only
      have hg1 : Good n (s.printing (.executed (s.operations (d.operationID - 1)).term d.arguments)) := hg.congr rfl hg.stdin
      refine WP.ite (fun hb => ?_) fun hb => WP.pure (.failed t action hx ha (by simpa using hb))
      have hb : (action d.arguments).failed = false := by simpa using hb
      refine WP.bind ?_
      intro r s1 e1
      have hr := result r s1 e1
      obtain ⟨hg2, hk⟩ := Hooks.readResult (good_closed n) _ _ (hop.action action ha d.arguments) _ _ _ hg1 e1
      cases r with
      | none => exact WP.pure (.unknown t action s1 hx ha hb hr)
      | some subs =>
        dsimp only
        refine WP.bind (WP.lift fun t' ht => ?_)
        obtain ⟨t', ok⟩ := t'
        cases ok with
        | false => exact WP.ite (fun h => by cases h) fun _ => WP.pure (.unfit t action subs t' s1 hx ha hb hr ht)
        | true =>
          refine WP.ite (fun _ => ?_) fun h => absurd rfl h
          refine WP.bind ?_
          intro x s2 e2
          have h2 := nested_told e2
          exact (assumes (told_good (hkf.apply (hk subs rfl) ht) hg2 h2) hd).mono fun _ s3 h3 =>
            .done t action subs t' s1 s2 s3 hx ha hb hr ht h2 h3

/-- **C84 (decisions).** A decision is executed by comparing its link (C82) and then executing its operation, if it has one. -/
theorem C84_executed {s s' : Sys} (hg : Good n s) {d : Decision} (hd : d.Ok n) {now : Int} {chain depth : Nat}
    (e : Decision_Execute n (addInputBeliefNested n chain depth) now d s = .ok ((), s')) :
    ∃ s1, ComparesTable n now d.specific_implication d.tableIndex s s1 ∧ (d.operationID = 0 → s' = s1) ∧
      (d.operationID ≠ 0 → Executed n (ToldBelief n) now d s1 s') := by
  unfold Decision_Execute at e
  rw [M.bind_ok] at e
  obtain ⟨⟨⟩, s1, e1, e2⟩ := e
  have hg1 : Good n s1 := ((good_closed n).functionalEquivalence now hd _ _ _ hg e1).1
  refine ⟨s1, C82_compared hg hd.specific e1, fun h => ?_, fun h => ?_⟩
  · rw [if_neg (by simpa using h)] at e2
    exact (M.pure_ok.1 e2).2.symm
  · rw [if_pos h] at e2
    exact C84_operation hg1 hd e2

omit [Arith] in
/-- The statement told is the inheritance of the arguments and the operation. -/
theorem C84_statement {op args t : Term} (ha : args.Closed) (ho : op.Closed) (h0 : op.get 0 ≠ 0) (h1 : args.get 0 ≠ 0)
    (h : Execution op args t) : t.Closed ∧ t.tree = .node (copulaAtom INHERITANCE) args.tree op.tree := by
  cases h with
  | plain h => exact absurd h h1
  | applied t _ h =>
    have := (buildCompound_spec (copulaAtom INHERITANCE) args op (by decide) ha ho h1 h0).2 (by rw [h])
    rw [h] at this
    exact this

end ONA

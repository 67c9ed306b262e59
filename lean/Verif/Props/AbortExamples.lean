import Verif.Props.Abort
import Verif.Proofs.Demo
/-
Examples for C71, evaluated by the kernel with exact arithmetic: abnormal ends which really happen after legal calls, and a
call which ends normally.
-/
namespace ONA
namespace Demo
attribute [local instance] exactArith
set_option maxRecDepth 100000

/-- After the lines, the calls end with this error. -/
def ends (l : List Line) (pre : Sys → Sys) (x : Line) (err : Err) : Bool :=
  match run sizes fuel l with
  | .ok (n, s) => x.legalB n (pre s) && match x.call.run sizes fuel n (pre s) with
    | .ok _ => false
    | .error e => decide (e = err)
  | .error _ => false

/-- The last call is legal in a reachable state and ends so. -/
def Happens (e : Err) : Prop := ∃ n s, ∃ c : Call, Reachable sizes n s ∧ c.Legal n s ∧ c.run sizes fuel n s = .error e

theorem of_ends {l : List Line} {pre : Sys → Sys} {x : Line} {err : Err} (h : ends l pre x err = true)
    (hp : ∀ n s, Reachable sizes n s → Reachable sizes n (pre s)) : Happens err := by
  unfold ends at h
  cases e : run sizes fuel l with
  | error _ => rw [e] at h; cases h
  | ok p =>
    rw [e] at h
    obtain ⟨n, s⟩ := p
    simp only [Bool.and_eq_true] at h
    refine ⟨n, pre s, x.call, hp _ _ (run_reachable e), legalB_legal h.1, ?_⟩
    cases e2 : x.call.run sizes fuel n (pre s) with
    | ok _ => rw [e2] at h; cases h.2
    | error e' => rw [e2] at h; rw [of_decide_eq_true h.2]

theorem babblingOps_check : ends [.motorbabbling 1, .op "^a"] (fun s => { s with BABBLING_OPS := 0 }) (.text "g! :|:")
    (.ub "modulo by zero") = true := by decide +kernel

theorem components_check : ends [] id (.text "((((a &/ b) &/ c) &/ d) &/ e)! :|:")
    (.ub "componentGoalsTerm written past the end") = true := by decide +kernel

theorem sequence_check : ends [] id (.text "(((((a &/ b) &/ c) &/ d) &/ e) &/ f)! :|:")
    (.assertFail "The sequence was longer than MAX_SEQUENCE_LEN") = true := by decide +kernel

theorem operations_check : ends [.motorbabbling 0, .op "^a", .op "^b", .text "<((a &/ ^a) &/ ^b) =/> g>.", .text "a. :|:"] id
    (.text "g! :|:") (.assertFail "Operation sequence longer than the FIFO can build") = true := by decide +kernel

theorem eternalGoal_check : ends [.motorbabbling 0] (fun s => { s with currentTime := -1 }) (.text "g! :|:")
    (.assertFail "Eternal goals are not supported") = true := by decide +kernel

theorem reason_check : ends [.motorbabbling 0, .op "^a"] (fun s => { s with DECISION_THRESHOLD := 0 }) (.text "g! :|:")
    (.ub "NULL reason") = true := by decide +kernel

theorem nan_check : ends [.text "a. {1.0 1.0}"] id (.text "a. {1.0 0.9}") .nan = true := by decide +kernel

theorem revision_check : ends [.text "a. {1.0 0.995}"] id (.text "a. {1.0 0.995}")
    (.assertFail "Revision outcome can't be lower in confidence than existing event") = true := by decide +kernel

theorem clock_check : ends [.motorbabbling 0, .text "a. :|:"] (fun s => { s with currentTime := 0 }) (.text "b. :|:")
    (.ub "division by zero") = true := by decide +kernel

/-- **C71**: these ends do happen (in each case, see above for the input which brings them about). -/
theorem C71_happens :
    Happens (.ub "modulo by zero") ∧ Happens (.ub "componentGoalsTerm written past the end") ∧
    Happens (.assertFail "The sequence was longer than MAX_SEQUENCE_LEN") ∧
    Happens (.assertFail "Operation sequence longer than the FIFO can build") ∧
    Happens (.assertFail "Eternal goals are not supported") ∧ Happens (.ub "NULL reason") ∧ Happens .nan ∧
    Happens (.assertFail "Revision outcome can't be lower in confidence than existing event") ∧
    Happens (.ub "division by zero") :=
  ⟨of_ends babblingOps_check fun _ _ h => .call fuel (.command (.babblingOps 0)) h trivial rfl,
   of_ends components_check fun _ _ h => h,
   of_ends sequence_check fun _ _ h => h,
   of_ends operations_check fun _ _ h => h,
   of_ends eternalGoal_check fun _ _ h => .call fuel (.command (.currentTime (-1))) h trivial rfl,
   of_ends reason_check fun _ _ h => .call fuel (.command (.parameter .decisionThreshold 0)) h trivial rfl,
   of_ends nan_check fun _ _ h => h,
   of_ends revision_check fun _ _ h => h,
   of_ends clock_check fun _ _ h => .call fuel (.command (.currentTime 0)) h trivial rfl⟩

/-! ### C77 -/

/-- Bounds sufficient for the memory of the examples. -/
def amply : Fuel := ⟨16000, 1⟩

theorem amply_covers : amply.Covers sizes.memory.concepts := ⟨by decide, by decide⟩

/-- How a line ends after others, with other bounds. -/
def endsWith (l : List Line) (f : Fuel) (x : Line) (err : Option Err) : Bool :=
  match run sizes fuel l with
  | .ok (n, s) => x.legalB n s && match x.call.run sizes f n s with
    | .ok _ => decide (err = none)
    | .error e => decide (err = some e)
  | .error _ => false

theorem ample_check : endsWith [.motorbabbling 0, .text "<a ==> b>."] amply (.text "a. :|:") none = true := by decide +kernel

theorem short_check : endsWith [.motorbabbling 0, .text "<a ==> b>."] ⟨0, 1⟩ (.text "a. :|:") (some .fuel) = true := by decide +kernel

/-- **C77**: a state and a call as in the theorem; with a bound which does not suffice, the bound is exceeded. -/
theorem C77_example : ∃ n s, ∃ c : Call, Reachable sizes n s ∧ c.Legal n s ∧ amply.Covers sizes.memory.concepts ∧
    (∃ r, c.run sizes amply n s = .ok r) ∧ c.run sizes ⟨0, 1⟩ n s = .error .fuel := by
  have h1 := ample_check
  have h2 := short_check
  unfold endsWith at h1 h2
  cases e : run sizes fuel [.motorbabbling 0, .text "<a ==> b>."] with
  | error _ => rw [e] at h1; cases h1
  | ok p =>
    rw [e] at h1 h2
    obtain ⟨n, s⟩ := p
    simp only [Bool.and_eq_true] at h1 h2
    refine ⟨n, s, (Line.text "a. :|:").call, run_reachable e, legalB_legal h1.1, amply_covers, ?_, ?_⟩
    · cases e2 : (Line.text "a. :|:").call.run sizes amply n s with
      | ok r => exact ⟨r, rfl⟩
      | error e' => rw [e2] at h1; exact absurd (of_decide_eq_true h1.2) (by simp)
    · cases e2 : (Line.text "a. :|:").call.run sizes ⟨0, 1⟩ n s with
      | ok r => rw [e2] at h2; exact absurd (of_decide_eq_true h2.2) (by simp)
      | error e' => rw [e2] at h2; rw [Option.some.inj (of_decide_eq_true h2.2)]

end Demo
end ONA

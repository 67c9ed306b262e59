import Verif.Props.Idle
import Verif.Proofs.Demo
/-
Concrete histories, evaluated by the kernel, which meet the hypotheses of the theorems of Props/Idle.lean.
-/
namespace ONA
namespace Demo
attribute [local instance] exactArith

set_option maxRecDepth 100000

/-- Checks that the line is not a goal. -/
def Line.noGoalB (n : Narsese) : Line → Bool
  | .text t => match Narsese_Sentence n t.toList with
    | .ok (sentence, _) => decide (sentence.punctuation ≠ '!')
    | .error _ => true
  | _ => true

theorem noGoalB_noGoal {n : Narsese} {l : Line} (h : l.noGoalB n = true) : ¬ l.call.GivesGoal n := by
  cases l with
  | text t =>
    rintro ⟨se, n', e, hp⟩
    simp only [Line.noGoalB, e, decide_eq_true_eq] at h
    exact h hp
  | _ => exact fun h => h

/-- Runs checked calls which are not goals. -/
def quietLines (z : Sizes) (fuel : Fuel) : List Line → Narsese → Sys → Bool
  | [], _, s => decide (s.output.length = 1)
  | l :: rest, n, s => l.legalB n s && l.noGoalB n &&
    match l.call.run z fuel n s with
    | .ok (n', s') => quietLines z fuel rest n' s'
    | .error _ => false

theorem of_quietLines {z : Sizes} (hz : z.Ok) {fuel : Fuel} : ∀ (l : List Line) {n : Narsese} {s : Sys} {log : List Output},
    WithoutGoals z n s log → s.output = log → quietLines z fuel l n s = true →
    ∃ n' s' log', WithoutGoals z n' s' log' ∧ log'.length = 1 := by
  intro l
  induction l with
  | nil => intro n s log h ho e; exact ⟨n, s, log, h, by rw [← ho]; simpa [quietLines] using e⟩
  | cons a l ih =>
    intro n s log h ho e
    unfold quietLines at e
    simp only [Bool.and_eq_true] at e
    obtain ⟨⟨h1, h2⟩, h3⟩ := e
    cases e1 : a.call.run z fuel n s with
    | error _ => rw [e1] at h3; cases h3
    | ok p =>
      obtain ⟨n', s'⟩ := p
      rw [e1] at h3
      obtain ⟨hr, hs, _⟩ := h.facts hz
      obtain ⟨_, new, h5, _⟩ := C73_call hz hr hs fuel a.call (noGoalB_noGoal h2) e1
      exact ih (.call fuel a.call h (legalB_legal h1) (noGoalB_noGoal h2) e1 h5) (by rw [h5, ho]) h3

/-- A system which can act, and babbles with certainty, but has no goals. -/
def quietLife : List Line := [.op "^x", .motorbabbling 1, .text "<(a &/ ^x) =/> b>.", .text "a. :|:", .cycles 2,
  .text "a? :|:", .text "b. :|: {0.0 0.9}"]

def quietStart : Bool :=
  match NAR_INIT_sizes sizes.memory sizes.atoms (Sys.boot []) with
  | .ok (n, s) => decide (s.output.length = 0) && quietLines sizes fuel quietLife n s
  | .error _ => false

theorem quiet_check : quietStart = true := by decide +kernel

/-- A history without goals in which something is printed: the answer to the question. -/
example : ∃ n s log, WithoutGoals sizes n s log ∧ log.length = 1 := by
  have h := quiet_check
  unfold quietStart at h
  split at h
  · rename_i n s e
    simp only [Bool.and_eq_true, decide_eq_true_eq] at h
    exact of_quietLines sizes_ok quietLife (.start boot_startable e) (List.length_eq_zero_iff.1 h.1) h.2
  · cases h

theorem quiet_contrast : check2 sizes fuel [.op "^x", .motorbabbling 1, .text "<(a &/ ^x) =/> b>.", .text "a. :|:"]
    (.text "b! :|:") (fun s s' => decide (s'.output.length > s.output.length) && decide (s.output.length = 0)) = true := by
  decide +kernel

/-- With a goal it acts. -/
example : ∃ n s, Reachable sizes n s ∧ ∃ c : Call, c.Legal n s ∧ ∃ n' s', c.run sizes fuel n s = .ok (n', s') ∧
    s.output.length = 0 ∧ 0 < s'.output.length := by
  obtain ⟨n, s, n', s', hr, hl, e, ht⟩ := of_check2 quiet_contrast
  simp only [Bool.and_eq_true, decide_eq_true_eq] at ht
  exact ⟨n, s, hr, _, hl, n', s', e, ht.2, by omega⟩

end Demo
end ONA

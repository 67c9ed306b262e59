import Verif.Props.Session
import Verif.Proofs.Demo
/-
A session of the shell meeting the hypotheses of C69.
-/
namespace ONA
section
attribute [local instance] exactArith
open Demo
set_option maxRecDepth 100000

/-- A comment, an event, two cycles, the end, and a line which is not read. -/
def typed : List CStr := ["// hello".toList, "a. :|:".toList, "2 ".toList, "quit".toList, "b. :|:".toList]

/-- Checks the lines of a session. -/
def legalLinesB : List CStr → Narsese → Sys → Bool
  | [], _, _ => true
  | line :: rest, n, s => (match parseLine (trimEnd line) with
      | .ok (.narsese text) => match Narsese_Sentence n text with
        | .ok (sentence, _) => decide (sentence.punctuation = '?') || validB sentence.truth
        | .error _ => true
      | .ok .nothing => true
      | .ok (.cycles _) => true
      | .ok .exit => true
      | _ => false) &&
    (match Shell_ProcessInput sizes.memory sizes.atoms fuel n s line with
      | .ok (true, n', s') => legalLinesB rest n' s'
      | _ => true)

theorem legalLinesB_legal (lines : List CStr) : ∀ {n : Narsese} {s : Sys}, legalLinesB lines n s = true →
    LegalLines sizes fuel lines n s := by
  induction lines with
  | nil => intro n s _; trivial
  | cons line rest ih =>
    intro n s h
    unfold legalLinesB at h
    rw [Bool.and_eq_true] at h
    obtain ⟨h1, h2⟩ := h
    refine ⟨fun c e => ?_, fun n' s' e => ?_⟩
    · rw [e] at h1
      cases c <;> first | exact trivial | cases h1 | skip
      rename_i text
      intro sentence n' e' hq
      dsimp only at h1
      rw [e'] at h1
      simp only [validB, Bool.or_eq_true, Bool.and_eq_true, decide_eq_true_eq] at h1
      rcases h1 with h | ⟨⟨⟨h1, h2⟩, h3⟩, h4⟩
      · exact absurd h hq
      · exact Truth.Valid.mk' ⟨rfl, h1, h2⟩ ⟨rfl, h3, h4⟩
    · rw [e] at h2
      exact ih h2

/-- Checks the whole session. -/
def typedCheck : Bool := match Shell_NARInit_sizes sizes.memory sizes.atoms (Sys.boot []) with
  | .ok (n, s) => legalLinesB typed n s
  | .error _ => false

/-- Where it ends. -/
def typedEnd : Bool := match Shell_Start sizes.memory sizes.atoms fuel typed (Sys.boot []) with
  | .ok (_, s) => decide (s.currentTime = 4) && decide (s.concepts.itemsAmount = 1)
  | .error _ => false

theorem typedCheck_true : typedCheck = true := by decide +kernel

theorem typedEnd_true : typedEnd = true := by decide +kernel

/-- C69 applies to this session. -/
example : ∃ n s, Shell_Start sizes.memory sizes.atoms fuel typed (Sys.boot []) = .ok (n, s) ∧ Reachable sizes n s ∧
    s.currentTime = 4 ∧ s.concepts.itemsAmount = 1 := by
  have h1 := typedEnd_true
  unfold typedEnd at h1
  split at h1
  · rename_i n s e
    rw [Bool.and_eq_true, decide_eq_true_eq, decide_eq_true_eq] at h1
    refine ⟨n, s, e, C69_session boot_startable (fun n s e' => ?_) e, h1⟩
    have h2 := typedCheck_true
    unfold typedCheck at h2
    rw [e'] at h2
    exact legalLinesB_legal _ h2
  · cases h1

end
end ONA

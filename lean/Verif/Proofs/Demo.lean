import Verif.Proofs.API
import Verif.Model.Boot
/-
Concrete histories, for the examples beside the theorems: lines of text, registrations and cycles, evaluated by the
kernel with exact arithmetic.
-/
namespace ONA
namespace Demo
attribute [local instance] exactArith

/-- A callback which does nothing. -/
def noFeedback (_ : Term) : Feedback := ⟨⟨fun _ => Term.zero, true, ⟨0, 0⟩⟩, false⟩

/-- A step of a concrete history. -/
inductive Line where
  | text (t : String)
  | op (name : String)
  | cycles (k : Nat)
  | reset
  | motorbabbling (v : ℚ)
  | stampimport (ids : List Int)

/-- The call. -/
def Line.call : Line → Call
  | .text t => .addNarsese t.toList false 0
  | .op name => .addOperation name.toList noFeedback
  | .cycles k => .command (.cycles k)
  | .reset => .command .reset
  | .motorbabbling v => .command (.parameter .motorBabbling v)
  | .stampimport ids => .command (.stampImport ids)

/-- Checks that truth values are inside the unit square. -/
def validB (t : Truth) : Bool := decide (0 ≤ t.frequency) && decide (t.frequency ≤ 1) && decide (0 ≤ t.confidence) &&
  decide (t.confidence ≤ 1)

/-- Checks the condition on the call. -/
def Line.legalB (n : Narsese) (s : Sys) : Line → Bool
  | .text t => match Narsese_Sentence n t.toList with
    | .ok (sentence, _) => decide (sentence.punctuation = '?') || validB sentence.truth
    | .error _ => true
  | .reset => s.stdin.isEmpty
  | .stampimport ids => decide ((0 : Int) ∉ ids)
  | _ => true

/-- Runs checked calls. -/
def runLines (z : Sizes) (fuel : Fuel) : List Line → Narsese → Sys → R (Narsese × Sys)
  | [], n, s => .ok (n, s)
  | l :: rest, n, s =>
    if l.legalB n s then do
      let (n', s') ← l.call.run z fuel n s
      runLines z fuel rest n' s'
    else .error (.assertFail "illegal call")

/-- From the start of the process. -/
def run (z : Sizes) (fuel : Fuel) (l : List Line) : R (Narsese × Sys) := do
  let (n, s) ← NAR_INIT_sizes z.memory z.atoms (Sys.boot [])
  runLines z fuel l n s

theorem boot_startable : Startable (Sys.boot []) :=
  ⟨⟨rfl, by show (0 : ℚ) ≤ 1 / 100; norm_num, by show (1 : ℚ) / 100 ≤ 1; norm_num⟩, Stamp.zero_wf,
    by show (1 : ℚ) / 10 ≤ 1; norm_num, by intro t ht; cases ht⟩

theorem legalB_legal {n : Narsese} {s : Sys} {l : Line} (h : l.legalB n s = true) : l.call.Legal n s := by
  cases l with
  | text t =>
    intro sentence n' e hq
    unfold Line.legalB at h
    dsimp only at h
    rw [e] at h
    simp only [validB, Bool.or_eq_true, Bool.and_eq_true, decide_eq_true_eq] at h
    rcases h with h | ⟨⟨⟨h1, h2⟩, h3⟩, h4⟩
    · exact absurd h hq
    · exact Truth.Valid.mk' ⟨rfl, h1, h2⟩ ⟨rfl, h3, h4⟩
  | op name =>
    intro args i
    exact Narsese.knows_zero
  | cycles k => trivial
  | reset =>
    have h : s.stdin.isEmpty = true := h
    rw [List.isEmpty_iff] at h
    intro t ht
    rw [h] at ht
    cases ht
  | motorbabbling v => trivial
  | stampimport ids =>
    unfold Line.legalB at h
    dsimp only at h
    rw [decide_eq_true_eq] at h
    exact h

theorem runLines_reachable {z : Sizes} {fuel : Fuel} (l : List Line) : ∀ {n : Narsese} {s : Sys} {p : Narsese × Sys},
    Reachable z n s → runLines z fuel l n s = .ok p → Reachable z p.1 p.2 := by
  induction l with
  | nil => intro n s p h e; cases e; exact h
  | cons a l ih =>
    intro n s p h e
    unfold runLines at e
    by_cases hl : a.legalB n s = true
    · rw [if_pos hl, R.bind_eq_ok] at e
      obtain ⟨⟨n', s'⟩, e1, e2⟩ := e
      exact ih (.call fuel a.call h (legalB_legal hl) e1) e2
    · rw [if_neg hl] at e
      cases e

theorem run_reachable {z : Sizes} {fuel : Fuel} {l : List Line} {p : Narsese × Sys} (e : run z fuel l = .ok p) :
    Reachable z p.1 p.2 := by
  unfold run at e
  rw [R.bind_eq_ok] at e
  obtain ⟨⟨n, s⟩, e1, e2⟩ := e
  exact runLines_reachable l (.start boot_startable e1) e2

/-- Checks something of the final state. -/
def check (z : Sizes) (fuel : Fuel) (l : List Line) (test : Narsese → Sys → Bool) : Bool :=
  match run z fuel l with
  | .ok (n, s) => test n s
  | .error _ => false

/-- A checked history gives a reachable state with the property. -/
theorem of_check {z : Sizes} {fuel : Fuel} {l : List Line} {test : Narsese → Sys → Bool}
    (h : check z fuel l test = true) : ∃ n s, run z fuel l = .ok (n, s) ∧ Reachable z n s ∧ test n s = true := by
  unfold check at h
  cases e : run z fuel l with
  | error _ => rw [e] at h; cases h
  | ok p =>
    rw [e] at h
    exact ⟨p.1, p.2, rfl, run_reachable e, h⟩

/-- Checks something of the states before and after a last line. -/
def check2 (z : Sizes) (fuel : Fuel) (l : List Line) (x : Line) (test : Sys → Sys → Bool) : Bool :=
  match run z fuel l with
  | .ok (n, s) => x.legalB n s && match x.call.run z fuel n s with
    | .ok (_, s') => test s s'
    | .error _ => false
  | .error _ => false

theorem of_check2 {z : Sizes} {fuel : Fuel} {l : List Line} {x : Line} {test : Sys → Sys → Bool}
    (h : check2 z fuel l x test = true) : ∃ n s n' s', Reachable z n s ∧ x.call.Legal n s ∧
      x.call.run z fuel n s = .ok (n', s') ∧ test s s' = true := by
  unfold check2 at h
  cases e : run z fuel l with
  | error _ => rw [e] at h; cases h
  | ok p =>
    rw [e] at h
    dsimp only at h
    rw [Bool.and_eq_true] at h
    cases e2 : x.call.run z fuel p.1 p.2 with
    | error _ => rw [e2] at h; cases h.2
    | ok p' =>
      rw [e2] at h
      exact ⟨p.1, p.2, p'.1, p'.2, run_reachable e, legalB_legal h.1, e2, h.2⟩

/-- Small arrays. -/
def sizes : Sizes := ⟨⟨6, 4, 4, 2⟩, 100⟩

theorem sizes_ok : sizes.Ok := by refine ⟨?_, ?_, ?_, ?_, ?_⟩ <;> decide

def fuel : Fuel := ⟨100, 4⟩

end Demo
end ONA

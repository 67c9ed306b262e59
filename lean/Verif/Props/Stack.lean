import Verif.Model.Stack
/-
C05.
-/
namespace ONA
namespace Stack
variable {α : Type}

/-- The stack holds exactly the items of `l`, most recently pushed first. -/
def Holds (s : Stack α) (l : List α) : Prop :=
  s.stackpointer = l.length ∧ l.length ≤ s.maxElements ∧ ∀ i, i < l.length → s.items i = l.reverse[i]?

end Stack

open Stack
variable {α : Type}

/-- **C05** A fresh stack is empty. -/
theorem C05_init (items : Nat → Option α) (m : Nat) :
    (Stack.init items m).Holds [] ∧ (Stack.init items m).isEmpty = true := by
  refine ⟨⟨rfl, Nat.zero_le _, fun i hi => ?_⟩, rfl⟩
  simp at hi

/-- **C05** Pushing puts the item on top while there is room; a push beyond the capacity does not return. -/
theorem C05_push (s : Stack α) (l : List α) (x : α) (h : s.Holds l) :
    (l.length < s.maxElements → ∃ s', s.push x = .ok s' ∧ s'.Holds (x :: l) ∧ s'.maxElements = s.maxElements) ∧
    (l.length = s.maxElements → ∃ e, s.push x = .error e) := by
  obtain ⟨h1, h2, h3⟩ := h
  constructor
  · intro hlt
    refine ⟨{ s with items := upd s.items s.stackpointer (some x), stackpointer := s.stackpointer + 1 }, ?_,
      ⟨by simp [h1], by simp; omega, ?_⟩, rfl⟩
    · simp [push, h1, hlt]
    · intro i hi
      simp only [List.length_cons] at hi
      by_cases hil : i = l.length
      · subst hil; simp [h1]
      · have hi' : i < l.length := by omega
        show upd s.items s.stackpointer (some x) i = _
        rw [h1, upd_other _ _ hil, h3 i hi', List.reverse_cons, List.getElem?_append_left (by simpa using hi')]
  · intro he
    refine ⟨.ub "Stack_Push writes past the array", ?_⟩
    simp [push, h1, he]

/-- **C05** Popping returns the most recently pushed item that was not popped yet; popping an empty stack ends in
the underflow assertion. -/
theorem C05_pop (s : Stack α) :
    (∀ x l, s.Holds (x :: l) → ∃ s', s.pop = .ok (some x, s') ∧ s'.Holds l ∧ s'.maxElements = s.maxElements) ∧
    (s.Holds [] → s.pop = .error (.assertFail "VMEntry stack underflow")) := by
  constructor
  · rintro x l ⟨h1, h2, h3⟩
    simp only [List.length_cons] at h1 h2
    refine ⟨{ s with stackpointer := s.stackpointer - 1 }, ?_, ⟨by simp [h1], by show l.length ≤ s.maxElements; omega, ?_⟩, rfl⟩
    · have := h3 l.length (by simp)
      rw [List.reverse_cons, List.getElem?_append_right (by simp)] at this
      simp at this
      simp [pop, h1, this]
    · intro i hi
      have := h3 i (by simp; omega)
      rw [List.reverse_cons, List.getElem?_append_left (by simpa using hi)] at this
      exact this
  · rintro ⟨h1, _, _⟩
    simp [pop, h1]

/-- **C05** `Stack_IsEmpty` is true exactly for the empty stack. -/
theorem C05_isEmpty (s : Stack α) (l : List α) (h : s.Holds l) : s.isEmpty = true ↔ l = [] := by
  obtain ⟨h1, _, _⟩ := h
  simp [isEmpty, h1]

/-- A stack history of pushes (`some x`) and pops (`none`), newest first, and the abstract stack it leaves;
`none` if it pops an empty or pushes a full stack. -/
def stackSpec (cap : Nat) : List (Option α) → Option (List α)
  | [] => some []
  | some x :: h => (stackSpec cap h).bind fun l => if l.length < cap then some (x :: l) else none
  | none :: h => (stackSpec cap h).bind fun l => match l with | [] => none | _ :: l => some l

/-- Running a history on the model. -/
def stackRun (cap : Nat) : List (Option α) → R (Stack α)
  | [] => .ok (Stack.init (fun _ => none) cap)
  | some x :: h => do (← stackRun cap h).push x
  | none :: h => do let r ← (← stackRun cap h).pop; .ok r.2

/-- **C05** Every history behaves like the abstract stack: it succeeds exactly if the abstract one does, and the
stack then holds the same items. -/
theorem C05_history (cap : Nat) (h : List (Option α)) :
    match stackSpec cap h with
    | some l => ∃ s, stackRun cap h = .ok s ∧ s.Holds l ∧ s.maxElements = cap
    | none => ∃ e, stackRun cap h = .error e := by
  induction h with
  | nil => exact ⟨_, rfl, (C05_init _ _).1, rfl⟩
  | cons op h ih =>
    cases hs : stackSpec cap h with
    | none =>
      rw [hs] at ih
      obtain ⟨e, he⟩ := ih
      cases op <;> simp [stackSpec, hs, stackRun, he]
    | some l =>
      rw [hs] at ih
      obtain ⟨s, h1, h2, h3⟩ := ih
      cases op with
      | none =>
        cases l with
        | nil => simp [stackSpec, hs, stackRun, h1, (C05_pop s).2 h2]
        | cons x l =>
          obtain ⟨s', hp, hh, hm⟩ := (C05_pop s).1 x l h2
          simp [stackSpec, hs, stackRun, h1, hp, hh, hm, h3]
      | some x =>
        by_cases hlt : l.length < cap
        · obtain ⟨s', hp, hh, hm⟩ := (C05_push s l x h2).1 (by omega)
          simp [stackSpec, hs, stackRun, h1, hp, hh, hm, h3, hlt]
        · obtain ⟨e, he⟩ := (C05_push s l x h2).2 (by have := h2.2.1; omega)
          simp [stackSpec, hs, stackRun, h1, he, hlt]

example : stackSpec 2 [some 5, none, some 4, some 3] = some [5, 3] := by decide

end ONA

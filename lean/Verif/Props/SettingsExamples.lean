import Verif.Props.Settings
import Verif.Proofs.Demo
/-
Concrete sessions meeting the hypotheses of Props/Settings.lean, and what `*setopname` does to a registry.
-/
namespace ONA
section
attribute [local instance] exactArith
open Demo
set_option maxRecDepth 100000

/-- Registering names one after the other. -/
def registerAll : List String → Narsese → Sys → R (Narsese × Sys)
  | [], n, s => .ok (n, s)
  | name :: l, n, s => do
    let (n, s) ← NAR_AddOperation n name.toList noFeedback s
    cassert (decide (n.term_index < 2 ^ 16)) ""
    registerAll l n s

/-- The registry of these names. -/
def registryOf (l : List String) (r : Registry) : Registry :=
  l.foldl (fun r name => Registry.register r name.toList noFeedback) r

theorem registerAll_session (l : List String) (hl : ∀ name ∈ l, 2 ≤ name.toList.length) :
    ∀ {n n' : Narsese} {s s' : Sys} {r : Registry}, Session sizes n s r → registerAll l n s = .ok (n', s') →
      Session sizes n' s' (registryOf l r) := by
  induction l with
  | nil => intro n n' s s' r h e; cases e; exact h
  | cons name l ih =>
    intro n n' s s' r h e
    unfold registerAll at e
    rw [R.bind_eq_ok] at e
    obtain ⟨⟨n1, s1⟩, e1, e⟩ := e
    dsimp only at e
    rw [R.bind_eq_ok] at e
    obtain ⟨_, e2, e⟩ := e
    refine ih (fun x hx => hl x (List.mem_cons_of_mem _ hx)) ?_ e
    exact .call fuel (.addOperation name.toList noFeedback) h (fun args i => Narsese.knows_zero)
      ⟨hl _ (List.mem_cons_self ..), of_decide_eq_true (cassert_eq_ok.1 e2)⟩ e1

/-- Initialising and registering. -/
def demoSession (l : List String) : R (Narsese × Sys) := do
  let (n, s) ← NAR_INIT_sizes sizes.memory sizes.atoms (Sys.boot [])
  registerAll l n s

theorem demoSession_session {l : List String} (hl : ∀ name ∈ l, 2 ≤ name.toList.length) {n : Narsese} {s : Sys}
    (e : demoSession l = .ok (n, s)) : Session sizes n s (registryOf l []) := by
  unfold demoSession at e
  rw [R.bind_eq_ok] at e
  obtain ⟨⟨n1, s1⟩, e1, e⟩ := e
  exact registerAll_session l hl (.start boot_startable e1) e

/-- Checks the state after registering. -/
def sessionCheck (l : List String) (test : Narsese → Sys → Bool) : Bool := match demoSession l with
  | .ok (n, s) => test n s
  | .error _ => false

theorem of_sessionCheck {l : List String} (hl : ∀ name ∈ l, 2 ≤ name.toList.length) {test : Narsese → Sys → Bool}
    (h : sessionCheck l test = true) : ∃ n s, Session sizes n s (registryOf l []) ∧ test n s = true := by
  unfold sessionCheck at h
  cases e : demoSession l with
  | error _ => rw [e] at h; cases h
  | ok p =>
    rw [e] at h
    exact ⟨p.1, p.2, demoSession_session hl e, h⟩

/-- Ten operations. -/
def tenOps : List String := ["^1", "^2", "^3", "^4", "^5", "^6", "^7", "^8", "^9", "^10"]

/-- The text of an operation with arguments is read and belongs to the operation. -/
def namedTest (n : Narsese) (_ : Sys) : Bool := match Narsese_Term n "<({SELF} * a) --> ^2>".toList with
  | .ok (t, n') => decide (Narsese_getOperationAtom n' t ≠ 0) &&
      decide (n'.nameOf (Narsese_getOperationAtom n' t) = "^2".toList)
  | .error _ => false

theorem tenOps_named : sessionCheck tenOps (fun n s => namedTest n s) = true := by decide +kernel

/-- `C47_ids`, `C47_stable`: a session with ten operations, `^2` is second. -/
example : ∃ n s, Session sizes n s (registryOf tenOps []) ∧ (registryOf tenOps []).length = 10 ∧
    ((registryOf tenOps []).map Prod.fst)[1]? = some "^2".toList ∧ namedTest n s = true := by
  obtain ⟨n, s, h, ht⟩ := of_sessionCheck (by decide) tenOps_named
  exact ⟨n, s, h, by decide, by decide, ht⟩

/-- `C47_limit`: there is room for the name of another operator. -/
def roomTest (n : Narsese) (_ : Sys) : Bool := match Narsese_AtomicTerm n "^11".toList with
  | .ok (_, n1) => decide (n1.term_index < 2 ^ 16)
  | .error _ => false

theorem tenOps_room : sessionCheck tenOps roomTest = true := by decide +kernel

/-- The eleventh operation is refused. -/
theorem C47_eleventh : ∃ n s, Session sizes n s (registryOf tenOps []) ∧
    NAR_AddOperation n "^11".toList noFeedback s =
      .error (.assertFail "Too many operators, increase OPERATIONS_MAX!") := by
  obtain ⟨n, s, h, ht⟩ := of_sessionCheck (by decide) tenOps_room
  unfold roomTest at ht
  cases e : Narsese_AtomicTerm n "^11".toList with
  | error _ => rw [e] at ht; cases ht
  | ok p =>
    rw [e] at ht
    exact ⟨n, s, h, (C47_limit sizes_ok h noFeedback e (of_decide_eq_true ht) (by decide) (by decide)).2 (by decide) (by decide)⟩

/-- Naming the second operation anew. -/
def renameTest (n : Narsese) (s : Sys) : Bool :=
  match (Command.setOpName 2 "^x".toList).run sizes.memory sizes.atoms fuel n s with
  | .ok (n', s') => decide (n'.term_index < 2 ^ 16) && match Narsese_Term n' "<({SELF} * a) --> ^x>".toList with
    | .ok (t, n2) => decide (n2.nameOf (Narsese_getOperationAtom n2 t) = "^x".toList) && decide (s'.operationID n2 t = 2)
    | .error _ => false
  | .error _ => false

theorem tenOps_rename : sessionCheck tenOps renameTest = true := by decide +kernel

/-- `C47_rename`. -/
example : ∃ n s n' s', Reachable sizes n s ∧
    (Command.setOpName 2 "^x".toList).run sizes.memory sizes.atoms fuel n s = .ok (n', s') ∧ n'.term_index < 2 ^ 16 := by
  obtain ⟨n, s, h, ht⟩ := of_sessionCheck (by decide) tenOps_rename
  unfold renameTest at ht
  cases e : (Command.setOpName 2 "^x".toList).run sizes.memory sizes.atoms fuel n s with
  | error _ => rw [e] at ht; cases ht
  | ok p =>
    rw [e] at ht
    dsimp only at ht
    rw [Bool.and_eq_true] at ht
    exact ⟨n, s, p.1, p.2, h.reachable, e, of_decide_eq_true ht.1⟩

end
end ONA

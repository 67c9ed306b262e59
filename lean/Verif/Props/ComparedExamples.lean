import Verif.Props.Compared
import Verif.Proofs.Demo
/-
Examples for the theorems of `Compared`, evaluated by the kernel with exact arithmetic.
-/
namespace ONA
namespace Demo
attribute [local instance] exactArith
set_option maxRecDepth 100000

/-- Two values are declared, then a sequence is parsed. -/
def measured (text : String) : R (Narsese × Term) := do
  let (n, _) ← NAR_INIT_sizes sizes.memory sizes.atoms (Sys.boot [])
  let n ← Shell_setValue n (1 / 2) 10 "size".toList
  let n ← Shell_setValue n (3 / 10) 10 "size".toList
  let (t, n) ← Narsese_Term n text.toList
  .ok (n, t)

/-- The invariants of vocabulary and term, by evaluation. -/
def sane (n : Narsese) (t : Term) : Bool :=
  decide (initialNames.length + 1 ≤ n.term_index) &&
  (List.range initialNames.length).all (fun i => decide (n.atomNames i = initialNames.getD i [])) &&
  decide (n.SELF.toNat ≤ n.term_index) &&
  (List.range 64).all fun i => decide (t.get (2 * i + 1) = 0 ∨ t.get i ≠ 0) && decide (t.get (2 * i + 2) = 0 ∨ t.get i ≠ 0)

theorem sane_spec {n : Narsese} {t : Term} (h : sane n t = true) : n.Base ∧ t.Closed := by
  unfold sane at h
  simp only [Bool.and_eq_true, decide_eq_true_eq, List.all_eq_true, List.mem_range] at h
  obtain ⟨⟨⟨h1, h2⟩, h3⟩, h4⟩ := h
  refine ⟨⟨h1, h2, h3⟩, fun i b hne => ?_⟩
  have hi : i < 64 := Nat.lt_trans (lt_childPos i b) (Term.lt_of_get_ne hne)
  cases b with
  | false => exact (h4 i hi).1.resolve_left hne
  | true => exact (h4 i hi).2.resolve_left hne

def measuredCheck (text : String) (test : Narsese → Term → Option Term → Bool) : Bool :=
  match measured text with
  | .error _ => false
  | .ok (n, t) => sane n t && match attributeRelation n t with
    | .error _ => false
    | .ok u => test n t u

theorem of_measuredCheck {text : String} {test : Narsese → Term → Option Term → Bool} (h : measuredCheck text test = true) :
    ∃ n t u, n.Base ∧ t.Closed ∧ attributeRelation n t = .ok u ∧ test n t u = true := by
  unfold measuredCheck at h
  cases e : measured text with
  | error _ => rw [e] at h; cases h
  | ok r =>
    obtain ⟨n, t⟩ := r
    rw [e] at h
    dsimp only at h
    rw [Bool.and_eq_true] at h
    cases e1 : attributeRelation n t with
    | error _ => rw [e1] at h; cases h.2
    | ok u =>
      rw [e1] at h
      exact ⟨n, t, u, (sane_spec h.1).1, (sane_spec h.1).2, e1, h.2⟩

/-- The attribute of the last element is an atom. -/
def atomicAttribute (T : Tree) : Bool :=
  match T with
  | .node _ _ (.node _ _ (.node _ .nil .nil)) => true
  | _ => false

theorem atomicAttribute_spec {T : Tree} (h : atomicAttribute T = true) : ∃ q A c X a, T = .node q A (.node c X (.node a .nil .nil)) := by
  unfold atomicAttribute at h
  split at h
  · exact ⟨_, _, _, _, _, rfl⟩
  · cases h

theorem compared_check : measuredCheck "(<(x * size_0.5) --> size> &/ <(y * size_0.3) --> size>)" (fun n t u =>
    atomicAttribute t.tree && match u with
      | some u => match Narsese_Term n "<(x * y) --> (+ size)>".toList with
        | .ok (e, _) => decide (u = e)
        | .error _ => false
      | none => false) = true := by decide +kernel

/-- After 0.5 at `x` and 0.3 at `y`: `<(x * y) --> (+ size)>`. -/
theorem C81_example : ∃ n, ∃ t u : Term, n.Base ∧ t.Closed ∧ (∃ q A c X a, t.tree = .node q A (.node c X (.node a .nil .nil))) ∧
    Compared n t.tree u.tree ∧ ∃ n', Narsese_Term n "<(x * y) --> (+ size)>".toList = .ok (u, n') := by
  obtain ⟨n, t, u, hn, ht, e, h⟩ := of_measuredCheck compared_check
  rw [Bool.and_eq_true] at h
  obtain ⟨q, A, c, X, a, hattr⟩ := atomicAttribute_spec h.1
  have h2 := h.2
  cases u with
  | none => cases h2
  | some u =>
    dsimp only at h2
    cases e2 : Narsese_Term n "<(x * y) --> (+ size)>".toList with
    | error _ => rw [e2] at h2; cases h2
    | ok r =>
      rw [e2] at h2
      have h3 : u = r.1 := of_decide_eq_true h2
      exact ⟨n, t, u, hn, ht, ⟨q, A, c, X, a, hattr⟩, (C81_compared ht hn hattr _).2 ⟨u, e, rfl⟩, r.2, by rw [e2, h3]⟩

theorem longer_check : measuredCheck "((a &/ <(x * size_0.3) --> size>) &/ <(y * size_0.5) --> size>)" (fun n t u =>
    atomicAttribute t.tree && match u with
      | some u => match Narsese_Term n "(a &/ <(y * x) --> (+ size)>)".toList with
        | .ok (e, _) => decide (u = e)
        | .error _ => false
      | none => false) = true := by decide +kernel

theorem equal_check : measuredCheck "(<(x * size_0.3) --> size> &/ <(y * size_0.3) --> size>)" (fun n t u =>
    atomicAttribute t.tree && match u with
      | some u => match Narsese_Term n "<(x * y) --> (= size)>".toList with
        | .ok (e, _) => decide (u = e)
        | .error _ => false
      | none => false) = true := by decide +kernel

theorem junk_check : measuredCheck "(<(x * size_0.3) --> (f * g)> &/ <(y * size_0.3) --> (f * g)>)" (fun _ _ u =>
    match u with
      | some u => decide (u.get 6 = copulaAtom SET_TERMINATOR) && decide (u.get 13 ≠ 0)
      | none => false) = true := by decide +kernel

/-- Why the attribute has to be an atom in `C81_compared`: the code (src/Cycle.c 570-571) puts the attribute in the place of
the terminator of `(= attr)` and overwrites only its root, so that the components of a compound attribute remain below the
terminator. -/
theorem C81_junk : ∃ n, ∃ t u : Term, n.Base ∧ t.Closed ∧ attributeRelation n t = .ok (some u) ∧
    u.get 6 = copulaAtom SET_TERMINATOR ∧ u.get 13 ≠ 0 := by
  obtain ⟨n, t, u, hn, ht, e, h⟩ := of_measuredCheck junk_check
  cases u with
  | none => cases h
  | some u =>
    dsimp only at h
    rw [Bool.and_eq_true] at h
    exact ⟨n, t, u, hn, ht, e, of_decide_eq_true h.1, of_decide_eq_true h.2⟩

end Demo
end ONA

import Verif.Spec.Operation
import Verif.Proofs.Tree
/-
The functions of src/Narsese.c on sequences and operations compute the tree functions of Spec/Operation.lean; in
particular their recursion bound is never reached.
-/
namespace ONA
open Classical

theorem Tree.root_at (T : Tree) : T.at_ [] = T.root := by cases T <;> rfl
theorem Tree.left_at (T : Tree) (p : List Bool) : T.at_ (false :: p) = T.left.at_ p := by
  cases T <;> [(cases p <;> rfl); rfl]
theorem Tree.right_at (T : Tree) (p : List Bool) : T.at_ (true :: p) = T.right.at_ p := by
  cases T <;> [(cases p <;> rfl); rfl]

/-- In a closed term the atoms by position are the atoms of the tree by path. -/
theorem closed_at {t : Term} (hc : t.Closed) (p : List Bool) : t.tree.at_ p = t.get (pathPos 0 p) := by
  by_cases h0 : t.get 0 = 0
  · have hz : ∀ q : List Bool, t.get (pathPos 0 q) = 0 := by
      intro q
      by_contra hne
      have := present_of_closed hc (by decide : 0 < COMPOUND_TERM_SIZE_MAX) hne
      have key : ∀ (q : List Bool) (i : Nat), (∀ b, t.get (childPos i b) = 0) → Present t i q → q = [] := by
        intro q i hi hp
        cases q with
        | nil => rfl
        | cons b q => exact absurd (hi b) hp.1
      have hch : ∀ b, t.get (childPos 0 b) = 0 := by
        intro b
        by_contra hb
        exact hc 0 b hb h0
      have := key q 0 hch this
      subst this
      exact hne h0
    rw [show t.tree = .nil from t.treeAt_zero h0, hz p]
    cases p <;> rfl
  · unfold Term.tree
    rw [t.treeAt_at 0 p h0]
    by_cases hp : Present t 0 p
    · rw [if_pos hp]
    · rw [if_neg hp]
      by_contra hne
      exact hp (present_of_closed hc (by decide) (Ne.symm hne))

theorem tree_root {t : Term} : t.tree.root = t.get 0 := by
  by_cases h0 : t.get 0 = 0
  · rw [show t.tree = .nil from t.treeAt_zero h0, h0]; rfl
  · rw [show t.tree = _ from t.treeAt_node h0]; rfl

theorem tree_left {t : Term} (h0 : t.get 0 ≠ 0) : t.tree.left = t.treeAt 1 := by
  rw [show t.tree = _ from t.treeAt_node h0]; rfl

theorem tree_right {t : Term} (h0 : t.get 0 ≠ 0) : t.tree.right = t.treeAt 2 := by
  rw [show t.tree = _ from t.treeAt_node h0]; rfl

theorem copulaEquals_zero (n : Narsese) (c : Char) : Narsese_copulaEquals n 0 c = false := by
  simp [Narsese_copulaEquals]
theorem isOperator_zero (n : Narsese) : Narsese_isOperator n 0 = false := by
  simp [Narsese_isOperator]

theorem isOperation_eq (n : Narsese) {t : Term} (hc : t.Closed) : Narsese_isOperation n t = t.tree.IsOperation n := by
  have e0 : t.get 0 = t.tree.root := tree_root.symm
  have e1 : t.get 1 = t.tree.left.root := by
    have := closed_at hc [false]; rw [Tree.left_at, Tree.root_at] at this; exact this.symm
  have e2 : t.get 2 = t.tree.right.root := by
    have := closed_at hc [true]; rw [Tree.right_at, Tree.root_at] at this; exact this.symm
  have e3 : t.get 3 = t.tree.left.left.root := by
    have := closed_at hc [false, false]; rw [Tree.left_at, Tree.left_at, Tree.root_at] at this; exact this.symm
  unfold Narsese_isOperation Tree.IsOperation
  rw [e0, e1, e2, e3]

/-- The tree of a term has at most 7 levels. -/
theorem height_le_aux (t : Term) : ∀ (k i : Nat), COMPOUND_TERM_SIZE_MAX < (i + 1) * 2 ^ k → (t.treeAt i).height ≤ k
  | k, i, h => by
    by_cases h0 : t.get i = 0
    · rw [t.treeAt_zero h0]; exact Nat.zero_le _
    · have hlt := Term.lt_of_get_ne h0
      rw [t.treeAt_node h0]
      cases k with
      | zero => omega
      | succ k =>
        have h1 := height_le_aux t k (2 * i + 1) (by rw [pow_succ] at h; nlinarith [Nat.two_pow_pos k])
        have h2 := height_le_aux t k (2 * i + 2) (by rw [pow_succ] at h; nlinarith [Nat.two_pow_pos k])
        simp only [Tree.height]; omega

theorem height_le (t : Term) : t.tree.height ≤ termDepth := height_le_aux t 7 0 (by decide)

theorem extract_left {t : Term} (h0 : t.get 0 ≠ 0) : (Term_ExtractSubterm t 1).tree = t.tree.left := by
  rw [tree_extract, tree_left h0]

theorem extract_right {t : Term} (h0 : t.get 0 ≠ 0) : (Term_ExtractSubterm t 2).tree = t.tree.right := by
  rw [tree_extract, tree_right h0]

theorem tree_eq {t : Term} (h0 : t.get 0 ≠ 0) : t.tree = .node (t.get 0) t.tree.left t.tree.right := by
  rw [tree_left h0, tree_right h0]; exact t.treeAt_node h0

theorem copulaEquals_ne {n : Narsese} {a : Atom} {c : Char} (h : Narsese_copulaEquals n a c = true) : a ≠ 0 := by
  intro e; rw [e, copulaEquals_zero] at h; cases h

theorem withoutOp_eq (n : Narsese) : ∀ (fuel : Nat) (t : Term), t.Closed → t.tree.height ≤ fuel →
    (Narsese_GetPreconditionWithoutOp n fuel t).tree = t.tree.withoutOp n ∧
      (Narsese_GetPreconditionWithoutOp n fuel t).Closed
  | 0, t, hc, hh => by
    have h0 : t.tree = .nil := by
      cases h : t.tree with
      | nil => rfl
      | node a l r => rw [h] at hh; simp [Tree.height] at hh
    rw [Narsese_GetPreconditionWithoutOp, h0]
    exact ⟨rfl, hc⟩
  | fuel + 1, t, hc, hh => by
    by_cases h0 : t.get 0 = 0
    · rw [Narsese_GetPreconditionWithoutOp, h0, copulaEquals_zero, if_neg (by decide),
        show t.tree = .nil from t.treeAt_zero h0]
      exact ⟨rfl, hc⟩
    · have hop : Narsese_isOperation n (Term_ExtractSubterm t 2) = t.tree.right.IsOperation n := by
        rw [isOperation_eq n (extract_closed hc 2), extract_right h0]
      rw [Narsese_GetPreconditionWithoutOp]
      rw [tree_eq h0, Tree.withoutOp]
      by_cases hs : Narsese_copulaEquals n (t.get 0) SEQUENCE = true
      · rw [if_pos hs]
        by_cases ho : t.tree.right.IsOperation n = true
        · have hl := withoutOp_eq n fuel (Term_ExtractSubterm t 1) (extract_closed hc 1)
            (by rw [extract_left h0]; rw [tree_eq h0] at hh; simp only [Tree.height] at hh; omega)
          simp only [hop, ho, if_true, hs, Bool.and_self]
          rw [extract_left h0] at hl
          exact hl
        · simp only [hop, ho, Bool.and_false, ← tree_eq h0]
          exact ⟨rfl, hc⟩
      · rw [if_neg hs]
        simp only [hs, Bool.false_and, ← tree_eq h0]
        exact ⟨rfl, hc⟩

theorem sequenceLength_eq (n : Narsese) : ∀ (fuel : Nat) (t : Term), t.Closed → t.tree.height ≤ fuel →
    Narsese_SequenceLength n fuel t = (t.tree.events n).length
  | 0, t, hc, hh => by
    have h0 : t.tree = .nil := by
      cases h : t.tree with
      | nil => rfl
      | node a l r => rw [h] at hh; simp [Tree.height] at hh
    rw [Narsese_SequenceLength, h0]
    rfl
  | fuel + 1, t, hc, hh => by
    by_cases h0 : t.get 0 = 0
    · rw [Narsese_SequenceLength, h0, copulaEquals_zero, if_neg (by decide),
        show t.tree = .nil from t.treeAt_zero h0]
      rfl
    · rw [Narsese_SequenceLength, tree_eq h0, Tree.events]
      have hh' := hh
      rw [tree_eq h0] at hh'
      simp only [Tree.height] at hh'
      by_cases hs : Narsese_copulaEquals n (t.get 0) SEQUENCE = true
      · rw [if_pos hs, if_pos hs, List.length_append,
          sequenceLength_eq n fuel _ (extract_closed hc 1) (by rw [extract_left h0]; omega),
          sequenceLength_eq n fuel _ (extract_closed hc 2) (by rw [extract_right h0]; omega),
          extract_left h0, extract_right h0]
      · rw [if_neg hs, if_neg hs]; rfl

theorem Tree.Fits.mono : ∀ {T : Tree} {i j : Nat}, T.Fits i → j ≤ i → T.Fits j
  | nil, _, _, _, _ => trivial
  | node _ _ _, _, _, h, hj => ⟨by have := h.1; omega, h.2.1.mono (by omega), h.2.2.mono (by omega)⟩

theorem Tree.fits_append {s x : Tree} (h : (s.appendEvent x).Fits 0) : s.Fits 0 := by
  cases s with
  | nil => trivial
  | node a l r => exact Tree.Fits.mono h.2.1 (by omega)

theorem Tree.fits_foldl {l : List Tree} : ∀ {s : Tree}, (l.foldl appendEvent s).Fits 0 → s.Fits 0 := by
  induction l with
  | nil => intro s h; exact h
  | cons x l ih => intro s h; exact Tree.fits_append (ih h)

theorem opSequence_append (n : Narsese) (a b s : Tree) (c : Atom) (hc : Narsese_copulaEquals n c SEQUENCE = true) :
    Tree.opSequence n s (.node c a b) = Tree.opSequence n (Tree.opSequence n s a) b := by
  simp only [Tree.opSequence, Tree.events, if_pos hc, List.filter_append, List.foldl_append]

theorem isOperation_root {n : Narsese} {T : Tree} (h : T.IsOperation n = true) : T.root ≠ 0 := by
  intro e
  unfold Tree.IsOperation at h
  rw [e, isOperator_zero, copulaEquals_zero] at h
  simp at h

theorem isOperation_nil (n : Narsese) : Tree.nil.IsOperation n = false := by
  by_contra h
  exact isOperation_root (T := .nil) (by simpa using h) rfl

/-- `Narsese_OperationSequenceAppendLeftNested` appends the operations of the sequence, and succeeds iff the
result fits into a term. -/
theorem appendLeftNested_eq (n : Narsese) : ∀ (fuel : Nat) (start t : Term), start.Closed → t.Closed →
    t.tree.height ≤ fuel →
    ((Narsese_OperationSequenceAppendLeftNested n fuel start t).1 = true ↔
      (Tree.opSequence n start.tree t.tree).Fits 0) ∧
    ((Narsese_OperationSequenceAppendLeftNested n fuel start t).1 = true →
      (Narsese_OperationSequenceAppendLeftNested n fuel start t).2.tree = Tree.opSequence n start.tree t.tree ∧
      (Narsese_OperationSequenceAppendLeftNested n fuel start t).2.Closed)
  | 0, start, t, hs, hc, hh => by
    have h0 : t.tree = .nil := by
      cases h : t.tree with
      | nil => rfl
      | node a l r => rw [h] at hh; simp [Tree.height] at hh
    rw [Narsese_OperationSequenceAppendLeftNested, h0]
    have : Tree.opSequence n start.tree .nil = start.tree := by
      unfold Tree.opSequence Tree.events
      rw [List.filter_cons_of_neg (by rw [isOperation_nil]; decide)]
      rfl
    rw [this]
    exact ⟨⟨fun _ => start.treeAt_fits 0, fun _ => rfl⟩, fun _ => ⟨rfl, hs⟩⟩
  | fuel + 1, start, t, hs, hc, hh => by
    have hop := isOperation_eq n hc
    by_cases hseq : Narsese_copulaEquals n (t.get 0) SEQUENCE = true
    · have h0 := copulaEquals_ne hseq
      have hh' := hh
      rw [tree_eq h0] at hh'
      simp only [Tree.height] at hh'
      have ih1 := appendLeftNested_eq n fuel start (Term_ExtractSubterm t 1) hs (extract_closed hc 1)
        (by rw [extract_left h0]; omega)
      rw [extract_left h0] at ih1
      rw [Narsese_OperationSequenceAppendLeftNested, if_pos hseq, tree_eq h0, opSequence_append n _ _ _ _ hseq]
      set r1 := Narsese_OperationSequenceAppendLeftNested n fuel start (Term_ExtractSubterm t 1) with hr1
      obtain ⟨b1, t1⟩ := r1
      cases b1 with
      | false =>
        simp only [Bool.not_false, if_true]
        have : ¬ (Tree.opSequence n start.tree t.tree.left).Fits 0 := by
          intro h; exact absurd (ih1.1.2 h) (by simp)
        refine ⟨⟨fun h => by simp at h, fun h => absurd (Tree.fits_foldl h) this⟩, fun h => by simp at h⟩
      | true =>
        simp only [Bool.not_true, Bool.false_eq_true, if_false]
        obtain ⟨e1, e2⟩ := ih1.2 rfl
        simp only at e1 e2
        have ih2 := appendLeftNested_eq n fuel t1 (Term_ExtractSubterm t 2) e2 (extract_closed hc 2)
          (by rw [extract_right h0]; omega)
        rw [extract_right h0, e1] at ih2
        exact ih2
    · have hev : t.tree.events n = [t.tree] := by
        by_cases h0 : t.get 0 = 0
        · rw [show t.tree = .nil from t.treeAt_zero h0]; rfl
        · conv_lhs => rw [tree_eq h0]
          rw [Tree.events, if_neg hseq, ← tree_eq h0]
      rw [Narsese_OperationSequenceAppendLeftNested, if_neg hseq, hop]
      unfold Tree.opSequence
      rw [hev]
      by_cases ho : t.tree.IsOperation n = true
      · simp only [ho, if_true, List.filter_cons_of_pos, List.filter_nil, List.foldl_cons, List.foldl_nil]
        have ht0 : t.get 0 ≠ 0 := by rw [← tree_root]; exact isOperation_root ho
        by_cases hs0 : start.get 0 = 0
        · rw [if_pos hs0, show start.tree = .nil from start.treeAt_zero hs0]
          exact ⟨⟨fun _ => t.treeAt_fits 0, fun _ => rfl⟩, fun _ => ⟨rfl, hc⟩⟩
        · rw [if_neg hs0]
          have happ : start.tree.appendEvent t.tree = .node (copulaAtom SEQUENCE) start.tree t.tree := by
            rw [tree_eq hs0]; rfl
          rw [happ]
          obtain ⟨k1, k2⟩ := buildCompound_spec (copulaAtom SEQUENCE) start t (by decide) hs hc hs0 ht0
          unfold Narsese_Sequence
          refine ⟨k1, fun h => ?_⟩
          have h' : (buildCompound (copulaAtom SEQUENCE) start t).1 = true := h
          obtain ⟨k3, k4⟩ := k2 h'
          simp only [h', if_true]
          exact ⟨k4, k3⟩
      · simp only [ho, Bool.false_eq_true, if_false, List.filter_cons_of_neg, not_false_eq_true, List.filter_nil,
          List.foldl_nil]
        exact ⟨⟨fun _ => start.treeAt_fits 0, fun _ => by trivial⟩, fun _ => ⟨trivial, hs⟩⟩

end ONA

import Verif.Props.Inference
import Verif.Proofs.Operation
/-
Properties of prediction and subgoaling (src/Inference.c 99-134, 182-194) and of the operations in sequences
(src/Narsese.c 724-885): C58, C59.
-/
namespace ONA
section
variable [Arith]

theorem Truth_GoalDeduction_valid {v1 v2 : Truth} (h1 : v1.Valid) (h2 : v2.Valid) :
    (Truth_GoalDeduction v1 v2).Valid ∧ (Truth_GoalDeduction v1 v2).confidence ≤ v1.confidence ∧
      (Truth_GoalDeduction v1 v2).confidence ≤ v2.confidence := by
  obtain ⟨a1, a2, a3⟩ := Truth_Deduction_valid h1 h2
  have n1 := Truth_Negation_valid (v2 := v2) h1
  obtain ⟨b1, b2, b3⟩ := Truth_Deduction_valid n1 h2
  have n2 := Truth_Negation_valid (v2 := v2) b1
  unfold Truth_GoalDeduction
  simp only
  split
  · exact ⟨a1, a2, a3⟩
  · exact ⟨n2, b2, b3⟩

/-- A term whose root is a (temporal or eternal) implication. -/
def Term.IsImplication (n : Narsese) (t : Term) : Prop :=
  Narsese_copulaEquals n (t.get 0) TEMPORAL_IMPLICATION = true ∨ Narsese_copulaEquals n (t.get 0) IMPLICATION = true

omit [Arith] in
theorem Term.IsImplication.root {n : Narsese} {t : Term} (h : t.IsImplication n) : t.get 0 ≠ 0 := by
  rcases h with h | h <;> exact copulaEquals_ne h

/-- **C58 (prediction).** From an event and an implication `P => C`, `Inference_BeliefDeduction` predicts the belief event
`C`, with the time of the event plus the time distance of the implication (an eternal event gives an eternal one),
the merged evidence, and at most the confidence of each premise. Anything but an implication stops the process. -/
theorem C58_prediction (n : Narsese) (component : Event) (compound : Implication)
    (h1 : component.truth.Valid) (h2 : compound.truth.Valid) :
    (¬ compound.term.IsImplication n → ∃ m, Inference_BeliefDeduction n component compound = .error (.assertFail m)) ∧
    (compound.term.IsImplication n → ∃ r, Inference_BeliefDeduction n component compound = .ok r ∧
      r.term.tree = compound.term.tree.right ∧ r.type = .belief ∧
      r.truth = Truth_Deduction compound.truth component.truth ∧ r.truth.Valid ∧
      r.truth.confidence ≤ component.truth.confidence ∧ r.truth.confidence ≤ compound.truth.confidence ∧
      r.stamp = Stamp_make component.stamp compound.stamp ∧
      (∀ id ∈ r.stamp.ids, id ∈ component.stamp.ids ∨ id ∈ compound.stamp.ids) ∧
      r.creationTime = max component.creationTime compound.creationTime ∧
      (component.occurrenceTime = OCCURRENCE_ETERNAL → r.occurrenceTime = OCCURRENCE_ETERNAL) ∧
      (∀ t k : Nat, t + k ≤ 2 ^ 53 → component.occurrenceTime = t → compound.occurrenceTimeOffset = k →
        r.occurrenceTime = t + k)) := by
  unfold Inference_BeliefDeduction
  constructor
  · intro h
    unfold cassert
    rw [if_neg (by simpa [Term.IsImplication] using h)]
    exact ⟨_, rfl⟩
  · intro h
    rw [cassert_true (by simpa [Term.IsImplication] using h)]
    obtain ⟨v1, v2, v3⟩ := Truth_Deduction_valid h2 h1
    refine ⟨_, rfl, extract_right h.root, rfl, rfl, v1, v3, v2, rfl, C16_only_premises _ _, rfl, ?_, ?_⟩
    · intro ho; exact if_pos ho
    · intro t k htk ht hk
      have hne : component.occurrenceTime ≠ OCCURRENCE_ETERNAL := by
        rw [ht]; unfold OCCURRENCE_ETERNAL; omega
      refine (if_neg hne).trans ?_
      rw [ht, hk]
      unfold ofLong fadd
      have e1 : rnd ((t : Int) : ℚ) = (t : ℚ) := by
        have := Arith.rnd_nat t (by omega)
        exact_mod_cast this
      have e2 : rnd ((t : ℚ) + (k : ℚ)) = ((t + k : ℕ) : ℚ) := by
        have := Arith.rnd_nat (t + k) htk
        push_cast at this ⊢
        exact this
      rw [e1, e2]
      unfold ctrunc
      rw [Rat.num_natCast, Rat.den_natCast]
      simp

/-- **C58 (subgoaling).** From a desired event and an implication `P => C`, `Inference_GoalDeduction` derives the goal "`P`
without the operations it ends with", for the current time, with the merged evidence, and at most the confidence of
each premise. -/
theorem C58_subgoal (n : Narsese) (component : Event) (compound : Implication) (currentTime : Int)
    (h1 : component.truth.Valid) (h2 : compound.truth.Valid) (hc : compound.term.Closed) :
    (¬ compound.term.IsImplication n → ∃ m, Inference_GoalDeduction n component compound currentTime = .error (.assertFail m)) ∧
    (compound.term.IsImplication n → ∃ r, Inference_GoalDeduction n component compound currentTime = .ok r ∧
      r.term.tree = compound.term.tree.left.withoutOp n ∧ r.term.Closed ∧ r.type = .goal ∧
      r.truth = Truth_GoalDeduction component.truth compound.truth ∧ r.truth.Valid ∧
      r.truth.confidence ≤ component.truth.confidence ∧ r.truth.confidence ≤ compound.truth.confidence ∧
      r.stamp = Stamp_make component.stamp compound.stamp ∧
      (∀ id ∈ r.stamp.ids, id ∈ component.stamp.ids ∨ id ∈ compound.stamp.ids) ∧
      r.creationTime = max component.creationTime compound.creationTime ∧
      r.occurrenceTime = currentTime) := by
  unfold Inference_GoalDeduction
  constructor
  · intro h
    unfold cassert
    rw [if_neg (by simpa [Term.IsImplication] using h)]
    exact ⟨_, rfl⟩
  · intro h
    rw [cassert_true (by simpa [Term.IsImplication] using h)]
    obtain ⟨v1, v2, v3⟩ := Truth_GoalDeduction_valid h1 h2
    obtain ⟨w1, w2⟩ := withoutOp_eq n termDepth (Term_ExtractSubterm compound.term 1) (extract_closed hc 1) (height_le _)
    rw [extract_left h.root] at w1
    exact ⟨_, rfl, w1, w2, rfl, rfl, v1, v2, v3, rfl, C16_only_premises _ _, rfl, rfl⟩

/-- **C58 (update).** Updating an event to another time moves it there and only makes it less confident; applied for its
own time it changes nothing. -/
theorem C58_update (e : Event) (t : Int) (h : e.truth.Valid) :
    (Inference_EventUpdate e t).occurrenceTime = t ∧ (Inference_EventUpdate e t).truth.Valid ∧
    (Inference_EventUpdate e t).truth.frequency = e.truth.frequency ∧
    (Inference_EventUpdate e t).truth.confidence ≤ e.truth.confidence ∧
    (Inference_EventUpdate e t).truth = Truth_Projection e.truth e.occurrenceTime t ∧
    (Inference_EventUpdate e t).term = e.term ∧ (Inference_EventUpdate e t).type = e.type ∧
    (Inference_EventUpdate e t).stamp = e.stamp ∧ (Inference_EventUpdate e t).creationTime = e.creationTime ∧
    Inference_EventUpdate e e.occurrenceTime = e := by
  obtain ⟨q1, q2, q3, -, q5, -⟩ := C23_projection e.truth h e.occurrenceTime t
  refine ⟨rfl, q1, q2, q3, rfl, rfl, rfl, rfl, rfl, ?_⟩
  unfold Inference_EventUpdate
  rw [q5]

/-- **C58 (sequence subgoaling).** The goal to reach what is left of a sequence: the term of the goal, for the current
time, with the goal-deduction truth of both premises seen from the current time and the merged evidence. -/
theorem C58_sequence_subgoal (compound component : Event) (currentTime : Int)
    (h1 : compound.truth.Valid) (h2 : component.truth.Valid) :
    let r := Inference_GoalSequenceDeduction compound component currentTime
    r.term = compound.term ∧ r.type = .goal ∧ r.occurrenceTime = currentTime ∧
    r.truth = Truth_GoalDeduction (Truth_Projection compound.truth compound.occurrenceTime currentTime)
      (Truth_Projection component.truth component.occurrenceTime currentTime) ∧ r.truth.Valid ∧
    r.truth.confidence ≤ compound.truth.confidence ∧ r.truth.confidence ≤ component.truth.confidence ∧
    Merges r.stamp r.creationTime component compound := by
  intro r
  obtain ⟨p1, -, p3, -⟩ := C23_projection compound.truth h1 compound.occurrenceTime currentTime
  obtain ⟨q1, -, q3, -⟩ := C23_projection component.truth h2 component.occurrenceTime currentTime
  obtain ⟨v1, v2, v3⟩ := Truth_GoalDeduction_valid p1 q1
  exact ⟨rfl, rfl, rfl, rfl, v1, le_trans v2 p3, le_trans v3 q3, rfl, C16_only_premises _ _, rfl⟩

end

/-! ### C59: the operations of a sequence -/

/-- **C59 (length).** The length of a sequence is the number of its events. -/
theorem C59_length (n : Narsese) (t : Term) (hc : t.Closed) :
    Narsese_SequenceLength n termDepth t = (t.tree.events n).length :=
  sequenceLength_eq n termDepth t hc (height_le t)

/-- **C59 (operations).** The operation part of a precondition: for a sequence ending with an operation, the left-nested
sequence of exactly its operations in order, if that fits into a term (else nothing); an operation is its own
operation part; the operation part of a temporal implication is the one of its precondition; everything else has none. -/
theorem C59_operationTerm_sequence (n : Narsese) (t : Term) (hc : t.Closed)
    (hs : Narsese_copulaEquals n (t.get 0) SEQUENCE = true) (fuel : Nat) :
    (Narsese_getOperationTerm n (fuel + 1) t).tree =
      if t.tree.right.IsOperation n = true ∧ (Tree.opSequence n .nil t.tree).Fits 0 then Tree.opSequence n .nil t.tree
      else .nil := by
  have h0 := copulaEquals_ne hs
  have ht : Narsese_copulaEquals n (t.get 0) TEMPORAL_IMPLICATION = false := by
    rw [Bool.eq_false_iff]
    intro h
    unfold Narsese_copulaEquals at h hs
    simp only [Bool.and_eq_true, decide_eq_true_iff] at h hs
    rw [h.2] at hs
    exact absurd hs.2 (by decide)
  have hzero : Term.zero.tree = .nil := Term.zero.treeAt_zero (Term.get_zero 0)
  obtain ⟨k1, k2⟩ := appendLeftNested_eq n termDepth Term.zero t zero_closed hc (height_le t)
  rw [hzero] at k1 k2
  have hop : Narsese_isOperation n (Term_ExtractSubterm t 2) = t.tree.right.IsOperation n := by
    rw [isOperation_eq n (extract_closed hc 2), extract_right h0]
  rw [Narsese_getOperationTerm, ht, if_neg (by decide), if_pos hs]
  show Term.tree (if (!Narsese_isOperation n (Term_ExtractSubterm t 2)) = true then _ else _) = _
  rw [hop]
  by_cases ho : t.tree.right.IsOperation n = true
  · by_cases hf : (Tree.opSequence n .nil t.tree).Fits 0
    · rw [if_neg (by rw [ho]; decide), if_pos ⟨ho, hf⟩]
      have hok := k1.2 hf
      simp only [hok, Bool.not_true, Bool.false_eq_true, if_false]
      exact (k2 hok).1
    · rw [if_neg (by rw [ho]; decide), if_neg (fun h => hf h.2)]
      have hok : (Narsese_OperationSequenceAppendLeftNested n termDepth Term.zero t).1 = false := by
        rw [Bool.eq_false_iff]; exact fun h => hf (k1.1 h)
      simp only [hok, Bool.not_false, if_true]
      exact hzero
  · rw [if_pos (by rw [Bool.eq_false_iff.2 ho]; rfl), if_neg (fun h => ho h.1)]
    exact hzero

/-- **C59 (operations).** The remaining cases, see `C59_operationTerm_sequence`. -/
theorem C59_operationTerm_other (n : Narsese) (t : Term) (hc : t.Closed)
    (hs : Narsese_copulaEquals n (t.get 0) SEQUENCE = false) (fuel : Nat) :
    (Narsese_getOperationTerm n (fuel + 1) t).tree =
      if Narsese_copulaEquals n (t.get 0) TEMPORAL_IMPLICATION = true then
        (Narsese_getOperationTerm n fuel (Term_ExtractSubterm t 1)).tree
      else if t.tree.IsOperation n = true then t.tree else .nil := by
  have hzero : Term.zero.tree = .nil := Term.zero.treeAt_zero (Term.get_zero 0)
  rw [Narsese_getOperationTerm, hs]
  simp only [Bool.false_eq_true, if_false, isOperation_eq n hc]
  split
  · rfl
  · split <;> simp [hzero]

/-- In any session, `<(a &/ ^op) =/> b>` (atoms 64 to 66) is a closed implication with a sequence as precondition, so
the hypotheses of the theorems of this file are met. -/
example (h : List (CStr × Nat)) (n : Narsese) (hs : Narsese.Session h n) :
    let seq := (Narsese_Sequence (Term.zero.put 0 64) (Term.zero.put 0 65)).2
    let t := (buildCompound (copulaAtom TEMPORAL_IMPLICATION) seq (Term.zero.put 0 66)).2
    t.IsImplication n ∧ Narsese_copulaEquals n (seq.get 0) SEQUENCE = true ∧ t.tree.left.root = copulaAtom SEQUENCE := by
  intro seq t
  have e0 : t.get 0 = copulaAtom TEMPORAL_IMPLICATION := by decide +kernel
  have e1 : seq.get 0 = copulaAtom SEQUENCE := by decide +kernel
  refine ⟨Or.inl ?_, ?_, ?_⟩
  · rw [e0]; exact (C32_copulaEquals h n hs TEMPORAL_IMPLICATION (by decide) _).2 rfl
  · rw [e1]; exact (C32_copulaEquals h n hs SEQUENCE (by decide) _).2 rfl
  · have h0 : t.get 0 ≠ 0 := by rw [e0]; decide
    rw [← extract_left h0, tree_root]
    decide +kernel

end ONA

import Verif.Model.Shell
/-
The bounds of the model only matter when they are exceeded: with larger bounds, a run which does not exceed them is the same.
-/
namespace ONA

/-- The first computation exceeds a bound of the model or is the same as the second one. -/
def Approx {α : Type} (x y : M α) : Prop := ∀ s, x s = .error .fuel ∨ x s = y s

namespace Approx
variable {α β σ : Type}

theorem refl (x : M α) : Approx x x := fun _ => .inr rfl

theorem fuel {y : M α} : Approx (throw .fuel) y := fun _ => .inl rfl

theorem bind {x y : M α} {f g : α → M β} (h : Approx x y) (hf : ∀ a, Approx (f a) (g a)) : Approx (x >>= f) (y >>= g) := by
  intro s
  change StateT.bind x f s = _ ∨ StateT.bind x f s = StateT.bind y g s
  unfold StateT.bind
  rcases h s with h | h
  · rw [h]; exact .inl rfl
  · rw [h]
    cases y s with
    | error e => exact .inr rfl
    | ok p => exact hf p.1 p.2

theorem bind' {x : M α} {f g : α → M β} (hf : ∀ a, Approx (f a) (g a)) : Approx (x >>= f) (x >>= g) := bind (refl x) hf

theorem ite {c : Prop} [Decidable c] {x y x' y' : M α} (hx : c → Approx x x') (hy : ¬ c → Approx y y') :
    Approx (if c then x else y) (if c then x' else y') := by
  by_cases h : c
  · rw [if_pos h, if_pos h]; exact hx h
  · rw [if_neg h, if_neg h]; exact hy h

theorem forM {f g : α → M Unit} (l : List α) (h : ∀ a, Approx (f a) (g a)) : Approx (l.forM f) (l.forM g) := by
  induction l with
  | nil => exact refl _
  | cons a l ih =>
    simp only [List.forM_eq_forM, List.forM_cons] at ih ⊢
    exact bind (h a) fun _ => ih

theorem loop {body body' : σ → M (Bool × σ)} (h : ∀ st, Approx (body st) (body' st)) : ∀ (k : Nat) (st : σ),
    Approx (loopM body k st) (loopM body' k st) := by
  intro k
  induction k with
  | zero => intro st; exact refl _
  | succ k ih =>
    intro st
    unfold loopM
    exact bind (h st) fun r => ite (fun _ => ih _) fun _ => refl _

theorem visitChain {body : Nat → σ → M (Bool × σ)} : ∀ (k k' : Nat) (_ : k ≤ k') (p : Option Nat) (st : σ),
    Approx (ONA.visitChain body k p st) (ONA.visitChain body k' p st) := by
  intro k
  induction k with
  | zero =>
    intro k' _ p st
    cases p with
    | none => cases k' <;> exact refl _
    | some e => exact fuel
  | succ k ih =>
    intro k' hk p st
    cases k' with
    | zero => omega
    | succ k' =>
      cases p with
      | none => exact refl _
      | some e =>
        unfold ONA.visitChain
        exact bind' fun _ => bind' fun _ => ite (fun _ => ih k' (by omega) _ _) fun _ => refl _

variable {k k' : Nat}

theorem relatedConcepts (hk : k ≤ k') {t : Term} {body : Nat → σ → M (Bool × σ)} {st : σ} :
    Approx (ONA.relatedConcepts k t body st) (ONA.relatedConcepts k' t body st) := by
  unfold ONA.relatedConcepts
  generalize List.range UNIFICATION_DEPTH = l
  induction l generalizing st with
  | nil => exact refl _
  | cons i l ih =>
    unfold visitRelated
    exact bind' fun _ => bind' fun _ => bind' fun _ => ite (fun _ => bind (visitChain _ _ hk _ _) fun _ =>
      ite (fun _ => ih) fun _ => refl _) fun _ => refl _

/-- The remaining cases: the same computations, one after another. -/
syntax "approx" : tactic
macro_rules
  | `(tactic| approx) => `(tactic| repeat' first
      | with_reducible exact refl _
      | assumption
      | with_reducible refine bind' fun _ => ?_
      | with_reducible refine bind ?_ fun _ => ?_
      | with_reducible refine ite (fun _ => ?_) fun _ => ?_
      | with_reducible refine forM _ fun _ => ?_
      | with_reducible refine loop (fun _ => ?_) _ _
      | split)

variable [Arith] {n : Narsese}

theorem sensorimotor (hk : k ≤ k') (e : Event) (now : Int) :
    Approx (Cycle_ProcessSensorimotorEvent n k e now) (Cycle_ProcessSensorimotorEvent n k' e now) := by
  unfold Cycle_ProcessSensorimotorEvent
  have h := fun (t : Term) (body : Nat → Decision → M (Bool × Decision)) st => relatedConcepts (t := t) (body := body) (st := st) hk
  repeat' first
    | exact h _ _ _
    | approx

theorem decompositionLoop (hk : k ≤ k') : ∀ (j : Nat) (l : List Term) (last : Int) (g : Event),
    Approx (ONA.decompositionLoop n k j l last g) (ONA.decompositionLoop n k' j l last g) := by
  intro j
  induction j with
  | zero => intro l last g; exact refl _
  | succ j ih =>
    intro l last g
    unfold ONA.decompositionLoop
    refine bind' fun _ => bind (relatedConcepts hk) fun best => ?_
    split
    · exact refl _
    · exact ite (fun _ => refl _) fun _ => bind' fun _ => bind' fun _ => ih _ _ _

theorem decomposition (hk : k ≤ k') (g : Event) (p : ℚ) (layer : Nat) :
    Approx (Cycle_GoalSequenceDecomposition n k g p layer) (Cycle_GoalSequenceDecomposition n k' g p layer) := by
  unfold Cycle_GoalSequenceDecomposition
  exact ite (fun _ => refl _) fun _ => bind' fun _ => bind' fun _ => bind (decompositionLoop hk _ _ _ _) fun _ => refl _

theorem selectedGoals (hk : k ≤ k') (now : Int) (layer : Nat) (l : List Nat) : ∀ d : Decision,
    Approx (processSelectedGoals n k now layer l d) (processSelectedGoals n k' now layer l d) := by
  induction l with
  | nil => intro d; exact refl _
  | cons i l ih =>
    intro d
    unfold processSelectedGoals
    exact bind' fun _ => bind (decomposition hk _ _ _) fun _ => ite (fun _ => ih _) fun _ => bind (sensorimotor hk _ _) fun _ => ih _

variable {add add' : Term → M Unit}

theorem execute (h : ∀ t, Approx (add t) (add' t)) (now : Int) (d : Decision) :
    Approx (Decision_Execute n add now d) (Decision_Execute n add' now d) := by
  unfold Decision_Execute
  refine bind' fun _ => ?_
  refine ite (fun _ => ?_) fun _ => refl _
  unfold executeOperation
  refine bind' fun s => ?_
  dsimp only
  cases operationFeedbackTerm (s.operations (d.operationID - 1)).term d.arguments with
  | none => exact refl _
  | some ft =>
    refine bind' fun _ => ?_
    cases (s.operations (d.operationID - 1)).action with
    | none => exact refl _
    | some a =>
      refine ite (fun _ => bind' fun r => ?_) fun _ => refl _
      cases r with
      | none => exact refl _
      | some subs => exact bind' fun r => ite (fun _ => bind (h _) fun _ => refl _) fun _ => refl _

theorem goalEvents (hk : k ≤ k') (h : ∀ t, Approx (add t) (add' t)) (now : Int) (layer : Nat) :
    Approx (Cycle_ProcessAndInferGoalEvents n k add now layer) (Cycle_ProcessAndInferGoalEvents n k' add' now layer) := by
  unfold Cycle_ProcessAndInferGoalEvents
  have rest : ∀ d : Decision, Approx (if (!d.execute) = true then do
        let s ← get
        (List.range s.goalsSelectedCnt).forM fun i => do
          let s ← get
          nextProcessID
          ONA.relatedConcepts k (s.selectedGoals i).term (deriveSubgoals n (s.selectedGoals i) (s.selectedGoalsPriority i) now layer) ()
      else Pure.pure ()) (if (!d.execute) = true then do
        let s ← get
        (List.range s.goalsSelectedCnt).forM fun i => do
          let s ← get
          nextProcessID
          ONA.relatedConcepts k' (s.selectedGoals i).term (deriveSubgoals n (s.selectedGoals i) (s.selectedGoalsPriority i) now layer) ()
      else Pure.pure ()) := fun d =>
    ite (fun _ => bind' fun _ => forM _ fun _ => bind' fun _ => bind' fun _ => relatedConcepts hk) fun _ => refl _
  refine bind' fun _ => bind (selectedGoals hk _ _ _ _) fun d => ?_
  exact ite (fun _ => bind' fun _ => bind (execute h _ _) fun _ => rest d) fun _ => rest d

theorem buildSequence (hk : k ≤ k') (seq : Event) (op : Nat) (b : Bool) (p : ℚ) (now : Int) :
    Approx (ONA.buildSequence n k seq op b p now) (ONA.buildSequence n k' seq op b p now) := by
  unfold ONA.buildSequence
  exact bind (sensorimotor hk _ _) fun _ => refl _

theorem sequenceWith (hk : k ≤ k') (c : Nat) (e : Event) (op : Nat) (p : ℚ) (now : Int) :
    Approx (ONA.sequenceWith n k c e op p now) (ONA.sequenceWith n k' c e op p now) := by
  unfold ONA.sequenceWith
  have h := fun seq op b => buildSequence (n := n) hk seq op b p now
  repeat' first
    | exact h _ _ _
    | approx

theorem sequenceLoop (hk : k ≤ k') (e : Event) (op : Nat) (p : ℚ) (now : Int) :
    Approx (ONA.sequenceLoop n k e op p now) (ONA.sequenceLoop n k' e op p now) := by
  unfold ONA.sequenceLoop
  have h := fun c => sequenceWith (n := n) hk c e op p now
  repeat' first
    | exact h _
    | approx

theorem beliefEvent (hk : k ≤ k') (e : Event) (p : ℚ) (now : Int) :
    Approx (processBeliefEvent n k e p now) (processBeliefEvent n k' e p now) := by
  unfold processBeliefEvent
  have h1 := sensorimotor (n := n) hk e now
  have h2 := fun op => sequenceLoop (n := n) hk e op p now
  repeat' first
    | exact h2 _
    | approx

theorem beliefEvents (hk : k ≤ k') (now : Int) : Approx (Cycle_ProcessBeliefEvents n k now) (Cycle_ProcessBeliefEvents n k' now) := by
  unfold Cycle_ProcessBeliefEvents
  exact bind' fun _ => forM _ fun _ => beliefEvent hk _ _ _

theorem inference (hk : k ≤ k') (now : Int) : Approx (Cycle_Inference n k now) (Cycle_Inference n k' now) := by
  unfold Cycle_Inference
  refine bind' fun _ => forM _ fun _ => bind' fun _ => bind (loop (fun c => ?_) _ _) fun _ => refl _
  unfold inferenceRound
  exact bind' fun _ => bind' fun _ => bind' fun _ => bind' fun _ => bind (relatedConcepts hk) fun _ => refl _

theorem perform (hk : k ≤ k') (h : ∀ t, Approx (add t) (add' t)) (now : Int) :
    Approx (Cycle_Perform n k add now) (Cycle_Perform n k' add' now) := by
  unfold Cycle_Perform
  refine bind' fun _ => bind (beliefEvents hk _) fun _ => bind' fun _ => bind (forM _ fun layer => ?_) fun _ =>
    bind (inference hk _) fun _ => refl _
  unfold processGoalLayer
  exact ite (fun _ => bind' fun _ => goalEvents hk h _ _) fun _ => refl _

theorem cycles (hk : k ≤ k') (h : ∀ t, Approx (add t) (add' t)) (c : Nat) :
    Approx (cyclesWith n k add c) (cyclesWith n k' add' c) := by
  unfold cyclesWith
  refine bind' fun _ => bind' fun _ => forM _ fun _ => ?_
  unfold oneCycle
  exact bind' fun _ => bind (perform hk h _) fun _ => refl _

theorem addInput (hk : k ≤ k') (h : ∀ t, Approx (add t) (add' t)) (t : Term) (ty : EventType) (tr : Truth) (b : Bool) (o : ℚ) :
    Approx (addInputWith n k add t ty tr b o) (addInputWith n k' add' t ty tr b o) := by
  unfold addInputWith
  have h1 := cycles (n := n) hk h 1
  approx

theorem nested (hk : k ≤ k') : ∀ (d d' : Nat), d ≤ d' → ∀ t, Approx (addInputBeliefNested n k d t) (addInputBeliefNested n k' d' t) := by
  intro d
  induction d with
  | zero => intro d' _ t; exact fuel
  | succ d ih =>
    intro d' hd t
    cases d' with
    | zero => omega
    | succ d' =>
      unfold addInputBeliefNested
      exact bind (addInput hk (ih d' (by omega)) _ _ _ _ _) fun _ => refl _

end Approx

/-- The bounds are at least as large. -/
def Fuel.Le (f f' : Fuel) : Prop := f.chain ≤ f'.chain ∧ f.depth ≤ f'.depth

variable [Arith] {n : Narsese} {f f' : Fuel}

theorem Approx.narCycles (h : f.Le f') (c : Nat) : Approx (NAR_Cycles n f c) (NAR_Cycles n f' c) :=
  Approx.cycles h.1 (Approx.nested h.1 _ _ h.2) c

theorem Approx.narAddInput (h : f.Le f') (t : Term) (ty : EventType) (tr : Truth) (b : Bool) (o : ℚ) :
    Approx (NAR_AddInput n f t ty tr b o) (NAR_AddInput n f' t ty tr b o) :=
  Approx.addInput h.1 (Approx.nested h.1 _ _ h.2) t ty tr b o

/-- The same for plain functions. -/
def ApproxR {α : Type} (x y : R α) : Prop := x = .error .fuel ∨ x = y

omit [Arith] in
theorem ApproxR.bind {α β : Type} {x y : R α} {f g : α → R β} (h : ApproxR x y) (hf : ∀ a, ApproxR (f a) (g a)) :
    ApproxR (x >>= f) (y >>= g) := by
  rcases h with rfl | rfl
  · exact .inl rfl
  · cases x with
    | error e => exact .inr rfl
    | ok a => exact hf a

omit [Arith] in
theorem ApproxR.refl {α : Type} (x : R α) : ApproxR x x := .inr rfl

theorem ApproxR.narsese (h : f.Le f') {text : CStr} {b : Bool} {t : ℚ} {s : Sys} :
    ApproxR (NAR_AddInputNarsese2 n f text b t s) (NAR_AddInputNarsese2 n f' text b t s) := by
  unfold NAR_AddInputNarsese2
  refine ApproxR.bind (ApproxR.refl _) fun r => ?_
  obtain ⟨se, n1⟩ := r
  refine ApproxR.bind ?_ fun _ => ApproxR.refl _
  refine Approx.ite (fun _ => Approx.refl _) (fun _ => ?_) s
  unfold inputSentence
  exact Approx.bind' fun _ => Approx.bind' fun _ => Approx.bind (Approx.narAddInput h _ _ _ _ _) fun _ => Approx.refl _

/-- With larger bounds, a command which does not exceed the bounds is the same. -/
theorem ApproxR.command (h : f.Le f') {sz : MemorySizes} {atoms : Nat} {s : Sys} (c : Command) :
    ApproxR (c.run sz atoms f n s) (c.run sz atoms f' n s) := by
  cases c with
  | cycles k => exact ApproxR.bind (Approx.narCycles h k s) fun _ => ApproxR.refl _
  | query t text => exact ApproxR.bind (ApproxR.refl _) fun _ => ApproxR.narsese h
  | narsese text => exact ApproxR.narsese h
  | _ => exact ApproxR.refl _

end ONA

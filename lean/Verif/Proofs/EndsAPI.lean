import Verif.Proofs.EndsNAR
/-
How the calls of the API and the commands of the shell can end.
-/
namespace ONA

/-- The computation fails in a way satisfying `P`, if at all. -/
def Fails {α : Type} (P : Err → Prop) (x : R α) : Prop := ∀ e, x = .error e → P e

namespace Fails
variable {α β : Type} {P Q : Err → Prop}

theorem ok {a : α} : Fails P (.ok a : R α) := by intro e h; cases h

theorem error {e : Err} (h : P e) : Fails P (.error e : R α) := by intro e' h'; cases h'; exact h

theorem mono {x : R α} (h : Fails P x) (hpq : ∀ e, P e → Q e) : Fails Q x := fun e he => hpq e (h e he)

theorem bind {x : R α} {f : α → R β} (hx : Fails P x) (hf : ∀ a, x = .ok a → Fails P (f a)) : Fails P (x >>= f) := by
  intro e h
  cases hx' : x with
  | error e' =>
    rw [hx'] at h
    cases h
    exact hx _ hx'
  | ok a =>
    rw [hx'] at h
    exact hf a hx' e h

theorem ite {c : Prop} [Decidable c] {x y : R α} (hx : c → Fails P x) (hy : ¬ c → Fails P y) : Fails P (if c then x else y) := by
  by_cases h : c
  · rw [if_pos h]; exact hx h
  · rw [if_neg h]; exact hy h

theorem cassert {b : Bool} {m : String} {f : Unit → R β} (h : P (.assertFail m)) (hf : b = true → Fails P (f ())) :
    Fails P (ONA.cassert b m >>= f) := by
  cases b with
  | true => exact hf rfl
  | false => exact error h

theorem assert {b : Bool} {m : String} {f : Unit → R β} (h : b = true) (hf : Fails P (f ())) :
    Fails P (ONA.cassert b m >>= f) := by
  rw [cassert_true h]
  exact hf

end Fails

/-! ### Names and texts -/

variable {n n' : Narsese} {P : Err → Prop}

theorem Fails.index (h : n.Ok) {name : CStr} : Fails NameError (Narsese_AtomicTermIndex n name) := by
  obtain ⟨ns, h⟩ := h
  by_cases hs : truncName name ∈ ns
  · rw [h.index_known hs]; exact Fails.ok
  · by_cases hc : ns.length < n.capacity
    · obtain ⟨n', e, -⟩ := h.index_new hs hc
      rw [e]; exact Fails.ok
    · rw [h.index_full hs (by omega)]; exact Fails.error .full

theorem Fails.atomicTerm (h : n.Ok) {name : CStr} : Fails NameError (Narsese_AtomicTerm n name) :=
  Fails.bind (Fails.index h) fun _ _ => Fails.ok

theorem Fails.setNode {t : Term} {i a : Nat} (h : i - 1 < COMPOUND_TERM_SIZE_MAX) {P : Err → Prop} : Fails P (t.setNode i a) := by
  unfold Term.setNode
  rw [if_pos h]
  exact Fails.ok

theorem Fails.buildBinaryTree : ∀ (fuel : Nat) {n : Narsese} {t : Term} {tokens : List CStr} {i : Nat}, n.Ok → n.Knows t →
    128 ≤ i * 2 ^ fuel → Fails TermError (ONA.buildBinaryTree (fuel + 1) n t tokens i) := by
  intro fuel
  induction fuel with
  | zero =>
    intro n t tokens i hn hk hi
    cases tokens with
    | nil => exact Fails.error .empty
    | cons tok rest =>
      unfold ONA.buildBinaryTree
      refine Fails.ite (fun _ => ?_) fun _ => ?_
      · cases rest with
        | nil => exact Fails.error .bracket
        | cons copula args =>
          refine Fails.bind ((Fails.index hn).mono fun _ => .name) fun r _ => ?_
          intro e he
          dsimp only at he
          unfold Term.setNode at he
          rw [if_neg (by simp only [COMPOUND_TERM_SIZE_MAX]; omega)] at he
          cases he
          exact .deep
      · intro e he
        have : ONA.cassert (decide (i - 1 < COMPOUND_TERM_SIZE_MAX)) "COMPOUND_TERM_SIZE_MAX too small" =
            .error (.assertFail "COMPOUND_TERM_SIZE_MAX too small") := by
          unfold ONA.cassert
          rw [if_neg]
          intro hc
          have := of_decide_eq_true hc
          simp only [COMPOUND_TERM_SIZE_MAX] at this
          omega
        rw [this] at he
        cases he
        exact .size
  | succ k ih =>
    intro n t tokens i hn hk hi
    cases tokens with
    | nil => exact Fails.error .empty
    | cons tok rest =>
      unfold ONA.buildBinaryTree
      have next : ∀ j, i * 2 ≤ j → 128 ≤ j * 2 ^ k := by
        intro j hj
        have : i * 2 ^ (k + 1) = i * 2 * 2 ^ k := by rw [pow_succ]; ring
        calc 128 ≤ i * 2 ^ (k + 1) := hi
          _ = i * 2 * 2 ^ k := this
          _ ≤ j * 2 ^ k := Nat.mul_le_mul_right _ hj
      refine Fails.ite (fun _ => ?_) fun _ => ?_
      · cases rest with
        | nil => exact Fails.error .bracket
        | cons copula args =>
          refine Fails.bind ((Fails.index hn).mono fun _ => .name) fun r er => ?_
          obtain ⟨a, n1⟩ := r
          obtain ⟨hn1, hx1, ha⟩ := Narsese.index_extends hn er
          dsimp only
          refine Fails.bind ?_ fun t1 et1 => ?_
          · unfold Term.setNode
            exact Fails.ite (fun _ => Fails.ok) fun _ => Fails.error .deep
          have hk1 : n1.Knows t1 := by
            unfold Term.setNode at et1
            split at et1
            · cases et1
              exact (hx1.knows hk).put _ (Nat.le_trans (Narsese.toAtom_toNat_le _) ha)
            · cases et1
          refine Fails.bind ?_ fun r2 er2 => ?_
          · exact Fails.ite (fun _ => Fails.ok) fun _ => ih hn1 hk1 (next _ (Nat.le_refl _))
          obtain ⟨t2, n2⟩ := r2
          have h2 : n2.Ok ∧ n2.Knows t2 := by
            split at er2
            · cases er2; exact ⟨hn1, hk1⟩
            · obtain ⟨x, -, y⟩ := Narsese.buildBinaryTree_extends _ hn1 hk1 er2
              exact ⟨x, y⟩
          exact Fails.ite (fun _ => Fails.ok) fun _ => ih h2.1 h2.2 (next _ (by omega))
      · refine Fails.cassert .size fun hb => ?_
        have hb : i - 1 < COMPOUND_TERM_SIZE_MAX := by simpa using hb
        refine Fails.ite (fun _ => ?_) fun _ => ?_
        · refine Fails.bind ((Fails.index hn).mono fun _ => .name) fun r er => ?_
          exact Fails.bind (Fails.setNode hb) fun _ _ => Fails.ok
        · refine Fails.bind ((Fails.index hn).mono fun _ => .name) fun r er => ?_
          exact Fails.bind (Fails.setNode hb) fun _ _ => Fails.ok

theorem Fails.normalizeLoop : ∀ (k : Nat) (s : NormState), Fails TermError (ONA.normalizeLoop n k s) := by
  intro k
  induction k with
  | zero => intro s; exact ok
  | succ k ih =>
    intro s
    unfold ONA.normalizeLoop
    exact ite (fun _ => cassert .variables fun _ => ih _) fun _ => ih _

theorem Fails.normalize {t : Term} : Fails TermError (Variable_Normalize n t) := Fails.normalizeLoop _ _

theorem Fails.term (h : n.Ok) {text : CStr} : Fails TermError (Narsese_Term n text) := by
  unfold Narsese_Term
  refine cassert .long fun _ => bind ?_ fun tokens _ => bind ?_ fun r er => ?_
  · unfold Narsese_PrefixTransform
    exact ite (fun _ => error .tokens) fun _ => ok
  · exact Fails.buildBinaryTree 7 h Narsese.knows_zero (by norm_num)
  · exact bind Fails.normalize fun _ _ => ok

section
variable [Arith]

theorem Fails.scan {x : Scan} : Fails SentenceError x.get := by
  cases x with
  | fail => exact error .truth
  | unmodelled => exact error .number
  | num => exact ok

theorem Fails.offset {text : CStr} : Fails SentenceError (sentenceOffset text) := by
  unfold sentenceOffset
  split
  · dsimp only
    refine ite (fun _ => error .dtEnd) fun _ => ite (fun _ => error .dtLong) fun _ => ite (fun _ => error .dtNone) fun _ => ?_
    split
    · exact ok
    · exact ok
    · exact error .number
  · exact ok

theorem Fails.truth {text : CStr} : Fails SentenceError (sentenceTruth text) := by
  unfold sentenceTruth
  dsimp only
  refine ite (fun _ => ?_) fun _ => ok
  split
  · exact error .opener
  · refine bind ?_ fun r _ => ?_
    · refine ite (fun _ => ?_) fun _ => ite (fun _ => ?_) fun _ => ?_
      · refine ite (fun _ => error .truth) fun _ => ?_
        exact bind Fails.scan fun _ _ => ok
      · refine ite (fun _ => error .truth) fun _ => ?_
        refine bind Fails.scan fun _ _ => ?_
        refine ite (fun _ => error .truth) fun _ => ?_
        exact bind Fails.scan fun _ _ => ok
      · refine ite (fun _ => error .truth) fun _ => ?_
        refine bind Fails.scan fun _ _ => ?_
        exact bind Fails.scan fun _ _ => ok
    · split
      · exact error .before
      · exact cassert .space fun _ => ok

theorem Fails.sentence (h : n.Ok) {text : CStr} : Fails SentenceError (Narsese_Sentence n text) := by
  unfold Narsese_Sentence
  refine bind Fails.offset fun r _ => ?_
  refine cassert .short fun _ => cassert .long fun _ => bind Fails.truth fun r2 _ => ?_
  dsimp only
  refine ite (fun _ => error .noPunctuation) fun _ => cassert .punctuation fun _ => ?_
  exact bind ((Fails.term h).mono fun _ => .term) fun _ _ => ok

/-! ### Calls -/

variable {z : Sizes} {s : Sys}

/-- `NAR_INIT` does not depend on what was there before. -/
theorem init_again {s0 s1 : Sys} {n0 : Narsese} (e : NAR_INIT_sizes z.memory z.atoms s0 = .ok (n0, s1)) (s : Sys) :
    ∃ r, NAR_INIT_sizes z.memory z.atoms s = .ok r := by
  obtain ⟨ht, idx, e1, e2, e3, -⟩ := init_shape e
  unfold NAR_INIT_sizes at e ⊢
  obtain ⟨_, e0, -⟩ := R.bind_eq_ok.1 e
  rw [e0, R.ok_bind]
  have hm : ∃ s2, Memory_INIT_sizes z.memory s = .ok ((), s2) := by
    unfold Memory_INIT_sizes
    refine ⟨_, M.bind_ok.2 ⟨_, _, M.lift_ok.2 ⟨e1, rfl⟩, M.bind_ok.2 ⟨_, _, M.lift_ok.2 ⟨e2, rfl⟩, M.modify_ok.2 rfl⟩⟩⟩
  obtain ⟨s2, hm⟩ := hm
  rw [hm, R.ok_bind]
  dsimp only
  rw [e3, R.ok_bind]
  exact ⟨_, rfl⟩

theorem Reachable.init_ok (h : Reachable z n s) (s1 : Sys) : ∃ r, NAR_INIT_sizes z.memory z.atoms s1 = .ok r := by
  induction h with
  | start h0 e => exact init_again e s1
  | call fuel c h hl e ih => exact ih

/-- An API call on the state, as a plain function. -/
theorem Fails.of_endsAt [Bounds] {α β : Type} {x : M α} {P : Err → Prop} {f : α × Sys → R β} (h : EndsAt x s) (hP : ∀ e, Ended e → P e)
    (hf : ∀ a, x s = .ok a → Fails P (f a)) : Fails P (x s >>= f) :=
  Fails.bind (fun e he => hP e (h e he)) hf

theorem Fails.input [Bounds] (hg : Good n s) (hn : n.Ok) (h0 : s.initialized = true) {fuel : Fuel}
    (hf : Bounds.short ∨ fuel.Covers s.capacity) {text : CStr} (hv : ValidText n text) {b : Bool}
    {t : ℚ} : Fails (fun e => Ended e ∨ InputError e) (NAR_AddInputNarsese2 n fuel text b t s) := by
  unfold NAR_AddInputNarsese2
  refine Fails.bind ((Fails.sentence hn).mono fun e he => .inr (.sentence he)) fun r er => ?_
  obtain ⟨se, n1⟩ := r
  obtain ⟨hn1, hx, hk⟩ := Narsese.sentence_extends hn hg.base er
  have hg1 := hg.extends hx
  dsimp only
  refine Fails.bind ?_ fun _ _ => Fails.ok
  by_cases hq : se.punctuation = '?'
  · rw [if_pos hq]
    exact fun e he => .inl (EndsAt.answerQuestion e he)
  · rw [if_neg hq]
    intro e he
    unfold inputSentence at he
    by_cases h1 : (!(decide (se.punctuation = '!') && decide (se.tense = 0))) = true
    · by_cases h2 : (decide (se.punctuation ≠ '.') || decide (se.tense < 2)) = true
      · rw [cassert_true h1, cassert_true h2] at he
        left
        have hr := hg1.base.reduce hk
        refine EndsAt.bind (EndsAt.narAddInput hg1 h0 hf hr (if se.punctuation = '!' then .goal else .belief)
          (hv se n1 er hq) (decide (se.tense = 0)) se.occurrenceTimeOffset) (f := fun _ => Pure.pure ()) (fun _ _ _ => EndsAt.pure) e he
      · rw [cassert_true h1] at he
        have : ONA.cassert (decide (se.punctuation ≠ '.') || decide (se.tense < 2)) "Future and past belief events are not supported!" =
            .error (.assertFail "Future and past belief events are not supported!") := by
          unfold ONA.cassert; rw [if_neg h2]
        rw [this] at he
        cases he
        exact .inr .tense
    · have : ONA.cassert (!(decide (se.punctuation = '!') && decide (se.tense = 0))) "Eternal goals are not supported!" =
          .error (.assertFail "Eternal goals are not supported!") := by
        unfold ONA.cassert; rw [if_neg h1]
      rw [this] at he
      cases he
      exact .inr .eternalGoal

end

theorem Fails.check {b : Bool} {m : String} (h : b = true ∨ P (.assertFail m)) : Fails P (ONA.cassert b m) := by
  cases b with
  | true => exact Fails.ok
  | false =>
    rcases h with h | h
    · cases h
    · exact Fails.error h

theorem Fails.register [Arith] {s : Sys} {name : CStr} {t : Term} {f : Term → Feedback}
    (h : s.op_k + 1 ≤ OPERATIONS_MAX ∨ P (.assertFail "Too many operators, increase OPERATIONS_MAX!"))
    (h2 : name.head? = some '^' ∨ P (.assertFail "This atom does not belong to an operator!")) :
    Fails P (registerOperation n name t f s) := by
  have hb : ∀ {α β : Type} {x : R α} {f : α → M β} {s : Sys}, Fails P x → (∀ a, x = .ok a → Fails P (f a s)) →
      Fails P (((monadLift x : M α) >>= f) s) := by
    intro α β x f s hx hf
    cases x with
    | error e' => intro e he; cases he; exact hx _ rfl
    | ok a => exact hf a rfl
  have hgt : ∀ {β : Type} {f : Sys → M β} {s : Sys}, Fails P (f s s) → Fails P (((MonadState.get : M Sys) >>= f) s) := fun h => h
  unfold registerOperation
  refine hb (Fails.check (h2.imp_left decide_eq_true)) fun _ _ => hgt ?_
  refine hb (Fails.check (h.imp_left fun h => decide_eq_true ?_)) fun _ _ => Fails.ok
  split
  · exact h
  · exact operationID_le s t

theorem Fails.addOperation [Arith] {s : Sys} (hn : n.Ok) (h0 : s.initialized = true) {name : CStr} {f : Term → Feedback} :
    Fails OperationError (NAR_AddOperation n name f s) := by
  unfold NAR_AddOperation
  refine Fails.assert h0 (Fails.bind ((Fails.atomicTerm hn).mono fun _ => .name) fun r er => ?_)
  exact Fails.bind (Fails.register (.inr .many) (.inr .operator)) fun _ _ => Fails.ok

theorem Fails.setValue (hn : n.Ok) {v : ℚ} {g : Int} {name : CStr} : Fails ValueError (Shell_setValue n v g name) := by
  unfold Shell_setValue
  refine cassert .granularity fun _ => ?_
  refine ite (fun _ => error .buffer) fun _ => bind ((Fails.index hn).mono fun _ => .name) fun r _ => ?_
  exact cassert .zero fun _ => ok

theorem Fails.setSpace [Arith] {g : Int} {name : CStr} (l : List Nat) : ∀ {n : Narsese}, n.Ok → Fails ValueError (Shell_setSpace g name l n) := by
  induction l with
  | nil => intro n _; exact Fails.ok
  | cons a l ih =>
    intro n hn
    unfold Shell_setSpace
    dsimp only
    exact Fails.bind (Fails.setValue hn) fun n1 e1 => ih (setValue_extends hn e1).1

theorem Fails.setOpName (hn : n.Ok) {k : Int} {name : CStr} :
    Fails (Command.setOpName k name).Refuses (Shell_setOpName k name n s) := by
  unfold Shell_setOpName
  refine Fails.cassert (.inr (.inl rfl)) fun _ => Fails.cassert (.inr (.inr rfl)) fun _ => ?_
  exact Fails.bind ((Fails.atomicTerm hn).mono fun _ => .inl) fun _ _ => Fails.ok

theorem Fails.setOpArg (hn : n.Ok) {k j : Int} {text : CStr} :
    Fails (Command.setOpArg k j text).Refuses (Shell_setOpArg k j text n s) := by
  unfold Shell_setOpArg
  refine Fails.cassert (.inr (.inl rfl)) fun _ => Fails.cassert (.inr (.inr rfl)) fun _ => ?_
  exact Fails.bind ((Fails.term hn).mono fun _ => .inl) fun _ _ => Fails.ok

theorem Fails.setOpStdin {k : Int} : Fails (Command.setOpStdin k).Refuses (Shell_setOpStdin k s) := by
  unfold Shell_setOpStdin
  exact Fails.ite (fun _ => Fails.ok) fun _ => Fails.error rfl

end ONA

import Verif.Spec.Announce
import Verif.Proofs.Noting
/-
Printing does not change what is done.
-/
namespace ONA
variable [Arith] {n : Narsese} {p : PrintFlags}

theorem addLinkP_erase (target opi : Nat) (imp : Implication) :
    (addLinkP n target opi imp >>= fun _ => pure ()) = addLink n target opi imp := by
  unfold addLinkP addLink
  simp only [bind_assoc]
  congr 1
  funext s
  split <;> simp only [bind_assoc, pure_bind, bind_pure_unit, bind_pure] <;> congr 1

theorem addLinkP_then {β : Type} (target opi : Nat) (imp : Implication) (f : M β) :
    (addLinkP n target opi imp >>= fun _ => f) = (addLink n target opi imp >>= fun _ => f) := by
  rw [← addLinkP_erase]; simp

theorem load_drop {β : Type} (ref : EventRef) (f : M β) : (ref.load >>= fun _ => f) = f := by
  cases ref with
  | val e => rfl
  | belief c => rfl

theorem processImplicationP_erase (ref : EventRef) (now : Int) (b : Bool) (e : Event) (priority : ℚ) (input : Bool) :
    (processImplicationP n p ref now b e priority input >>= fun r => pure r.1) = processImplication n ref now b e := by
  unfold processImplicationP processImplication
  simp only [bind_assoc]
  congr 1
  funext ev
  split
  · simp only [bind_assoc]
    congr 1
    funext r
    cases r with
    | none => simp
    | some target =>
      simp only [bind_assoc]
      congr 1; funext _; congr 1; funext ev
      congr 1; funext r
      cases r with
      | none => simp
      | some r =>
        simp only [bind_assoc]
        congr 1; funext r
        cases r with
        | none => simp
        | some src =>
          simp only [bind_assoc, pure_bind, load_drop]
          congr 1; funext _; congr 1; funext ev
          congr 1; funext s
          exact addLinkP_then _ _ _ _
  · simp

theorem processNewP_erase {addP : EventRef → ℚ → M (List Line)} {add : EventRef → ℚ → M Unit}
    (h : ∀ r q, (addP r q >>= fun _ => pure ()) = add r q) (ref : EventRef) (now : Int) (priority : ℚ) (input : Bool) :
    (Memory_ProcessNewBeliefEventP n p addP ref now priority input >>= fun _ => pure ()) =
      Memory_ProcessNewBeliefEvent n add ref now priority input := by
  have hadd : ∀ {β : Type} r q (f : M β), (addP r q >>= fun _ => f) = (add r q >>= fun _ => f) := by
    intro β r q f
    rw [← h]; simp
  unfold Memory_ProcessNewBeliefEventP Memory_ProcessNewBeliefEvent
  simp only [bind_assoc]
  congr 1; funext ev
  congr 1; funext et
  rw [← processImplicationP_erase (p := p) (priority := priority) (input := input)]
  simp only [bind_assoc, pure_bind]
  congr 1; funext r
  obtain ⟨go, lines⟩ := r
  cases go with
  | false => simp
  | true =>
    simp only [if_true, bind_assoc]
    congr 1; funext ev
    split
    · simp only [bind_assoc]
      congr 1; funext r
      cases r with
      | none => simp
      | some i =>
        simp only [bind_assoc]
        congr 1; funext ev
        congr 1; funext rh
        cases rh with
        | false => simp only [Bool.false_eq_true, if_false, pure_bind, load_drop]
        | true =>
          simp only [if_true, bind_assoc, pure_bind, load_drop]
          rw [hadd]
          have : (fun (_ : Unit) => (get >>= fun (_ : Sys) => pure () : M Unit)) = fun _ => pure () := rfl
          rw [this, bind_pure_unit]
    · simp

/-- Printing does not change what is done: the memory after `Memory_AddEvent` is the same. -/
theorem Memory_AddEventP_erase (k : Nat) : ∀ (ref : EventRef) (now : Int) (priority : ℚ) (input revised : Bool) (layer : Nat),
    (Memory_AddEventP n p k ref now priority input revised layer >>= fun _ => pure ()) =
      Memory_AddEvent n k ref now priority input revised layer := by
  induction k with
  | zero => intros; rfl
  | succ k ih =>
    intro ref now priority input revised layer
    unfold Memory_AddEventP Memory_AddEvent
    simp only [bind_assoc]
    congr 1; funext ev
    congr 1; funext s
    congr 1; funext r
    split
    · simp
    simp only [bind_assoc]
    congr 1; funext q
    split
    · simp
    have hk := processNewP_erase (n := n) (p := p) (fun r q => ih r now q false true 0) ref now q input
    have hk' : ∀ {β : Type} (f : M β), (Memory_ProcessNewBeliefEventP n p
        (fun r q => Memory_AddEventP n p k r now q false true 0) ref now q input >>= fun _ => f) =
        (Memory_ProcessNewBeliefEvent n (fun r q => Memory_AddEvent n k r now q false true 0) ref now q input >>= fun _ => f) := by
      intro β f
      rw [← hk]
      simp
    have hend : ∀ (a : Bool), (do
        let event ← ref.load
        let _ ← addGoalP event q layer a
        cassert (decide (event.type = .belief) || decide (event.type = .goal)) "Erroneous event type" : M Unit) = (do
        let event ← ref.load
        if event.type = .goal then
          let _ ← Memory_addCyclingEvent event q layer
          cassert (decide (event.occurrenceTime ≠ OCCURRENCE_ETERNAL)) "Eternal goals are not supported"
        cassert (decide (event.type = .belief) || decide (event.type = .goal)) "Erroneous event type") := by
      intro a
      congr 1; funext ev
      unfold addGoalP
      split <;> simp
    unfold addBeliefP queueBeliefP
    simp only [bind_assoc, pure_bind, bind_pure_unit]
    by_cases hb : ev.type = .belief
    · rw [if_pos hb, if_pos hb]
      simp only [bind_assoc, pure_bind, hend, hk']
      split <;> rfl
    · rw [if_neg hb, if_neg hb]
      simp only [pure_bind, hend]


/-- What holds of the state after `Memory_AddEvent` holds with printing. -/
theorem WP.printed {k : Nat} {ref : EventRef} {now : Int} {priority : ℚ} {input revised : Bool} {layer : Nat} {Q : Sys → Prop} {s : Sys}
    (h : WP (Memory_AddEvent n k ref now priority input revised layer) (fun _ s' => Q s') s) :
    WP (Memory_AddEventP n p k ref now priority input revised layer) (fun _ s' => Q s') s := by
  intro lines s' e
  rw [← Memory_AddEventP_erase (p := p)] at h
  exact h () s' (M.bind_ok.2 ⟨lines, s', e, M.pure_ok.2 ⟨rfl, rfl⟩⟩)

/-! ### A line -/

/-- What is known of a printed line. -/
structure Line.From (p : PrintFlags) (priority : ℚ) (input : Bool) (l : Line) : Prop where
  prio : l.priority = priority
  shown : input = false → p.Shows priority
  told : input = true → p.PRINT_INPUT = true
  kind : l.kind = .input → input = true

omit [Arith] in
theorem printed_event {e : Event} {priority : ℚ} {input revised selected : Bool} {l : Line}
    (h : l ∈ Memory_printAddedEvent n p e priority input revised selected) :
    l.Tells e ∧ l.From p priority input ∧
      l.kind = if selected then .selected else if revised then .revised else if input then .input else .derived := by
  unfold Memory_printAddedEvent Memory_printAddedKnowledge at h
  split at h
  · rename_i hx
    rw [List.mem_singleton] at h
    subst h
    refine ⟨⟨rfl, by simp, rfl, rfl, fun hx => by simp [hx], fun hx => by simp [hx]⟩, ⟨rfl, ?_, ?_, ?_⟩, rfl⟩
    · intro hi; subst hi; simpa [PrintFlags.Shows] using hx
    · intro hi; subst hi; simpa using hx
    · intro hi
      dsimp only at hi
      revert hi
      cases selected <;> cases revised <;> cases input <;> simp
  · cases h

omit [Arith] in
theorem printed_told {e : Event} {priority : ℚ} (hp : p.PRINT_INPUT = true) :
    ∃ l, Memory_printAddedEvent n p e priority true false false = [l] ∧ l.Tells e ∧ l.priority = priority ∧ l.kind = .input := by
  have hx : ((true && p.PRINT_INPUT) || (!true && p.PRINT_DERIVATIONS && decide (priority > p.PRINT_EVENTS_PRIORITY_THRESHOLD))) = true := by
    simp [hp]
  have h : ∃ l, Memory_printAddedEvent n p e priority true false false = [l] := by
    unfold Memory_printAddedEvent Memory_printAddedKnowledge
    rw [if_pos hx]
    exact ⟨_, rfl⟩
  obtain ⟨l, hl⟩ := h
  obtain ⟨h1, h2, h3⟩ := printed_event (l := l) (by rw [hl]; exact List.mem_singleton_self _)
  exact ⟨l, hl, h1, h2.prio, h3⟩

omit [Arith] in
theorem printed_derived {e : Event} {priority : ℚ} (hp : p.Shows priority) :
    ∃ l, Memory_printAddedEvent n p e priority false false false = [l] ∧ l.Tells e ∧ l.priority = priority ∧ l.kind = .derived := by
  have hx : ((false && p.PRINT_INPUT) || (!false && p.PRINT_DERIVATIONS && decide (priority > p.PRINT_EVENTS_PRIORITY_THRESHOLD))) = true := by
    simp [hp.1, hp.2]
  have h : ∃ l, Memory_printAddedEvent n p e priority false false false = [l] := by
    unfold Memory_printAddedEvent Memory_printAddedKnowledge
    rw [if_pos hx]
    exact ⟨_, rfl⟩
  obtain ⟨l, hl⟩ := h
  obtain ⟨h1, h2, h3⟩ := printed_event (l := l) (by rw [hl]; exact List.mem_singleton_self _)
  exact ⟨l, hl, h1, h2.prio, h3⟩

omit [Arith] in
theorem printed_link {st : Stamp} {t : Term} {tr : Truth} {o priority : ℚ} {input revised : Bool} {l : Line}
    (h : l ∈ Memory_printAddedImplication n p st t tr o priority input revised) :
    l.term = t ∧ l.isBelief = true ∧ l.truth = tr ∧ l.stamp = st ∧ l.occurrenceTime = none ∧ l.From p priority input ∧
      l.kind = if revised then .revised else if input then .input else .derived := by
  unfold Memory_printAddedImplication Memory_printAddedKnowledge at h
  split at h
  · rename_i hx
    rw [List.mem_singleton] at h
    subst h
    refine ⟨rfl, by simp, rfl, rfl, by simp, ⟨rfl, ?_, ?_, ?_⟩, rfl⟩
    · intro hi; subst hi; simpa [PrintFlags.Shows] using hx
    · intro hi; subst hi; simpa using hx
    · intro hi
      dsimp only at hi
      revert hi
      cases revised <;> cases input <;> simp
  · cases h

end ONA

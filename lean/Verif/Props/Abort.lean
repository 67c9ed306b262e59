import Verif.Spec.Abort
import Verif.Proofs.Reported
import Verif.Proofs.EndsAPI
import Verif.Proofs.Approx
import Verif.Props.Settings
import Verif.Props.Session
/-
C71: how calls can end abnormally.
-/
namespace ONA
variable [Arith] {z : Sizes} {n n' : Narsese} {s s' : Sys}

omit [Arith] in
theorem addOperation_initialized {name : CStr} {f : Term → Feedback} (e : NAR_AddOperation n name f s = .ok (n', s')) :
    s'.initialized = s.initialized ∧ s'.op_k ≤ s.op_k + 1 := by
  obtain ⟨t, -, -, ⟨-, -, rfl⟩ | ⟨-, rfl⟩⟩ := addOperation_shape e
  · exact ⟨rfl, le_rfl⟩
  · exact ⟨rfl, Nat.le_succ _⟩

omit [Arith] in
theorem addNops_initialized (l : List CStr) : ∀ {n : Narsese} {s : Sys}, addNops l n s = .ok (n', s') →
    s'.initialized = s.initialized := by
  induction l with
  | nil => intro n s e; cases e; rfl
  | cons a l ih =>
    intro n s e
    unfold addNops at e
    rw [R.bind_eq_ok] at e
    obtain ⟨⟨n1, s1⟩, e1, e⟩ := e
    rw [ih e, (addOperation_initialized e1).1]

/-- The reasoner is initialised in every reachable state. -/
theorem Reachable.initialized (hz : z.Ok) (h : Reachable z n s) : s.initialized = true := by
  induction h with
  | start h0 e => obtain ⟨_, _, _, _, _, rfl⟩ := init_shape e; rfl
  | call fuel c h hl e ih =>
    obtain ⟨hg, hn⟩ := h.good hz
    by_cases hc : c.namesOps = false
    · rw [(call_sameOps hg hn hl hc e).2.2.2.2, ih]
    · cases c with
      | init => obtain ⟨_, _, _, _, _, rfl⟩ := init_shape e; rfl
      | addInput => exact absurd rfl hc
      | addOperation name f => rw [(addOperation_initialized e).1, ih]
      | addNarsese => exact absurd rfl hc
      | command c =>
        cases c with
        | reset =>
          unfold Call.run Command.run Shell_NARInit_sizes at e
          dsimp only at e
          rw [R.bind_eq_ok] at e
          obtain ⟨⟨n1, s1⟩, e1, e⟩ := e
          obtain ⟨_, _, _, _, _, rfl⟩ := init_shape e1
          rw [addNops_initialized _ e]
        | setOpName k name =>
          unfold Call.run Command.run Shell_setOpName at e
          dsimp only at e
          rw [R.bind_eq_ok] at e
          obtain ⟨_, _, e⟩ := e
          rw [R.bind_eq_ok] at e
          obtain ⟨_, _, e⟩ := e
          rw [R.bind_eq_ok] at e
          obtain ⟨⟨t, n1⟩, _, e⟩ := e
          cases e
          exact ih
        | _ => exact absurd rfl hc

/-- Registering at most as many operations as there is room for. -/
theorem Fails.addNops (l : List CStr) : ∀ {n : Narsese} {s : Sys}, Good n s → n.Ok → s.initialized = true →
    s.op_k + l.length ≤ OPERATIONS_MAX → (∀ name ∈ l, name.head? = some '^') → Fails NameError (ONA.addNops l n s) := by
  induction l with
  | nil => intro n s _ _ _ _ _; exact Fails.ok
  | cons a l ih =>
    intro n s hg hn h0 hk hl
    have hk' : s.op_k + 1 + l.length ≤ OPERATIONS_MAX := by simp only [List.length_cons] at hk; omega
    unfold ONA.addNops
    refine Fails.bind ?_ fun r er => ?_
    · unfold NAR_AddOperation
      refine Fails.assert h0 (Fails.bind (Fails.atomicTerm hn) fun r er => ?_)
      exact Fails.bind (Fails.register (.inl (by omega)) (.inl (hl a List.mem_cons_self))) fun _ _ => Fails.ok
    · obtain ⟨n1, s1⟩ := r
      obtain ⟨h1, h2, _⟩ := addOperation_good hg hn (fun _ _ => Narsese.knows_zero) er
      obtain ⟨h3, h4⟩ := addOperation_initialized er
      exact ih h1 h2 (h3.trans h0) (by omega) fun x hx => hl x (List.mem_cons_of_mem _ hx)

/-- **C71.** After `NAR_INIT` and any sequence of legal calls, a further legal call ends normally, or refuses its arguments in one of
the listed ways, or aborts in one of the listed ways. (A call of the model may also exceed a bound of the model, if that is too
small for the size of the memory.) -/
theorem C71_ends {fuel : Fuel} {c : Call} {e : Err} (hz : z.Ok) (h : Reachable z n s) (hl : c.Legal n s)
    (he : c.run z fuel n s = .error e) : Abort e ∨ c.Refuses e ∨ (e = .fuel ∧ ¬ fuel.Covers z.memory.concepts) := by
  obtain ⟨hg, hn⟩ := h.good hz
  letI : Bounds := ⟨¬ fuel.Covers z.memory.concepts⟩
  have hf : Bounds.short ∨ fuel.Covers s.capacity := by
    rw [show s.capacity = z.memory.concepts from (h.sizes hz).1]
    exact (Classical.em _).symm
  have left : ∀ {Q : Err → Prop} (e : Err), Ended e → Abort e ∨ Q e ∨ (e = .fuel ∧ ¬ fuel.Covers z.memory.concepts) := by
    intro Q e h
    rcases h with h | h
    · exact .inl h
    · exact .inr (.inr h)
  have h0 := h.initialized hz
  have main : Fails (fun e => Abort e ∨ c.Refuses e ∨ (e = .fuel ∧ ¬ fuel.Covers z.memory.concepts)) (c.run z fuel n s) := by
    cases c with
    | init =>
      obtain ⟨r, hr⟩ := h.init_ok s
      unfold Call.run
      dsimp only
      rw [hr]
      exact Fails.ok
    | addInput t ty tr eternal o =>
      unfold Call.run
      dsimp only
      exact Fails.of_endsAt (EndsAt.narAddInput hg h0 hf hl.1 ty hl.2 eternal o) (fun e h => left e h) fun _ _ => Fails.ok
    | addOperation name f => exact (Fails.addOperation hn h0).mono fun _ h => .inr (.inl h)
    | addNarsese text b t => exact (Fails.input hg hn h0 hf hl).mono fun e h => h.elim (left e) fun h => .inr (.inl h)
    | command c =>
      cases c with
      | cycles k =>
        unfold Call.run Command.run
        dsimp only
        exact Fails.of_endsAt (EndsAt.narCycles hg h0 hf k) (fun e h => left e h) fun _ _ => Fails.ok
      | reset =>
        unfold Call.run Command.run Shell_NARInit_sizes
        dsimp only
        obtain ⟨⟨n1, s1⟩, hr⟩ := h.init_ok s
        rw [hr, R.ok_bind]
        have hr' := call_good (c := .init) (fuel := fuel) hz hg hn hl hr
        obtain ⟨_, _, _, _, _, rfl⟩ := init_shape hr
        exact (Fails.addNops _ hr'.1 hr'.2 rfl (show 0 + shellOperations.length ≤ OPERATIONS_MAX by decide) (by decide)).mono fun _ h => .inr (.inl h)
      | setValue v g name =>
        unfold Call.run Command.run
        dsimp only
        exact Fails.bind ((Fails.setValue hn).mono fun _ h => .inr (.inl h)) fun _ _ => Fails.ok
      | space g name =>
        unfold Call.run Command.run
        dsimp only
        exact Fails.cassert (.inr (.inl .space)) fun _ => Fails.bind ((Fails.setSpace _ hn).mono fun _ h => .inr (.inl h)) fun _ _ => Fails.ok
      | setOpName k name => exact (Fails.setOpName hn).mono fun _ h => .inr (.inl h)
      | setOpArg k j text => exact (Fails.setOpArg hn).mono fun _ h => .inr (.inl h)
      | setOpStdin k =>
        unfold Call.run Command.run
        dsimp only
        exact Fails.bind (Fails.setOpStdin.mono fun _ h => .inr (.inl h)) fun _ _ => Fails.ok
      | query t text =>
        unfold Call.run Command.run
        dsimp only
        exact Fails.cassert (.inr (.inl (.inr rfl))) fun _ => (Fails.input hg hn h0 hf hl).mono fun e h => h.elim (left e) fun h => .inr (.inl (.inl h))
      | narsese text => exact (Fails.input hg hn h0 hf hl).mono fun e h => h.elim (left e) fun h => .inr (.inl h)
      | report r =>
        unfold Call.run Command.run
        dsimp only
        refine Fails.bind (fun e he => ?_) fun _ _ => Fails.ok
        obtain ⟨rfl, -⟩ := report_ok hg hn he
        exact .inl .clock
      | _ => exact Fails.ok
  exact main e he

omit [Arith] in
theorem internal_not_abort {e : Err} (h : e ∈ Err.fuel :: internalFailures) : ¬ Abort e := by
  simp only [internalFailures, List.mem_cons, List.not_mem_nil, or_false] at h
  intro ha
  cases ha <;> simp at h

omit [Arith] in
theorem internal_not_term {e : Err} (h : e ∈ Err.fuel :: internalFailures) : ¬ TermError e := by
  simp only [internalFailures, List.mem_cons, List.not_mem_nil, or_false] at h
  intro ha
  rcases ha with ⟨⟨⟩⟩ | _ <;> simp at h

omit [Arith] in
theorem internal_not_name {e : Err} (h : e ∈ Err.fuel :: internalFailures) : ¬ NameError e := fun ha => internal_not_term h (.name ha)

omit [Arith] in
theorem internal_not_input {e : Err} (h : e ∈ Err.fuel :: internalFailures) : ¬ InputError e := by
  intro ha
  cases ha with
  | sentence ha =>
    cases ha with
    | term ha => exact internal_not_term h ha
    | _ => simp [internalFailures] at h
  | _ => simp [internalFailures] at h

omit [Arith] in
theorem internal_not_command {c : Command} {e : Err} (h : e ∈ Err.fuel :: internalFailures) : ¬ c.Refuses e := by
  intro ha
  have hv : ¬ ValueError e := by
    intro ha
    cases ha with
    | name ha => exact internal_not_name h ha
    | _ => simp [internalFailures] at h
  cases c with
  | reset => exact internal_not_name h ha
  | setValue => exact hv ha
  | space => exact hv ha
  | setOpName =>
    rcases ha with ha | rfl | rfl
    · exact internal_not_name h ha
    · simp [internalFailures] at h
    · simp [internalFailures] at h
  | setOpArg =>
    rcases ha with ha | rfl | rfl
    · exact internal_not_term h ha
    · simp [internalFailures] at h
    · simp [internalFailures] at h
  | setOpStdin =>
    cases ha
    simp [internalFailures] at h
  | query =>
    rcases ha with ha | rfl
    · exact internal_not_input h ha
    · simp [internalFailures] at h
  | narsese => exact internal_not_input h ha
  | _ => exact ha

omit [Arith] in
theorem internal_not_call {c : Call} {e : Err} (h : e ∈ Err.fuel :: internalFailures) : ¬ c.Refuses e := by
  intro ha
  cases c with
  | init => exact ha
  | addInput => exact ha
  | addOperation =>
    cases ha with
    | name ha => exact internal_not_name h ha
    | _ => simp [internalFailures] at h
  | addNarsese => exact internal_not_input h ha
  | command c => exact internal_not_command h ha

/-- **C71.** The internal assertions never fail and the data structures are never accessed outside of their bounds: no queue
overflows or is read when empty, the hash table finds what it deletes, the stacks of free nodes neither overflow nor run empty,
no source concept of a link is missing, the truth values of links stay within bounds. -/
theorem C71_internal {fuel : Fuel} {c : Call} {e : Err} (hz : z.Ok) (h : Reachable z n s) (hl : c.Legal n s)
    (hi : e ∈ internalFailures) : c.run z fuel n s ≠ .error e := by
  intro he
  rcases C71_ends hz h hl he with ha | ha | ⟨rfl, -⟩
  · exact internal_not_abort (List.mem_cons_of_mem _ hi) ha
  · exact internal_not_call (List.mem_cons_of_mem _ hi) ha
  · simp [internalFailures] at hi

/-- **C77.** Every call comes to an end: with bounds sufficient for the size of the memory, no call exceeds a bound of the model,
that is, no traversal of the inverted atom index goes on forever, whatever is derived and forgotten on the way, and the feedback of
an operation never makes another operation execute. -/
theorem C77_ends {fuel : Fuel} {c : Call} (hz : z.Ok) (h : Reachable z n s) (hl : c.Legal n s)
    (hf : fuel.Covers z.memory.concepts) : c.run z fuel n s ≠ .error .fuel := by
  intro he
  rcases C71_ends hz h hl he with ha | ha | ⟨-, hb⟩
  · exact internal_not_abort List.mem_cons_self ha
  · exact internal_not_call List.mem_cons_self ha
  · exact hb hf

theorem call_approx {f f' : Fuel} (h : f.Le f') (c : Call) : ApproxR (c.run z f n s) (c.run z f' n s) := by
  cases c with
  | addInput t ty tr b o => exact ApproxR.bind (Approx.narAddInput h t ty tr b o s) fun _ => ApproxR.refl _
  | addNarsese text b t => exact ApproxR.narsese h
  | command c => exact ApproxR.command h c
  | _ => exact ApproxR.refl _

/-- **C77.** The bounds of the model make no difference: a call which does not exceed them ends in the same way with any larger
bounds, in every state. -/
theorem C77_larger {f f' : Fuel} (h : f.chain ≤ f'.chain ∧ f.depth ≤ f'.depth) (c : Call) (he : c.run z f n s ≠ .error .fuel) :
    c.run z f' n s = c.run z f n s := ((call_approx h c).resolve_left he).symm

/-- **C77.** The outcome of a call is the same with all bounds which suffice for the size of the memory. -/
theorem C77_same {f f' : Fuel} {c : Call} (hz : z.Ok) (h : Reachable z n s) (hl : c.Legal n s)
    (hf : f.Covers z.memory.concepts) (hf' : f'.Covers z.memory.concepts) : c.run z f n s = c.run z f' n s := by
  rw [← C77_larger (f' := ⟨max f.chain f'.chain, max f.depth f'.depth⟩) ⟨le_max_left _ _, le_max_left _ _⟩ c (C77_ends hz h hl hf),
    ← C77_larger (f' := ⟨max f.chain f'.chain, max f.depth f'.depth⟩) ⟨le_max_right _ _, le_max_right _ _⟩ c (C77_ends hz h hl hf')]

/-! ### The shell -/

theorem Fails.parseLine {line : CStr} : Fails LineError (ONA.parseLine line) := by
  have hp : ∀ p t, Fails LineError (scanParameter p t) := by
    intro p t
    unfold scanParameter
    split
    · exact Fails.ok
    · exact Fails.ok
    · exact Fails.error .number
  have hi : ∀ {α : Type} t (f : Int × CStr → R α), (∀ r, Fails LineError (f r)) → Fails LineError (scanIntInit t >>= f) := by
    intro α t f hf
    refine Fails.bind ?_ fun r _ => hf r
    unfold scanIntInit
    split
    · exact Fails.ok
    · exact Fails.error .noNumber
  have hs : Fails LineError (stampIds line) := by
    unfold stampIds
    dsimp only
    split
    · exact Fails.error .bracket
    · exact Fails.ite (fun _ => Fails.error .buffer) fun _ => Fails.ok
  unfold ONA.parseLine
  repeat' first
    | exact Fails.ok
    | exact hp _ _
    | exact Fails.error .number
    | exact Fails.error .noNumber
    | exact Fails.error .negative
    | exact Fails.error .steps
    | (refine Fails.ite (fun _ => ?_) fun _ => ?_)
    | (refine Fails.bind hs fun _ _ => ?_)
    | (refine hi _ _ fun _ => ?_)
    | split

/-- **C71** for a line of the shell. -/
theorem C71_line {fuel : Fuel} {line : CStr} {e : Err} (hz : z.Ok) (h : Reachable z n s)
    (hl : ∀ c, parseLine (trimEnd line) = .ok c → c.Legal n s)
    (he : Shell_ProcessInput z.memory z.atoms fuel n s line = .error e) :
    (parseLine (trimEnd line) = .error e ∧ LineError e) ∨
      ∃ c, parseLine (trimEnd line) = .ok c ∧ (Abort e ∨ c.Refuses e ∨ (e = .fuel ∧ ¬ fuel.Covers z.memory.concepts)) := by
  unfold Shell_ProcessInput at he
  cases hp : parseLine (trimEnd line) with
  | error e' =>
    rw [hp] at he
    cases he
    exact .inl ⟨rfl, Fails.parseLine _ hp⟩
  | ok c =>
    rw [hp, R.ok_bind] at he
    refine .inr ⟨c, rfl, ?_⟩
    have : Fails (fun e => Abort e ∨ c.Refuses e ∨ (e = .fuel ∧ ¬ fuel.Covers z.memory.concepts)) (c.run z.memory z.atoms fuel n s) := fun e he =>
      C71_ends (c := .command c) (fuel := fuel) hz h (hl c hp) he
    exact Fails.bind this (fun _ _ => Fails.ok) e he

/-- **C71** for a session of the shell. -/
theorem C71_session {fuel : Fuel} {e : Err} (hz : z.Ok) (lines : List CStr) : ∀ {n : Narsese} {s : Sys}, Reachable z n s →
    LegalLines z fuel lines n s → shellLoop z.memory z.atoms fuel lines n s = .error e →
    Abort e ∨ LineError e ∨ (∃ c : Command, c.Refuses e) ∨ (e = .fuel ∧ ¬ fuel.Covers z.memory.concepts) := by
  induction lines with
  | nil => intro n s h _ e; cases e
  | cons line rest ih =>
    intro n s h hl he
    unfold shellLoop at he
    cases hp : Shell_ProcessInput z.memory z.atoms fuel n s line with
    | error e' =>
      rw [hp] at he
      cases he
      rcases C71_line hz h hl.1 hp with ⟨_, h1⟩ | ⟨c, _, h1 | h1 | h1⟩
      · exact .inr (.inl h1)
      · exact .inl h1
      · exact .inr (.inr (.inl ⟨c, h1⟩))
      · exact .inr (.inr (.inr h1))
    | ok r =>
      obtain ⟨b, n1, s1⟩ := r
      rw [hp, R.ok_bind] at he
      have h1 := line_reachable h hl.1 hp
      cases b with
      | true => exact ih h1 (hl.2 n1 s1 hp) he
      | false => cases he

/-- **C77** for a session of the shell. -/
theorem C77_session {fuel : Fuel} (hz : z.Ok) {lines : List CStr} (h : Reachable z n s) (hl : LegalLines z fuel lines n s)
    (hf : fuel.Covers z.memory.concepts) : shellLoop z.memory z.atoms fuel lines n s ≠ .error .fuel := by
  intro he
  rcases C71_session hz lines h hl he with ha | ha | ⟨c, ha⟩ | ⟨-, hb⟩
  · exact internal_not_abort List.mem_cons_self ha
  · cases ha
  · exact internal_not_command List.mem_cons_self ha
  · exact hb hf

end ONA

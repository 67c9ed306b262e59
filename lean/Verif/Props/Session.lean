import Verif.Props.Settings
/-
Sessions of the shell: whatever lines are typed, the state is one the theorems on reachable states speak about.
-/
namespace ONA
section
variable [Arith] {z : Sizes} {n n' : Narsese} {s s' : Sys}

theorem addNops_reachable (l : List CStr) : ∀ {n : Narsese} {s : Sys}, Reachable z n s → addNops l n s = .ok (n', s') →
    Reachable z n' s' := by
  induction l with
  | nil => intro n s h e; cases e; exact h
  | cons a l ih =>
    intro n s h e
    unfold addNops at e
    rw [R.bind_eq_ok] at e
    obtain ⟨⟨n1, s1⟩, e1, e⟩ := e
    exact ih (.call ⟨0, 0⟩ (.addOperation a Shell_op_nop) h (fun _ _ => Narsese.knows_zero) e1) e

/-- `Shell_NARInit` leads to a reachable state. -/
theorem shellInit_reachable {s0 : Sys} (h : Startable s0) (e : Shell_NARInit_sizes z.memory z.atoms s0 = .ok (n, s)) :
    Reachable z n s := by
  unfold Shell_NARInit_sizes at e
  rw [R.bind_eq_ok] at e
  obtain ⟨⟨n1, s1⟩, e1, e⟩ := e
  exact addNops_reachable _ (.start h e1) e

/-- So does a line. -/
theorem line_reachable {fuel : Fuel} {line : CStr} {b : Bool} (h : Reachable z n s)
    (hl : ∀ c, parseLine (trimEnd line) = .ok c → c.Legal n s)
    (e : Shell_ProcessInput z.memory z.atoms fuel n s line = .ok (b, n', s')) : Reachable z n' s' := by
  unfold Shell_ProcessInput at e
  rw [R.bind_eq_ok] at e
  obtain ⟨c, e1, e⟩ := e
  rw [R.bind_eq_ok] at e
  obtain ⟨⟨n1, s1⟩, e2, e⟩ := e
  have := Reachable.call fuel (.command c) h (hl c e1) e2
  cases c <;> cases e <;> exact this

/-- The lines are ones the shell can be given, each in the state in which it is processed. -/
def LegalLines (z : Sizes) (fuel : Fuel) : List CStr → Narsese → Sys → Prop
  | [], _, _ => True
  | line :: rest, n, s => (∀ c, parseLine (trimEnd line) = .ok c → c.Legal n s) ∧
      ∀ n' s', Shell_ProcessInput z.memory z.atoms fuel n s line = .ok (true, n', s') → LegalLines z fuel rest n' s'

theorem shellLoop_reachable {fuel : Fuel} (lines : List CStr) : ∀ {n : Narsese} {s : Sys}, Reachable z n s →
    LegalLines z fuel lines n s → shellLoop z.memory z.atoms fuel lines n s = .ok (n', s') → Reachable z n' s' := by
  induction lines with
  | nil => intro n s h _ e; cases e; exact h
  | cons line rest ih =>
    intro n s h hl e
    unfold shellLoop at e
    rw [R.bind_eq_ok] at e
    obtain ⟨⟨b, n1, s1⟩, e1, e⟩ := e
    have h1 := line_reachable h hl.1 e1
    cases b with
    | true => exact ih h1 (hl.2 n1 s1 e1) e
    | false => cases e; exact h1

/-- C69: whatever lines are typed (within the documented ranges), a session of the shell which has not been aborted ends in a
reachable state. -/
theorem C69_session {fuel : Fuel} {lines : List CStr} {s0 : Sys} (h0 : Startable s0)
    (hl : ∀ n s, Shell_NARInit_sizes z.memory z.atoms s0 = .ok (n, s) → LegalLines z fuel lines n s)
    (e : Shell_Start z.memory z.atoms fuel lines s0 = .ok (n', s')) : Reachable z n' s' := by
  unfold Shell_Start at e
  rw [R.bind_eq_ok] at e
  obtain ⟨⟨n1, s1⟩, e1, e⟩ := e
  exact shellLoop_reachable lines (shellInit_reachable h0 e1) (hl n1 s1 e1) e

theorem trimEnd_white {line white : CStr} (hw : ∀ c ∈ white, isSpace c = true) : trimEnd (line ++ white) = trimEnd line := by
  unfold trimEnd
  rw [List.reverse_append, List.dropWhile_append, if_pos]
  rw [List.isEmpty_iff, List.dropWhile_eq_nil_iff]
  intro c hc
  exact hw c (List.mem_reverse.1 hc)

/-- C69: white space at the end of a line has no effect. -/
theorem C69_white {fuel : Fuel} {line white : CStr} (hw : ∀ c ∈ white, isSpace c = true) :
    Shell_ProcessInput z.memory z.atoms fuel n s (line ++ white) = Shell_ProcessInput z.memory z.atoms fuel n s line := by
  unfold Shell_ProcessInput
  rw [trimEnd_white hw]

/-- C69: `quit` ends the session: what comes after it has no effect. -/
theorem C69_quit {fuel : Fuel} {white : CStr} (hw : ∀ c ∈ white, isSpace c = true) (rest : List CStr) (lines : List CStr)
    (s0 : Sys) : Shell_Start z.memory z.atoms fuel (lines ++ ("quit".toList ++ white) :: rest) s0 =
      Shell_Start z.memory z.atoms fuel lines s0 := by
  have key : ∀ n s, shellLoop z.memory z.atoms fuel (lines ++ ("quit".toList ++ white) :: rest) n s =
      shellLoop z.memory z.atoms fuel lines n s := by
    induction lines with
    | nil =>
      intro n s
      rw [List.nil_append]
      unfold shellLoop
      rw [C69_white hw]
      have hp : parseLine (trimEnd "quit".toList) = .ok .exit := by
        rw [show trimEnd "quit".toList = "quit".toList by decide]
        unfold parseLine
        simp [afterPrefix]
      unfold Shell_ProcessInput
      rw [hp]
      rfl
    | cons line l ih =>
      intro n s
      rw [List.cons_append]
      unfold shellLoop
      cases e : Shell_ProcessInput z.memory z.atoms fuel n s line with
      | error er => rfl
      | ok v =>
        obtain ⟨b, n1, s1⟩ := v
        cases b with
        | true => exact ih n1 s1
        | false => rfl
  unfold Shell_Start
  cases e : Shell_NARInit_sizes z.memory z.atoms s0 with
  | error er => rfl
  | ok v => exact key v.1 v.2

theorem afterPrefix_head {pre : String} {c d : Char} {line : CStr} (hp : pre.toList.head? = some c) (h : d ≠ c) :
    afterPrefix pre (d :: line) = none := by
  unfold afterPrefix
  cases e : pre.toList with
  | nil => rw [e] at hp; cases hp
  | cons a l =>
    rw [e] at hp
    cases hp
    simp [Ne.symm h]

theorem trimEnd_cons {c : Char} {line : CStr} (hc : isSpace c = false) : ∃ l, trimEnd (c :: line) = c :: l := by
  unfold trimEnd
  rw [List.reverse_cons, List.dropWhile_append]
  split
  · exact ⟨[], by simp [hc]⟩
  · exact ⟨(List.dropWhile isSpace (List.reverse line)).reverse, by simp⟩

/-- C69: a comment has no effect. -/
theorem C69_comment {fuel : Fuel} (line : CStr) :
    Shell_ProcessInput z.memory z.atoms fuel n s ("//".toList ++ line) = .ok (true, n, s) := by
  have hp : parseLine (trimEnd ("//".toList ++ line)) = .ok .nothing := by
    have : ∃ l, trimEnd ("//".toList ++ line) = '/' :: '/' :: l := by
      unfold trimEnd
      rw [List.reverse_append, List.dropWhile_append]
      split
      · exact ⟨[], rfl⟩
      · exact ⟨(List.dropWhile isSpace (List.reverse line)).reverse, by simp⟩
    obtain ⟨l, e⟩ := this
    rw [e]
    unfold parseLine
    rw [if_neg (by simp), if_pos (by simp [afterPrefix])]
  unfold Shell_ProcessInput
  rw [hp]
  rfl

/-- What a line that is no comment, command or `quit` asks for. -/
theorem parse_plain {c : Char} {line : CStr} (h1 : c ≠ '*') (h2 : c ≠ '/') (h3 : c :: line ≠ "quit".toList) :
    parseLine (c :: line) = if (c :: line).all Char.isDigit then
      if natOfDigits (c :: line) < 2 ^ 31 then .ok (.cycles (natOfDigits (c :: line))) else .error (.ub "number of steps")
      else .ok (.narsese (c :: line)) := by
  have A : ∀ pre : String, pre.toList.head? = some '*' → afterPrefix pre (c :: line) = none :=
    fun _ hp => afterPrefix_head hp h1
  have B : ∀ w : CStr, w.head? = some '*' → c :: line ≠ w := by
    intro w hw e
    rw [← e] at hw
    exact h1 (Option.some.inj hw)
  unfold parseLine
  rw [if_neg (by simp), if_neg (by simp [afterPrefix_head (pre := "//") (c := '/') (by decide) h2]),
    if_neg (B "*reset".toList (by decide))]
  simp only [A "*restrictedconceptcreation=true" (by decide), A "*restrictedconceptcreation=false" (by decide),
    A "*volume=" (by decide), A "*anticipationconfidence=" (by decide), A "*decisionthreshold=" (by decide),
    A "*similaritydistance=" (by decide), A "*babblingops=" (by decide), A "*currenttime=" (by decide),
    A "*stampid=" (by decide), A "*stampimport=[" (by decide), A "*motorbabbling=" (by decide),
    A "*questionpriming=" (by decide), A "*setvalue " (by decide), A "*space " (by decide), A "*setopname " (by decide),
    A "*setoparg " (by decide), A "*query " (by decide), A "*setopstdin " (by decide), A "*concurrent" (by decide)]
  simp only [ne_eq, not_true_eq_false, if_false]
  rw [if_neg (B "*stats".toList (by decide)), if_neg (B "*inverted_atom_index".toList (by decide)),
    if_neg (B "*opconfig".toList (by decide)), if_neg (B "*concepts".toList (by decide)),
    if_neg (B "*cycling_belief_events".toList (by decide)), if_neg (B "*cycling_goal_events".toList (by decide)), if_neg h3,
    if_neg (B "*motorbabbling=false".toList (by decide)), if_neg (B "*motorbabbling=true".toList (by decide))]

/-- C69: a line of digits runs that many cycles. -/
theorem C69_number {fuel : Fuel} {line : CStr} (h1 : line ≠ []) (h2 : ∀ c ∈ line, c.isDigit = true)
    (h3 : natOfDigits line < 2 ^ 31) :
    Shell_ProcessInput z.memory z.atoms fuel n s line =
      (NAR_Cycles n fuel (natOfDigits line) s).map fun r => (true, n, r.2) := by
  have hd : ∀ {c : Char}, c.isDigit = true → isSpace c = false ∧ c ≠ '*' ∧ c ≠ '/' ∧ c ≠ 'q' := by
    intro c hc
    refine ⟨?_, ?_, ?_, ?_⟩
    · simp only [Char.isDigit, Bool.and_eq_true, decide_eq_true_eq, ge_iff_le] at hc
      simp only [isSpace, Bool.or_eq_false_iff, Bool.and_eq_false_iff, decide_eq_false_iff_not]
      refine ⟨?_, .inr fun h => ?_⟩
      · rintro rfl
        exact absurd hc.1 (by decide)
      · exact absurd (show (48 : UInt32) ≤ 13 from UInt32.le_trans hc.1 h) (by decide)
    all_goals rintro rfl; revert hc; decide
  have ht : trimEnd line = line := by
    unfold trimEnd
    rw [← List.reverse_reverse line]
    congr 1
    rw [List.reverse_reverse]
    cases e : line.reverse with
    | nil => rfl
    | cons c l =>
      rw [List.dropWhile_cons_of_neg]
      rw [(hd (h2 c (List.mem_reverse.1 (e ▸ List.mem_cons_self)))).1]
      simp
  unfold Shell_ProcessInput
  rw [ht]
  cases line with
  | nil => exact absurd rfl h1
  | cons c l =>
    obtain ⟨_, a, b, q⟩ := hd (h2 c List.mem_cons_self)
    rw [parse_plain a b (fun e => q (List.cons.inj e).1), if_pos (List.all_eq_true.2 h2), if_pos h3]
    rw [R.ok_bind]
    simp only [Command.run]
    cases NAR_Cycles n fuel (natOfDigits (c :: l)) s <;> rfl

/-- C69: the decimal number `k` runs `k` cycles. -/
theorem C69_decimal {fuel : Fuel} {k : Nat} (hk : k < 2 ^ 31) :
    Shell_ProcessInput z.memory z.atoms fuel n s (toString k).toList =
      (NAR_Cycles n fuel k s).map fun r => (true, n, r.2) := by
  have e : (toString k).toList = Nat.toDigits 10 k := Nat.toList_repr
  have v : natOfDigits (Nat.toDigits 10 k) = k := Nat.ofDigitChars_ten_toDigits
  rw [e, C69_number Nat.toDigits_ne_nil (fun c => Nat.isDigit_of_mem_toDigits (by decide) (by decide)) (by rw [v]; exact hk), v]

/-- C69: a line of white space runs one cycle. -/
theorem C69_blank {fuel : Fuel} {line : CStr} (h : ∀ c ∈ line, isSpace c = true) :
    Shell_ProcessInput z.memory z.atoms fuel n s line = (NAR_Cycles n fuel 1 s).map fun r => (true, n, r.2) := by
  have e : trimEnd line = [] := trimEnd_white (line := []) h
  unfold Shell_ProcessInput
  rw [e]
  unfold parseLine
  rw [if_pos rfl, R.ok_bind]
  simp only [Command.run]
  cases NAR_Cycles n fuel 1 s <;> rfl

/-- C69: a line which begins with a visible character other than `*` and `/`, is not a number and is not `quit`, is given to the
Narsese parser without the white space at its end. -/
theorem C69_narsese {fuel : Fuel} {c : Char} {line : CStr} (h0 : isSpace c = false) (h1 : c ≠ '*') (h2 : c ≠ '/')
    (h3 : trimEnd (c :: line) ≠ "quit".toList) (h4 : ∃ d ∈ trimEnd (c :: line), d.isDigit = false) :
    Shell_ProcessInput z.memory z.atoms fuel n s (c :: line) =
      (NAR_AddInputNarsese2 n fuel (trimEnd (c :: line)) false 0 s).map fun r => (true, r.1, r.2) := by
  obtain ⟨l, e⟩ := trimEnd_cons (line := line) h0
  unfold Shell_ProcessInput
  rw [e] at h3 h4 ⊢
  rw [parse_plain h1 h2 h3, if_neg]
  · rw [R.ok_bind]
    simp only [Command.run, NAR_AddInputNarsese]
    cases NAR_AddInputNarsese2 n fuel (c :: l) false 0 s <;> rfl
  · obtain ⟨d, hd, hf⟩ := h4
    rw [List.all_eq_true]
    intro h
    rw [h d hd] at hf
    cases hf

end
end ONA

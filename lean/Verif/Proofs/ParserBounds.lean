import Verif.Proofs.ParserTerm
import Mathlib.Tactic.SplitIfs
/-
How far the parser writes: bounds for arbitrary texts.
-/
namespace ONA

/-- Characters that open a compound. -/
def isOpener (c : Char) : Bool := c = '(' || c = '[' || c = '{' || c = '<'

/-- Number of opening characters of a text. -/
def openers (s : CStr) : Nat := s.countP isOpener

theorem replaceStep_bounds (c : Char) (rest : CStr) :
    ((replaceStep c rest).1.countP (· ≠ ' ')) + 2 * (replaceStep c rest).2.length ≤ 2 * (rest.length + 1) ∧
    ((replaceStep c rest).1.countP (· = '(')) + openers (replaceStep c rest).2 ≤ openers (c :: rest) := by
  unfold replaceStep openers
  split_ifs with h1 h2 h3 h4 h5
  · subst h1; simp [List.countP_cons]
  · subst h2; simp [isOpener]; omega
  · subst h3; simp [isOpener]; omega
  · simp only
    constructor
    · simp; omega
    · simp [List.countP_cons]
  · obtain ⟨rfl, _, _⟩ := h5
    simp [isOpener]
    omega
  · split <;> simp [List.countP_cons, isOpener] <;> (try omega)
    constructor
    · split <;> omega
    · by_cases e : c = '('
      · subst e; simp; omega
      · rw [if_neg e]; omega

theorem replaceLoop_bounds (fuel : Nat) : ∀ s : CStr, (replaceLoop fuel s).countP (· ≠ ' ') ≤ 2 * s.length ∧
    (replaceLoop fuel s).countP (· = '(') ≤ openers s := by
  induction fuel with
  | zero => intro s; simp [replaceLoop]
  | succ fuel ih =>
    intro s
    cases s with
    | nil => simp [replaceLoop]
    | cons c rest =>
      rw [replaceLoop, List.countP_append, List.countP_append]
      obtain ⟨a1, a2⟩ := replaceStep_bounds c rest
      obtain ⟨b1, b2⟩ := ih (replaceStep c rest).2
      constructor
      · rw [List.length_cons]; omega
      · omega

theorem expand_bounds (s : CStr) : (Narsese_Expand s).countP (· ≠ ' ') ≤ 2 * s.length ∧
    (Narsese_Expand s).countP (· = '(') ≤ openers s := by
  obtain ⟨a1, a2⟩ := replaceLoop_bounds s.length s
  have key : ∀ r : CStr, (r.flatMap fun c => if c = '(' ∨ c = ')' then [' ', c, ' '] else [c]).countP (· ≠ ' ') = r.countP (· ≠ ' ') ∧
      (r.flatMap fun c => if c = '(' ∨ c = ')' then [' ', c, ' '] else [c]).countP (· = '(') = r.countP (· = '(') := by
    intro r
    induction r with
    | nil => simp
    | cons c r ih =>
      rw [List.flatMap_cons, List.countP_append, List.countP_append, ih.1, ih.2, List.countP_cons, List.countP_cons]
      by_cases h : c = '(' ∨ c = ')'
      · rw [if_pos h]
        rcases h with rfl | rfl <;> simp <;> omega
      · rw [if_neg h]
        simp [List.countP_cons]; omega
  obtain ⟨k1, k2⟩ := key (replaceCopulas s)
  unfold Narsese_Expand
  rw [k1, k2]
  exact ⟨a1, a2⟩

theorem strtokLoop_flatten (s : CStr) : ∀ cur : CStr, (∀ c ∈ cur, c ≠ ' ') →
    (strtokLoop cur s).flatten = cur ++ s.filter (· ≠ ' ') ∧ ∀ t ∈ strtokLoop cur s, t ≠ [] := by
  induction s with
  | nil =>
    intro cur _
    rw [strtokLoop]
    split_ifs with h
    · subst h; simp
    · simp [h]
  | cons c s ih =>
    intro cur hc
    rw [strtokLoop]
    split_ifs with h1 h2
    · subst h1; subst h2
      simpa using ih [] (by simp)
    · subst h1
      obtain ⟨a, b⟩ := ih [] (by simp)
      constructor
      · rw [List.flatten_cons, a]; simp
      · intro t ht
        rw [List.mem_cons] at ht
        rcases ht with rfl | ht
        · exact h2
        · exact b t ht
    · obtain ⟨a, b⟩ := ih (cur ++ [c]) (by
        intro x hx
        rw [List.mem_append, List.mem_singleton] at hx
        rcases hx with hx | rfl
        · exact hc x hx
        · exact h1)
      refine ⟨?_, b⟩
      rw [a, List.filter_cons_of_pos (by simpa using h1)]
      simp

/-- Tokens starting with an opening bracket. -/
def opensToken (t : CStr) : Bool := t.head? = some '('

theorem count_tokens (ts : List CStr) (h : ∀ t ∈ ts, t ≠ []) : ts.length ≤ ts.flatten.length ∧
    ts.countP opensToken ≤ ts.flatten.countP (· = '(') := by
  induction ts with
  | nil => simp
  | cons t ts ih =>
    obtain ⟨a, b⟩ := ih fun x hx => h x (List.mem_cons_of_mem _ hx)
    have ht := h t List.mem_cons_self
    cases t with
    | nil => exact absurd rfl ht
    | cons c t =>
      rw [List.flatten_cons, List.length_append, List.countP_append, List.countP_cons, List.countP_cons]
      have : opensToken (c :: t) = decide (c = '(') := by simp [opensToken]
      rw [this]
      simp only [List.length_cons]
      constructor
      · omega
      · omega

theorem strtok_bounds (s : CStr) : (strtok s).length ≤ s.countP (· ≠ ' ') ∧ (strtok s).countP opensToken ≤ s.countP (· = '(') := by
  obtain ⟨a, b⟩ := strtokLoop_flatten s [] (by simp)
  obtain ⟨c, d⟩ := count_tokens _ b
  unfold strtok
  rw [a] at c d
  refine ⟨by simpa [List.countP_eq_length_filter] using c, d.trans ?_⟩
  rw [List.nil_append, List.countP_filter]
  apply List.countP_mono_left
  intro x _ hx
  simp at hx ⊢
  exact hx.1

theorem skipCompound_suffix (ts : List CStr) : ∀ cnt, skipCompound cnt ts <:+ ts := by
  induction ts with
  | nil => intro cnt; simp [skipCompound]
  | cons t ts ih =>
    intro cnt
    have h : ∀ k, (if k = 0 then ts else skipCompound k ts) <:+ t :: ts := by
      intro k
      split
      · exact List.suffix_cons _ _
      · exact (ih k).trans (List.suffix_cons _ _)
    exact h _

theorem opens_take (t : CStr) : opensToken (t.take 1) = opensToken t := by cases t <;> simp [opensToken]

theorem prefixLoop_count (fuel : Nat) : ∀ ts : List CStr, (prefixLoop fuel ts).countP opensToken = ts.countP opensToken := by
  induction fuel with
  | zero => intro ts; simp [prefixLoop]
  | succ fuel ih =>
    intro ts
    cases ts with
    | nil => simp [prefixLoop]
    | cons t rest =>
      rw [prefixLoop]
      split_ifs with h1 h2
      · rfl
      · split
        · rw [List.countP_cons, List.countP_cons, ih]
        · rename_i copula after he
          rw [List.countP_cons, List.countP_cons, ih, List.countP_cons, opens_take, List.countP_append]
          obtain ⟨front, hf⟩ := skipCompound_suffix rest 0
          rw [he] at hf
          have hlen : rest.length - (after.length + 1) = front.length := by rw [← hf]; simp
          rw [hlen, ← hf, List.take_left, List.countP_append, List.countP_cons]
          omega
      · rw [List.countP_cons, List.countP_cons, ih]

/-- Errors of the parser that are writes outside of an array. -/
def outOfBounds : Err → Bool
  | .ub s => s = "buildBinaryTree: atoms" || s = "Narsese_PrefixTransform: tokens"
  | .fuel => true
  | _ => false

/-- An attempt that returns a term or stops with an error that is no write outside of an array. -/
def Safe (r : R (Term × Narsese)) : Prop :=
  (∃ t n h, r = .ok (t, n) ∧ Narsese.Session h n) ∨ ∃ e, r = .error e ∧ outOfBounds e = false

theorem index_safe {h : List (CStr × Nat)} {n : Narsese} (hs : Narsese.Session h n) (s : CStr) :
    (∃ i n', Narsese_AtomicTermIndex n s = .ok (i, n') ∧ Narsese.Session ((s, i) :: h) n') ∨
      ∃ m, Narsese_AtomicTermIndex n s = .error (.assertFail m) := by
  obtain ⟨ns, r, c, _, _⟩ := session_spec hs
  by_cases hm : truncName s ∈ allInitialNames ++ ns
  · have e := r.index_known hm
    exact Or.inl ⟨_, _, e, .call hs e⟩
  · by_cases hf : (allInitialNames ++ ns).length < n.capacity
    · obtain ⟨n', e, _⟩ := r.index_new hm hf
      exact Or.inl ⟨_, _, e, .call hs e⟩
    · exact Or.inr ⟨_, r.index_full hm (by omega)⟩

theorem safe_bind {x : R (Term × Narsese)} {f : Term × Narsese → R (Term × Narsese)} (hx : Safe x)
    (hf : ∀ t n h, Narsese.Session h n → Safe (f (t, n))) : Safe (x >>= f) := by
  rcases hx with ⟨t, n, h, rfl, hs⟩ | ⟨e, rfl, he⟩
  · exact hf t n h hs
  · exact Or.inr ⟨e, rfl, he⟩

/-- Compounds nested at most 6 deep stay inside. -/
theorem build_bounds (fuel : Nat) : ∀ (h : List (CStr × Nat)) (n : Narsese) (t : Term) (ts : List CStr) (i : Nat),
    Narsese.Session h n →
    ts.countP opensToken ≤ 6 → i < 2 ^ (7 - ts.countP opensToken) → ts.countP opensToken + 2 ≤ fuel →
    Safe (buildBinaryTree fuel n t ts i) := by
  induction fuel with
  | zero => intro h n t ts i _ _ _ h; omega
  | succ fuel ih =>
    intro h n t ts i hs h6 hi hf
    cases ts with
    | nil => rw [buildBinaryTree]; exact Or.inr ⟨_, rfl, by decide⟩
    | cons tok rest =>
      unfold buildBinaryTree
      by_cases ht : tok = ['(']
      · rw [if_pos ht]
        subst ht
        cases rest with
        | nil => exact Or.inr ⟨_, rfl, by decide⟩
        | cons copula args =>
          have e1 : opensToken ['('] = true := by decide
          have hc : (['('] :: copula :: args).countP opensToken = (copula :: args).countP opensToken + 1 := by
            rw [List.countP_cons_of_pos e1]
          have hc2 : args.countP opensToken ≤ (copula :: args).countP opensToken := by rw [List.countP_cons]; omega
          have hc3 : (skipCompound 0 args).countP opensToken ≤ args.countP opensToken :=
            (skipCompound_suffix args 0).sublist.countP_le
          rw [hc] at h6 hi hf
          have pw : ∀ m, m ≤ (copula :: args).countP opensToken → i * 2 + 1 < 2 ^ (7 - m) := by
            intro m hm
            have : 2 ^ (7 - ((copula :: args).countP opensToken + 1) + 1) ≤ 2 ^ (7 - m) :=
              Nat.pow_le_pow_right (by omega) (by omega)
            rw [Nat.pow_succ] at this
            omega
          have hb : i - 1 < COMPOUND_TERM_SIZE_MAX := by
            have : 2 ^ (7 - ((copula :: args).countP opensToken + 1)) ≤ 2 ^ 6 := Nat.pow_le_pow_right (by omega) (by omega)
            simp only [COMPOUND_TERM_SIZE_MAX]
            omega
          have hp := pw (args.countP opensToken) hc2
          simp only
          rcases index_safe hs copula with ⟨a, n1, ha, hs1⟩ | ⟨m, ha⟩
          · rw [ha]
            simp only [R.ok_bind, Term.setNode]
            rw [if_pos hb]
            simp only [R.ok_bind]
            have second : ∀ t2 n2 h2, Narsese.Session h2 n2 → Safe (if skipCompound 0 args = [] then .ok (t2, n2) else
                buildBinaryTree fuel n2 t2 (skipCompound 0 args) (i * 2 + 1)) := by
              intro t2 n2 h2 hs2
              split_ifs
              · exact Or.inl ⟨_, _, _, rfl, hs2⟩
              · exact ih h2 n2 t2 _ _ hs2 (by omega) (pw _ (by omega)) (by omega)
            by_cases h3 : args = []
            · rw [if_pos h3]; exact second _ _ _ hs1
            · rw [if_neg h3]; exact safe_bind (ih _ n1 _ args _ hs1 (by omega) (by omega) (by omega)) second
          · rw [ha]; exact Or.inr ⟨_, rfl, rfl⟩
      · rw [if_neg ht]
        by_cases hb : i - 1 < COMPOUND_TERM_SIZE_MAX
        · rw [cassert_true (by simpa using hb)]
          simp only [R.ok_bind, Term.setNode, if_pos hb]
          have one : ∀ s, Safe (do
              let (atom, n) ← Narsese_AtomicTermIndex n s
              Except.ok (t.put (i - 1) (toAtom atom), n)) := by
            intro s
            rcases index_safe hs s with ⟨a, n1, ha, hs1⟩ | ⟨m, ha⟩
            · rw [ha]; exact Or.inl ⟨_, _, _, rfl, hs1⟩
            · rw [ha]; exact Or.inr ⟨_, rfl, rfl⟩
          by_cases h4 : tok ≠ [')']
          · rw [if_pos h4]; exact one tok
          · rw [if_neg h4]; exact one [SET_TERMINATOR]
        · unfold cassert
          rw [decide_eq_false hb]
          exact Or.inr ⟨_, rfl, rfl⟩

theorem normalize_safe (n : Narsese) (t : Term) :
    (∃ r, Variable_Normalize n t = .ok r) ∨ ∃ m, Variable_Normalize n t = .error (.assertFail m) := by
  unfold Variable_Normalize
  suffices ∀ k s, (∃ r, normalizeLoop n k s = .ok r) ∨ ∃ m, normalizeLoop n k s = .error (.assertFail m) from this _ _
  intro k
  induction k with
  | zero => intro s; exact Or.inl ⟨_, rfl⟩
  | succ k ih =>
    intro s
    rw [normalizeLoop]
    simp only
    split_ifs
    · unfold cassert
      split_ifs
      · exact ih _
      · exact Or.inr ⟨_, rfl⟩
    · exact ih _

theorem term_safe {h : List (CStr × Nat)} {n : Narsese} (hs : Narsese.Session h n) (s : CStr) (hl : s.length ≤ 1074)
    (ho : openers s ≤ 6) : Safe (Narsese_Term n s) := by
  obtain ⟨a1, a2⟩ := expand_bounds s
  obtain ⟨b1, b2⟩ := strtok_bounds (Narsese_Expand s)
  unfold Narsese_Term
  rw [cassert_true (by simp [NARSESE_LEN_MAX]; omega)]
  have hp : Narsese_PrefixTransform (Narsese_Expand s) =
      .ok (prefixLoop (strtok (Narsese_Expand s)).length (strtok (Narsese_Expand s))) := by
    unfold Narsese_PrefixTransform
    simp only
    rw [if_neg (by simp only [NARSESE_LEN_MAX]; omega)]
  rw [hp]
  simp only [R.ok_bind]
  have hc := prefixLoop_count (strtok (Narsese_Expand s)).length (strtok (Narsese_Expand s))
  have hpow : 2 ^ 1 ≤ 2 ^ (7 - (strtok (Narsese_Expand s)).countP opensToken) := Nat.pow_le_pow_right (by omega) (by omega)
  refine safe_bind (build_bounds 8 h n Term.zero _ 1 hs (by omega) (by rw [hc]; omega) (by omega)) ?_
  intro t n' h' hs'
  simp only
  rcases normalize_safe n' t with ⟨r, e⟩ | ⟨m, e⟩
  · rw [e]; exact Or.inl ⟨_, _, _, rfl, hs'⟩
  · rw [e]; exact Or.inr ⟨_, rfl, rfl⟩

end ONA

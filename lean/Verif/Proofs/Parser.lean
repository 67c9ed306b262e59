import Verif.Spec.Parser
import Verif.Props.Narsese
import Verif.Proofs.Tree
import Mathlib.Tactic.Set
/-
The parser on texts of well formed expressions.
-/
namespace ONA

/-! ### Copula replacement -/

theorem replaceStep_length (c : Char) (rest : CStr) : (replaceStep c rest).2.length ≤ rest.length := by
  unfold replaceStep
  repeat' split
  all_goals simp
  all_goals omega

theorem replaceLoop_fuel : ∀ (k j : Nat) (s : CStr), s.length ≤ k → s.length ≤ j → replaceLoop k s = replaceLoop j s := by
  intro k
  induction k with
  | zero =>
    intro j s hk _
    have : s = [] := List.length_eq_zero_iff.1 (by omega)
    subst this
    cases j <;> rfl
  | succ k ih =>
    intro j s hk hj
    cases s with
    | nil => cases j <;> rfl
    | cons c rest =>
      cases j with
      | zero => simp at hj
      | succ j =>
        have := replaceStep_length c rest
        simp only [List.length_cons] at hk hj
        unfold replaceLoop
        rw [ih j _ (by omega) (by omega)]

@[simp] theorem replaceCopulas_nil : replaceCopulas [] = [] := rfl

theorem replaceCopulas_cons (c : Char) (rest : CStr) :
    replaceCopulas (c :: rest) = (replaceStep c rest).1 ++ replaceCopulas (replaceStep c rest).2 := by
  have := replaceStep_length c rest
  unfold replaceCopulas
  rw [List.length_cons]
  show (replaceStep c rest).1 ++ replaceLoop rest.length (replaceStep c rest).2 = _
  rw [replaceLoop_fuel rest.length _ _ this (Nat.le_refl _)]

theorem plainChar_ne {c d : Char} (h : plainChar c = true)
    (hd : d ∈ [' ', ',', '[', ']', '{', '}', '<', '>', '(', ')', '&', '|', '/', '\\', '-', '=']) : c ≠ d := by
  intro e
  subst e
  unfold plainChar at h
  simp only [Bool.not_eq_true', List.contains_eq_mem, decide_eq_false_iff_not] at h
  exact h hd

theorem replaceStep_default {c : Char} (h : c ∉ [',', '[', ']', '{', '}', '<', '>', '&', '|', '/', '\\', '-', '=']) (rest : CStr) :
    replaceStep c rest = ([c], rest) := by
  simp only [List.mem_cons, List.not_mem_nil, or_false, not_or] at h
  obtain ⟨h1, h2, h3, h4, h5, h6, h7, h8, h9, h10, h11, h12, h13⟩ := h
  unfold replaceStep
  rw [if_neg h1, if_neg h2, if_neg h4, if_neg (by rintro (e | e | e) <;> contradiction), if_neg (fun e => h6 e.1)]
  split <;> first | contradiction | rfl

theorem replace_default {c : Char} (h : c ∉ [',', '[', ']', '{', '}', '<', '>', '&', '|', '/', '\\', '-', '=']) (rest : CStr) :
    replaceCopulas (c :: rest) = c :: replaceCopulas rest := by
  rw [replaceCopulas_cons, replaceStep_default h]; rfl

theorem plain_default {c : Char} (h : plainChar c = true) :
    c ∉ [',', '[', ']', '{', '}', '<', '>', '&', '|', '/', '\\', '-', '='] := by
  intro hm
  refine plainChar_ne h ?_ rfl
  simp only [List.mem_cons, List.not_mem_nil, or_false] at hm ⊢
  tauto

theorem replace_name {s : CStr} (h : s.all plainChar = true) (rest : CStr) :
    replaceCopulas (s ++ rest) = s ++ replaceCopulas rest := by
  induction s with
  | nil => rfl
  | cons c s ih =>
    simp only [List.all_cons, Bool.and_eq_true] at h
    rw [List.cons_append, replace_default (plain_default h.1), ih h.2]; rfl

theorem replace_space (rest : CStr) : replaceCopulas (' ' :: rest) = ' ' :: replaceCopulas rest :=
  replace_default (by decide) rest

theorem replace_copula {c : CStr × Char} (h : c ∈ copulaSpelling) (rest : CStr) :
    replaceCopulas (c.1 ++ ' ' :: rest) = c.2 :: ' ' :: replaceCopulas rest := by
  simp only [copulaSpelling, List.mem_cons, List.not_mem_nil, or_false] at h
  rcases h with rfl | rfl | rfl | rfl | rfl | rfl | rfl | rfl | rfl | rfl | rfl | rfl | rfl | rfl | rfl | rfl | rfl | rfl |
      rfl | rfl | rfl | rfl | rfl <;>
    simp [replaceCopulas_cons, replaceStep]

/-- The text of an expression does not start like the rest of a copula. -/
theorem text_head {e : Expr} (h : e.WellFormed) (rest : CStr) :
    (e.text ++ rest).head? ≠ some '-' ∧ (e.text ++ rest).head? ≠ some '=' := by
  cases e with
  | atom s =>
    unfold Expr.WellFormed plainName at h
    simp only [Bool.and_eq_true] at h
    cases s with
    | nil => simp at h
    | cons c s =>
      have hc : plainChar c = true := by
        have := h.1.1
        simp only [List.all_cons, Bool.and_eq_true] at this
        exact this.1
      constructor
      · intro e; exact plainChar_ne hc (d := '-') (by decide) (by simpa [Expr.text] using e)
      · intro e; exact plainChar_ne hc (d := '=') (by decide) (by simpa [Expr.text] using e)
  | infx a l c r => cases a <;> simp [Expr.text]
  | pre c l r => simp [Expr.text]
  | pre1 c l => simp [Expr.text]
  | set1 a l => cases a <;> simp [Expr.text]
  | set2 a l r => cases a <;> simp [Expr.text]

/-- The text after copula replacement. -/
def Expr.canon : Expr → CStr
  | .atom s => s
  | .infx _ l c r => '(' :: (l.canon ++ ' ' :: c.2 :: ' ' :: (r.canon ++ [')']))
  | .pre c l r => '(' :: c.2 :: ' ' :: (l.canon ++ ' ' :: (r.canon ++ [')']))
  | .pre1 c l => '(' :: c.2 :: ' ' :: (l.canon ++ [')'])
  | .set1 ext l => '(' :: (if ext then '"' else '\'') :: ' ' :: (l.canon ++ [')'])
  | .set2 ext l r => '(' :: (if ext then '"' else '\'') :: ' ' :: (l.canon ++ ' ' :: (r.canon ++ [')']))

theorem replace_closer {c : Char} (h : c = ')' ∨ c = '>' ∨ c = '}' ∨ c = ']') (rest : CStr) :
    replaceCopulas (c :: rest) = ')' :: replaceCopulas rest := by
  rcases h with rfl | rfl | rfl | rfl <;> simp [replaceCopulas_cons, replaceStep]

theorem replace_text {e : Expr} (h : e.WellFormed) (rest : CStr) :
    replaceCopulas (e.text ++ rest) = e.canon ++ replaceCopulas rest := by
  induction e generalizing rest with
  | atom s =>
    unfold Expr.WellFormed plainName at h
    simp only [Bool.and_eq_true] at h
    exact replace_name h.1.1 rest
  | infx a l c r ihl ihr =>
    obtain ⟨hc, hl, hr⟩ := h
    have tail : replaceCopulas (l.text ++ ' ' :: (c.1 ++ ' ' :: (r.text ++ (if a then '>' else ')') :: rest))) =
        l.canon ++ ' ' :: c.2 :: ' ' :: (r.canon ++ ')' :: replaceCopulas rest) := by
      rw [ihl hl, replace_space, replace_copula hc, ihr hr, replace_closer (by cases a <;> simp)]
    have hd := text_head hl (' ' :: (c.1 ++ ' ' :: (r.text ++ (if a then '>' else ')') :: rest)))
    have e1 : (Expr.infx a l c r).text ++ rest = (if a then '<' else '(') ::
        (l.text ++ ' ' :: (c.1 ++ ' ' :: (r.text ++ (if a then '>' else ')') :: rest))) := by simp [Expr.text]
    have e2 : (Expr.infx a l c r).canon ++ replaceCopulas rest =
        '(' :: (l.canon ++ ' ' :: c.2 :: ' ' :: (r.canon ++ ')' :: replaceCopulas rest)) := by simp [Expr.canon]
    rw [e1, e2, ← tail, replaceCopulas_cons]
    cases a with
    | false => rw [replaceStep_default (by decide)]; rfl
    | true =>
      have : replaceStep '<' (l.text ++ ' ' :: (c.1 ++ ' ' :: (r.text ++ '>' :: rest))) =
          (['('], l.text ++ ' ' :: (c.1 ++ ' ' :: (r.text ++ '>' :: rest))) := by
        unfold replaceStep
        rw [if_neg (by decide), if_neg (by decide), if_neg (by decide), if_neg (by decide), if_pos ⟨rfl, hd⟩]
      simp only [if_true]
      rw [this]; rfl
  | pre c l r ihl ihr =>
    obtain ⟨hc, hl, hr⟩ := h
    have e1 : (Expr.pre c l r).text ++ rest = '(' :: (c.1 ++ ' ' :: (l.text ++ ' ' :: (r.text ++ ')' :: rest))) := by
      simp [Expr.text]
    rw [e1, replace_default (by decide), replace_copula hc, ihl hl, replace_space, ihr hr, replace_closer (by simp)]
    simp [Expr.canon]
  | pre1 c l ihl =>
    obtain ⟨hc, hl⟩ := h
    have e1 : (Expr.pre1 c l).text ++ rest = '(' :: (c.1 ++ ' ' :: (l.text ++ ')' :: rest)) := by simp [Expr.text]
    rw [e1, replace_default (by decide), replace_copula hc, ihl hl, replace_closer (by simp)]
    simp [Expr.canon]
  | set1 a l ihl =>
    have e1 : (Expr.set1 a l).text ++ rest = (if a then '{' else '[') :: (l.text ++ (if a then '}' else ']') :: rest) := by
      simp [Expr.text]
    rw [e1, replaceCopulas_cons]
    have : replaceStep (if a then '{' else '[') (l.text ++ (if a then '}' else ']') :: rest) =
        (['(', if a then '"' else '\'', ' '], l.text ++ (if a then '}' else ']') :: rest) := by
      cases a <;> simp [replaceStep]
    rw [this, ihl h, replace_closer (by cases a <;> simp)]
    simp [Expr.canon]
  | set2 a l r ihl ihr =>
    have e1 : (Expr.set2 a l r).text ++ rest = (if a then '{' else '[') ::
        (l.text ++ ' ' :: (r.text ++ (if a then '}' else ']') :: rest)) := by simp [Expr.text]
    rw [e1, replaceCopulas_cons]
    have : replaceStep (if a then '{' else '[') (l.text ++ ' ' :: (r.text ++ (if a then '}' else ']') :: rest)) =
        (['(', if a then '"' else '\'', ' '], l.text ++ ' ' :: (r.text ++ (if a then '}' else ']') :: rest)) := by
      cases a <;> simp [replaceStep]
    rw [this, ihl h.1, replace_space, ihr h.2, replace_closer (by cases a <;> simp)]
    simp [Expr.canon]

/-! ### Tokens -/

/-- The tokens of an expression as written. -/
def Expr.toks : Expr → List CStr
  | .atom s => [s]
  | .infx _ l c r => ['('] :: (l.toks ++ [c.2] :: (r.toks ++ [[')']]))
  | .pre c l r => ['('] :: [c.2] :: (l.toks ++ (r.toks ++ [[')']]))
  | .pre1 c l => ['('] :: [c.2] :: (l.toks ++ [[')']])
  | .set1 ext l => ['('] :: [if ext then '"' else '\''] :: (l.toks ++ [[')']])
  | .set2 ext l r => ['('] :: [if ext then '"' else '\''] :: (l.toks ++ (r.toks ++ [[')']]))

/-- What `Narsese_Expand` does to one character. -/
def expandChar (c : Char) : CStr := if c = '(' ∨ c = ')' then [' ', c, ' '] else [c]

theorem copula_char {c : CStr × Char} (h : c ∈ copulaSpelling) : c.2 ≠ '(' ∧ c.2 ≠ ')' ∧ c.2 ≠ ' ' ∧ c.2 ∈ Narsese_CanonicalCopulas := by
  revert h
  revert c
  decide

theorem strtok_space (s : CStr) : strtokLoop [] (' ' :: s) = strtokLoop [] s := by
  rw [strtokLoop]; simp

theorem strtok_word (w : CStr) (hw : ∀ c ∈ w, c ≠ ' ') : ∀ (cur s : CStr),
    strtokLoop cur (w ++ s) = strtokLoop (cur ++ w) s := by
  induction w with
  | nil => intro cur s; simp
  | cons c w ih =>
    intro cur s
    rw [List.cons_append, strtokLoop, if_neg (hw c (by simp)), ih (fun d hd => hw d (by simp [hd]))]
    simp

theorem strtok_word_end {w : CStr} (hw : ∀ c ∈ w, c ≠ ' ') (h0 : w ≠ []) {s : CStr} (hs : s = [] ∨ s.head? = some ' ') :
    strtokLoop [] (w ++ s) = w :: strtokLoop [] s := by
  rw [strtok_word w hw]
  cases s with
  | nil => simp [strtokLoop, h0]
  | cons c s =>
    have : c = ' ' := by simpa using hs
    subst this
    simp [strtokLoop, h0]

theorem expand_name {s : CStr} (h : s.all plainChar = true) : s.flatMap expandChar = s := by
  induction s with
  | nil => rfl
  | cons c s ih =>
    simp only [List.all_cons, Bool.and_eq_true] at h
    rw [List.flatMap_cons, ih h.2]
    have h1 := plainChar_ne h.1 (d := '(') (by decide)
    have h2 := plainChar_ne h.1 (d := ')') (by decide)
    simp [expandChar, h1, h2]

theorem strtok_open (s : CStr) : strtokLoop [] (expandChar '(' ++ s) = ['('] :: strtokLoop [] s := by
  simp [expandChar, strtokLoop]

theorem strtok_close (s : CStr) : strtokLoop [] (expandChar ')' ++ s) = [')'] :: strtokLoop [] s := by
  simp [expandChar, strtokLoop]

theorem strtok_char {c : Char} (h1 : c ≠ '(') (h2 : c ≠ ')') (h3 : c ≠ ' ') (s : CStr) :
    strtokLoop [] (expandChar c ++ (expandChar ' ' ++ s)) = [c] :: strtokLoop [] s := by
  simp [expandChar, strtokLoop, h1, h2, h3]

theorem expand_space (s : CStr) : strtokLoop [] (expandChar ' ' ++ s) = strtokLoop [] s := by
  simp [expandChar, strtokLoop]

theorem strtok_canon {e : Expr} (h : e.WellFormed) {s : CStr} (hs : s = [] ∨ s.head? = some ' ') :
    strtokLoop [] (e.canon.flatMap expandChar ++ s) = e.toks ++ strtokLoop [] s := by
  have hclose : ∀ s : CStr, (expandChar ')' ++ s = [] ∨ (expandChar ')' ++ s).head? = some ' ') := by
    intro s; right; simp [expandChar]
  have hspace : ∀ s : CStr, (expandChar ' ' ++ s = [] ∨ (expandChar ' ' ++ s).head? = some ' ') := by
    intro s; right; simp [expandChar]
  have hset : ∀ a : Bool, (if a then '"' else '\'') ≠ '(' ∧ (if a then '"' else '\'') ≠ ')' ∧ (if a then '"' else '\'') ≠ ' ' := by
    decide
  induction e generalizing s with
  | atom w =>
    unfold Expr.WellFormed plainName at h
    simp only [Bool.and_eq_true] at h
    rw [Expr.canon, expand_name h.1.1]
    refine strtok_word_end ?_ (by simpa using h.1.2) hs
    intro c hc
    exact plainChar_ne (List.all_eq_true.1 h.1.1 c hc) (by decide)
  | infx a l c r ihl ihr =>
    obtain ⟨hc, hl, hr⟩ := h
    obtain ⟨c1, c2, c3, _⟩ := copula_char hc
    have e1 : (Expr.infx a l c r).canon.flatMap expandChar ++ s = expandChar '(' ++ (l.canon.flatMap expandChar ++
        (expandChar ' ' ++ (expandChar c.2 ++ (expandChar ' ' ++ (r.canon.flatMap expandChar ++ (expandChar ')' ++ s)))))) := by
      simp [Expr.canon, List.flatMap_append, List.flatMap_cons]
    rw [e1, strtok_open, ihl hl (hspace _), expand_space, strtok_char c1 c2 c3, ihr hr (hclose _), strtok_close]
    simp [Expr.toks]
  | pre c l r ihl ihr =>
    obtain ⟨hc, hl, hr⟩ := h
    obtain ⟨c1, c2, c3, _⟩ := copula_char hc
    have e1 : (Expr.pre c l r).canon.flatMap expandChar ++ s = expandChar '(' ++ (expandChar c.2 ++ (expandChar ' ' ++
        (l.canon.flatMap expandChar ++ (expandChar ' ' ++ (r.canon.flatMap expandChar ++ (expandChar ')' ++ s)))))) := by
      simp [Expr.canon, List.flatMap_append, List.flatMap_cons]
    rw [e1, strtok_open, strtok_char c1 c2 c3, ihl hl (hspace _), expand_space, ihr hr (hclose _), strtok_close]
    simp [Expr.toks]
  | pre1 c l ihl =>
    obtain ⟨hc, hl⟩ := h
    obtain ⟨c1, c2, c3, _⟩ := copula_char hc
    have e1 : (Expr.pre1 c l).canon.flatMap expandChar ++ s = expandChar '(' ++ (expandChar c.2 ++ (expandChar ' ' ++
        (l.canon.flatMap expandChar ++ (expandChar ')' ++ s)))) := by
      simp [Expr.canon, List.flatMap_append, List.flatMap_cons]
    rw [e1, strtok_open, strtok_char c1 c2 c3, ihl hl (hclose _), strtok_close]
    simp [Expr.toks]
  | set1 a l ihl =>
    obtain ⟨c1, c2, c3⟩ := hset a
    have e1 : (Expr.set1 a l).canon.flatMap expandChar ++ s = expandChar '(' ++ (expandChar (if a then '"' else '\'') ++
        (expandChar ' ' ++ (l.canon.flatMap expandChar ++ (expandChar ')' ++ s)))) := by
      simp [Expr.canon, List.flatMap_append, List.flatMap_cons]
    rw [e1, strtok_open, strtok_char c1 c2 c3, ihl h (hclose _), strtok_close]
    simp [Expr.toks]
  | set2 a l r ihl ihr =>
    obtain ⟨c1, c2, c3⟩ := hset a
    have e1 : (Expr.set2 a l r).canon.flatMap expandChar ++ s = expandChar '(' ++ (expandChar (if a then '"' else '\'') ++
        (expandChar ' ' ++ (l.canon.flatMap expandChar ++ (expandChar ' ' ++ (r.canon.flatMap expandChar ++
          (expandChar ')' ++ s)))))) := by
      simp [Expr.canon, List.flatMap_append, List.flatMap_cons]
    rw [e1, strtok_open, strtok_char c1 c2 c3, ihl h.1 (hspace _), expand_space, ihr h.2 (hclose _), strtok_close]
    simp [Expr.toks]

theorem strtok_text {e : Expr} (h : e.WellFormed) : strtok (Narsese_Expand e.text) = e.toks := by
  have e1 := replace_text h []
  rw [List.append_nil, replaceCopulas_nil, List.append_nil] at e1
  unfold Narsese_Expand strtok
  rw [e1]
  have := strtok_canon h (s := []) (Or.inl rfl)
  simp only [strtokLoop, if_true, List.append_nil] at this
  exact this

/-! ### Prefix form -/

/-- The tokens of an expression in prefix form. -/
def Expr.ptoks : Expr → List CStr
  | .atom s => [s]
  | .infx _ l c r => ['('] :: [c.2] :: (l.ptoks ++ (r.ptoks ++ [[')']]))
  | .pre c l r => ['('] :: [c.2] :: (l.ptoks ++ (r.ptoks ++ [[')']]))
  | .pre1 c l => ['('] :: [c.2] :: (l.ptoks ++ [[')']])
  | .set1 ext l => ['('] :: [if ext then '"' else '\''] :: (l.ptoks ++ [[')']])
  | .set2 ext l r => ['('] :: [if ext then '"' else '\''] :: (l.ptoks ++ (r.ptoks ++ [[')']]))

theorem skip_open (cnt : Int) (s : List CStr) (h : 0 ≤ cnt) : skipCompound cnt (['('] :: s) = skipCompound (cnt + 1) s := by
  rw [skipCompound]
  simp only [if_true]
  rw [if_neg (by omega)]

theorem skip_close (cnt : Int) (s : List CStr) : skipCompound (cnt + 1) ([')'] :: s) = if cnt = 0 then s else skipCompound cnt s := by
  rw [skipCompound]
  simp

theorem skip_word {w : CStr} (h1 : w ≠ ['(']) (h2 : w ≠ [')']) (cnt : Int) (s : List CStr) :
    skipCompound cnt (w :: s) = if cnt = 0 then s else skipCompound cnt s := by
  rw [skipCompound]
  simp only [if_neg h1, if_neg h2]

theorem skip_char {c : Char} (h1 : c ≠ '(') (h2 : c ≠ ')') (cnt : Int) (hc : 0 ≤ cnt) (s : List CStr) :
    skipCompound (cnt + 1) ([c] :: s) = skipCompound (cnt + 1) s := by
  rw [skip_word (by simpa using h1) (by simpa using h2), if_neg (by omega)]

theorem name_word {s : CStr} (h : plainName s = true) : s ≠ ['('] ∧ s ≠ [')'] := by
  constructor <;> (rintro rfl; revert h; decide)

theorem skip_toks {e : Expr} (h : e.WellFormed) : ∀ (cnt : Int) (s : List CStr), 0 ≤ cnt →
    skipCompound cnt (e.toks ++ s) = (if cnt = 0 then s else skipCompound cnt s) ∧
    skipCompound cnt (e.ptoks ++ s) = (if cnt = 0 then s else skipCompound cnt s) := by
  have hset : ∀ a : Bool, (if a then '"' else '\'') ≠ '(' ∧ (if a then '"' else '\'') ≠ ')' := by decide
  induction e with
  | atom w =>
    intro cnt s hc
    obtain ⟨h1, h2⟩ := name_word h
    exact ⟨skip_word h1 h2 cnt s, skip_word h1 h2 cnt s⟩
  | infx a l c r ihl ihr =>
    intro cnt s hc
    obtain ⟨hcop, hl, hr⟩ := h
    obtain ⟨c1, c2, _, _⟩ := copula_char hcop
    have z : ¬ (cnt + 1 = 0) := by omega
    constructor
    · simp only [Expr.toks, List.cons_append, List.append_assoc, List.nil_append]
      rw [skip_open _ _ hc, (ihl hl _ _ (by omega)).1, if_neg z, skip_char c1 c2 _ hc, (ihr hr _ _ (by omega)).1, if_neg z,
        skip_close]
    · simp only [Expr.ptoks, List.cons_append, List.append_assoc, List.nil_append]
      rw [skip_open _ _ hc, skip_char c1 c2 _ hc, (ihl hl _ _ (by omega)).2, if_neg z, (ihr hr _ _ (by omega)).2, if_neg z,
        skip_close]
  | pre c l r ihl ihr =>
    intro cnt s hc
    obtain ⟨hcop, hl, hr⟩ := h
    obtain ⟨c1, c2, _, _⟩ := copula_char hcop
    have z : ¬ (cnt + 1 = 0) := by omega
    constructor
    · simp only [Expr.toks, List.cons_append, List.append_assoc, List.nil_append]
      rw [skip_open _ _ hc, skip_char c1 c2 _ hc, (ihl hl _ _ (by omega)).1, if_neg z, (ihr hr _ _ (by omega)).1, if_neg z,
        skip_close]
    · simp only [Expr.ptoks, List.cons_append, List.append_assoc, List.nil_append]
      rw [skip_open _ _ hc, skip_char c1 c2 _ hc, (ihl hl _ _ (by omega)).2, if_neg z, (ihr hr _ _ (by omega)).2, if_neg z,
        skip_close]
  | pre1 c l ihl =>
    intro cnt s hc
    obtain ⟨hcop, hl⟩ := h
    obtain ⟨c1, c2, _, _⟩ := copula_char hcop
    have z : ¬ (cnt + 1 = 0) := by omega
    constructor
    · simp only [Expr.toks, List.cons_append, List.append_assoc, List.nil_append]
      rw [skip_open _ _ hc, skip_char c1 c2 _ hc, (ihl hl _ _ (by omega)).1, if_neg z, skip_close]
    · simp only [Expr.ptoks, List.cons_append, List.append_assoc, List.nil_append]
      rw [skip_open _ _ hc, skip_char c1 c2 _ hc, (ihl hl _ _ (by omega)).2, if_neg z, skip_close]
  | set1 a l ihl =>
    intro cnt s hc
    obtain ⟨c1, c2⟩ := hset a
    have z : ¬ (cnt + 1 = 0) := by omega
    constructor
    · simp only [Expr.toks, List.cons_append, List.append_assoc, List.nil_append]
      rw [skip_open _ _ hc, skip_char c1 c2 _ hc, (ihl h _ _ (by omega)).1, if_neg z, skip_close]
    · simp only [Expr.ptoks, List.cons_append, List.append_assoc, List.nil_append]
      rw [skip_open _ _ hc, skip_char c1 c2 _ hc, (ihl h _ _ (by omega)).2, if_neg z, skip_close]
  | set2 a l r ihl ihr =>
    intro cnt s hc
    obtain ⟨c1, c2⟩ := hset a
    have z : ¬ (cnt + 1 = 0) := by omega
    constructor
    · simp only [Expr.toks, List.cons_append, List.append_assoc, List.nil_append]
      rw [skip_open _ _ hc, skip_char c1 c2 _ hc, (ihl h.1 _ _ (by omega)).1, if_neg z, (ihr h.2 _ _ (by omega)).1, if_neg z,
        skip_close]
    · simp only [Expr.ptoks, List.cons_append, List.append_assoc, List.nil_append]
      rw [skip_open _ _ hc, skip_char c1 c2 _ hc, (ihl h.1 _ _ (by omega)).2, if_neg z, (ihr h.2 _ _ (by omega)).2, if_neg z,
        skip_close]

theorem prefix_short : ∀ (k : Nat) (s : List CStr), s.length ≤ 2 → prefixLoop k s = s := by
  intro k s h
  cases k with
  | zero => cases s <;> rfl
  | succ k =>
    cases s with
    | nil => rfl
    | cons t rest =>
      simp only [List.length_cons] at h
      rw [prefixLoop, if_pos (by omega)]

theorem prefix_word {w : CStr} (h : w ≠ ['(']) (k : Nat) (s : List CStr) :
    prefixLoop (k + 1) (w :: s) = w :: prefixLoop k s := by
  rw [prefixLoop]
  split
  · rw [prefix_short k s (by omega)]
  · rw [if_neg (fun e => h e.1)]

theorem prefix_pre {c : CStr} (hc : isCopulaToken c = true) (k : Nat) (s : List CStr) (hs : s ≠ []) :
    prefixLoop (k + 1) (['('] :: c :: s) = ['('] :: prefixLoop k (c :: s) := by
  rw [prefixLoop]
  have : ¬ (c :: s).length < 2 := by
    cases s with
    | nil => contradiction
    | cons => simp
  rw [if_neg this, if_neg]
  simp [hc]

theorem copula_token {c : Char} (h : c ∈ Narsese_CanonicalCopulas) : isCopulaToken [c] = true := by
  unfold isCopulaToken
  rw [List.any_eq_true]
  exact ⟨c, h, by simp⟩

theorem toks_head {e : Expr} (h : e.WellFormed) (s : List CStr) : isCopulaToken ((e.toks ++ s).headD []) = false := by
  have hp : isCopulaToken ['('] = false := by decide
  cases e with
  | atom w =>
    unfold Expr.WellFormed plainName at h
    simp only [Bool.and_eq_true] at h
    simpa [Expr.toks] using h.2
  | infx => exact hp
  | pre => exact hp
  | pre1 => exact hp
  | set1 => exact hp
  | set2 => exact hp

theorem toks_pos (e : Expr) : 0 < e.toks.length := by cases e <;> simp [Expr.toks]
theorem ptoks_length (e : Expr) : e.ptoks.length = e.toks.length := by
  induction e with
  | atom => rfl
  | infx a l c r ihl ihr => simp only [Expr.toks, Expr.ptoks, List.length_cons, List.length_append, ihl, ihr, List.length_nil]; omega
  | pre c l r ihl ihr => simp only [Expr.toks, Expr.ptoks, List.length_cons, List.length_append, ihl, ihr, List.length_nil]
  | pre1 c l ihl => simp only [Expr.toks, Expr.ptoks, List.length_cons, List.length_append, ihl, List.length_nil]
  | set1 c l ihl => simp only [Expr.toks, Expr.ptoks, List.length_cons, List.length_append, ihl, List.length_nil]
  | set2 c l r ihl ihr => simp only [Expr.toks, Expr.ptoks, List.length_cons, List.length_append, ihl, ihr, List.length_nil]

theorem prefix_toks {e : Expr} (h : e.WellFormed) : ∀ (k : Nat) (s : List CStr),
    prefixLoop (k + e.toks.length) (e.toks ++ s) = e.ptoks ++ prefixLoop k s := by
  have hclose : ([')'] : CStr) ≠ ['('] := by decide
  have hset : ∀ a : Bool, (if a then '"' else '\'') ≠ '(' ∧ (if a then '"' else '\'') ∈ Narsese_CanonicalCopulas := by decide
  have two : ∀ (c : Char) (l r : Expr) (k : Nat) (s : List CStr),
      c ≠ '(' → c ∈ Narsese_CanonicalCopulas →
      (∀ (k : Nat) (s : List CStr), prefixLoop (k + l.toks.length) (l.toks ++ s) = l.ptoks ++ prefixLoop k s) →
      (∀ (k : Nat) (s : List CStr), prefixLoop (k + r.toks.length) (r.toks ++ s) = r.ptoks ++ prefixLoop k s) →
      prefixLoop (k + (l.toks.length + r.toks.length + 2)) ([c] :: (l.toks ++ (r.toks ++ ([[')']] ++ s)))) =
        [c] :: (l.ptoks ++ (r.ptoks ++ ([[')']] ++ prefixLoop k s))) := by
    intro c l r k s hc1 hc2 ihl ihr
    have e1 : k + (l.toks.length + r.toks.length + 2) = (k + 1 + r.toks.length + l.toks.length) + 1 := by omega
    rw [e1, prefix_word (by simpa using hc1), ihl, ihr]
    simp only [List.cons_append, List.nil_append]
    rw [prefix_word hclose]
  have one : ∀ (c : Char) (l : Expr) (k : Nat) (s : List CStr),
      c ≠ '(' → c ∈ Narsese_CanonicalCopulas →
      (∀ (k : Nat) (s : List CStr), prefixLoop (k + l.toks.length) (l.toks ++ s) = l.ptoks ++ prefixLoop k s) →
      prefixLoop (k + (l.toks.length + 2)) ([c] :: (l.toks ++ ([[')']] ++ s))) =
        [c] :: (l.ptoks ++ ([[')']] ++ prefixLoop k s)) := by
    intro c l k s hc1 hc2 ihl
    have e1 : k + (l.toks.length + 2) = (k + 1 + l.toks.length) + 1 := by omega
    rw [e1, prefix_word (by simpa using hc1), ihl]
    simp only [List.cons_append, List.nil_append]
    rw [prefix_word hclose]
  induction e with
  | atom w =>
    intro k s
    exact prefix_word (name_word h).1 k s
  | infx a l c r ihl ihr =>
    intro k s
    obtain ⟨hcop, hl, hr⟩ := h
    obtain ⟨c1, c2, _, c4⟩ := copula_char hcop
    have e1 : k + (Expr.infx a l c r).toks.length = (k + (l.toks.length + r.toks.length + 2)) + 1 := by
      simp only [Expr.toks, List.length_cons, List.length_append, List.length_nil]; omega
    have e2 : (Expr.infx a l c r).toks ++ s = ['('] :: (l.toks ++ ([c.2] :: (r.toks ++ ([[')']] ++ s)))) := by simp [Expr.toks]
    rw [e1, e2, prefixLoop]
    have hlp := toks_pos l
    rw [if_neg (by simp; omega), if_pos ⟨rfl, toks_head hl _⟩, (skip_toks hl 0 _ (Int.le_refl _)).1, if_pos rfl]
    dsimp only
    have e3 : (l.toks ++ [c.2] :: (r.toks ++ ([[')']] ++ s))).take
        ((l.toks ++ [c.2] :: (r.toks ++ ([[')']] ++ s))).length - ((r.toks ++ ([[')']] ++ s)).length + 1)) = l.toks := by
      have : (l.toks ++ [c.2] :: (r.toks ++ ([[')']] ++ s))).length - ((r.toks ++ ([[')']] ++ s)).length + 1) = l.toks.length := by
        simp only [List.length_append, List.length_cons]; omega
      rw [this, List.take_left']
      rfl
    rw [e3, List.take_of_length_le (by simp), two c.2 l r k s c1 c4 (ihl hl) (ihr hr)]
    simp [Expr.ptoks]
  | pre c l r ihl ihr =>
    intro k s
    obtain ⟨hcop, hl, hr⟩ := h
    obtain ⟨c1, c2, _, c4⟩ := copula_char hcop
    have e1 : k + (Expr.pre c l r).toks.length = (k + (l.toks.length + r.toks.length + 2)) + 1 := by
      simp only [Expr.toks, List.length_cons, List.length_append, List.length_nil]; omega
    have e2 : (Expr.pre c l r).toks ++ s = ['('] :: [c.2] :: (l.toks ++ (r.toks ++ ([[')']] ++ s))) := by simp [Expr.toks]
    rw [e1, e2, prefix_pre (copula_token c4) _ _ (by simp), two c.2 l r k s c1 c4 (ihl hl) (ihr hr)]
    simp [Expr.ptoks]
  | pre1 c l ihl =>
    intro k s
    obtain ⟨hcop, hl⟩ := h
    obtain ⟨c1, c2, _, c4⟩ := copula_char hcop
    have e1 : k + (Expr.pre1 c l).toks.length = (k + (l.toks.length + 2)) + 1 := by
      simp only [Expr.toks, List.length_cons, List.length_append, List.length_nil]; omega
    have e2 : (Expr.pre1 c l).toks ++ s = ['('] :: [c.2] :: (l.toks ++ ([[')']] ++ s)) := by simp [Expr.toks]
    rw [e1, e2, prefix_pre (copula_token c4) _ _ (by simp), one c.2 l k s c1 c4 (ihl hl)]
    simp [Expr.ptoks]
  | set1 a l ihl =>
    intro k s
    obtain ⟨c1, c4⟩ := hset a
    have e1 : k + (Expr.set1 a l).toks.length = (k + (l.toks.length + 2)) + 1 := by
      simp only [Expr.toks, List.length_cons, List.length_append, List.length_nil]; omega
    have e2 : (Expr.set1 a l).toks ++ s = ['('] :: [if a then '"' else '\''] :: (l.toks ++ ([[')']] ++ s)) := by simp [Expr.toks]
    rw [e1, e2, prefix_pre (copula_token c4) _ _ (by simp), one _ l k s c1 c4 (ihl h)]
    simp [Expr.ptoks]
  | set2 a l r ihl ihr =>
    intro k s
    obtain ⟨c1, c4⟩ := hset a
    have e1 : k + (Expr.set2 a l r).toks.length = (k + (l.toks.length + r.toks.length + 2)) + 1 := by
      simp only [Expr.toks, List.length_cons, List.length_append, List.length_nil]; omega
    have e2 : (Expr.set2 a l r).toks ++ s = ['('] :: [if a then '"' else '\''] :: (l.toks ++ (r.toks ++ ([[')']] ++ s))) := by
      simp [Expr.toks]
    rw [e1, e2, prefix_pre (copula_token c4) _ _ (by simp), two _ l r k s c1 c4 (ihl h.1) (ihr h.2)]
    simp [Expr.ptoks]

end ONA

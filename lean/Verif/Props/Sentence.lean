import Verif.Proofs.Sentence
import Verif.Props.Parser
/-
Properties of sentences (src/Narsese.c 376-448): C62.
-/
namespace ONA
section
variable [Arith]

theorem tense_text (s : CStr) (p : Char) (hp : p = '.' ∨ p = '!' ∨ p = '?') (t : Tense) :
    sentenceTense (s ++ p :: t.text) = t.number := by
  unfold sentenceTense
  cases t <;> simp only [Tense.text, List.reverse_append, List.reverse_cons, List.reverse_nil, List.nil_append, List.append_assoc,
    List.cons_append, Tense.number]
  rcases hp with rfl | rfl | rfl <;> simp

/-- **C62**. Every sentence `term punctuation tense truth`, with a well-formed term text, one of the marks `.`, `!` and
`?`, an optional tense and an optional truth value `{f c}` of decimal numbers, within the length limit, is read as what is
written: the term is what the term parser makes of the term text, and mark, tense and truth value are those written (or
eternal, and frequency 1 with confidence 0.9). -/
theorem C62_sentence (n : Narsese) (e : Expr) (he : e.WellFormed) (p : Char) (hp : p = '.' ∨ p = '!' ∨ p = '?') (tense : Tense)
    (truth : Option (Numeral × Numeral)) (hn : ∀ f c, truth = some (f, c) → f.WellFormed ∧ c.WellFormed)
    (hl : (sentenceText e p tense truth).length < NARSESE_LEN_MAX) :
    Narsese_Sentence n (sentenceText e p tense truth) =
      (Narsese_Term n e.text).map fun r => (⟨r.1, p, tense.number, truthValue truth, 0⟩, r.2) := by
  have htr : sentenceTruth (sentenceText e p tense truth) = .ok (truthValue truth, e.text ++ p :: tense.text) := by
    cases truth with
    | none =>
      have : sentenceText e p tense none = e.text ++ p :: tense.text := by simp [sentenceText, truthText]
      rw [this]
      exact truth_none e.text p hp tense
    | some fc =>
      obtain ⟨f, c⟩ := fc
      obtain ⟨hf, hc⟩ := hn f c rfl
      have : sentenceText e p tense (some (f, c)) = (e.text ++ p :: tense.text) ++ truthText (some (f, c)) := by
        simp [sentenceText]
      rw [this]
      exact truth_some _ f c hf hc
  have hpos : 0 < e.text.length := by
    cases e with
    | atom w =>
      have he : plainName w = true := he
      simp only [plainName, Bool.and_eq_true, bne_iff_ne, ne_eq] at he
      exact List.length_pos_iff.2 he.1.2
    | infx a l c r | pre c l r | pre1 c l | set1 a l | set2 a l r => simp [Expr.text]
  have hlen : 1 < (sentenceText e p tense truth).length := by
    unfold sentenceText
    rw [List.length_append, List.length_cons]
    omega
  have hoff : sentenceOffset (sentenceText e p tense truth) = .ok (0, sentenceText e p tense truth) :=
    offset_none e he p hp _
  unfold Narsese_Sentence
  rw [hoff]
  simp only [R.ok_bind]
  rw [cassert_true (by simpa using hlen), cassert_true (by simpa using hl)]
  simp only [R.ok_bind]
  rw [htr]
  simp only [R.ok_bind, tense_text e.text p hp tense]
  have hk : (if tense.number ≠ 0 then 5 else 1) = tense.text.length + 1 := by cases tense <;> rfl
  rw [hk]
  rw [if_neg (by rw [List.length_append, List.length_cons]; omega)]
  have hi : (e.text ++ p :: tense.text).length - (tense.text.length + 1) = e.text.length := by
    rw [List.length_append, List.length_cons]; omega
  have hget : (e.text ++ p :: tense.text).getD e.text.length '\x00' = p := by
    simp [List.getD]
  rw [hi, hget, List.take_left]
  have hpc : (decide (p = '!') || decide (p = '?') || decide (p = '.')) = true := by rcases hp with rfl | rfl | rfl <;> decide
  rw [cassert_true hpc]
  simp only [R.ok_bind]
  cases Narsese_Term n e.text <;> rfl

/-- A truth value that is not a number leaves frequency and confidence uninitialised: for every term
text, `term. {x}` reads an uninitialised variable. -/
theorem C62_bad_truth (n : Narsese) (e : Expr) (he : e.WellFormed) (hl : e.text.length ≤ 2000) :
    Narsese_Sentence n (e.text ++ ". {x}".toList) = .error (.ub "uninitialised truth value") := by
  have hoff := offset_none e he '.' (Or.inl rfl) " {x}".toList
  unfold Narsese_Sentence
  have hs : e.text ++ ". {x}".toList = e.text ++ '.' :: " {x}".toList := rfl
  rw [hs, hoff]
  simp only [R.ok_bind]
  have h4 : (" {x}".toList).length = 4 := rfl
  rw [cassert_true (by rw [List.length_append, List.length_cons, h4, decide_eq_true_iff]; omega),
    cassert_true (by rw [List.length_append, List.length_cons, h4, decide_eq_true_iff]; simp only [NARSESE_LEN_MAX]; omega)]
  simp only [R.ok_bind]
  have : sentenceTruth (e.text ++ '.' :: " {x}".toList) = .error (.ub "uninitialised truth value") := by
    have ht : e.text ++ '.' :: " {x}".toList = (e.text ++ ['.', ' ', '{', 'x']) ++ ['}'] := by simp
    unfold sentenceTruth
    simp only [ht, List.getLast?_concat, List.dropLast_concat]
    have hr : (e.text ++ ['.', ' ', '{', 'x']).reverse = 'x' :: '{' :: ' ' :: '.' :: e.text.reverse := by simp
    rw [hr]
    simp
    rfl
  rw [this]
  rfl

end

/-- `<(cat * {dog}) --> (! eats)>. :|: {0.75 0.5}` meets the hypotheses of `C62_sentence`. -/
example : sentenceText demoExpr '.' .present (some (⟨['0'], ['7', '5']⟩, ⟨['0'], ['5']⟩)) =
      "<(cat * {dog}) --> (! eats)>. :|: {0.75 0.5}".toList ∧
    (sentenceText demoExpr '.' .present (some (⟨['0'], ['7', '5']⟩, ⟨['0'], ['5']⟩))).length < NARSESE_LEN_MAX ∧
    demoExpr.WellFormed ∧ (Numeral.mk ['0'] ['7', '5']).WellFormed ∧ (Numeral.mk ['0'] ['5']).WellFormed ∧
    (Numeral.mk ['0'] ['7', '5']).value = 3 / 4 ∧ (Numeral.mk ['0'] ['5']).value = 1 / 2 := by
  refine ⟨by decide, by decide, ?_, ?_, ?_, ?_, ?_⟩
  · simp only [demoExpr, Expr.WellFormed]; decide
  · unfold Numeral.WellFormed; decide
  · unfold Numeral.WellFormed; decide
  · decide +kernel
  · decide +kernel

end ONA

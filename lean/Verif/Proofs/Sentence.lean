import Verif.Spec.Sentence
import Verif.Proofs.ParserTerm
/-
`Narsese_Sentence` on written sentences.
-/
namespace ONA

theorem digit_not {c : Char} (h : c.isDigit = true) : c ≠ '.' ∧ c ≠ '-' ∧ c ≠ '+' ∧ c ≠ '{' ∧ c ≠ '}' ∧ c ≠ '%' ∧ c ≠ ' ' ∧ c ≠ ';' ∧
    isSpace c = false := by
  have hb : isSpace c = false := by
    unfold isSpace
    simp only [Bool.or_eq_false_iff, decide_eq_false_iff_not, Bool.and_eq_false_iff]
    constructor
    · rintro rfl; revert h; decide
    · right
      intro hle
      have h1 : ('0' : Char) ≤ c := by
        simp only [Char.isDigit, Bool.and_eq_true, decide_eq_true_eq] at h
        exact h.1
      have : ('0' : Char) ≤ '\r' := Char.le_trans h1 hle
      revert this; decide
  refine ⟨?_, ?_, ?_, ?_, ?_, ?_, ?_, ?_, hb⟩ <;> (rintro rfl; revert h; decide)

theorem scanDigits_spec (s : CStr) (hs : s.all Char.isDigit = true) (r : CStr) (hr : ∀ c, r.head? = some c → c.isDigit = false) :
    ∀ v k, scanDigits v k (s ++ r) = (s.foldl (fun v c => 10 * v + ((c.toNat - '0'.toNat : ℕ) : ℚ)) v, k + s.length, r) := by
  induction s with
  | nil =>
    intro v k
    cases r with
    | nil => rfl
    | cons c r =>
      have := hr c rfl
      simp [scanDigits, this]
  | cons c s ih =>
    intro v k
    simp only [List.all_cons, Bool.and_eq_true] at hs
    rw [List.cons_append, scanDigits, if_pos hs.1, ih hs.2]
    simp only [List.foldl_cons, List.length_cons, digitValue, Prod.mk.injEq, and_true, true_and]
    omega

theorem scan_numeral (x : Numeral) (hx : x.WellFormed) (r : CStr) (hr : r.head? = none ∨ r.head? = some ' ') :
    scanDouble (x.text ++ r) = .num x.value r := by
  obtain ⟨h1, h2, h3, h4⟩ := hx
  cases hw : x.whole with
  | nil => exact absurd hw h1
  | cons c w =>
    rw [hw] at h3
    have hc : c.isDigit = true := by simp only [List.all_cons, Bool.and_eq_true] at h3; exact h3.1
    obtain ⟨d1, d2, d3, _, _, _, _, _, d9⟩ := digit_not hc
    have htext : x.text ++ r = c :: (w ++ '.' :: (x.part ++ r)) := by simp [Numeral.text, hw]
    have e0 : (x.text ++ r).dropWhile isSpace = x.text ++ r := by rw [htext, List.dropWhile_cons_of_neg (by simp [d9])]
    have eh : (x.text ++ r).head? = some c := by rw [htext]; rfl
    unfold scanDouble
    simp only [e0, eh]
    have n1 : ¬(some c = some '-' ∨ some c = some '+') := by simp [d2, d3]
    rw [if_neg n1]
    have s1 : scanDigits 0 0 (x.text ++ r) = (Numeral.digits x.whole, 0 + x.whole.length, '.' :: (x.part ++ r)) := by
      have := scanDigits_spec (c :: w) h3 ('.' :: (x.part ++ r)) (by intro c hc; cases hc; decide) 0 0
      rw [htext, ← List.cons_append, this, hw]
      rfl
    have s2 : scanDigits 0 0 (x.part ++ r) = (Numeral.digits x.part, 0 + x.part.length, r) := by
      apply scanDigits_spec _ h4
      intro c hc
      rcases hr with hr | hr
      · rw [hr] at hc; cases hc
      · rw [hr] at hc; cases hc; decide
    simp only [s1, List.head?_cons, if_true, List.tail_cons, s2]
    have hk : ¬ (0 + x.whole.length + (0 + x.part.length) = 0) := by rw [hw]; simp
    rw [if_neg hk]
    rw [if_neg (by rcases hr with hr | hr <;> rw [hr] <;> decide)]
    rw [if_neg (by simpa using d2)]
    simp [Numeral.value]

theorem numeral_chars (x : Numeral) (hx : x.WellFormed) : ∀ c ∈ x.text, c ≠ '{' ∧ c ≠ '}' ∧ c ≠ '%' ∧ c ≠ ';' := by
  obtain ⟨h1, h2, h3, h4⟩ := hx
  intro c hc
  simp only [Numeral.text, List.mem_append, List.mem_cons] at hc
  rw [List.all_eq_true] at h3 h4
  rcases hc with hc | rfl | hc
  · have := digit_not (h3 c hc); tauto
  · decide
  · have := digit_not (h4 c hc); tauto

section
variable [Arith]

/-- Texts of terms do not start like an occurrence time offset. -/
theorem offset_none (e : Expr) (he : e.WellFormed) (p : Char) (hp : p = '.' ∨ p = '!' ∨ p = '?') (r : CStr) :
    sentenceOffset (e.text ++ p :: r) = .ok (0, e.text ++ p :: r) := by
  have key : ∀ s : CStr, (∀ r, s ≠ 'd' :: 't' :: '=' :: r) → sentenceOffset s = .ok (0, s) := by
    intro s hs
    unfold sentenceOffset
    split
    · exact absurd rfl (hs _)
    · rfl
  apply key
  intro r' hh
  cases e with
  | atom w =>
    simp only [Expr.text] at hh
    have hpl : ∀ c ∈ w, c ≠ '=' := by
      intro c hc e
      have he : plainName w = true := he
      simp only [plainName, Bool.and_eq_true, List.all_eq_true] at he
      have := he.1.1 c hc
      rw [e] at this
      revert this; decide
    match w with
    | [] => cases hh; simp at hp
    | [a] => cases hh; simp at hp
    | [a, b] => cases hh; simp at hp
    | a :: b :: c :: w =>
      simp only [List.cons_append, List.cons.injEq] at hh
      exact hpl c (by simp) hh.2.2.1
  | infx a l c r => cases a <;> simp [Expr.text] at hh
  | pre c l r => simp [Expr.text] at hh
  | pre1 c l => simp [Expr.text] at hh
  | set1 a l => cases a <;> simp [Expr.text] at hh
  | set2 a l r => cases a <;> simp [Expr.text] at hh

omit [Arith] in
theorem getLast_text (s : CStr) (p : Char) (t : Tense) :
    (s ++ p :: t.text).getLast? = some p ∨ (s ++ p :: t.text).getLast? = some ':' := by
  cases t <;> simp [Tense.text, List.getLast?_append]

theorem truth_none (s : CStr) (p : Char) (hp : p = '.' ∨ p = '!' ∨ p = '?') (t : Tense) :
    sentenceTruth (s ++ p :: t.text) = .ok (truthValue none, s ++ p :: t.text) := by
  unfold sentenceTruth
  simp only
  rw [if_neg]
  · rfl
  · rcases getLast_text s p t with h | h <;> rw [h]
    · rcases hp with rfl | rfl | rfl <;> decide
    · decide

theorem truth_some (s : CStr) (f c : Numeral) (hf : f.WellFormed) (hc : c.WellFormed) :
    sentenceTruth (s ++ truthText (some (f, c))) = .ok (truthValue (some (f, c)), s) := by
  have ht : s ++ truthText (some (f, c)) = (s ++ ' ' :: '{' :: (f.text ++ ' ' :: c.text)) ++ ['}'] := by simp [truthText]
  have hin : ∀ x ∈ (f.text ++ ' ' :: c.text).reverse, decide (x ≠ '{' ∧ x ≠ '%') = true := by
    intro x hx
    rw [List.mem_reverse, List.mem_append, List.mem_cons] at hx
    rw [decide_eq_true_iff]
    rcases hx with hx | rfl | hx
    · have := numeral_chars f hf x hx; tauto
    · decide
    · have := numeral_chars c hc x hx; tauto
  have hr : (s ++ ' ' :: '{' :: (f.text ++ ' ' :: c.text)).reverse = (f.text ++ ' ' :: c.text).reverse ++ ('{' :: ' ' :: s.reverse) := by
    simp
  have hlast : (s ++ truthText (some (f, c))).getLast? = some '}' := by rw [ht, List.getLast?_concat]
  have hdrop : (s ++ truthText (some (f, c))).dropLast.reverse = (f.text ++ ' ' :: c.text).reverse ++ ('{' :: ' ' :: s.reverse) := by
    rw [ht, List.dropLast_concat, hr]
  unfold sentenceTruth
  simp only [hlast, hdrop]
  have n1 : (some '}' = some '%') = False := by simp
  rw [List.takeWhile_append_of_pos hin, List.dropWhile_append_of_pos hin]
  rw [List.takeWhile_cons_of_neg (by simp), List.dropWhile_cons_of_neg (by simp), List.append_nil, List.reverse_reverse]
  simp only [n1, true_or, false_and, if_true, if_false, ne_eq, not_true_eq_false]
  have s1 : scanDouble (f.text ++ ' ' :: c.text) = .num f.value (' ' :: c.text) := scan_numeral f hf _ (Or.inr rfl)
  have s2 : scanDouble (' ' :: c.text) = .num c.value [] := by
    have := scan_numeral c hc [] (Or.inl rfl)
    rw [List.append_nil] at this
    rw [← this]
    unfold scanDouble
    rw [List.dropWhile_cons_of_pos (by decide)]
  rw [s1]
  simp only [Scan.get, R.ok_bind, pure, Except.pure, bind, Except.bind, s2]
  unfold cassert
  simp [truthValue]

end
end ONA

import Verif.Spec.Parser
/-
The written form of sentences.
-/
namespace ONA

/-- A decimal number: digits, a point, digits. -/
structure Numeral where
  whole : CStr
  part : CStr

namespace Numeral

/-- Both parts are non-empty sequences of digits. -/
def WellFormed (x : Numeral) : Prop :=
  x.whole ≠ [] ∧ x.part ≠ [] ∧ x.whole.all Char.isDigit = true ∧ x.part.all Char.isDigit = true

/-- The text. -/
def text (x : Numeral) : CStr := x.whole ++ '.' :: x.part

/-- The number written with the given digits. -/
def digits (s : CStr) : ℚ := s.foldl (fun v c => 10 * v + ((c.toNat - '0'.toNat : ℕ) : ℚ)) 0

/-- The value. -/
def value (x : Numeral) : ℚ := digits x.whole + digits x.part / 10 ^ x.part.length

end Numeral

/-- Tenses: eternal, present, past, future. -/
inductive Tense where
  | eternal | present | past | future
deriving DecidableEq, Repr

namespace Tense

/-- Text after the punctuation mark. -/
def text : Tense → CStr
  | eternal => []
  | present => [' ', ':', '|', ':']
  | past => [' ', ':', '\\', ':']
  | future => [' ', ':', '/', ':']

/-- The number used for the tense. -/
def number : Tense → Nat
  | eternal => 0
  | present => 1
  | past => 2
  | future => 3

end Tense

/-- Text of an optional truth value. -/
def truthText : Option (Numeral × Numeral) → CStr
  | none => []
  | some (f, c) => ' ' :: '{' :: (f.text ++ ' ' :: (c.text ++ ['}']))

/-- Text of a sentence. -/
def sentenceText (e : Expr) (p : Char) (tense : Tense) (truth : Option (Numeral × Numeral)) : CStr :=
  e.text ++ p :: (tense.text ++ truthText truth)

/-- The truth value a sentence has: the given one, or frequency 1 and confidence 0.9. -/
def truthValue [Arith] : Option (Numeral × Numeral) → Truth
  | none => ⟨1, rnd (9 / 10)⟩
  | some (f, c) => ⟨rnd f.value, rnd c.value⟩

end ONA

import Verif.Date.ParseSpec

/-!
# Conversions without a meaning

Which formats end outside of a conversion, which conversions have no meaning, and what stands for given characters.
Nothing here refers to the code.
-/
namespace Gul14.Spec.DateParse.Plain
open Gul14.Spec.DateText Gul14.Spec.DateParse

/-- The letters with a meaning after `%`, `%E` and `%O`. -/
def meaning : Option Char → List Char
  | none => "aAbBcCdDeFgGhHIjmMnprRStTuUVwWxXyYzZ%".toList
  | some 'E' => "cCxXyYz".toList
  | some 'O' => "CdeHmMSuwyz".toList
  | _ => []

/-- A modifier, or none. -/
def Modifier (md : Option Char) : Prop := md = none ∨ md = some 'E' ∨ md = some 'O'

/-- The conversion has no meaning.  (A digit directly after `%` would be a width, `E` and `O` a modifier. White space is not considered.) -/
def Meaningless (md : Option Char) (c : Char) : Prop :=
  Modifier md ∧ c ∉ meaning md ∧ ¬ White c ∧ (md = none → isDigit c = false ∧ c ≠ 'E' ∧ c ≠ 'O')

/-- A format, or a part of one, that does not end within a conversion: single characters, and conversions with width and modifier. Not
`%n` and `%t`, which do not end if the input does. -/
inductive Whole : List Char → Prop
  | nil : Whole []
  | char {c : Char} {r : List Char} : c ≠ '%' → Whole r → Whole (c :: r)
  | conv {w : List Char} {md : Option Char} {c : Char} {r : List Char} : w.all isDigit = true → Modifier md →
      (md = none → isDigit c = false ∧ c ≠ 'E' ∧ c ≠ 'O' ∧ c ≠ 'n' ∧ c ≠ 't') → Whole r → Whole ('%' :: (w ++ (md.toList ++ c :: r)))

/-- The width of a conversion: none, or a number, without leading zeros and of not more than nine digits. -/
def Width (w : List Char) : Prop := w = [] ∨ ∃ k ≤ 999999999, Numeral k w

/-- The part of a format that stands for the characters `s`: percent signs are doubled. -/
def plainly (s : List Char) : List Char := s.flatMap fun c => if c = '%' then ['%', '%'] else [c]

end Gul14.Spec.DateParse.Plain

import Verif.Basic

namespace Gul14.Spec

/-- Value of a hexadecimal digit of either case. -/
def hexDigitVal (c : UInt8) : Option Nat :=
  let n := c.toNat
  if 48 ≤ n ∧ n ≤ 57 then some (n - 48)
  else if 97 ≤ n ∧ n ≤ 102 then some (n - 97 + 10)
  else if 65 ≤ n ∧ n ≤ 70 then some (n - 65 + 10)
  else none

/-- Lowercase hexadecimal digit. -/
def IsLowerHex (c : UInt8) : Prop :=
  (48 ≤ c.toNat ∧ c.toNat ≤ 57) ∨ (97 ≤ c.toNat ∧ c.toNat ≤ 102)

/-- `HexNumeral s n`: the string of hexadecimal digits `s` denotes `n`, most significant digit
first. -/
inductive HexNumeral : Str → Nat → Prop
  | nil : HexNumeral [] 0
  | snoc {s n c d} : HexNumeral s n → hexDigitVal c = some d → HexNumeral (s ++ [c]) (16 * n + d)

/-- `Escape c e`: the escape sequence `e` stands for the character `c`. -/
inductive EscapeSeq : Str → UInt8 → Prop
  | quote : EscapeSeq (bytes "\\\"") 34
  | backslash : EscapeSeq (bytes "\\\\") 92
  | newline : EscapeSeq (bytes "\\n") 10
  | ret : EscapeSeq (bytes "\\r") 13
  | tab : EscapeSeq (bytes "\\t") 9
  | hex {a b x y} : hexDigitVal a = some x → hexDigitVal b = some y →
      EscapeSeq (bytes "\\x" ++ [a, b]) (UInt8.ofNat (16 * x + y))

/-- `Unescaped s t`: reading `s` from left to right, every known escape sequence is replaced by
its character and every other character is kept. -/
inductive Unescaped : Str → Str → Prop
  | nil : Unescaped [] []
  | esc {e c s t} : EscapeSeq e c → Unescaped s t → Unescaped (e ++ s) (c :: t)
  | keep {c s t} : (∀ e d, EscapeSeq e d → ¬ e <+: c :: s) → Unescaped s t →
      Unescaped (c :: s) (c :: t)

/-- Printable ASCII: space to tilde. -/
def Printable (c : UInt8) : Prop := 32 ≤ c.toNat ∧ c.toNat ≤ 126

/-- A character that has to be escaped: the quote, the backslash and everything not printable. -/
def Special (c : UInt8) : Prop := c = 34 ∨ c = 92 ∨ ¬ Printable c

/-- Concatenation of `n` copies. -/
def copies (n : Nat) (s : Str) : Str := (List.replicate n s).flatten

end Gul14.Spec

namespace Gul14.Spec

/-- `DecNumeral s n`: the string of decimal digits `s` denotes `n`, most significant digit
first. -/
inductive DecNumeral : Str → Nat → Prop
  | nil : DecNumeral [] 0
  | snoc {s n c} : DecNumeral s n → 48 ≤ c.toNat → c.toNat ≤ 57 →
      DecNumeral (s ++ [c]) (10 * n + (c.toNat - 48))

/-- `CLiteral s`: `s` can stand between the quotes of a C string literal: a sequence of escape
sequences and of non-control ASCII characters other than the quote and the backslash. -/
inductive CLiteral : Str → Prop
  | nil : CLiteral []
  | plain {c s} : 32 ≤ c.toNat → c.toNat ≤ 127 → c ≠ 34 → c ≠ 92 → CLiteral s → CLiteral (c :: s)
  | esc {e c s} : EscapeSeq e c → CLiteral s → CLiteral (e ++ s)

end Gul14.Spec

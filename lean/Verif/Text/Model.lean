import Verif.Basic
import Verif.Ieee.Basic

/-! Model of hex_string, repeat, safe_string (string_util.h, string_util.cc), escape and
unescape (escape.cc) and cat (cat.h, cat.cc). -/

namespace Gul14.Text

/-! ### string_util -/

/-- hex_digits, string_util.cc:30-31, indexed by a nibble. -/
def hexDigits : Str := bytes "0123456789abcdef"

/-- `hex_digits[i]`; an index outside the array is undefined behaviour. The table hex_digits,
string_util.h:92. -/
def hexDigit (i : Nat) : Res UInt8 :=
  match hexDigits[i]? with
  | some c => .ok c
  | none => .ub

/-- Loop of hex_string(Integer), string_util.h:118-125, over the unsigned value `u`; the first
argument is `idx + 1`. -/
def hexLoop (u : Nat) : Nat → Str → Res Str
  | 0, result => .ok result
  | idx + 1, result =>
      let byte := u >>> (8 * idx)
      (hexDigit ((byte >>> 4) &&& 0xf)).bind fun hi =>
      (hexDigit (byte &&& 0xf)).bind fun lo =>
        hexLoop u idx (result ++ [hi] ++ [lo])

/-- hex_string(Integer v), string_util.h:111-128, for an integer type of `size` bytes; the cast
to the unsigned type reduces modulo 2^(8*size). -/
def hexString (size : Nat) (v : Int) : Res Str :=
  hexLoop (v % (2 : Int) ^ (8 * size)).toNat size []

/-- hex_string(begin, end, separator), string_util.h:150-172 (the array and container
overloads, 193-224, forward to it).  The reserve call is not modelled. -/
def hexRange (size : Nat) (vs : List Int) (sep : Str) : Res Str :=
  match vs with
  | [] => .ok []
  | v :: vs =>
      vs.foldl (fun result w => result.bind fun r => (hexString size w).bind fun h =>
        .ok (r ++ sep ++ h)) (hexString size v)

/-- repeat(str, n), string_util.cc:33-42. -/
def repeatStr (s : Str) : Nat → Str
  | 0 => []
  | n + 1 => repeatStr s n ++ s

/-- std::find(char_ptr, char_ptr + length, '\0') followed by the construction of the string from
the scanned bytes, string_util.cc:49-51.  `mem i` is the byte at `char_ptr + i`, `none` if that
byte must not be read; the second component of the result lists the offsets read. -/
def safeScan (mem : Nat → Option UInt8) (length : Nat) : Nat → Nat → Str → List Nat →
    Res (Str × List Nat)
  | 0, _, acc, log => .ok (acc, log)
  | fuel + 1, i, acc, log =>
      if i = length then .ok (acc, log)
      else
        match mem i with
        | none => .ub
        | some b => if b = 0 then .ok (acc, log ++ [i])
                    else safeScan mem length fuel (i + 1) (acc ++ [b]) (log ++ [i])

/-- safe_string(char_ptr, length), string_util.cc:44-52; `none` is the null pointer. -/
def safeString (ptr : Option (Nat → Option UInt8)) (length : Nat) : Res (Str × List Nat) :=
  match ptr with
  | none => .ok ([], [])
  | some mem => safeScan mem length (length + 1) 0 [] []

/-! ### escape.cc -/

/-- Body of the loop of escape, escape.cc:43-74: what is appended for the byte `b`, read as a
signed char. -/
def escapeChar (b : UInt8) : Res Str :=
  let c := b.toInt8.toInt
  if c = 34 then .ok (bytes "\\\"")
  else if c = 92 then .ok (bytes "\\\\")
  else if c = 10 then .ok (bytes "\\n")
  else if c = 13 then .ok (bytes "\\r")
  else if c = 9 then .ok (bytes "\\t")
  else if c < 32 then (hexString 1 c).bind fun h => .ok (bytes "\\x" ++ h)
  else .ok [b]

/-- escape(in), escape.cc:33-78. -/
def escapeLoop : Str → Str → Res Str
  | [], escaped => .ok escaped
  | b :: s, escaped => (escapeChar b).bind fun e => escapeLoop s (escaped ++ e)

def escape (s : Str) : Res Str := escapeLoop s []

/-- `[[:xdigit:]]` (classic locale). The class [[:xdigit:]], escape.cc:82. -/
def isXdigit (c : UInt8) : Bool :=
  (48 ≤ c && c ≤ 57) || (65 ≤ c && c ≤ 70) || (97 ≤ c && c ≤ 102)

/-- Match of the regular expression `\\(["\\nrt]|x[[:xdigit:]]{2})`, escape.cc:82, at the front
of the string: capture group 1 and the remaining text. -/
def matchHere : Str → Option (Str × Str)
  | 92 :: c :: rest =>
      if c = 34 ∨ c = 92 ∨ c = 110 ∨ c = 114 ∨ c = 116 then some ([c], rest)
      else if c = 120 then
        match rest with
        | a :: b :: rest => if isXdigit a ∧ isXdigit b then some ([c, a, b], rest) else none
        | _ => none
      else none
  | _ => none

/-- std::regex_search: the leftmost match: prefix, capture group 1, suffix. std::regex_search with the
expression of escape.cc:82. -/
def search : Str → Option (Str × Str × Str)
  | [] => none
  | c :: s =>
      match matchHere (c :: s) with
      | some (g, rest) => some ([], g, rest)
      | none => (search s).map fun (p, g, rest) => (c :: p, g, rest)

/-- Value of one hexadecimal digit as used by std::stoi(.., 0, 16). -/
def xdigitVal (c : UInt8) : Nat :=
  if c ≤ 57 then c.toNat - 48 else if c ≤ 70 then c.toNat - 55 else c.toNat - 87

/-- The switch of unescape, escape.cc:98-118: the text appended for capture group 1. -/
def decodeGroup : Str → Str
  | 34 :: t => 34 :: t
  | 92 :: t => 92 :: t
  | 110 :: _ => [10]
  | 114 :: _ => [13]
  | 116 :: _ => [9]
  | 120 :: t => [UInt8.ofNat (t.foldl (fun v c => 16 * v + xdigitVal c) 0)]
  | g => 92 :: g

/-- Loop over the regex_iterator, escape.cc:93-121 (each match starts where the previous one
ended; the final suffix is appended). -/
def unescapeLoop : Nat → Str → Str → Res Str
  | 0, _, _ => .diverge
  | fuel + 1, rest, out =>
      match search rest with
      | none => .ok (out ++ rest)
      | some (pre, g, suffix) => unescapeLoop fuel suffix (out ++ pre ++ decodeGroup g)

/-- unescape(in), escape.cc:80-125. -/
def unescape (s : Str) : Res Str := unescapeLoop (s.length + 1) s []

/-! ### cat -/

/-- std::to_string of an unsigned integer: decimal digits without leading zeros. std::to_string,
cat.h:56-61. -/
def decNat : Nat → Nat → Str
  | 0, _ => []
  | fuel + 1, n =>
      if n < 10 then [UInt8.ofNat (48 + n)]
      else decNat fuel (n / 10) ++ [UInt8.ofNat (48 + n % 10)]

/-- std::to_string(integer). std::to_string, cat.h:56-61. -/
def toString (v : Int) : Str :=
  if v < 0 then 45 :: decNat (v.natAbs + 1) v.natAbs else decNat (v.natAbs + 1) v.natAbs

/-- The last `w` decimal digits of a number. Part of the conversion `%f` of std::vsnprintf, used by std::to_string,
cat.h:62-63. -/
def lastDigits : Nat → Nat → Str
  | 0, _ => []
  | w + 1, n => lastDigits w (n / 10) ++ [UInt8.ofNat (48 + n % 10)]

/-- A floating-point number without its sign. -/
inductive Magnitude where
  | num (q : ℚ)
  | inf
  | nan

/-- std::to_string of a positive float or double, cat.h:62-63: std::vsnprintf with `%f` (until C++26), which rounds the
exact value to six digits after the decimal point, ties to even.  A float is converted to double, which is exact. -/
def fixedText : Magnitude → Str
  | .inf => bytes "inf"
  | .nan => bytes "nan"
  | .num q =>
      let n := (Ieee.roundInt (q * 1000000)).toNat
      decNat (n / 1000000 + 1) (n / 1000000) ++ [46] ++ lastDigits 6 (n % 1000000)

/-- An argument of cat, cat.h:51-63.  A floating-point number has a sign, also if it is zero or not a number. -/
inductive Arg where
  | str (s : Str)
  | chr (c : UInt8)
  | int (v : Int)
  | flt (neg : Bool) (x : Magnitude)

/-- The text shown by a ConvertingStringView made from the argument, cat.h:51-63. -/
def Arg.text : Arg → Str
  | .str s => s
  | .chr c => [c]
  | .int v => toString v
  | .flt neg x => if neg then 45 :: fixedText x else fixedText x

/-- cat with two and three arguments, cat.cc:28-45. -/
def cat2 (a b : Arg) : Str := ([] ++ a.text) ++ b.text
def cat3 (a b c : Arg) : Str := (([] ++ a.text) ++ b.text) ++ c.text

/-- cat(std::initializer_list), cat.cc:47-61. -/
def catList (pieces : List Arg) : Str := pieces.foldl (fun str p => str ++ p.text) []

/-- cat(args...), overloads cat.h:97-120. -/
def cat : List Arg → Str
  | [] => []
  | [a] => a.text
  | [a, b] => cat2 a b
  | [a, b, c] => cat3 a b c
  | args => catList args

end Gul14.Text

import Verif.Substring.Model
import Mathlib.Algebra.Order.Field.Rat
import Mathlib.Algebra.Order.Field.Power

/-! Model of include/gul14/to_number.h and src/to_number.cc. -/

namespace Gul14.ToNumber
open Gul14.SV Gul14.Substring

/-! ### Integers -/

/-- detail::is_digit, to_number.h:50-53 (a byte ≥ 0x80 is a negative char). -/
def isDigit (c : UInt8) : Bool := c.toInt8 ≥ 48 && c.toInt8 ≤ 57

/-- Loop of to_unsigned_integer, to_number.h:81-108, `__GNUC__` branch (86-91): the type's
largest value is `max`; `__builtin_*_overflow` report a result that does not fit. -/
def digitLoop (max : Nat) : Str → Nat → Option Nat
  | [], result => some result
  | c :: s, result =>
      if !isDigit c then none
      else if result * 10 > max then none
      else if result * 10 + (c.toNat - 48) > max then none
      else digitLoop max s (result * 10 + (c.toNat - 48))

/-- detail::to_unsigned_integer, to_number.h:68-109, `__GNUC__` branch. -/
def toUnsignedInteger (max : Nat) (s : Str) : Option Nat :=
  if s.isEmpty then none else digitLoop max s 0

/-- Loop of to_unsigned_integer, branch for other compilers (93-102).  For an unsigned type (or
one narrower than int) `result +=` wraps around modulo `max + 1`; for a signed type of at least
the width of int (`signed`) leaving the range is undefined behaviour. -/
def digitLoopPortable (max : Nat) (signed : Bool) : Str → Nat → Res (Option Nat)
  | [], result => .ok (some result)
  | c :: s, result =>
      if !isDigit c then .ok none
      else if result > max / 10 then .ok none
      else
        let last := result * 10
        let sum := last + (c.toNat - 48)
        if signed ∧ sum > max then .ub
        else
          let result := sum % (max + 1)
          if result < last then .ok none else digitLoopPortable max signed s result

def toUnsignedIntegerPortable (max : Nat) (signed : Bool) (s : Str) : Res (Option Nat) :=
  if s.isEmpty then .ok none else digitLoopPortable max signed s 0

/-- to_number for unsigned types with `w` bits, to_number.h:496-503. -/
def toUnsigned (w : Nat) (s : Str) : Option Nat := toUnsignedInteger (2 ^ w - 1) s

/-- to_number for signed types with `w` bits, to_number.h:506-536. -/
def toSigned (w : Nat) (s : Str) : Option Int :=
  match s with
  | [] => none
  | c :: rest =>
      if c = 45 then
        match toUnsignedInteger (2 ^ w - 1) rest with
        | none => none
        | some r =>
            if r = (2 ^ (w - 1) - 1) + 1 then some (-(2 ^ (w - 1)))
            else if r > (2 ^ (w - 1) - 1) + 1 then none
            else some (-(r : Int))
      else (toUnsignedInteger (2 ^ (w - 1) - 1) s).map fun (r : Nat) => (r : Int)

/-! ### bool -/

/-- to_number<bool>, to_number.h:576-593. -/
def toBool (s : Str) : Res (Option Bool) :=
  match s with
  | [c] => if c = 49 then .ok (some true) else if c = 48 then .ok (some false) else .ok none
  | _ =>
      (equalsNocase s (bytes "true")).bind fun t =>
        if t then .ok (some true)
        else
          (equalsNocase s (bytes "false")).bind fun f =>
            if f then .ok (some false) else .ok none

/-! ### Floating-point numbers

Simplification: floating-point arithmetic is exact rational arithmetic, extended by infinity
and NaN; rounding, overflow of the target type and subnormal numbers are not modelled. -/

/-- Idealised floating-point value. Values of the floating-point types; no code in /repo. -/
inductive FVal where
  | num (q : ℚ)
  | inf (neg : Bool)
  | nan
  deriving DecidableEq

/-- Largest value of a 32-bit int. -/
def intMax : Int := 2 ^ 31 - 1

/-- Result of signed int arithmetic: undefined behaviour when out of range. -/
def int32 (v : Int) : Res Int := if -(2 ^ 31) ≤ v ∧ v ≤ intMax then .ok v else .ub

/-- static_cast<int>(size_t): modulo 2^32 (implementation-defined before C++20, as GCC does). -/
def castInt (n : Nat) : Int := ((n : Int) + 2 ^ 31) % 2 ^ 32 - 2 ^ 31

/-- detail::is_nan_specifier, to_number.h:55-66. -/
def isNanSpecifier (c : UInt8) : Bool :=
  (c.toInt8 ≥ 48 && c.toInt8 ≤ 57) || (c.toInt8 ≥ 97 && c.toInt8 ≤ 122) ||
  (c.toInt8 ≥ 65 && c.toInt8 ≤ 90) || c == 95

/-- detail::parse_exponent, to_number.h:116-141. -/
def parseExponent (s : Str) : Res (Option Int) :=
  match s with
  | [] => .ub -- front() of an empty view
  | c :: rest =>
      let (negative, digits) := if c = 43 then (false, rest) else if c = 45 then (true, rest)
        else (false, s)
      match toUnsignedInteger intMax.toNat digits with
      | none => .ok none
      | some e => .ok (some (if negative then -(e : Int) else e))

/-- `std::numeric_limits<std::uint64_t>::digits10`. to_number.h:152, 180-187. -/
def digits10 : Nat := 19

/-- to_unsigned_integer with count_magnitude, to_number.h:68-109 for uint64: value and the
magnitude multiplied by ten per digit (104-105). -/
def countedInteger (s : Str) (magnitude : Nat) : Option (Nat × Nat) :=
  (toUnsignedInteger (2 ^ 64 - 1) s).map fun v => (v, magnitude * 10 ^ s.length % 2 ^ 64)

/-- detail::to_normalized_float, to_number.h:177-208, up to the division: the two integers `accu`
and `magnitude / 10` that are converted to floating point and divided (line 207). -/
def toNormalizedFloat (i1 i2 : Str) : Option (Nat × Nat) :=
  let i1 := i1.take (min i1.length digits10)
  let i2 := i2.take (min i2.length (digits10 - i1.length))
  let step1 : Option (Nat × Nat) :=
    if i2.isEmpty then some (0, 1) else countedInteger i2 1
  match step1 with
  | none => none
  | some (accu, magnitude) =>
      let step2 : Option (Nat × Nat) :=
        if i1.isEmpty then some (accu, magnitude)
        else (countedInteger i1 magnitude).map fun (f1, m) =>
          ((accu + f1 * magnitude) % 2 ^ 64, m)
      match step2 with
      | none => none
      | some (accu, magnitude) => some (accu, magnitude / 10)

/-- detail::parse_inf_nan, to_number.h:235-267: `none` if result_valid is false. -/
def parseInfNan (s : Str) : Option (Option FVal) :=
  if s.length = 0 then some none
  else if startsWithNocase s (bytes "inf") then
    if s.length = 3 then some (some (.inf false))
    else if s.length = 8 ∧ startsWithNocase (s.drop 3) (bytes "inity") then
      some (some (.inf false))
    else some none
  else if startsWithNocase s (bytes "nan") then
    if s.length = 3 then some (some .nan)
    else if s.length < 5 ∨ s[3]? ≠ some 40 ∨ s.getLast? ≠ some 41 then some none
    else if ((s.drop 4).dropLast).all isNanSpecifier then some (some .nan)
    else some none
  else none

/-- Loop of detail::pow10, to_number.cc:87-92; the table binary_powers (59-72, 80-bit long
double) holds 10^(±16), 10^(±32), ..., 10^(±4096) at the indices 0 to 8 and infinity or zero at
the last index 9.  `exponent` is the remaining value, `bit` the index. -/
def pow10Loop (base : ℚ) (limit : FVal) : Nat → Nat → Nat → ℚ → FVal
  | 0, _, _, result => .num result
  | fuel + 1, exponent, bit, result =>
      if exponent > 0 then
        if bit = 9 then limit
        else pow10Loop base limit fuel (exponent / 2) (bit + 1)
          (if exponent % 2 = 1 then result * base ^ (16 * 2 ^ bit) else result)
      else .num result

/-- detail::pow10, to_number.cc:31-94.  `-exponent` (line 81) is undefined for INT_MIN.  The
loop runs at most ten times. -/
def pow10 (exponent : Int) : Res FVal :=
  (if exponent < 0 then (int32 (-exponent)).map fun e => ((1 / 10 : ℚ), FVal.num 0, e)
   else .ok ((10 : ℚ), FVal.inf false, exponent)).bind fun (base, limit, e) =>
    .ok (pow10Loop base limit 11 (e.toNat / 16) 0 (base ^ (e.toNat % 16)))

/-- Multiplication of the idealised values (the second factor is a positive number). The multiplication
of to_number.h:200-240 in exact arithmetic. -/
def FVal.mul : FVal → ℚ → FVal
  | .num p, q => .num (p * q)
  | .inf b, _ => .inf b
  | .nan, _ => .nan

/-- The sign, to_number.h:510-545. -/
def FVal.neg : FVal → FVal
  | .num p => .num (-p)
  | .inf b => .inf (!b)
  | .nan => .nan

/-- Removal of leading zeros, to_number.h:340-341 and 346-347. -/
def stripZeros : Str → Str
  | [] => []
  | c :: s => if c = 48 then stripZeros s else c :: s

/-- The floating-point arithmetic at the end of to_unsigned_float, to_number.h:207 and 373: the
decimal exponent and the two integers to divide are given. -/
abbrev Finish := Int → Nat → Nat → Res FVal

/-- In exact arithmetic. -/
def exactFinish : Finish := fun exponent accu magnitude =>
  (pow10 exponent).map fun p => p.mul ((accu : ℚ) / (magnitude : ℚ))

/-- The part of to_unsigned_float after the exponent has been split off, to_number.h:326-373. -/
def mantissa (fin : Finish) (s : Str) (exponent : Int) : Res (Option FVal) :=
  let pointPos := find s [46] 0
  (if pointPos ≠ npos then
     (substr s 0 pointPos).bind fun b => (substr s (pointPos + 1) npos).bind fun a => .ok (b, a)
   else .ok (s, [])).bind fun (before, after) =>
  if before.isEmpty ∧ after.isEmpty then .ok none
  else
    let before := stripZeros before
    if before.isEmpty then
      let oldDigits := after.length
      match stripZeros after with
      | [] => .ok (some (.num 0))
      | d :: after =>
          (int32 (exponent - castInt (oldDigits - after.length))).bind fun exponent =>
          match toNormalizedFloat [d] after with
          | none => .ok none
          | some q => (fin exponent q.1 q.2).map some
    else
      (int32 (exponent + castInt (before.length - 1))).bind fun exponent =>
      match toNormalizedFloat before after with
      | none => .ok none
      | some q => (fin exponent q.1 q.2).map some

/-- detail::to_unsigned_float, to_number.h:300-374. -/
def toUnsignedFloatWith (fin : Finish) (s : Str) : Res (Option FVal) :=
  match parseInfNan s with
  | some r => .ok r
  | none =>
      let ePos := findFirstOf s (bytes "eE") 0
      if ePos ≠ npos then
        if ePos + 1 = s.length then .ok none
        else
          (substr s (ePos + 1) npos).bind fun strExponent =>
          (substr s 0 ePos).bind fun m =>
          (parseExponent strExponent).bind fun
            | none => .ok none
            | some e => mantissa fin m e
      else mantissa fin s 0

/-- to_number for floating-point types, to_number.h:539-573 (the strtold fallback at 560 is not
taken on the modelled platform). -/
def toFloatWith (fin : Finish) (s : Str) : Res (Option FVal) :=
  match s with
  | [] => .ok none
  | c :: rest =>
      if c = 45 then (toUnsignedFloatWith fin rest).map fun r => r.map FVal.neg
      else toUnsignedFloatWith fin s

/-- to_number in exact arithmetic. -/
abbrev toFloat (s : Str) : Res (Option FVal) := toFloatWith exactFinish s

end Gul14.ToNumber

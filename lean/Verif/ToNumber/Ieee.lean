import Verif.ToNumber.FloatProps
import Verif.Ieee.Arith

/-!
# to_number for floating-point types in IEEE arithmetic (C87, C88)

The reader of `Model.lean` with the floating-point operations that the code performs: conversion of
two integers and their division in double (long double for to_number<long double>), powers of ten
and the product in long double, conversion to the result type.
-/
namespace Gul14.ToNumber
open Gul14.Ieee

def ofFl : Fl → FVal
  | .num x => .num x
  | .inf b => .inf b
  | .nan => .nan

/-- Entry of the table direct_powers, to_number.cc:51-58; constants are rounded correctly. -/
def directPower (base : ℚ) (k : Nat) : Fl := extended.round (base ^ k)

/-- Entry of the table binary_powers, to_number.cc:59-72, except for the last one. -/
def binaryPower (base : ℚ) (bit : Nat) : Fl := extended.round (base ^ (16 * 2 ^ bit))

/-- Loop of detail::pow10, to_number.cc:87-92. -/
def ieeePow10Loop (base : ℚ) (limit : Fl) : Nat → Nat → Nat → Fl → Fl
  | 0, _, _, result => result
  | fuel + 1, exponent, bit, result =>
      if exponent > 0 then
        if bit = 9 then limit
        else ieeePow10Loop base limit fuel (exponent / 2) (bit + 1)
          (if exponent % 2 = 1 then extended.mul result (binaryPower base bit) else result)
      else result

/-- detail::pow10, to_number.cc:31-94, in 80-bit long double arithmetic. -/
def ieeePow10 (exponent : Int) : Res Fl :=
  (if exponent < 0 then (int32 (-exponent)).map fun e => ((1 / 10 : ℚ), Fl.num 0, e)
   else .ok ((10 : ℚ), Fl.inf false, exponent)).bind fun (base, limit, e) =>
    .ok (ieeePow10Loop base limit 11 (e.toNat / 16) 0 (directPower base (e.toNat % 16)))

/-- The end of to_unsigned_float, to_number.h:207 and 373: division in CalcType (`C`), product in
long double, conversion to NumberType (`F`). -/
def ieeeFinish (C F : Format) : Finish := fun exponent accu magnitude =>
  (ieeePow10 exponent).map fun p =>
    ofFl (F.conv (extended.mul p (C.div (C.round accu) (C.round magnitude))))

/-- to_number<float>, to_number<double>, to_number<long double>; CalcType is double for the first two,
to_number.h:363-366. -/
def toNumberFloat (s : Str) : Res (Option FVal) := toFloatWith (ieeeFinish binary64 binary32) s
def toNumberDouble (s : Str) : Res (Option FVal) := toFloatWith (ieeeFinish binary64 binary64) s
def toNumberLongDouble (s : Str) : Res (Option FVal) := toFloatWith (ieeeFinish extended extended) s

end Gul14.ToNumber

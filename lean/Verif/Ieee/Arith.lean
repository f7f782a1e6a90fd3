import Verif.Ieee.Basic

/-! # IEEE 754 arithmetic on floating-point values -/
namespace Gul14.Ieee

/-- Conversion to a format. -/
def Format.conv (f : Format) : Fl → Fl
  | .num x => f.round x
  | v => v

def Fl.neg : Fl → Fl
  | .num x => .num (-x)
  | .inf b => .inf (!b)
  | .nan => .nan

def Fl.abs : Fl → Fl
  | .num x => .num |x|
  | .inf _ => .inf false
  | .nan => .nan

def Format.add (f : Format) : Fl → Fl → Fl
  | .num x, .num y => f.round (x + y)
  | .nan, _ => .nan
  | _, .nan => .nan
  | .inf a, .inf b => if a = b then .inf a else .nan
  | .inf a, _ => .inf a
  | _, .inf b => .inf b

def Format.sub (f : Format) (x y : Fl) : Fl := f.add x y.neg

def Format.mul (f : Format) : Fl → Fl → Fl
  | .num x, .num y => f.round (x * y)
  | .nan, _ => .nan
  | _, .nan => .nan
  | .inf a, .inf b => .inf (a != b)
  | .inf a, .num y => if y = 0 then .nan else .inf (a != decide (y < 0))
  | .num x, .inf b => if x = 0 then .nan else .inf (decide (x < 0) != b)

/-- Division; a zero divisor counts as positive zero. -/
def Format.div (f : Format) : Fl → Fl → Fl
  | .num x, .num y => if y = 0 then (if x = 0 then .nan else .inf (x < 0)) else f.round (x / y)
  | .nan, _ => .nan
  | _, .nan => .nan
  | .inf _, .inf _ => .nan
  | .inf a, .num y => .inf (a != decide (y < 0))
  | .num _, .inf _ => .num 0

def Fl.lt : Fl → Fl → Bool
  | .num x, .num y => x < y
  | .nan, _ => false
  | _, .nan => false
  | .inf a, .inf b => a && !b
  | .inf a, .num _ => a
  | .num _, .inf b => !b

def Fl.le : Fl → Fl → Bool
  | .num x, .num y => x ≤ y
  | .nan, _ => false
  | _, .nan => false
  | .inf a, .inf b => a || !b
  | .inf a, .num _ => a
  | .num _, .inf b => !b

/-- `==` -/
def Fl.eq : Fl → Fl → Bool
  | .num x, .num y => x == y
  | .inf a, .inf b => a == b
  | _, _ => false

end Gul14.Ieee

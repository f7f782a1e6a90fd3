import Verif.Date.Format
import Verif.Ieee.Arith

/-!
# parse, date.h:5845-7760

`is >> parse(fmt, x)` for `char` streams: from_stream on an input stream with its remaining characters and
the flags eofbit and failbit (badbit does not occur).  The stream operations are those of libstdc++: the
unformatted input functions construct a sentry, which sets failbit unless the stream is good.  The classic
locale is used except for `std::time_get`, which is a parameter.  Durations have integral representations;
overflow of these is not modelled.  Counts of characters are not reduced modulo 2^32.  The format contains no
null character.
-/
namespace Gul14.Date
open Gul14.Spec.DateFormat (Tm)
open Gul14.Ieee (Fl extended)

/-! ### The stream -/

/-- std::basic_istream, as far as from_stream uses it (date.h:6107-7443): the characters that are left
and two flags; no code in /repo. -/
structure IStream where
  rest : List Char
  eof : Bool := false
  fail : Bool := false
  deriving DecidableEq, Repr

/-- `good()`, and `rdstate() == goodbit`. Library; no code in /repo. -/
def IStream.good (is : IStream) : Bool := !is.eof && !is.fail

/-- `setstate(failbit)` Library; no code in /repo. -/
def IStream.setFail (is : IStream) : IStream := { is with fail := true }

/-- `peek()` Library; no code in /repo. -/
def IStream.peek (is : IStream) : Option Char × IStream :=
  if !is.good then (none, { is with fail := true })
  else
    match is.rest with
    | [] => (none, { is with eof := true })
    | c :: _ => (some c, is)

/-- `get()` Library; no code in /repo. -/
def IStream.get (is : IStream) : Option Char × IStream :=
  if !is.good then (none, { is with fail := true })
  else
    match is.rest with
    | [] => (none, { is with eof := true, fail := true })
    | c :: r => (some c, { is with rest := r })

/-- isspace in the C locale. Library; no code in /repo. -/
def isSpace (c : Char) : Bool := c = ' ' || (9 ≤ c.toNat && c.toNat ≤ 13)

/-- isalnum in the C locale. Library; no code in /repo. -/
def isAlnum (c : Char) : Bool :=
  ('0' ≤ c && c ≤ '9') || ('a' ≤ c && c ≤ 'z') || ('A' ≤ c && c ≤ 'Z')

/-- std::ws on a good stream. Library; no code in /repo. -/
def IStream.ws (is : IStream) : IStream :=
  let r := is.rest.dropWhile isSpace
  { is with rest := r, eof := is.eof || r.isEmpty }

/-! ### Reading numbers, date.h:5863-5964 -/

def isDig (c : Char) : Bool := '0' ≤ c && c ≤ '9'
/-- `c - '0'` in read_unsigned and read_long_double, date.h:5879, 5946 and 5950. -/
def digVal (c : Char) : Nat := c.toNat - 48

/-- The loop of read_unsigned, date.h:5869-5882, on a good stream: number of digits, value, remaining characters,
whether the end was seen. -/
def readDigits (M : Nat) : Nat → Nat → List Char → Nat × Nat × List Char × Bool
  | count, x, [] => (count, x, [], true)
  | count, x, c :: r =>
    if !isDig c then (count, x, c :: r, false)
    else
      let x := (10 * x + digVal c) % 4294967296
      if count + 1 = M then (count + 1, x, r, false) else readDigits M (count + 1) x r

/-- read_unsigned, date.h:5863-5886. -/
def readUnsigned (is : IStream) (m M : Nat) : Nat × IStream :=
  if !is.good then (0, is.setFail)
  else
    let (count, x, r, e) := readDigits M 0 0 is.rest
    (x, { rest := r, eof := e, fail := count < m })

/-- read_signed, date.h:5888-5912. -/
def readSigned (is : IStream) (m M : Nat) : Res (Int × IStream) :=
  let giveUp (is : IStream) : Res (Int × IStream) := pure (0, if m > 0 then is.setFail else is)
  match is.peek with
  | (none, is) => giveUp is
  | (some c, is) =>
    if isDig c || c = '-' || c = '+' then
      let is := if c = '-' || c = '+' then is.get.2 else is
      let (x, is) := readUnsigned is (max m 1) M
      if is.fail then giveUp is
      else
        let x := asInt x
        if c = '-' then do pure (← int (-x), is) else pure (x, is)
    else giveUp is

/-- The loop of read_long_double, date.h:5929-5957, on a good stream. -/
structure LdState where
  count : Nat := 0
  fcount : Nat := 0
  i : Nat := 0
  f : Nat := 0
  frac : Bool := false
  deriving DecidableEq, Repr

/-- The loop of read_long_double, date.h:5929-5957: it stops at the first character that is not part of
the number or after `M` characters. -/
def readDecimal (M : Nat) : LdState → List Char → LdState × List Char × Bool
  | s, [] => (s, [], true)
  | s, c :: r =>
    let next : Option LdState :=
      if c = '.' ∧ s.frac = false then some { s with frac := true }
      else if !isDig c then none
      else if !s.frac then some { s with i := (10 * s.i + digVal c) % 18446744073709551616 }
      else some { s with f := (10 * s.f + digVal c) % 18446744073709551616, fcount := s.fcount + 1 }
    match next with
    | none => (s, c :: r, false)
    | some s =>
      let s := { s with count := s.count + 1 }
      if s.count = M then (s, r, false) else readDecimal M s r

/-- read_long_double, date.h:5914-5964; `std::pow(10.L, n)` is taken to be correctly rounded. -/
def readLongDouble (is : IStream) (m M : Nat) : Fl × IStream :=
  if !is.good then (.num 0, is.setFail)
  else
    let (s, r, e) := readDecimal M {} is.rest
    if s.count < m then (.num 0, { rest := r, eof := e, fail := true })
    else
      (extended.add (extended.round s.i) (extended.div (extended.round s.f) (extended.round ((10 : ℚ) ^ s.fcount))),
        { rest := r, eof := e, fail := false })

/-! ### Sequences, date.h:5966-6089 -/

/-- The arguments of `read`, date.h:5966-6011. -/
inductive RArg where
  | ch (c : Char)
  | rs (m M : Nat)
  | ru (m M : Nat)
  | rld (m M : Nat)
  deriving DecidableEq, Repr

/-- read(is, CharT, ...), date.h:6013-6034, its own part. -/
def readChar (a : Char) (is : IStream) : IStream :=
  match is.peek with
  | (none, is) => { is with eof := true, fail := true }
  | (some c, is) => if c ≠ a then is.setFail else is.get.2

/-- read, date.h:5987-6089: the integers and the floating-point number that were read; reading stops at the first failure. -/
def readSeq : List RArg → IStream → Res (List Int × Fl × IStream)
  | [], is => pure ([], .num 0, is)
  | .ch c :: r, is =>
    let is := readChar c is
    if is.fail then pure ([], .num 0, is) else readSeq r is
  | .rs m M :: r, is => do
    let (x, is) ← readSigned is m M
    if is.fail then pure ([], .num 0, is)
    else do
      let (xs, S, is) ← readSeq r is
      pure (x :: xs, S, is)
  | .ru m M :: r, is =>
    let (x, is) := readUnsigned is m M
    if is.fail then pure ([], .num 0, is)
    else do
      let (xs, S, is) ← readSeq r is
      pure (asInt x :: xs, S, is)
  | .rld m M :: r, is =>
    let (S, is) := readLongDouble is m M
    if is.fail then pure ([], .num 0, is)
    else do
      let (xs, _, is) ← readSeq r is
      pure (xs, S, is)

/-- read(is, c0, c1, ...) with characters only. The recursion of read, date.h:6013-6089. -/
def readLit : List Char → IStream → IStream
  | [], is => is
  | c :: r, is =>
    let is := readChar c is
    if is.fail then is else readLit r is

/-- round_i<Duration>(duration<long double>{S}), date.h:1306-1312 with round, 1213-1236, floor and trunc: the product
with the number of ticks per second is rounded, and its conversion to the 64-bit count is undefined if it
does not fit. -/
def roundTicks (T : Nat) (S : Fl) : Res Int :=
  match extended.mul S (extended.round T) with
  | .num P =>
    if -9223372036854775808 ≤ P ∧ P + 1 < 9223372036854775808 then
      let t0 := ⌊P⌋
      let t1 := t0 + 1
      let diff0 := extended.sub (.num P) (.num t0)
      let diff1 := extended.sub (.num t1) (.num P)
      if Fl.eq diff0 diff1 then pure (if t0 % 2 = 0 then t0 else t1)
      else pure (if Fl.lt diff0 diff1 then t0 else t1)
    else .ub
  | _ => .ub

/-! ### The variables of from_stream, date.h:6132-6169 -/

/-- The facet std::time_get: from a tm object, a format and the input, the changed object, the remaining
input and the flags eofbit and failbit. Library; no code in /repo. It is used through std::use_facet in
date.h:6129. -/
structure TimeGet where
  get : Tm → List Char → List Char → Tm × List Char × Bool × Bool

/-- The variables of from_stream, date.h:6132-6169. -/
structure PVars where
  Y : Int := -32768
  y : Int := 100
  g : Int := 100
  G : Int := -32768
  C : Int := -327
  m : Int := 0
  d : Int := 0
  j : Int := -1
  wd : Int := 8
  H : Int := -2147483648
  I : Int := 0
  p : Int := -1
  M : Int := -2147483648
  s : Int := -9223372036854775808
  U : Int := 100
  V : Int := 100
  W : Int := 100
  abbr : List Char := []
  offset : Int := -9223372036854775808
  tm : Tm := {}
  deriving DecidableEq, Repr

/-- checked_set, date.h:6091-6103: the new value, and whether the stream fails. -/
def checkedSet {α : Type} [DecidableEq α] (value new notAValue : α) (is : IStream) : α × IStream :=
  if !is.fail then
    if value = notAValue then (new, is)
    else if value ≠ new then (value, is.setFail)
    else (value, is)
  else (value, is)

/-- What does not change during a call. The type Duration and the locale in from_stream,
date.h:6105-6131. -/
structure PEnv where
  T : Nat
  loc : TimeGet

/-- The state of the loop: stream, variables, the characters since the pending `%`, modifier and width.
The variables `command`, `modified` and `width` of from_stream, date.h:6132-6134. -/
structure PState where
  is : IStream
  v : PVars
  command : Option (List Char) := none
  modified : Option Char := none
  width : Int := -1

/-- The maximal number of characters: the width, or a default. `width == -1 ? 2u :
static_cast<unsigned>(width)` in date.h:6176-7187. -/
def PState.max (st : PState) (dflt : Nat) : Nat := if st.width = -1 then dflt else st.width.toNat

/-- Characters of the seconds, date.h:6819, 6851. -/
def secWidth (T : Nat) : Nat := if T = 1 then 2 else 3 + fractionalWidth T

/-- `read(is, '%', width, modified, *fmt)`, with the digits of the width, date.h:6058-6078. -/
def PState.verbatim (st : PState) (c : Char) : PState :=
  let w := if st.width = -1 then [] else dec st.width.toNat
  { st with is := readLit ('%' :: (w ++ (st.modified.toList ++ [c]))) st.is }

/-- `f.get(is, nullptr, is, err, &tm, command, fmt+1)`, with the part of the format: the stream, the tm
object and the flags `err`, which the stream does not have yet. date.h:6192-6194 and the other uses of
the facet up to 7150. -/
def PState.facet (e : PEnv) (st : PState) (c : Char) : IStream × Tm × Bool × Bool :=
  let (tm, r, eo, fa) := e.loc.get st.v.tm (st.command.getD [] ++ [c]) st.is.rest
  ({ st.is with rest := r }, tm, eo, fa)

/-- `is.setstate(err)` Library; no code in /repo. -/
def IStream.set (is : IStream) (eo fa : Bool) : IStream := { is with eof := is.eof || eo, fail := is.fail || fa }

/-- checked_set of one variable. checked_set, date.h:6091-6103, of a variable of date.h:6132-6169; the
next functions are the same for the others. -/
def setY (x : Int) (st : PState) : PState :=
  let (a, is) := checkedSet st.v.Y x (-32768) st.is; { st with is := is, v := { st.v with Y := a } }
/-- See `setY`, date.h:6091-6103. -/
def sety (x : Int) (st : PState) : PState :=
  let (a, is) := checkedSet st.v.y x 100 st.is; { st with is := is, v := { st.v with y := a } }
/-- See `setY`, date.h:6091-6103. -/
def setg (x : Int) (st : PState) : PState :=
  let (a, is) := checkedSet st.v.g x 100 st.is; { st with is := is, v := { st.v with g := a } }
/-- See `setY`, date.h:6091-6103. -/
def setG (x : Int) (st : PState) : PState :=
  let (a, is) := checkedSet st.v.G x (-32768) st.is; { st with is := is, v := { st.v with G := a } }
/-- See `setY`, date.h:6091-6103. -/
def setC (x : Int) (st : PState) : PState :=
  let (a, is) := checkedSet st.v.C x (-327) st.is; { st with is := is, v := { st.v with C := a } }
/-- See `setY`, date.h:6091-6103. -/
def setm (x : Int) (st : PState) : PState :=
  let (a, is) := checkedSet st.v.m x 0 st.is; { st with is := is, v := { st.v with m := a } }
/-- See `setY`, date.h:6091-6103. -/
def setd (x : Int) (st : PState) : PState :=
  let (a, is) := checkedSet st.v.d x 0 st.is; { st with is := is, v := { st.v with d := a } }
/-- See `setY`, date.h:6091-6103. -/
def setj (x : Int) (st : PState) : PState :=
  let (a, is) := checkedSet st.v.j x (-1) st.is; { st with is := is, v := { st.v with j := a } }
/-- See `setY`, date.h:6091-6103. -/
def setwd (x : Int) (st : PState) : PState :=
  let (a, is) := checkedSet st.v.wd x 8 st.is; { st with is := is, v := { st.v with wd := a } }
/-- See `setY`, date.h:6091-6103. -/
def setH (x : Int) (st : PState) : PState :=
  let (a, is) := checkedSet st.v.H x (-2147483648) st.is; { st with is := is, v := { st.v with H := a } }
/-- See `setY`, date.h:6091-6103. -/
def setI (x : Int) (st : PState) : PState :=
  let (a, is) := checkedSet st.v.I x 0 st.is; { st with is := is, v := { st.v with I := a } }
/-- See `setY`, date.h:6091-6103. -/
def setp (x : Int) (st : PState) : PState :=
  let (a, is) := checkedSet st.v.p x (-1) st.is; { st with is := is, v := { st.v with p := a } }
/-- See `setY`, date.h:6091-6103. -/
def setM (x : Int) (st : PState) : PState :=
  let (a, is) := checkedSet st.v.M x (-2147483648) st.is; { st with is := is, v := { st.v with M := a } }
/-- See `setY`, date.h:6091-6103. -/
def sets (x : Int) (st : PState) : PState :=
  let (a, is) := checkedSet st.v.s x (-9223372036854775808) st.is; { st with is := is, v := { st.v with s := a } }
/-- See `setY`, date.h:6091-6103. -/
def setU (x : Int) (st : PState) : PState :=
  let (a, is) := checkedSet st.v.U x 100 st.is; { st with is := is, v := { st.v with U := a } }
/-- See `setY`, date.h:6091-6103. -/
def setV (x : Int) (st : PState) : PState :=
  let (a, is) := checkedSet st.v.V x 100 st.is; { st with is := is, v := { st.v with V := a } }
/-- See `setY`, date.h:6091-6103. -/
def setW (x : Int) (st : PState) : PState :=
  let (a, is) := checkedSet st.v.W x 100 st.is; { st with is := is, v := { st.v with W := a } }
/-- See `setY`, date.h:6091-6103. -/
def setAbbrev (x : List Char) (st : PState) : PState :=
  let (a, is) := checkedSet st.v.abbr x [] st.is; { st with is := is, v := { st.v with abbr := a } }
/-- See `setY`, date.h:6091-6103. -/
def setOffset (x : Int) (st : PState) : PState :=
  let (a, is) := checkedSet st.v.offset x (-9223372036854775808) st.is
  { st with is := is, v := { st.v with offset := a } }

/-- A call of the facet followed by checked_set and setstate, as in date.h:6298-6310, 6357-6365, 6393-6402,
6522-6529, 6557-6561, 6628-6632, 6660-6664, 6750-6759, 6828-6833, 6887-6891, 6917-6921. -/
def PState.facetSet (e : PEnv) (st : PState) (c : Char) (f : Tm → PState → Res PState) : Res PState := do
  let (is, tm, eo, fa) := st.facet e c
  let st : PState := { st with is := is, v := { st.v with tm := tm } }
  let st ← if !fa then f tm st else pure st
  pure { st with is := st.is.set eo fa }

/-- Numbers read by `rs` or `ru` alone, then checked_set with `not` if nothing was read. The cases of
from_stream with one number, date.h:6180-7150. -/
def PState.number (st : PState) (a : RArg) (not : Int) (set : Int → PState → PState) : Res PState := do
  let (xs, _, is) ← readSeq [a] st.is
  pure (set (xs.getD 0 not) { st with is := is })

/-- The minutes of `%z`, date.h:7072-7104: added to `toff` if they are there. -/
def offsetMinutes (md : Option Char) (toff : Int) (is : IStream) : Res (Int × IStream) :=
  match is.peek with
  | (none, is) => pure (toff, is)
  | (some c, is) =>
    if md = none then
      if isDig c then do
        let (ys, _, is) ← readSeq [.ru 2 2] is
        pure (if is.fail then toff else toff + ys.getD 0 0, is)
      else pure (toff, is)
    else if c = ':' then do
      let (ys, _, is) ← readSeq [.ru 2 2] is.get.2
      pure (if is.fail then toff else toff + ys.getD 0 0, is)
    else pure (toff, is)

/-- `%z`, date.h:7055-7114. -/
def pconvOffset (st : PState) : Res PState := do
  let (ic, is) := st.is.peek
  let neg := ic = some '-'
  let (xs, _, is) ← readSeq [.rs (if st.modified = none then 2 else 1) 2] is
  let toff : Int := if is.fail then -9223372036854775808 else ((xs.getD 0 0).natAbs : Int) * 60
  let (toff, is) ← if is.good then offsetMinutes st.modified toff is else pure (toff, is)
  -- the negation of minutes::min() overflows
  if neg && toff = -9223372036854775808 then .ub
  else pure (setOffset (if neg then -toff else toff) { st with is := is })

/-- The characters of an abbreviation, date.h:7135-7136. -/
def isZoneChar (c : Char) : Bool :=
  1 < c.toNat && c.toNat < 127 && (isAlnum c || c = '_' || c = '/' || c = '-' || c = '+')

/-- One conversion with its modifier and width, date.h:6180-7150; not `%n` and `%t`. -/
def pconv (e : PEnv) (st : PState) (c : Char) : Res PState :=
  match c with
  | 'a' | 'A' => -- 6187-6206, 6252-6253
    if st.modified = none then do
      let (is, tm, eo, fa) := st.facet e c
      let st : PState := { st with is := is.set eo fa, v := { st.v with tm := tm } }
      let trial := if st.is.fail then 8 else tm.wday
      pure (if trial ≠ 8 then setwd trial st else st)
    else pure (st.verbatim c)
  | 'u' | 'w' => -- 6207-6253
    if st.modified = none then do
      let (xs, _, is) ← readSeq [.ru 1 (st.max 1)] st.is
      let x := xs.getD 0 8
      if is.fail then pure (if x ≠ 8 then setwd x { st with is := is } else { st with is := is })
      else if c = 'u' then
        if !(1 ≤ x && x ≤ 7) then pure { st with is := is.setFail }
        else pure (setwd (if x = 7 then 0 else x) { st with is := is })
      else if !(0 ≤ x && x ≤ 6) then pure { st with is := is.setFail }
      else pure (setwd x { st with is := is })
    else if st.modified = some 'O' then do
      let (is, tm, eo, fa) := st.facet e c
      let st : PState := { st with is := is.set eo fa, v := { st.v with tm := tm } }
      let trial := if st.is.fail then 8 else tm.wday
      pure (if trial ≠ 8 then setwd trial st else st)
    else pure (st.verbatim c)
  | 'b' | 'B' | 'h' => -- 6264-6288
    if st.modified = none then do
      let (is, tm, eo, fa) := st.facet e c
      let x ← if !fa then int (tm.mon + 1) else pure 0
      let st : PState := { st with is := is.set eo fa, v := { st.v with tm := tm } }
      pure (setm x st)
    else pure (st.verbatim c)
  | 'c' => -- 6293-6347
    if st.modified ≠ some 'O' then
      st.facetSet e c fun tm st => do
        let y ← int (tm.year + 1900)
        let m ← int (tm.mon + 1)
        pure (sets (tm.sec * e.T) (setM tm.min (setH tm.hour (setd tm.mday (setm m (setY y st))))))
    else pure (st.verbatim c)
  | 'x' => -- 6352-6383
    if st.modified ≠ some 'O' then
      st.facetSet e c fun tm st => do
        let y ← int (tm.year + 1900)
        let m ← int (tm.mon + 1)
        pure (setd tm.mday (setm m (setY y st)))
    else pure (st.verbatim c)
  | 'X' => -- 6388-6423
    if st.modified ≠ some 'O' then
      st.facetSet e c fun tm st => pure (sets (tm.sec * e.T) (setM tm.min (setH tm.hour st)))
    else pure (st.verbatim c)
  | 'C' => -- 6428-6454
    if st.modified = none then st.number (.rs 1 (st.max 2)) (-327) setC
    else do
      let (is, tm, eo, fa) := st.facet e c
      let x ← if !fa then do
          let y ← int (tm.year + 1900)
          let a ← if y ≥ 0 then pure y else int (y - 99)
          pure (a.tdiv 100)
        else pure (-327)
      let st : PState := { st with is := is.set eo fa, v := { st.v with tm := tm } }
      pure (setC x st)
  | 'D' => -- 6459-6478; the null characters are skipped
    if st.modified = none then do
      let (xs, _, is) ← readSeq [.ru 1 2, .ch '/', .ru 1 2, .ch '/', .rs 1 2] st.is
      pure (setd (xs.getD 1 0) (setm (xs.getD 0 0) (sety (xs.getD 2 100) { st with is := is })))
    else pure (st.verbatim c)
  | 'F' => -- 6483-6501
    if st.modified = none then do
      let (xs, _, is) ← readSeq [.rs 1 (st.max 4), .ch '-', .ru 1 2, .ch '-', .ru 1 2] st.is
      pure (setd (xs.getD 2 0) (setm (xs.getD 1 0) (setY (xs.getD 0 (-32768)) { st with is := is })))
    else pure (st.verbatim c)
  | 'd' | 'e' => -- 6507-6537
    if st.modified = none then st.number (.rs 1 (st.max 2)) 0 setd
    else if st.modified = some 'O' then st.facetSet e c fun tm st => pure (setd tm.mday st)
    else pure (st.verbatim c)
  | 'H' => -- 6542-6569
    if st.modified = none then st.number (.ru 1 (st.max 2)) (-2147483648) setH
    else if st.modified = some 'O' then st.facetSet e c fun tm st => pure (setH tm.hour st)
    else pure (st.verbatim c)
  | 'I' => -- 6574-6590
    if st.modified = none then do
      let (xs, _, is) ← readSeq [.rs 1 (st.max 2)] st.is
      let x := xs.getD 0 0
      pure (setI x { st with is := if 1 ≤ x && x ≤ 12 then is else is.setFail })
    else pure (st.verbatim c)
  | 'j' => -- 6595-6608
    if st.modified = none then st.number (.ru 1 (st.max 3)) (-1) setj
    else pure (st.verbatim c)
  | 'M' => -- 6613-6640
    if st.modified = none then st.number (.ru 1 (st.max 2)) (-2147483648) setM
    else if st.modified = some 'O' then st.facetSet e c fun tm st => pure (setM tm.min st)
    else pure (st.verbatim c)
  | 'm' => -- 6645-6672
    if st.modified = none then st.number (.rs 1 (st.max 2)) 0 setm
    else if st.modified = some 'O' then st.facetSet e c fun tm st => do
      let m ← int (tm.mon + 1)
      pure (setm m st)
    else pure (st.verbatim c)
  | 'p' => -- 6710-6739
    if st.modified = none then
      let st : PState := { st with v := { st.v with tm := { hour := 1 } } }
      let (is, tm, eo, fa) := st.facet e c
      let st : PState := { st with is := is.set eo fa, v := { st.v with tm := tm } }
      pure (setp (if tm.hour = 1 then 0 else if tm.hour = 13 then 1 else -1) st)
    else pure (st.verbatim c)
  | 'r' => -- 6745-6784
    if st.modified = none then
      st.facetSet e c fun tm st => pure (sets (tm.sec * e.T) (setM tm.min (setH tm.hour st)))
    else pure (st.verbatim c)
  | 'R' => -- 6789-6805
    if st.modified = none then do
      let (xs, _, is) ← readSeq [.ru 1 2, .ch ':', .ru 1 2] st.is
      pure (setM (xs.getD 1 (-2147483648)) (setH (xs.getD 0 (-2147483648)) { st with is := is }))
    else pure (st.verbatim c)
  | 'S' => -- 6810-6841
    if st.modified = none then do
      let (_, S, is) ← readSeq [.rld 1 (st.max (secWidth e.T))] st.is
      let s ← roundTicks e.T S
      pure (sets s { st with is := is })
    else if st.modified = some 'O' then st.facetSet e c fun tm st => pure (sets (tm.sec * e.T) st)
    else pure (st.verbatim c)
  | 'T' => -- 6846-6867
    if st.modified = none then do
      let (xs, S, is) ← readSeq [.ru 1 2, .ch ':', .ru 1 2, .ch ':', .rld 1 (secWidth e.T)] st.is
      let st := setM (xs.getD 1 (-2147483648)) (setH (xs.getD 0 (-2147483648)) { st with is := is })
      let s ← roundTicks e.T S
      pure (sets s st)
    else pure (st.verbatim c)
  | 'Y' => -- 6872-6899
    if st.modified = none then st.number (.rs 1 (st.max 4)) (-32768) setY
    else if st.modified = some 'E' then st.facetSet e c fun tm st => do
      let y ← int (tm.year + 1900)
      pure (setY y st)
    else pure (st.verbatim c)
  | 'y' => -- 6904-6927
    if st.modified = none then st.number (.ru 1 (st.max 2)) 100 sety
    else st.facetSet e c fun tm st => do
      let y ← int (tm.year + 1900)
      pure (setY y st)
  | 'g' => -- 6932-6945
    if st.modified = none then st.number (.ru 1 (st.max 2)) 100 setg
    else pure (st.verbatim c)
  | 'G' => -- 6950-6963
    if st.modified = none then st.number (.rs 1 (st.max 4)) (-32768) setG
    else pure (st.verbatim c)
  | 'U' => -- 6968-6981
    if st.modified = none then st.number (.ru 1 (st.max 2)) 100 setU
    else pure (st.verbatim c)
  | 'V' => -- 6986-6999
    if st.modified = none then st.number (.ru 1 (st.max 2)) 100 setV
    else pure (st.verbatim c)
  | 'W' => -- 7004-7017
    if st.modified = none then st.number (.ru 1 (st.max 2)) 100 setW
    else pure (st.verbatim c)
  | 'z' => pconvOffset st
  | 'Z' => -- 7119-7150
    if st.modified = none then
      let buf := if st.is.good then st.is.rest.takeWhile isZoneChar else []
      let r := if st.is.good then st.is.rest.dropWhile isZoneChar else st.is.rest
      let is : IStream := { rest := r, eof := st.is.eof || r.isEmpty, fail := st.is.fail || buf.isEmpty }
      pure (setAbbrev buf { st with is := is })
    else pure (st.verbatim c)
  | _ => pure st

/-- The characters with a meaning after `%`, other than modifiers, digits, `%n`, `%t` and `%%`. The case
labels of from_stream, date.h:6180-7150. -/
def pconvChars : List Char :=
  ['a', 'A', 'u', 'w', 'b', 'B', 'h', 'c', 'x', 'X', 'C', 'D', 'F', 'd', 'e', 'H', 'I', 'j', 'M', 'm', 'p', 'r',
   'R', 'S', 'T', 'Y', 'y', 'g', 'G', 'U', 'V', 'W', 'z', 'Z']

/-- The assignments to `command`, `width` and `modified` after each conversion of from_stream,
date.h:6180-7175. -/
def PState.reset (st : PState) : PState := { st with command := none, modified := none, width := -1 }

/-- One round of the loop, date.h:6178-7186, without the digits of a width. -/
def pstep (e : PEnv) (st : PState) (c : Char) : Res PState :=
  match st.command with
  | none =>
    if c = '%' then pure { st with command := some ['%'] } -- 7051-7052
    else if isSpace c then pure (if st.is.good then { st with is := st.is.ws } else st) -- 7176-7183
    else pure { st with is := readChar c st.is }
  | some cmd =>
    if c ∈ pconvChars then do
      let st ← pconv e st c
      pure st.reset
    else if c = 'n' ∨ c = 't' then -- 6676-6705
      if st.modified = none then
        match st.is.peek with
        | (none, is) =>
          -- the conversion stays pending
          let is := is.set true (decide (c = 'n'))
          pure { st with is := is, command := some (cmd ++ [c]) }
        | (some x, is) =>
          let is := if isSpace x then is.get.2 else if c = 'n' then is.setFail else is
          pure ({ st with is := is }).reset
      else pure (st.verbatim c).reset
    else if c = 'E' ∨ c = 'O' then -- 7021-7039
      if st.modified = none then pure { st with modified := some c, command := some (cmd ++ [c]) }
      else pure (st.verbatim c).reset
    else if c = '%' then -- 7040-7050
      if st.modified = none then pure ({ st with is := readChar c st.is }).reset
      else pure (st.verbatim c).reset
    else if st.width = -1 ∧ st.modified = none ∧ isDig c then
      pure { st with width := digVal c, command := some (cmd ++ [c]) }
    else pure (st.verbatim c).reset -- 7163-7172

/-- The digits of a width, date.h:7160-7161: 10*width + digit, where the sum may overflow. -/
def readWidth : List Char → PState → Res (List Char × PState)
  | [], st => pure ([], st)
  | c :: r, st =>
    if isDig c then do
      let w ← int (10 * st.width)
      let w ← int (w + c.toNat)
      readWidth r { st with width := w - 48, command := st.command.map (· ++ [c]) }
    else pure (c :: r, st)

/-- The loop over the format, date.h:6176-7187.  `fuel` is at least the length of the format. -/
def ploop (e : PEnv) : Nat → List Char → PState → Res PState
  | _, [], st => pure st
  | 0, _, _ => .diverge
  | fuel + 1, c :: r, st =>
    if st.is.fail then pure st
    else do
      let digits := st.command.isSome && st.width == -1 && st.modified == none && isDig c
      let st ← pstep e st c
      if digits then do
        let (r, st) ← readWidth r st
        ploop e fuel r st
      else ploop e fuel r st

/-! ### Putting the parts together, date.h:7196-7437 -/

/-- `goto broken`. date.h:7440-7442. -/
def broken {α : Type} : Res α := .throw (.user 0)

/-- The century, 7203-7216 and 7231-7244: as read, or from the full year, or from the two digits. -/
def century (two full C : Int) : Res Int :=
  if C ≠ -327 then pure C
  else if full = -32768 then pure (if two ≥ 69 then 19 else 20)
  else do
    let a ← if full ≥ 0 then pure full else int (full - 100)
    pure (a.tdiv 100)

/-- The year from century and two digits, 7217-7221 and 7245-7249. -/
def yearIn (C two : Int) : Res Int :=
  if C ≥ 0 then do int ((← int (100 * C)) + two)
  else do
    let a ← int (100 * (C + 1))
    int (a - (if two = 0 then 100 else two))

/-- The full year from its last two digits and the century, 7198-7225 and 7226-7253: year and century. -/
def fullYear (two full C : Int) : Res (Int × Int) :=
  if two = 100 then pure (full, C)
  else if !(0 ≤ two && two ≤ 99) then broken
  else do
    let C ← century two full C
    let t ← yearIn C two
    if full ≠ -32768 && full ≠ t then broken else pure (t, C)

/-- Year, month and day of a date computed from week or day numbers: they are taken over, or they have to be the
same; 7262-7273, 7281-7292, 7300-7311, 7317-7324. -/
def useYear (v : PVars) (t : YMD) : Res PVars :=
  if v.Y = -32768 then pure { v with Y := t.y.toInt } else if year v.Y ≠ t.y then broken else pure v
/-- date.h:7266-7269, and the same lines for the other week and day numbers up to 7340. -/
def useMonth (v : PVars) (t : YMD) : Res PVars :=
  if v.m = 0 then pure { v with m := val t.m } else if asUchar (uns v.m) ≠ t.m then broken else pure v
/-- date.h:7270-7273, and the same lines for the other week and day numbers up to 7340. -/
def useDay (v : PVars) (t : YMD) : Res PVars :=
  if v.d = 0 then pure { v with d := val t.d } else if asUchar (uns v.d) ≠ t.d then broken else pure v

/-- date.h:7266-7273, and the same lines for the other week and day numbers up to 7340. -/
def useTrialMD (v : PVars) (t : YMD) : Res PVars := do
  let v ← useMonth v t
  useDay v t

/-- date.h:7262-7273. -/
def useTrial (v : PVars) (t : YMD) : Res PVars := do
  let v ← useYear v t
  useTrialMD v t

/-- The day `start` of a week count, 7278, 7297, 7360, 7367: the first `wd` of the year. -/
def firstWeekday (y : Int16) (wd : UInt8) : Res Int := (weekdayIndexed y 1 wd 1).toDays

/-- `start + weeks{n-1} + (weekday{wd} - first)`, 7259-7261, 7278-7280, 7297-7299. -/
def dayInWeek (start n wd : Int) (first : UInt8) : Res Int := do
  let k ← int (n - 1)
  let k ← int (7 * k)
  let a ← int (start + k)
  int (a + weekdayMinus (weekdayOf (uns wd)) first)

/-- 7257-7275: the date from ISO week and weekday. -/
def fromIsoWeek (v : PVars) : Res PVars := do
  let st ← ymwdLastToDays (year (← int (v.G - 1))) 12 4
  let st ← int (st + weekdayMinus 1 4)
  useTrial v (← fromDays (← dayInWeek st v.V v.wd 1))

/-- 7276-7294 and 7295-7313: the date from the week `n` of the year, where weeks begin with `first`, and weekday. -/
def fromWeek (v : PVars) (n : Int) (first : UInt8) : Res PVars := do
  useTrial v (← fromDays (← dayInWeek (← firstWeekday (year v.Y) first) n v.wd first))

/-- 7314-7326: the date from the day of the year. -/
def fromYearDay (v : PVars) : Res PVars := do
  let jan ← (YMD.mk (year v.Y) 1 1).toDays
  let v ← useTrialMD v (← fromDays (← int (jan + (← int (v.j - 1)))))
  pure { v with j := -1 }

/-- A week or day number is used if it is there with what it needs. date.h:7257. -/
def usesIso (v : PVars) : Bool := v.G ≠ -32768 && v.V ≠ 100 && v.wd ≠ 8
/-- date.h:7276. -/
def usesU (v : PVars) : Bool := v.Y ≠ -32768 && v.U ≠ 100 && v.wd ≠ 8
/-- date.h:7295. -/
def usesW (v : PVars) : Bool := v.Y ≠ -32768 && v.W ≠ 100 && v.wd ≠ 8
/-- date.h:7314. -/
def usesJ (v : PVars) : Bool := v.j ≠ -1 && v.Y ≠ -32768

/-- The `if` statements in date.h:7257-7340. -/
def whenUsed (b : Bool) (a : Res PVars) (v : PVars) : Res PVars := if b then a else pure v

/-- 7256-7326: the date from ISO week, week of the year and day of the year; whether a week was used. -/
def weeks (v : PVars) : Res (PVars × Bool) := do
  let v1 ← whenUsed (usesIso v) (fromIsoWeek v) v
  let v2 ← whenUsed (usesU v1) (fromWeek v1 v1.U 0) v1
  let v3 ← whenUsed (usesW v2) (fromWeek v2 v2.W 1) v2
  let v4 ← whenUsed (usesJ v3) (fromYearDay v3) v3
  pure (v4, usesIso v || usesU v1 || usesW v2)

/-- 7336-7356: ISO year and week. -/
def checkIso (v : PVars) (sd : Int) : Res Unit :=
  if v.G = -32768 && v.V = 100 then pure ()
  else do
    let g := (← fromDays (← int (sd + 3))).y
    let start ← isoStart g
    let (g, start) ← if sd < start then do
        let g ← yearPlus g (-1)
        pure (g, ← if v.V ≠ 100 then isoStart g else pure start)
      else pure (g, start)
    if v.G ≠ -32768 && v.G ≠ g.toInt then broken
    else if v.V ≠ 100 then do
      if v.V ≠ (← int (sd - start)).tdiv 7 + 1 then broken else pure ()
    else pure ()

/-- 7357-7363 and 7364-7370: a week of the year. -/
def checkWeek (n : Int) (y : Int16) (first : UInt8) (sd : Int) : Res Unit :=
  if n = 100 then pure ()
  else do
    let start ← firstWeekday y first
    if n ≠ floorTo 1 7 (← int (sd - start)) + 1 then broken else pure ()

/-- 7336-7371: week numbers that are not needed to find the date have to agree with it. -/
def checkWeeks (v : PVars) (ymd : YMD) : Res Unit := do
  let sd ← ymd.toDays
  checkIso v sd
  checkWeek v.U ymd.y 0 sd
  checkWeek v.W ymd.y 1 sd

/-- 7327-7374: the date, and the weekday. -/
def theDate (v : PVars) (computed : Bool) : Res (YMD × Int) :=
  let ymd : YMD := ⟨year v.Y, asUchar (uns v.m), asUchar (uns v.d)⟩
  if ymd.ok then do
    let wd := weekdayMinus (weekday (← ymd.toDays)) 0
    if v.wd ≠ 8 && v.wd ≠ wd then broken
    else do
      if computed then pure () else checkWeeks v ymd
      pure (ymd, wd)
  else pure (ymd, v.wd)

/-- 7375-7410: the hour of the day from %I and %p. -/
def theHour (v : PVars) : Res Int :=
  if v.I = 0 then pure v.H
  else if !(1 ≤ v.I && v.I ≤ 12) then broken
  else if v.p ≠ -1 then
    let p := if v.I = 12 then v.p - 1 else v.p
    let I := v.I + p * 12
    if v.H = -2147483648 then pure I
    else if I ≠ v.H then broken
    else pure v.H
  else if v.H ≠ -2147483648 then
    if v.I = 12 then
      if v.H ≠ 0 && v.H ≠ 12 then broken else pure v.H
    else if v.I = v.H then pure v.H
    else do
      let h ← int (v.H + 12)
      if v.I = h then pure v.H else broken
  else broken

/-- decimal_format_seconds(Duration), date.h:3560-3563: seconds and fraction. -/
def theSeconds (T : Nat) (s : Int) : Int × Int :=
  let sec := s.tdiv T
  (sec, ((s - sec * T) * pow10 (fractionalWidth T)).tdiv T)

/-- 7411-7430: the time of day. -/
def theTime (T : Nat) (v : PVars) (H : Int) (tod : HMS) (has : Bool) : HMS × Bool :=
  let (tod, has) := if H ≠ -2147483648 then (hhmmss T (H * (3600 * T)), true) else (tod, has)
  let (tod, has) := if v.M ≠ -2147483648 then ({ tod with m := v.M }, true) else (tod, has)
  let (tod, has) := if v.s ≠ -9223372036854775808 then
    ({ tod with s := (theSeconds T v.s).1, sub := (theSeconds T v.s).2 }, true) else (tod, has)
  if v.j ≠ -1 then ({ tod with h := tod.h + 24 * v.j }, true) else (tod, has)

/-- The results of a call that succeeds. The output parameters of from_stream, date.h:7433-7436. -/
structure Parsed where
  fds : Fields
  abbr : List Char
  offset : Option Int
  deriving DecidableEq, Repr

/-- 7198-7436. -/
def combine (e : PEnv) (v : PVars) (fds : Fields) : Res Parsed := do
  let (Y, C) ← fullYear v.y v.Y v.C
  let (G, _) ← fullYear v.g v.G C
  let Y := if Y < -32767 ∨ Y > 32767 then -32768 else Y
  let (v, computed) ← weeks { v with Y := Y, G := G }
  let (ymd, wd) ← theDate v computed
  let H ← theHour v
  let (tod, has) := theTime e.T v H fds.tod fds.hasTod
  pure { fds := { ymd := ymd, wd := if wd ≠ 8 then weekdayOf (uns wd) else fds.wd, tod := tod, hasTod := has },
         abbr := v.abbr,
         offset := if v.offset ≠ -9223372036854775808 then some v.offset else none }

/-- from_stream, date.h:6107-7443: the stream, and what was found if it did not fail. -/
def fromStream (e : PEnv) (is : IStream) (fmt : List Char) (fds : Fields) : Res (IStream × Option Parsed) :=
  if !is.good then pure (is.setFail, none)
  else do
    let st ← ploop e fmt.length fmt { is := is, v := {} }
    let is :=
      if st.is.good && st.command.isSome then -- 7189-7195
        let w := if st.width = -1 then [] else dec st.width.toNat
        readLit ('%' :: (w ++ st.modified.toList)) st.is
      else st.is
    if is.fail then pure (is, none)
    else
      match combine e st.v fds with
      | .ok r => pure (is, some r)
      | .throw _ => pure (is.setFail, none)
      | .terminate => .terminate
      | .ub => .ub
      | .diverge => .diverge

/-! ### The objects that can be parsed, date.h:7445-7612

The result is the stream and the new value; `none` means that the object keeps its value. -/

/-- from_stream for a calendar type: failbit unless the fields that are needed are valid. The overloads
of from_stream in date.h:7445-7560. -/
def parseFields {α : Type} (loc : TimeGet) (fmt : List Char) (ok : Fields → Bool) (get : Fields → α)
    (is : IStream) : Res (IStream × Option α) := do
  let (is, r) ← fromStream ⟨1, loc⟩ is fmt {}
  match r with
  | none => pure (is.setFail, none)
  | some r => if ok r.fds then pure (is, some (get r.fds)) else pure (is.setFail, none)

/-- year, month, day, weekday, year_month, month_day, year_month_day, 7445-7555.  year_month does not ask for a
valid year. -/
def parseYear (loc : TimeGet) (fmt : List Char) := parseFields loc fmt (fun f => yearOk f.ymd.y) (fun f => f.ymd.y)
/-- date.h:7461-7475. -/
def parseMonth (loc : TimeGet) (fmt : List Char) := parseFields loc fmt (fun f => monthOk f.ymd.m) (fun f => f.ymd.m)
/-- date.h:7477-7491. -/
def parseDay (loc : TimeGet) (fmt : List Char) := parseFields loc fmt (fun f => dayOk f.ymd.d) (fun f => f.ymd.d)
/-- date.h:7493-7507. -/
def parseWeekday (loc : TimeGet) (fmt : List Char) := parseFields loc fmt (fun f => weekdayOk f.wd) (fun f => f.wd)
/-- date.h:7509-7523. -/
def parseYearMonth (loc : TimeGet) (fmt : List Char) :=
  parseFields loc fmt (fun f => monthOk f.ymd.m) (fun f => YM.mk f.ymd.y f.ymd.m)
/-- date.h:7525-7539. -/
def parseMonthDay (loc : TimeGet) (fmt : List Char) :=
  parseFields loc fmt (fun f => monthOk f.ymd.m && dayOk f.ymd.d) (fun f => (f.ymd.m, f.ymd.d))
/-- date.h:7541-7555. -/
def parseDate (loc : TimeGet) (fmt : List Char) := parseFields loc fmt (fun f => f.ymd.ok) (fun f => f.ymd)

/-- round_i<Duration> of a duration in ticks of the precision, for a duration of `pn/pd` seconds (in
lowest terms). round_i, date.h:1299-1333, as used in date.h:7573, 7591 and 7610. -/
def toTarget (pn pd : Nat) (c : Int) : Int := roundTo pd (pn * pow10 (fractionalWidth pd)) c

/-- sys_time, 7557-7575: `off` is the value of the caller's offset, or 0. -/
def parseSys (pn pd : Nat) (loc : TimeGet) (fmt : List Char) (off : Int) (is : IStream) :
    Res (IStream × Option (Int × Parsed)) := do
  let (is, r) ← fromStream ⟨pd, loc⟩ is fmt { hasTod := true }
  match r with
  | none => pure (is.setFail, none)
  | some r =>
    if !r.fds.ymd.ok || !r.fds.tod.conventional pd then pure (is.setFail, none)
    else do
      let n ← r.fds.ymd.toDays
      let p : Int := pow10 (fractionalWidth pd)
      pure (is, some (toTarget pn pd (n * (86400 * p) - r.offset.getD off * (60 * p) + r.fds.tod.toDuration pd), r))

/-- local_time, 7577-7593. -/
def parseLocal (pn pd : Nat) (loc : TimeGet) (fmt : List Char) (is : IStream) :
    Res (IStream × Option (Int × Parsed)) := do
  let (is, r) ← fromStream ⟨pd, loc⟩ is fmt { hasTod := true }
  match r with
  | none => pure (is.setFail, none)
  | some r =>
    if !r.fds.ymd.ok || !r.fds.tod.conventional pd then pure (is.setFail, none)
    else do
      let n ← r.fds.ymd.toDays
      let p : Int := pow10 (fractionalWidth pd)
      pure (is, some (toTarget pn pd (n * (86400 * p) + r.fds.tod.toDuration pd), r))

/-- duration, 7595-7612. -/
def parseDuration (pn pd : Nat) (loc : TimeGet) (fmt : List Char) (is : IStream) :
    Res (IStream × Option (Int × Parsed)) := do
  let (is, r) ← fromStream ⟨pd, loc⟩ is fmt {}
  match r with
  | none => pure (is.setFail, none)
  | some r =>
    if !r.fds.hasTod then pure (is.setFail, none)
    else pure (is, some (toTarget pn pd (r.fds.tod.toDuration pd), r))

end Gul14.Date

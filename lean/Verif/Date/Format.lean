import Verif.Date.Text
import Verif.Date.FormatSpec

/-!
# format, date.h:4323-5841

`format(fmt, x)` and `to_stream` on a stream that throws on failure: the text, or the exception that
`setstate(failbit)` raises (5799, 5812, 5825, 5838).  What a stream that does not throw contains after a
failure is not modelled.

The conversions that depend on the locale are made by `std::time_put`; this is a parameter
(`TimePut`, in `FormatSpec.lean`).  Other output is that of the classic locale (no grouping of digits, `.` as decimal point).
Time of day: counts of ticks of 1/T second, see `TimeOfDay.lean`.
-/
namespace Gul14.Date
open Gul14.Spec.DateFormat (Tm TimePut)

/-- fields<Duration>, date.h:4325-4357. -/
structure Fields where
  ymd : YMD := ⟨-32768, 0, 0⟩
  wd : UInt8 := 8
  tod : HMS := ⟨0, 0, 0, 0, false⟩
  hasTod : Bool := false
  deriving DecidableEq, Repr

/-- `setstate(failbit)` on a stream with `exceptions(failbit | badbit)`: std::ios_base::failure. no code
in /repo; used for the setstate calls in date.h:4369, 4379, 4395 and 4681-5608. -/
def failure {α : Type} : Res α := .throw .runtimeError

/-- extract_weekday, date.h:4362-4386. -/
def extractWeekday (f : Fields) : Res Int :=
  if !f.ymd.ok && !weekdayOk f.wd then failure
  else do
    let wd ← if f.ymd.ok then do
        let wd := weekday (← f.ymd.toDays)
        if weekdayOk f.wd && wd ≠ f.wd then failure else pure wd
      else pure f.wd
    pure (weekdayMinus wd 0)

/-- extract_month, date.h:4388-4399. -/
def extractMonth (f : Fields) : Res Int := if !monthOk f.ymd.m then failure else pure (val f.ymd.m)

/-- `if (n < 10) os << '0'; os << n;` -/
def two (n : Int) : List Char := (if n < 10 then ['0'] else []) ++ decInt n

/-- `%`, modifier, character as they stand in the format. The `os << CharT{'%'} << modified << *fmt` of
to_stream, date.h:4639 and in every other case up to 5623. -/
def raw (md : Option Char) (c : Char) : List Char := '%' :: (md.toList ++ [c])

/-- The first day of the ISO year, date.h:4893-4894 and 5355-5356: the Monday after the last Thursday of December of
the year before. -/
def isoStart (y : Int16) : Res Int := do
  let st ← ymwdLastToDays (← yearPlus y (-1)) 12 4
  int (st + weekdayMinus 1 4)

/-- get_units, date.h:4221-4259 with msl, 3964-4219, for the period 1/10^w of the precision. -/
def units (w : Nat) : List Char :=
  match w with
  | 0 => ['s']
  | 1 => ['d', 's']
  | 2 => ['c', 's']
  | 3 => ['m', 's']
  | 6 => ['µ', 's']
  | 9 => ['n', 's']
  | 12 => ['p', 's']
  | 15 => ['f', 's']
  | 18 => ['a', 's']
  | w => '[' :: '1' :: '/' :: (dec (10 ^ w) ++ [']', 's'])

/-- The environment of one call of to_stream: `abbrev` (here `zone`) and `offset_sec` may be null. The
parameters of to_stream, date.h:4588-4590. -/
structure FmtEnv where
  T : Nat
  loc : TimePut
  fds : Fields
  zone : Option (List Char)
  offset : Option Int

/-- What to_stream changes besides the text: the tm object and `insert_negative`. The variables `tm` and
`insert_negative` of to_stream, date.h:4610-4611. -/
structure FmtVars where
  tm : Tm
  neg : Bool
  deriving DecidableEq, Repr

/-- The outcome of one conversion in to_stream, date.h:4617-5612: the text that is written, and the
variables. -/
abbrev Piece := Res (List Char × FmtVars)

/-- Week number counted from the first `wd` of the year, date.h:5310-5319 (Sunday) and 5435-5444
(Monday). -/
def weekText (f : Fields) (ld : Int) (wd : UInt8) : Res (List Char) := do
  let st ← (weekdayIndexed f.ymd.y 1 wd 1).toDays
  if ld < st then pure ['0', '0']
  else do
    let wn := (← int (ld - st)).tdiv 7 + 1
    pure (two wn)

/-- The fields of `tm` that the modified week conversions set, date.h:5325-5329, 5372-5377, 5450-5454. -/
def weekTm (f : Fields) (ld : Int) (tm : Tm) : Res Tm := do
  let w ← extractWeekday f
  let jan ← (YMD.mk f.ymd.y 1 1).toDays
  let yd ← int (ld - jan)
  pure { tm with year := f.ymd.y.toInt - 1900, wday := w, yday := yd }

/-- One conversion with its modifier, date.h:4621-5612: the text and the changed variables. -/
def conv (e : FmtEnv) (c : Char) (md : Option Char) (v : FmtVars) : Piece :=
  let f := e.fds
  let asIs : Piece := pure (raw md c, v)
  -- the minus sign of a negative time is written before the first of its fields, 4928-4932, 5039-5043, 5206-5210
  let sign : List Char := if v.neg then ['-'] else []
  let v' : FmtVars := { v with neg := false }
  match c with
  | 'a' | 'A' => -- 4621-4646
    if md.isSome then asIs
    else do
      let w ← extractWeekday f
      let tm := { v.tm with wday := w }
      pure (e.loc.put tm none c, { v with tm := tm })
  | 'b' | 'B' | 'h' => -- 4647-4671
    if md.isSome then asIs
    else do
      let m ← extractMonth f
      let tm := { v.tm with mon := m - 1 }
      pure (e.loc.put tm none c, { v with tm := tm })
  | 'c' | 'x' => -- 4672-4742
    if md = some 'O' then asIs
    else if !f.ymd.ok then failure
    else if c = 'c' && !f.hasTod then failure
    else do
      let ld ← f.ymd.toDays
      let tm : Tm := if c = 'c' then { sec := f.tod.s, min := f.tod.m, hour := f.tod.h } else {}
      let m ← extractMonth f
      let w ← extractWeekday f
      let jan ← (YMD.mk f.ymd.y 1 1).toDays
      let yd ← int (ld - jan)
      let tm := { tm with mday := val f.ymd.d, mon := m - 1, year := f.ymd.y.toInt - 1900, wday := w,
                          yday := yd }
      pure (e.loc.put tm md c, { v with tm := tm })
  | 'C' => -- 4743-4786
    if md = some 'O' then asIs
    else if !yearOk f.ymd.y then failure
    else
      let y := f.ymd.y.toInt
      match md with
      | none =>
        if y ≥ 0 then pure (pad 2 (decInt (y.tdiv 100)), v)
        else pure ('-' :: pad 2 (decInt ((-(y - 99)).tdiv 100)), v)
      | some _ =>
        let tm := { v.tm with year := y - 1900 }
        pure (e.loc.put tm md c, { v with tm := tm })
  | 'd' | 'e' => -- 4787-4825
    if md = some 'E' then asIs
    else if !dayOk f.ymd.d then failure
    else
      match md with
      | none =>
        let s := decInt (val f.ymd.d)
        pure (if c = 'd' then pad 2 s else List.replicate (2 - s.length) ' ' ++ s, v)
      | some _ =>
        let tm := { v.tm with mday := val f.ymd.d }
        pure (e.loc.put tm md c, { v with tm := tm })
  | 'D' => -- 4826-4853
    if md.isSome then asIs
    else if !f.ymd.ok then failure
    else pure (pad 2 (decInt (val f.ymd.m)) ++ '/' :: (pad 2 (decInt (val f.ymd.d)) ++ '/' ::
      pad 2 (decInt (f.ymd.y.toInt.tmod 100))), v)
  | 'F' => -- 4854-4882
    if md.isSome then asIs
    else if !f.ymd.ok then failure
    else pure (pad 4 (decInt f.ymd.y.toInt) ++ '-' :: (pad 2 (decInt (val f.ymd.m)) ++ '-' ::
      pad 2 (decInt (val f.ymd.d))), v)
  | 'g' | 'G' => -- 4883-4917
    if md.isSome then asIs
    else if !f.ymd.ok then failure
    else do
      let ld ← f.ymd.toDays
      let y := (← fromDays (← int (ld + 3))).y
      let start ← isoStart y
      let y ← if ld < start then yearPlus y (-1) else pure y
      if c = 'G' then pure (yearText y, v)
      else pure (pad 2 (decInt ((y.toInt.natAbs : Int).tmod 100)), v)
  | 'H' | 'I' => -- 4918-4957
    if md = some 'E' then asIs
    else if !f.hasTod then failure
    else
      match md with
      | none => pure (sign ++ two (if c = 'I' then make12 f.tod.h else f.tod.h), v')
      | some _ =>
        let tm := { v.tm with hour := f.tod.h }
        pure (sign ++ e.loc.put tm md c, { v' with tm := tm })
  | 'j' => -- 4958-4996
    if md.isSome then asIs
    else if f.ymd.ok then do
      let ld ← f.ymd.toDays
      let jan ← (YMD.mk f.ymd.y 1 1).toDays
      let doy ← int ((← int (ld - jan)) + 1)
      pure (pad 3 (decInt doy), v)
    else if f.hasTod then
      pure (pad 3 (decInt ((f.tod.toDuration e.T).tdiv (86400 * pow10 (fractionalWidth e.T)))), v)
    else failure
  | 'm' => -- 4997-5029
    if md = some 'E' then asIs
    else if !monthOk f.ymd.m then failure
    else
      match md with
      | none => pure (two (val f.ymd.m), v)
      | some _ =>
        let tm := { v.tm with mon := val f.ymd.m - 1 }
        pure (e.loc.put tm md c, { v with tm := tm })
  | 'M' => -- 5030-5066
    if md = some 'E' then asIs
    else if !f.hasTod then failure
    else
      match md with
      | none => pure (sign ++ two f.tod.m, v')
      | some _ =>
        let tm := { v.tm with min := f.tod.m }
        pure (sign ++ e.loc.put tm md c, { v' with tm := tm })
  | 'n' => if md.isSome then asIs else pure (['\n'], v) -- 5067-5081
  | 'p' => -- 5082-5109
    if md.isSome then asIs
    else if !f.hasTod then failure
    else
      let tm := { v.tm with hour := f.tod.h }
      pure (e.loc.put tm none c, { v with tm := tm })
  | 'Q' | 'q' => -- 5110-5133
    if md.isSome then asIs
    else if !f.hasTod then failure
    else if c = 'q' then pure (units (fractionalWidth e.T), v)
    else pure (decInt (f.tod.toDuration e.T), v)
  | 'r' => -- 5134-5172
    if md.isSome then asIs
    else if !f.hasTod then failure
    else
      let tm := { v.tm with hour := f.tod.h, min := f.tod.m, sec := f.tod.s }
      pure (e.loc.put tm none c, { v with tm := tm })
  | 'R' => -- 5173-5196
    if md.isSome then asIs
    else if !f.hasTod then failure
    else pure (two f.tod.h ++ ':' :: two f.tod.m, v)
  | 'S' => -- 5197-5231
    if md = some 'E' then asIs
    else if !f.hasTod then failure
    else
      match md with
      | none => pure (sign ++ f.tod.secText e.T, v')
      | some _ =>
        let tm := { v.tm with sec := f.tod.s }
        pure (sign ++ e.loc.put tm md c, { v' with tm := tm })
  | 't' => if md.isSome then asIs else pure (['\t'], v) -- 5232-5246
  | 'T' => -- 5247-5265
    if md.isSome then asIs
    else if !f.hasTod then failure
    else pure (f.tod.text e.T, v)
  | 'u' => -- 5266-5294
    if md = some 'E' then asIs
    else do
      let w ← extractWeekday f
      match md with
      | none => pure (decInt (if w ≠ 0 then w else 7), v)
      | some _ =>
        let tm := { v.tm with wday := w }
        pure (e.loc.put tm md c, { v with tm := tm })
  | 'U' => -- 5295-5339
    if md = some 'E' then asIs
    else if !f.ymd.ok then failure
    else do
      let ld ← f.ymd.toDays
      match md with
      | none => pure (← weekText f ld 0, v)
      | some _ =>
        let tm ← weekTm f ld v.tm
        pure (e.loc.put tm md c, { v with tm := tm })
  | 'V' => -- 5340-5387
    if md = some 'E' then asIs
    else if !f.ymd.ok then failure
    else do
      let ld ← f.ymd.toDays
      match md with
      | none =>
        let y := (← fromDays (← int (ld + 3))).y
        let st ← isoStart y
        let st ← if ld < st then do isoStart (← yearPlus y (-1)) else pure st
        pure (two ((← int (ld - st)).tdiv 7 + 1), v)
      | some _ =>
        let tm ← weekTm f ld v.tm
        pure (e.loc.put tm md c, { v with tm := tm })
  | 'w' => do -- 5388-5419
    let w ← extractWeekday f
    if md = none then pure (decInt w, v)
    else if md = some 'O' then
      let tm := { v.tm with wday := w }
      pure (e.loc.put tm md c, { v with tm := tm })
    else asIs
  | 'W' => -- 5420-5464
    if md = some 'E' then asIs
    else if !f.ymd.ok then failure
    else do
      let ld ← f.ymd.toDays
      match md with
      | none => pure (← weekText f ld 1, v)
      | some _ =>
        let tm ← weekTm f ld v.tm
        pure (e.loc.put tm md c, { v with tm := tm })
  | 'X' => -- 5465-5494
    if md = some 'O' then asIs
    else if !f.hasTod then failure
    else
      let tm : Tm := { sec := f.tod.s, min := f.tod.m, hour := f.tod.h }
      pure (e.loc.put tm md c, { v with tm := tm })
  | 'y' => -- 5495-5523
    if !yearOk f.ymd.y then failure
    else
      match md with
      | none => pure (two ((f.ymd.y.toInt.natAbs : Int).tmod 100), v)
      | some _ =>
        let tm := { v.tm with year := f.ymd.y.toInt - 1900 }
        pure (e.loc.put tm md c, { v with tm := tm })
  | 'Y' => -- 5524-5556
    if md = some 'O' then asIs
    else if !yearOk f.ymd.y then failure
    else
      match md with
      | none => pure (yearText f.ymd.y, v)
      | some _ =>
        let tm := { v.tm with year := f.ymd.y.toInt - 1900 }
        pure (e.loc.put tm md c, { v with tm := tm })
  | 'z' => -- 5557-5588
    match e.offset with
    | none => failure
    | some sec =>
      let m := sec.tdiv 60
      let a := absDur m
      let h := a.tdiv 60
      let m' := a - 60 * h
      pure ((if m < 0 then '-' else '+') :: (two h ++ ((if md.isSome then [':'] else []) ++ two m')), v)
  | 'Z' => -- 5589-5612
    if md.isSome then asIs
    else
      match e.zone with
      | none => failure
      | some s => pure (s, v)
  | _ => pure (raw md c, v)

/-- The characters with a meaning after `%`, other than the modifiers and `%` itself. The case labels of
to_stream, date.h:4621-5612. -/
def convChars : List Char :=
  ['a', 'A', 'b', 'B', 'h', 'c', 'x', 'C', 'd', 'e', 'D', 'F', 'g', 'G', 'H', 'I', 'j', 'm', 'M', 'n', 'p',
   'Q', 'q', 'r', 'R', 'S', 't', 'T', 'u', 'U', 'V', 'w', 'W', 'X', 'y', 'Y', 'z', 'Z']

/-- The state of the loop of to_stream: text so far, whether a `%` is pending, its modifier. The
variables `command` and `modified` of to_stream, date.h:4615-4616. -/
structure FmtState where
  out : List Char
  command : Bool
  modified : Option Char
  vars : FmtVars
  deriving DecidableEq, Repr

/-- One round of the loop, date.h:4617-5663. -/
def fmtStep (e : FmtEnv) (s : FmtState) (c : Char) : Res FmtState :=
  if c ∈ convChars then
    if s.command then do
      let (t, v) ← conv e c s.modified s.vars
      pure { out := s.out ++ t, command := false, modified := none, vars := v }
    else pure { s with out := s.out ++ [c] }
  else if c = 'E' ∨ c = 'O' then -- 5613-5630
    if s.command then
      if s.modified = none then pure { s with modified := some c }
      else pure { s with out := s.out ++ raw s.modified c, command := false, modified := none }
    else pure { s with out := s.out ++ [c] }
  else if c = '%' then -- 5631-5648
    if s.command then
      if s.modified = none then pure { s with out := s.out ++ ['%'], command := false }
      else pure { s with out := s.out ++ raw s.modified '%', command := false, modified := none }
    else pure { s with command := true }
  else -- 5649-5661
    let t := (if s.command then ['%'] else []) ++ (s.modified.toList ++ [c])
    pure { s with out := s.out ++ t, command := false, modified := none }

/-- The loop of to_stream. date.h:4617-5663. -/
def fmtLoop (e : FmtEnv) : FmtState → List Char → Res FmtState
  | s, [] => pure s
  | s, c :: cs => do fmtLoop e (← fmtStep e s c) cs

/-- to_stream, date.h:4586-5669.  `fmt` is the format up to its terminating NUL. -/
def toStream (e : FmtEnv) (fmt : List Char) : Res (List Char) := do
  let neg := e.fds.hasTod && decide (e.fds.tod.toDuration e.T < 0)
  let s ← fmtLoop e ⟨[], false, none, ⟨{}, neg⟩⟩ fmt
  pure (s.out ++ ((if s.command then ['%'] else []) ++ s.modified.toList))

/-! ### The objects that can be formatted, date.h:5671-5788 -/

/-- year, month, day, weekday, year_month, month_day, year_month_day, 5671-5740. -/
def fieldsYear (y : Int16) : Fields := { ymd := ⟨y, 0, 0⟩ }
/-- to_stream(month), date.h:5682-5690: `ymd{m/0/nanyear}`. -/
def fieldsMonth (m : UInt8) : Fields := { ymd := ⟨-32768, m, 0⟩ }
/-- to_stream(day), date.h:5692-5700. -/
def fieldsDay (d : UInt8) : Fields := { ymd := ⟨-32768, 0, d⟩ }
/-- to_stream(weekday), date.h:5702-5710. -/
def fieldsWeekday (w : UInt8) : Fields := { wd := w }
/-- to_stream(year_month), date.h:5712-5720. -/
def fieldsYearMonth (x : YM) : Fields := { ymd := ⟨x.y, x.m, 0⟩ }
/-- to_stream(month_day), date.h:5722-5730. -/
def fieldsMonthDay (m d : UInt8) : Fields := { ymd := ⟨-32768, m, d⟩ }
/-- to_stream(year_month_day), date.h:5732-5740. -/
def fieldsDate (x : YMD) : Fields := { ymd := x }

/-- A duration of `c` ticks, 5742-5752. -/
def fieldsDuration (T : Nat) (c : Int) : Fields := { tod := hhmmss T c, hasTod := true }

/-- A time point, 5754-5788 (local_time, sys_time): `c` ticks since 1970-01-01. -/
def fieldsTime (T : Nat) (c : Int) : Res Fields := do
  let sd := truncTo 1 (86400 * T) c
  if sd * (86400 * T) ≤ c then do
    let ymd ← fromDays sd
    pure { ymd := ymd, tod := hhmmss T (c - sd * (86400 * T)), hasTod := true }
  else do
    let ymd ← fromDays (← int (sd - 1))
    pure { ymd := ymd, tod := hhmmss T (86400 * T - (sd * (86400 * T) - c)), hasTod := true }

/-- format(fmt, sys_time), 5771-5788 and 5792-5841. -/
def formatSys (T : Nat) (loc : TimePut) (c : Int) (fmt : List Char) : Res (List Char) := do
  let f ← fieldsTime T c
  toStream ⟨T, loc, f, some ['U', 'T', 'C'], some 0⟩ fmt

/-- format(fmt, local_time), 5754-5769: `%Z` and `%z` need an abbreviation and an offset. -/
def formatLocal (T : Nat) (loc : TimePut) (c : Int) (zone : Option (List Char)) (offset : Option Int)
    (fmt : List Char) : Res (List Char) := do
  let f ← fieldsTime T c
  toStream ⟨T, loc, f, zone, offset⟩ fmt

/-- format(fmt, duration), 5742-5752. -/
def formatDuration (T : Nat) (loc : TimePut) (c : Int) (fmt : List Char) : Res (List Char) :=
  toStream ⟨T, loc, fieldsDuration T c, none, none⟩ fmt

/-- format(fmt, x) for the calendar types. The overloads of to_stream in date.h:5671-5740, called by
format, date.h:5790-5841. -/
def formatFields (loc : TimePut) (f : Fields) (fmt : List Char) : Res (List Char) :=
  toStream ⟨1, loc, f, none, none⟩ fmt

end Gul14.Date
